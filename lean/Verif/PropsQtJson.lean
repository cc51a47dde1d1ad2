import Verif.SpecQtJson
import Verif.PropsQtPeers
import Verif.PropsJsonRead
/-
C119: values of Qt's own types in JSON.
-/
namespace QtPb.Qt
open QtPb Spec Json JsonSpec

variable {env : REnv}

/-! ### The message types -/

theorem proto_plain (m : Nat) : ((Peer.proto m).map (·.1)).Nodup ∧ ∀ f ∈ Peer.proto m, ∀ c ∈ f.1.toList,
    0x20 ≤ c.toNat ∧ c.toNat < 128 ∧ c.toNat ≠ 0x22 ∧ c.toNat ≠ 0x5c := by
  match m with
  | 0 | 1 | 2 | 3 | 4 | 5 | 6 | 7 | 8 | 9 | 10 | 11 | 12 | 13 | 14 | 15 | 16 | 17 | 18 | 19 => decide +kernel
  | _ + 20 => simp [Peer.proto]

theorem world_name (hw : World env) {m i : Nat} (hi : i < (env.sch m).length) :
    ∃ f, (Peer.proto m)[i]? = some f ∧ env.jsonName m i = f.1.toList := by
  rw [hw.sch] at hi
  have hi : i < (Peer.proto m).length := by simpa [Peer.schema] using hi
  exact ⟨_, List.getElem?_eq_getElem hi, hw.names m i _ (List.getElem?_eq_getElem hi)⟩

theorem world_distinct (hw : World env) : DistinctNames env.toJEnv := by
  intro m a b ha hb h
  obtain ⟨f, hf, ef⟩ := world_name hw ha
  obtain ⟨g, hg, eg⟩ := world_name hw hb
  rw [ef, eg] at h
  have h : f.1 = g.1 := String.ext h
  obtain ⟨ha', hf⟩ := List.getElem?_eq_some_iff.mp hf
  obtain ⟨hb', hg⟩ := List.getElem?_eq_some_iff.mp hg
  refine (List.getElem?_inj (l := (Peer.proto m).map (·.1)) (by simpa using ha') (proto_plain m).1).mp ?_
  simp [List.getElem?_eq_getElem ha', List.getElem?_eq_getElem hb', hf, hg, h]

theorem plain_escapes {t : List Char} (h : ∀ c ∈ t, 0x20 ≤ c.toNat ∧ c.toNat < 128 ∧ c.toNat ≠ 0x22 ∧ c.toNat ≠ 0x5c) :
    NoEscapes (t.map fun c => UInt8.ofNat c.toNat) := by
  intro b hb
  obtain ⟨c, hc, rfl⟩ := List.mem_map.mp hb
  obtain ⟨h1, h2, h3, h4⟩ := h c hc
  have e : (UInt8.ofNat c.toNat).toNat = c.toNat := by rw [UInt8.toNat_ofNat']; omega
  refine ⟨?_, ?_, ?_⟩
  · rw [UInt8.le_iff_toNat_le, e]; exact h1
  · intro h; rw [h] at e; exact h3 e.symm
  · intro h; rw [h] at e; exact h4 e.symm

theorem world_exact (hw : World env) : ExactNames env where
  plain m i hi := by
    obtain ⟨f, hf, e⟩ := world_name hw hi
    have h := (proto_plain m).2 f (List.mem_of_getElem? hf)
    rw [e, (hw.ascii _ fun c hc => (h c hc).2.1).1]
    exact plain_escapes h
  exact m i hi := by
    obtain ⟨f, hf, e⟩ := world_name hw hi
    have h := (proto_plain m).2 f (List.mem_of_getElem? hf)
    rw [e, (hw.ascii _ fun c hc => (h c hc).2.1).2]
  enums m i e name h := by rw [hw.noEnums] at h; cases h

theorem world_sch (hw : World env) : env.sch = qtSch := by rw [hw.sch, Peer.C86_schema.1]

theorem qtSch_maps (hw : World env) : NoBoolKeys env.toEnv := by
  intro m f hf vt h
  rw [hw.sch, Peer.schema] at hf
  obtain ⟨g, hg, rfl⟩ := List.mem_map.mp hf
  have : ∀ m, ∀ g ∈ Peer.proto m, (match g.2.2 with | .map _ _ => false | _ => true) = true := by
    intro m
    match m with
    | 0 | 1 | 2 | 3 | 4 | 5 | 6 | 7 | 8 | 9 | 10 | 11 | 12 | 13 | 14 | 15 | 16 | 17 | 18 | 19 => decide +kernel
    | _ + 20 => simp [Peer.proto]
  have := this m g hg
  dsimp only at h
  rw [h] at this
  cases this

theorem world_null (hw : World env) : NoNullName env := fun m i => hw.noNames m i _

/-! ### Messages for Qt's values -/

theorem exact_row {m n a b : Nat} {k : Kind} (h : env.sch m = row n k) (hn : n ≠ 0) {l : List Scalar} (hl : l.length = n)
    (hx : ∀ s ∈ l, k.holds s ∧ ExactScalar env k s) : Exact env a b (.msg m) (.msg (l.map .sc)) := by
  refine .msg (by rw [h]; simp [row, hn]) (by rw [h]; simp [row, hl]) ?_
  intro i f v hf hv
  rw [h] at hf
  simp only [row, List.getElem?_map, Option.map_eq_some_iff] at hf hv
  obtain ⟨j, _, rfl⟩ := hf
  obtain ⟨s, hs, rfl⟩ := hv
  exact .sc (hx s (List.mem_of_getElem? hs)).1 (hx s (List.mem_of_getElem? hs)).2

theorem exact_ints {m n a b : Nat} {k : Kind} (h : env.sch m = row n k) (hn : n ≠ 0) (hk : k = .sint32 ∨ k = .uint32) {l : List (BitVec 32)}
    (hl : l.length = n) : Exact env a b (.msg m) (.msg (int32s l)) := by
  have := exact_row (a := a) (b := b) h hn (l := l.map .w32) (by simpa using hl) (by
    intro s hs
    obtain ⟨x, _, rfl⟩ := List.mem_map.mp hs
    rcases hk with rfl | rfl <;> exact ⟨rfl, trivial⟩)
  simpa [int32s, List.map_map, Function.comp_def] using this

theorem exact_floats {m n a b : Nat} (h : env.sch m = row n .float) (hn : n ≠ 0) {l : List (BitVec 32)}
    (hl : l.length = n) (hx : ∀ x ∈ l, Exact32 env x) : Exact env a b (.msg m) (.msg (int32s l)) := by
  have := exact_row (a := a) (b := b) h hn (l := l.map .w32) (by simpa using hl) (by
    intro s hs
    obtain ⟨x, hx', rfl⟩ := List.mem_map.mp hs
    exact ⟨rfl, hx x hx'⟩)
  simpa [int32s, List.map_map, Function.comp_def] using this

theorem exact_doubles {m n a b : Nat} (h : env.sch m = row n .double) (hn : n ≠ 0) {l : List (BitVec 64)}
    (hl : l.length = n) (hx : ∀ x ∈ l, Exact64 env x) : Exact env a b (.msg m) (.msg (doubles l)) := by
  have := exact_row (a := a) (b := b) h hn (l := l.map .w64) (by simpa using hl) (by
    intro s hs
    obtain ⟨x, hx', rfl⟩ := List.mem_map.mp hs
    exact ⟨rfl, hx x hx'⟩)
  simpa [doubles, List.map_map, Function.comp_def] using this

theorem exact_pair {m a b n1 n2 : Nat} {t1 t2 : FieldTy} {v1 v2 : Val} (h : env.sch m = [⟨n1, t1⟩, ⟨n2, t2⟩]) (h1 : Exact env m 0 t1 v1)
    (h2 : Exact env m 1 t2 v2) : Exact env a b (.msg m) (.msg [v1, v2]) := by
  refine .msg (by rw [h]; simp) (by rw [h]; rfl) ?_
  intro i f v hf hv
  rw [h] at hf
  match i, hf, hv with
  | 0, hf, hv => cases hf; cases hv; exact h1
  | 1, hf, hv => cases hf; cases hv; exact h2

theorem exact_single {m a b n1 : Nat} {t1 : FieldTy} {v1 : Val} (h : env.sch m = [⟨n1, t1⟩]) (h1 : Exact env m 0 t1 v1) :
    Exact env a b (.msg m) (.msg [v1]) := by
  refine .msg (by rw [h]; simp) (by rw [h]; rfl) ?_
  intro i f v hf hv
  rw [h] at hf
  match i, hf, hv with
  | 0, hf, hv => cases hf; cases hv; exact h1

theorem hexChar_plain (l : List UInt8) : ∀ c ∈ hexBytes l, 0x20 ≤ c.toNat ∧ c.toNat < 128 ∧ c.toNat ≠ 0x22 ∧ c.toNat ≠ 0x5c := by
  have h16 : ∀ n : Fin 16, 0x20 ≤ (hexChar n.1).toNat ∧ (hexChar n.1).toNat < 128 ∧ (hexChar n.1).toNat ≠ 0x22 ∧ (hexChar n.1).toNat ≠ 0x5c := by
    decide
  induction l with
  | nil => simp [hexBytes]
  | cons b l ih =>
    have hb := b.toNat_lt
    intro c hc
    simp only [hexBytes, List.mem_cons] at hc
    rcases hc with rfl | rfl | hc
    · exact h16 ⟨b.toNat / 16, by omega⟩
    · exact h16 ⟨b.toNat % 16, by omega⟩
    · exact ih c hc

theorem uuid_plain (u : QUuid) : ∀ c ∈ u.text, 0x20 ≤ c.toNat ∧ c.toNat < 128 ∧ c.toNat ≠ 0x22 ∧ c.toNat ≠ 0x5c := by
  intro c hc
  simp only [QUuid.text, List.mem_append, List.mem_cons, List.not_mem_nil, or_false] at hc
  rcases hc with ((((((rfl | hc) | rfl | hc) | rfl | hc) | rfl | hc) | rfl | hc) | rfl) <;>
    first | decide | exact hexChar_plain _ c hc

theorem toMessage_exact (hw : World env) {q : QtVal} {o : Obj} (hx : NumbersExact env q) (h : toMessage q = .ok o) :
    Exact env 0 0 (.msg q.msg) (.msg o) := by
  have hs := world_sch hw
  cases q with
  | char c => cases h; exact exact_single (t1 := .scalar .bytes) (by rw [hs]; rfl) (.sc rfl trivial)
  | uuid u =>
    cases h
    have h1 := hw.ascii u.text fun c hc => (uuid_plain u c hc).2.1
    refine exact_single (t1 := .scalar .string) (by rw [hs]; rfl) (.sc rfl ⟨?_, h1.2⟩)
    show NoEscapes (env.toUtf8 u.text)
    rw [h1.1]
    exact plain_escapes (uuid_plain u)
  | time t => cases h; exact exact_ints (n := 1) (by rw [hs]; rfl) (by decide) (Or.inl rfl) rfl
  | date d => cases h; exact exact_ints (n := 3) (by rw [hs]; rfl) (by decide) (Or.inl rfl) rfl
  | dateTime d =>
    cases h
    exact exact_pair (by rw [hs]; rfl) (exact_ints (n := 3) (by rw [hs]; rfl) (by decide) (Or.inl rfl) rfl)
      (exact_ints (n := 1) (by rw [hs]; rfl) (by decide) (Or.inl rfl) rfl)
  | size s => cases h; exact exact_ints (n := 2) (by rw [hs]; rfl) (by decide) (Or.inl rfl) rfl
  | sizeF s => cases h; exact exact_doubles (n := 2) (by rw [hs]; rfl) (by decide) rfl (by simpa using (show _ ∧ _ from hx))
  | point p => cases h; exact exact_ints (n := 2) (by rw [hs]; rfl) (by decide) (Or.inl rfl) rfl
  | pointF p => cases h; exact exact_doubles (n := 2) (by rw [hs]; rfl) (by decide) rfl (by simpa using (show _ ∧ _ from hx))
  | rect r =>
    simp only [toMessage, rectTo, Res.bind_eq] at h
    cases h1 : extent r.x1 r.x2 <;> rw [h1] at h <;> simp only [Res.bind] at h <;> try cases h
    cases h2 : extent r.y1 r.y2 <;> rw [h2] at h <;> simp only [Res.bind] at h <;> try cases h
    exact exact_pair (by rw [hs]; rfl) (exact_ints (n := 2) (by rw [hs]; rfl) (by decide) (Or.inl rfl) rfl)
      (exact_ints (n := 2) (by rw [hs]; rfl) (by decide) (Or.inl rfl) rfl)
  | rectF r =>
    cases h
    exact exact_pair (by rw [hs]; rfl) (exact_doubles (n := 2) (by rw [hs]; rfl) (by decide) rfl (by simpa using ⟨hx.1, hx.2.1⟩))
      (exact_doubles (n := 2) (by rw [hs]; rfl) (by decide) rfl (by simpa using ⟨hx.2.2.1, hx.2.2.2⟩))
  | polygon l =>
    cases h
    refine exact_single (by rw [hs]; rfl) (.msgList ?_ ?_) <;> intro v hv <;> obtain ⟨p, _, rfl⟩ := List.mem_map.mp hv
    · exact ⟨_, rfl⟩
    · exact exact_ints (n := 2) (by rw [hs]; rfl) (by decide) (Or.inl rfl) rfl
  | polygonF l =>
    cases h
    refine exact_single (by rw [hs]; rfl) (.msgList ?_ ?_) <;> intro v hv <;> obtain ⟨p, hp, rfl⟩ := List.mem_map.mp hv
    · exact ⟨_, rfl⟩
    · exact exact_doubles (n := 2) (by rw [hs]; rfl) (by decide) rfl (by simpa using hx p hp)
  | color c => cases h; exact exact_ints (n := 1) (by rw [hs]; rfl) (by decide) (Or.inr rfl) rfl
  | matrix q =>
    cases h
    have hx : ∀ i, Exact32 env (q.m i) := hx
    exact exact_floats (n := 16) (by rw [hs]; rfl) (by decide) rfl (by simp [hx])
  | vector2 v => cases h; exact exact_floats (n := 2) (by rw [hs]; rfl) (by decide) rfl (by simpa using (show _ ∧ _ from hx))
  | vector3 v => cases h; exact exact_floats (n := 3) (by rw [hs]; rfl) (by decide) rfl (by simpa using (show _ ∧ _ from hx))
  | vector4 v => cases h; exact exact_floats (n := 4) (by rw [hs]; rfl) (by decide) rfl (by simpa using (show _ ∧ _ from hx))
  | transform t => cases h; exact exact_doubles (n := 9) (by rw [hs]; rfl) (by decide) rfl (by simpa using (show _ ∧ _ from hx))
  | quaternion q =>
    cases h
    exact exact_pair (t1 := .scalar .float) (by rw [hs]; rfl) (.sc rfl hx.1)
      (exact_floats (n := 3) (by rw [hs]; rfl) (by decide) rfl (by simpa using hx.2))

/-! ### Messages that are the same convert to the same value -/

section
variable {e : Env}

/-- A message with the same contents as `o`, and of its type. -/
def Twin (e : Env) (m : Nat) (o o' : Obj) : Prop := Same e (.msg m) (.msg o) (.msg o') ∧ Safe e (.msg m) (.msg o')

theorem twin_at {m i n : Nat} {ty : FieldTy} {o o' : Obj} {v : Val} (h : Twin e m o o') (hf : (e.sch m)[i]? = some ⟨n, ty⟩)
    (hv : o[i]? = some v) : ∃ v', o'[i]? = some v' ∧ Same e ty v v' ∧ Safe e ty v' := by
  obtain ⟨h1, h2⟩ := h
  cases h2 with
  | msg hl h2 =>
    have hi : i < o'.length := by rw [hl]; exact (List.getElem?_eq_some_iff.mp hf).1
    refine ⟨_, List.getElem?_eq_getElem hi, ?_, h2 i _ _ hf (List.getElem?_eq_getElem hi)⟩
    cases h1 with
    | msg h1 => exact h1 i _ _ _ hf hv (List.getElem?_eq_getElem hi)

theorem twin_int {m i n : Nat} {k : Kind} {o o' : Obj} {b : BitVec 32} (h : Twin e m o o') (hf : (e.sch m)[i]? = some ⟨n, .scalar k⟩)
    (hk : k = .sint32 ∨ k = .uint32) (hv : o[i]? = some (.sc (.w32 b))) : int32At o' i = b := by
  obtain ⟨v', h1, h2, _⟩ := twin_at h hf hv
  cases h2 with
  | @sc _ _ s h2 =>
    have : s = .w32 b := by rcases hk with rfl | rfl <;> cases s <;> simp [scalarEq] at h2 <;> simp [h2]
    simp [int32At, h1, this]

theorem twin_float {m i n : Nat} {o o' : Obj} {b : BitVec 32} (h : Twin e m o o') (hf : (e.sch m)[i]? = some ⟨n, .scalar .float⟩)
    (hv : o[i]? = some (.sc (.w32 b))) : pz32 (int32At o' i) = pz32 b := by
  obtain ⟨v', h1, h2, _⟩ := twin_at h hf hv
  have ha : Agrees e (.scalar .float) v' (.sc (.w32 b)) := by
    cases h2.symm with
    | sc h2 => exact .sc (Or.inr h2)
  obtain ⟨c, rfl, hc⟩ := Peer.agree_float ha
  simp [int32At, h1, hc]

theorem twin_double {m i n : Nat} {o o' : Obj} {b : BitVec 64} (h : Twin e m o o') (hf : (e.sch m)[i]? = some ⟨n, .scalar .double⟩)
    (hv : o[i]? = some (.sc (.w64 b))) : pz64 (doubleAt o' i) = pz64 b := by
  obtain ⟨v', h1, h2, _⟩ := twin_at h hf hv
  have ha : Agrees e (.scalar .double) v' (.sc (.w64 b)) := by
    cases h2.symm with
    | sc h2 => exact .sc (Or.inr h2)
  obtain ⟨c, rfl, hc⟩ := Peer.agree_double ha
  simp [doubleAt, h1, hc]

theorem twin_msg {m m' i n : Nat} {o o' s : Obj} (h : Twin e m o o') (hf : (e.sch m)[i]? = some ⟨n, .msg m'⟩)
    (hd : Safe e (.msg m') (.msg (defaultObj e m'))) (hv : o[i]? = some (.msg s)) : Twin e m' s (msgAt e m' o' i) := by
  obtain ⟨v', h1, h2, h3⟩ := twin_at h hf hv
  have he : msgAt e m' o' i = contents e m' v' := by simp only [msgAt, h1]; cases v' <;> rfl
  rw [he]
  refine ⟨?_, ?_⟩
  · cases h2 with
    | msg h2 => exact .msg h2
  · cases h3 with
    | null => exact hd
    | msg h4 h5 => exact .msg h4 h5

theorem default_row {m n : Nat} {k : Kind} (h : e.sch m = row n k) : Safe e (.msg m) (.msg (defaultObj e m)) := by
  refine .msg (by simp [defaultObj]) ?_
  intro i f v hf hv
  simp only [defaultObj, List.getElem?_map, hf, Option.map_some, Option.some.injEq] at hv
  rw [h] at hf
  simp only [row, List.getElem?_map, Option.map_eq_some_iff] at hf
  obtain ⟨j, _, rfl⟩ := hf
  subst hv
  exact .sc (by cases k <;> trivial)

theorem twin_list {α : Type} {f : Obj → α} {R : α → α → Prop} {m : Nat} : ∀ {l l' : List Val}, Same e (.msgList m) (.msgList l) (.msgList l') →
    Safe e (.msgList m) (.msgList l') → ∀ {xs : List α} {g : α → Obj}, l = xs.map (fun x => .msg (g x)) → (∀ x ∈ xs, ∀ o', Twin e m (g x) o' → R x (f o')) →
    ∃ ys, derefAll f l' = .ok ys ∧ ys.length = xs.length ∧ ∀ (i : Nat) (x y : α), xs[i]? = some x → ys[i]? = some y → R x y := by
  intro l l'
  induction l' generalizing l with
  | nil =>
    intro h _ xs g hg _
    cases h with
    | msgList hl _ =>
      subst hg
      have : xs = [] := by simpa using hl
      subst this
      exact ⟨[], rfl, rfl, by simp⟩
  | cons v l' ih =>
    intro h hs xs g hg hR
    cases h with
    | msgList hl h =>
    cases hs with
    | msgList hs1 hs2 =>
    subst hg
    cases xs with
    | nil => simp at hl
    | cons x xs =>
      have h0 := h 0 _ _ rfl rfl
      have s0 := hs2 v List.mem_cons_self
      have hv : ∃ o, v = .msg o := by
        cases s0 with
        | null => exact absurd rfl (hs1 _ List.mem_cons_self)
        | msg => exact ⟨_, rfl⟩
      obtain ⟨o, rfl⟩ := hv
      obtain ⟨ys, g1, g2, g3⟩ := ih (l := xs.map fun x => .msg (g x)) (.msgList (by simpa using hl) fun i a b ha hb => h (i + 1) a b ha hb)
        (.msgList (fun a ha => hs1 a (List.mem_cons_of_mem _ ha)) fun a ha => hs2 a (List.mem_cons_of_mem _ ha)) rfl
        (fun x hx => hR x (List.mem_cons_of_mem _ hx))
      refine ⟨f o :: ys, by simp [derefAll, g1, Res.bind_eq, Res.bind], by simp [g2], ?_⟩
      intro i a b ha hb
      cases i with
      | zero => cases ha; cases hb; exact hR _ List.mem_cons_self _ ⟨h0, s0⟩
      | succ i => exact g3 i a b ha hb

end

theorem twin_convert (hw : World env) {q : QtVal} {o o' : Obj} (hf : Faithful q) (h : toMessage q = .ok o) (ht : Twin env.toEnv q.msg o o') :
    ∃ q', fromMessage env.toEnv q.msg o' = .ok q' ∧ plusZero q' = plusZero q := by
  have hs := world_sch hw
  obtain ⟨o1, e1, e2⟩ := convert_roundtrip (env := env.toEnv) hf
  rw [h] at e1
  cases e1
  have int : ∀ {m i : Nat} {n : Nat} {o o' : Obj} {b : BitVec 32}, Twin env.toEnv m o o' → (qtSch m)[i]? = some ⟨n, .scalar .sint32⟩ →
      o[i]? = some (.sc (.w32 b)) → int32At o' i = b := fun h h1 h2 => twin_int h (by rw [hs]; exact h1) (Or.inl rfl) h2
  have flo : ∀ {m i : Nat} {n : Nat} {o o' : Obj} {b : BitVec 32}, Twin env.toEnv m o o' → (qtSch m)[i]? = some ⟨n, .scalar .float⟩ →
      o[i]? = some (.sc (.w32 b)) → pz32 (int32At o' i) = pz32 b := fun h h1 h2 => twin_float h (by rw [hs]; exact h1) h2
  have dbl : ∀ {m i : Nat} {n : Nat} {o o' : Obj} {b : BitVec 64}, Twin env.toEnv m o o' → (qtSch m)[i]? = some ⟨n, .scalar .double⟩ →
      o[i]? = some (.sc (.w64 b)) → pz64 (doubleAt o' i) = pz64 b := fun h h1 h2 => twin_double h (by rw [hs]; exact h1) h2
  have sub : ∀ {m m' i n n' : Nat} {k : Kind} {o o' s : Obj}, Twin env.toEnv m o o' → (qtSch m)[i]? = some ⟨n, .msg m'⟩ → qtSch m' = row n' k →
      o[i]? = some (.msg s) → Twin env.toEnv m' s (msgAt env.toEnv m' o' i) :=
    fun h h1 h2 h3 => twin_msg h (by rw [hs]; exact h1) (default_row (by rw [hs]; exact h2)) h3
  have date : ∀ {d : QDate} {o' : Obj}, Twin env.toEnv mDate (dateTo d) o' → dateFrom o' = dateFrom (dateTo d) := by
    intro d o' ht
    simp only [dateFrom, int (i := 0) ht rfl rfl, int (i := 1) ht rfl rfl, int (i := 2) ht rfl rfl]
    rfl
  have time : ∀ {t : QTime} {o' : Obj}, Twin env.toEnv mTime (timeTo t) o' → timeFrom o' = timeFrom (timeTo t) := by
    intro d o' ht
    simp only [timeFrom, int (i := 0) ht rfl rfl]
    rfl
  have point : ∀ {p : QPoint} {o' : Obj}, Twin env.toEnv mPoint (pointTo p) o' → pointFrom o' = p := by
    intro p o' ht
    simp only [pointFrom, int (i := 0) ht rfl rfl, int (i := 1) ht rfl rfl]
  have size : ∀ {p : QSize} {o' : Obj}, Twin env.toEnv mSize (sizeTo p) o' → sizeFrom o' = p := by
    intro p o' ht
    simp only [sizeFrom, int (i := 0) ht rfl rfl, int (i := 1) ht rfl rfl]
  have pointF : ∀ {p : QPointF} {o' : Obj}, Twin env.toEnv mPointF (pointFTo p) o' → pz64 (pointFFrom o').x = pz64 p.x ∧ pz64 (pointFFrom o').y = pz64 p.y :=
    fun ht => ⟨dbl (i := 0) ht rfl rfl, dbl (i := 1) ht rfl rfl⟩
  have sizeF : ∀ {p : QSizeF} {o' : Obj}, Twin env.toEnv mSizeF (sizeFTo p) o' → pz64 (sizeFFrom o').w = pz64 p.w ∧ pz64 (sizeFFrom o').h = pz64 p.h :=
    fun ht => ⟨dbl (i := 0) ht rfl rfl, dbl (i := 1) ht rfl rfl⟩
  cases q with
  | char c =>
    cases h
    obtain ⟨v', h1, h2, _⟩ := twin_at (i := 0) (ty := .scalar .bytes) ht (by rw [hs]; rfl) rfl
    cases h2 with
    | @sc _ _ s h2 =>
      cases s <;> simp [scalarEq] at h2
      rename_i b
      refine ⟨_, Eq.trans ?_ e2, rfl⟩
      simp only [fromMessage, charFrom, bytesAt, h1, QtVal.msg, mChar, ← h2]
      rfl
  | uuid u =>
    cases h
    obtain ⟨v', h1, h2, _⟩ := twin_at (i := 0) (ty := .scalar .string) ht (by rw [hs]; rfl) rfl
    cases h2 with
    | @sc _ _ s h2 =>
      cases s <;> simp [scalarEq] at h2
      rename_i b
      refine ⟨_, Eq.trans ?_ e2, rfl⟩
      simp only [fromMessage, uuidFrom, textAt, h1, QtVal.msg, mUuid, ← h2]
      rfl
  | time t =>
    cases h
    exact ⟨_, (congrArg (fun t => Res.ok (QtVal.time t)) (time ht)).trans e2, rfl⟩
  | date d =>
    cases h
    exact ⟨_, (congrArg (fun t => Res.ok (QtVal.date t)) (date ht)).trans e2, rfl⟩
  | dateTime d =>
    cases h
    refine ⟨_, Eq.trans ?_ e2, rfl⟩
    show Res.ok (QtVal.dateTime (QDateTime.of (dateFrom _) (timeFrom _))) = _
    rw [date (d := d.date) (sub (i := 0) (k := .sint32) ht rfl rfl rfl), time (t := d.time) (sub (i := 1) (k := .sint32) ht rfl rfl rfl)]
    rfl
  | size s => cases h; exact ⟨_, congrArg (fun t => Res.ok (QtVal.size t)) (size ht), rfl⟩
  | point s => cases h; exact ⟨_, congrArg (fun t => Res.ok (QtVal.point t)) (point ht), rfl⟩
  | sizeF s => cases h; exact ⟨_, rfl, by simp only [plusZero, sizeF ht]⟩
  | pointF s => cases h; exact ⟨_, rfl, by simp only [plusZero, pointF ht]⟩
  | rect r =>
    simp only [toMessage, rectTo, Res.bind_eq] at h
    cases h1 : extent r.x1 r.x2 <;> rw [h1] at h <;> simp only [Res.bind] at h <;> try cases h
    cases h2 : extent r.y1 r.y2 <;> rw [h2] at h <;> simp only [Res.bind] at h <;> try cases h
    refine ⟨_, Eq.trans ?_ e2, rfl⟩
    simp only [fromMessage, QtVal.msg, mRect, rectFrom]
    rw [point (p := ⟨r.x1, r.y1⟩) (sub (i := 0) (k := .sint32) ht rfl rfl rfl), size (sub (i := 1) (k := .sint32) ht rfl rfl rfl)]
    rfl
  | rectF r =>
    cases h
    refine ⟨_, rfl, ?_⟩
    have h1 := pointF (p := ⟨r.x, r.y⟩) (sub (i := 0) (k := .double) ht rfl rfl rfl)
    have h2 := sizeF (p := ⟨r.w, r.h⟩) (sub (i := 1) (k := .double) ht rfl rfl rfl)
    simp only [plusZero, rectFFrom, h1, h2]
  | polygon l =>
    cases h
    obtain ⟨v', h1, h2, h3⟩ := twin_at (i := 0) (ty := .msgList mPoint) ht (by rw [hs]; rfl) rfl
    cases h3 with
    | @msgList _ l' h3 h4 =>
    obtain ⟨ys, g1, g2, g3⟩ := twin_list (f := pointFrom) (R := fun a b => b = a) h2 (.msgList h3 h4) rfl (fun x _ o' ht => point ht)
    have : ys = l := by
      refine List.ext_getElem g2 fun i a b => ?_
      exact g3 i _ _ (List.getElem?_eq_getElem b) (List.getElem?_eq_getElem a)
    subst this
    refine ⟨.polygon ys, ?_, rfl⟩
    show Res.bind (derefAll pointFrom (listAt o' 0)) _ = _
    simp only [listAt, h1, g1, Res.bind]
  | polygonF l =>
    cases h
    obtain ⟨v', h1, h2, h3⟩ := twin_at (i := 0) (ty := .msgList mPointF) ht (by rw [hs]; rfl) rfl
    cases h3 with
    | @msgList _ l' h3 h4 =>
    obtain ⟨ys, g1, g2, g3⟩ := twin_list (f := pointFFrom) (R := fun a b => pz64 b.x = pz64 a.x ∧ pz64 b.y = pz64 a.y) h2 (.msgList h3 h4) rfl
      (fun x _ o' ht => pointF ht)
    refine ⟨.polygonF ys, ?_, ?_⟩
    · show Res.bind (derefAll pointFFrom (listAt o' 0)) _ = _
      simp only [listAt, h1, g1, Res.bind]
    · simp only [plusZero]
      congr 1
      refine List.ext_getElem (by simpa using g2) fun i a b => ?_
      have := g3 i _ _ (List.getElem?_eq_getElem (by simpa using b)) (List.getElem?_eq_getElem (by simpa using a))
      simp [this.1, this.2]
  | color c =>
    cases h
    refine ⟨_, Eq.trans ?_ e2, rfl⟩
    have := twin_int (i := 0) (k := .uint32) ht (by rw [hs]; rfl) (Or.inr rfl) rfl
    show Res.ok (QtVal.color (QColor.fromRgba (int32At o' 0))) = _
    rw [this]
    rfl
  | matrix q =>
    cases h
    refine ⟨_, rfl, ?_⟩
    have g0 := flo (i := 0) ht rfl rfl
    have g1 := flo (i := 1) ht rfl rfl
    have g2 := flo (i := 2) ht rfl rfl
    have g3 := flo (i := 3) ht rfl rfl
    have g4 := flo (i := 4) ht rfl rfl
    have g5 := flo (i := 5) ht rfl rfl
    have g6 := flo (i := 6) ht rfl rfl
    have g7 := flo (i := 7) ht rfl rfl
    have g8 := flo (i := 8) ht rfl rfl
    have g9 := flo (i := 9) ht rfl rfl
    have g10 := flo (i := 10) ht rfl rfl
    have g11 := flo (i := 11) ht rfl rfl
    have g12 := flo (i := 12) ht rfl rfl
    have g13 := flo (i := 13) ht rfl rfl
    have g14 := flo (i := 14) ht rfl rfl
    have g15 := flo (i := 15) ht rfl rfl
    simp only [plusZero]
    congr 2
    funext i
    match i with
    | ⟨0, _⟩ => simp only [matrixFrom, QMatrix4x4.of]; exact g0
    | ⟨1, _⟩ => simp only [matrixFrom, QMatrix4x4.of]; exact g4
    | ⟨2, _⟩ => simp only [matrixFrom, QMatrix4x4.of]; exact g8
    | ⟨3, _⟩ => simp only [matrixFrom, QMatrix4x4.of]; exact g12
    | ⟨4, _⟩ => simp only [matrixFrom, QMatrix4x4.of]; exact g1
    | ⟨5, _⟩ => simp only [matrixFrom, QMatrix4x4.of]; exact g5
    | ⟨6, _⟩ => simp only [matrixFrom, QMatrix4x4.of]; exact g9
    | ⟨7, _⟩ => simp only [matrixFrom, QMatrix4x4.of]; exact g13
    | ⟨8, _⟩ => simp only [matrixFrom, QMatrix4x4.of]; exact g2
    | ⟨9, _⟩ => simp only [matrixFrom, QMatrix4x4.of]; exact g6
    | ⟨10, _⟩ => simp only [matrixFrom, QMatrix4x4.of]; exact g10
    | ⟨11, _⟩ => simp only [matrixFrom, QMatrix4x4.of]; exact g14
    | ⟨12, _⟩ => simp only [matrixFrom, QMatrix4x4.of]; exact g3
    | ⟨13, _⟩ => simp only [matrixFrom, QMatrix4x4.of]; exact g7
    | ⟨14, _⟩ => simp only [matrixFrom, QMatrix4x4.of]; exact g11
    | ⟨15, _⟩ => simp only [matrixFrom, QMatrix4x4.of]; exact g15
    | ⟨_ + 16, h⟩ => omega
  | vector2 v =>
    cases h
    refine ⟨_, rfl, ?_⟩
    simp only [plusZero, vector2From, flo (i := 0) ht rfl rfl, flo (i := 1) ht rfl rfl]
  | vector3 v =>
    cases h
    refine ⟨_, rfl, ?_⟩
    simp only [plusZero, vector3From, flo (i := 0) ht rfl rfl, flo (i := 1) ht rfl rfl, flo (i := 2) ht rfl rfl]
  | vector4 v =>
    cases h
    refine ⟨_, rfl, ?_⟩
    simp only [plusZero, vector4From, flo (i := 0) ht rfl rfl, flo (i := 1) ht rfl rfl, flo (i := 2) ht rfl rfl, flo (i := 3) ht rfl rfl]
  | transform t =>
    cases h
    refine ⟨_, rfl, ?_⟩
    simp only [plusZero, transformFrom, dbl (i := 0) ht rfl rfl, dbl (i := 1) ht rfl rfl, dbl (i := 2) ht rfl rfl, dbl (i := 3) ht rfl rfl,
      dbl (i := 4) ht rfl rfl, dbl (i := 5) ht rfl rfl, dbl (i := 6) ht rfl rfl, dbl (i := 7) ht rfl rfl, dbl (i := 8) ht rfl rfl]
  | quaternion q =>
    cases h
    refine ⟨_, rfl, ?_⟩
    have hv := sub (i := 1) (k := .float) (s := vector3To ⟨q.x, q.y, q.z⟩) ht rfl rfl rfl
    simp only [plusZero, quaternionFrom, vector3From, flo (i := 0) ht rfl rfl, flo (i := 0) hv rfl rfl, flo (i := 1) hv rfl rfl, flo (i := 2) hv rfl rfl]

/-! ### C119 -/

/-- What the JSON reader returns for a message type is converted by the handler. -/
theorem jsonDeserialize_of {n m : Nat} {t : Bytes} {o : Obj} {q : QtVal} (h : Json.deserializeMessage env n m t = (.ok (), o))
    (hq : fromMessage env.toEnv m o = .ok q) (ht : t ≠ []) : jsonDeserialize env n m t = .ok (some q) := by
  simp only [jsonDeserialize, if_neg ht, jsonRead, Json.readMessage, h, Res.bind_eq, Res.bind, hq]

theorem readJson_ne {t : Bytes} {j : JVal} (h : readJson t = some j) : t ≠ [] := by
  rintro rfl
  cases h

/-- A value of a Qt type that is written as JSON arrives: the serializer writes a JSON document, and from this text the deserializer gets the same
value, up to the sign of zeros. `Faithful` values are those that survive the conversion to their message (C45). Missing: `float` numbers that 6 digits
do not determine (`C119_digits_violated`), infinities and NaNs. -/
theorem C119_roundtrip_partial (hw : World env) {q : QtVal} (hf : Faithful q) (hx : NumbersExact env q) :
    ∃ N t, (∃ j, readJson t = some j) ∧ (∀ n, N ≤ n → jsonSerialize env.toJEnv n q = .ok t) ∧
      ∃ q' N', plusZero q' = plusZero q ∧ ∀ n, N' ≤ n → jsonDeserialize env n (Peer.carrier q) t = .ok (some q') := by
  rw [← Peer.C86_schema.2]
  obtain ⟨o, h1, _⟩ := convert_roundtrip (env := env.toEnv) hf
  have he := toMessage_exact hw hx h1
  obtain ⟨N, bs, j, g1, g2, g3⟩ := C47_document_partial hw.order hw.prints (exact_printable (world_exact hw) he)
  obtain ⟨v', k1, k2⟩ := exact_back hw.order hw.prints (world_distinct hw) (world_exact hw) he j g3
  refine ⟨N, bs, ⟨j, g2⟩, fun n hn => ?_, ?_⟩
  · simp only [jsonSerialize, h1, Res.bind_eq, Res.bind, g1 n hn]
  cases k1 with
  | @msg _ _ _ ms o' vs a1 a2 a3 a4 a5 a6 a7 =>
  have hmeans : Means env quoteEscape 0 0 (.msg q.msg) (.obj ms) (.msg o') := .msg vs a1 a2 a3 a4 a5 a6 a7
  obtain ⟨N', hN'⟩ := document_read hw.library hw.reads hw.order (world_distinct hw) (qtSch_noBool (world_sch hw)) (qtSch_maps hw) (world_null hw) g2 hmeans
  obtain ⟨q', c1, c2⟩ := twin_convert hw hf h1 ⟨k2, means_safe hmeans⟩
  exact ⟨q', N', c2, fun n hn => jsonDeserialize_of (hN' n hn) c1 (readJson_ne g2)⟩

/-- Whatever JSON document another program writes for a message that shows a value, with members in any order and with white space, members that mean
nothing and `null` anywhere, the handler reads as that value. -/
theorem C119_read_partial (hw : World env) {q : QtVal} (hf : Faithful q) {t : Bytes} {o : Obj} (hd : Document env quoteEscape (Peer.carrier q) t o)
    (h : Peer.Shows q o) : ∃ N, ∀ n, N ≤ n → jsonDeserialize env n (Peer.carrier q) t = .ok (some q) := by
  obtain ⟨j, h1, h2⟩ := hd
  obtain ⟨N, hN⟩ := document_read hw.library hw.reads hw.order (world_distinct hw) (qtSch_noBool (world_sch hw)) (qtSch_maps hw) (world_null hw) h1 h2
  exact ⟨N, fun n hn => jsonDeserialize_of (hN n hn) (Peer.C86_read_partial hw.sch hf h) (readJson_ne h1)⟩

/-- The text that is written is a JSON document in which any other program finds, under the names of QtCore.proto and QtGui.proto, a message that shows
the value. -/
theorem C119_written_partial (hw : World env) {q : QtVal} (he : Peer.Expressible q) (hx : NumbersExact env q) :
    ∃ N t j o, (∀ n, N ≤ n → jsonSerialize env.toJEnv n q = .ok t) ∧ readJson t = some j ∧ Spec.Shows env.toJEnv 0 0 (.msg (Peer.carrier q)) (.msg o) j ∧
      Peer.Shows q o := by
  rw [← Peer.C86_schema.2]
  obtain ⟨o, h1, h2⟩ := Peer.C86_message he
  obtain ⟨N, bs, j, g1, g2, g3⟩ := C47_document_partial hw.order hw.prints (exact_printable (world_exact hw) (toMessage_exact hw hx h1))
  exact ⟨N, bs, j, o, fun n hn => by simp only [jsonSerialize, h1, Res.bind_eq, Res.bind, g1 n hn], g2, g3, h2⟩

/-! ### Where it fails -/

theorem members_alike {rec : Nat → Obj → Res Bytes} {m : Nat} {o o' : Obj} (h : ∀ (i : Nat) (f : Field), (env.sch m)[i]? = some f →
      (o[i]? = none ∧ o'[i]? = none) ∨ ∃ v v', o[i]? = some v ∧ o'[i]? = some v' ∧
        Json.serializeProperty env.toJEnv rec m i f.ty v = Json.serializeProperty env.toJEnv rec m i f.ty v') :
    ∀ l : List Nat, Json.members env.toJEnv rec m o l = Json.members env.toJEnv rec m o' l := by
  intro l
  induction l with
  | nil => rfl
  | cons i l ih =>
    cases hf : (env.sch m)[i]? with
    | none => simp only [Json.members, hf, ih]
    | some f =>
      rcases h i f hf with ⟨h1, h2⟩ | ⟨v, v', h1, h2, h3⟩
      · simp only [Json.members, hf, h1, h2, ih]
      · simp only [Json.members, hf, h1, h2, h3, ih]

/-- **C119 violated**: a `float` is printed with 6 significant digits. Two vectors that differ behind them are different, and the same text is written
for both, so one of them does not survive. -/
theorem C119_digits_violated (hw : World env) {a b y : BitVec 32} (hab : env.float32g a = env.float32g b) (hne : pz32 a ≠ pz32 b) (n : Nat) :
    jsonSerialize env.toJEnv n (.vector2 ⟨a, y⟩) = jsonSerialize env.toJEnv n (.vector2 ⟨b, y⟩) ∧
      plusZero (.vector2 ⟨a, y⟩) ≠ plusZero (.vector2 ⟨b, y⟩) := by
  constructor
  · show Json.serializeObject env.toJEnv n mVector2 (int32s [a, y]) = Json.serializeObject env.toJEnv n mVector2 (int32s [b, y])
    cases n with
    | zero => rfl
    | succ n =>
      simp only [Json.serializeObject]
      rw [members_alike (o := int32s [a, y]) (o' := int32s [b, y])]
      intro i f hf
      rw [world_sch hw] at hf
      match i, hf with
      | 0, hf => cases hf; exact Or.inr ⟨_, _, rfl, rfl, by simp only [Json.serializeProperty, Json.serializeValue, Json.serializeScalar, hab]⟩
      | 1, hf => exact Or.inr ⟨_, _, rfl, rfl, rfl⟩
  · intro h
    simp only [plusZero, QtVal.vector2.injEq, QVector2D.mk.injEq] at h
    exact hne h.1

/-! ### Cases -/

/-- The environment of the examples: the message types of Qt, fields back to front, Latin-1, all numbers other than integers are 1500. -/
def qtR : REnv := { demoR (fun m => (Peer.proto m).map (·.2.2)) with
  sch := Peer.schema
  ord := fun m => (List.range (Peer.schema m).length).reverse
  jsonName := fun m i => match (Peer.proto m)[i]? with | some f => f.1.toList | none => []
  enumKey := fun _ _ _ => none
  enumValue := fun _ _ _ => none }

theorem qtR_world : World qtR where
  sch := rfl
  order m := List.reverse_perm _
  names m i f h := by simp only [qtR, h]
  noEnums _ _ _ := rfl
  noNames _ _ _ := rfl
  ascii t h := ⟨rfl, qtEnv_ok.2.2 t h⟩
  library := micro_reads rfl rfl rfl rfl
  reads := qt_reads rfl rfl
  prints := ⟨demoJ_numbers.1, demoJ_numbers.2, demoJ_numbers.3⟩

-- A rectangle with negative coordinates, a vector, and their texts.
example := C119_roundtrip_partial qtR_world (q := .rect ⟨BitVec.ofInt 32 (-5), 7, 100, BitVec.ofInt 32 (-20)⟩) (by simp only [Faithful, Fits]; decide) trivial
example : jsonSerialize qtR.toJEnv 3 (.rect ⟨BitVec.ofInt 32 (-5), 7, 100, BitVec.ofInt 32 (-20)⟩) =
    .ok "{\"size\":{\"height\":-26,\"width\":106},\"position\":{\"y\":7,\"x\":-5}}".toUTF8.toList := by decide +kernel
theorem qtR_number : Exact32 qtR 0x44bb8000 := ⟨by unfold finite32; decide, 0x44bb8000, by decide +kernel, by decide +kernel⟩
example := C119_roundtrip_partial qtR_world (q := .vector2 ⟨0x44bb8000, 0x44bb8000⟩) trivial ⟨qtR_number, qtR_number⟩
example := C119_written_partial qtR_world (q := .vector2 ⟨0x44bb8000, 0x44bb8000⟩) trivial ⟨qtR_number, qtR_number⟩
-- A document of another program: white space, a number in quotes, and a coordinate left out because it is 0.
theorem qtR_document : Document qtR quoteEscape (Peer.carrier (.point ⟨5, 0⟩)) "{ \"x\" : \"5\" }".toUTF8.toList [.sc (.w32 5), .sc (.w32 0)] := by
  refine ⟨.obj [([120], .str [53])], by with_unfolding_all rfl, ?_⟩
  have two : ∀ {i : Nat} {f : Field}, (qtR.sch 7)[i]? = some f → i = 0 ∧ f = ⟨1, .scalar .sint32⟩ ∨ i = 1 ∧ f = ⟨2, .scalar .sint32⟩ := by
    intro i f hf
    match i, hf with
    | 0, hf => cases hf; exact Or.inl ⟨rfl, rfl⟩
    | 1, hf => cases hf; exact Or.inr ⟨rfl, rfl⟩
  have hx : qtR.fromUtf8 [120] = qtR.jsonName 7 0 := by decide +kernel
  have hy : qtR.fromUtf8 [120] ≠ qtR.jsonName 7 1 := by decide +kernel
  refine .msg (m' := 7) (fun _ => .sc (.w32 5)) (by simp) ?_ rfl ?_ ?_ ?_ ?_
  · intro q hq
    rcases List.mem_singleton.mp hq with rfl
    intro b hb
    rcases List.mem_singleton.mp hb with rfl
    decide
  · intro i f hf h
    rcases two hf with ⟨rfl, rfl⟩ | ⟨rfl, rfl⟩
    · exact absurd hx (h _ List.mem_cons_self)
    · rfl
  · intro i f name hf h
    simp at h
  · intro i f name j hf h e _
    simp only [List.mem_singleton, Prod.mk.injEq] at h
    obtain ⟨rfl, rfl⟩ := h
    rcases two hf with ⟨rfl, rfl⟩ | ⟨rfl, rfl⟩
    · exact .sc ⟨[53], Or.inr rfl, ⟨by decide +kernel, by decide +kernel⟩⟩
    · exact absurd e hy
  · intro i f name j hf h e _
    simp only [List.mem_singleton, Prod.mk.injEq] at h
    obtain ⟨rfl, rfl⟩ := h
    rcases two hf with ⟨rfl, rfl⟩ | ⟨rfl, rfl⟩
    · rfl
    · exact absurd e hy

example := C119_read_partial qtR_world (q := .point ⟨5, 0⟩) trivial qtR_document ⟨rfl, rfl⟩
example : qtR.float32g 0x3f800000 = qtR.float32g 0x3f800001 ∧ pz32 0x3f800000 ≠ pz32 0x3f800001 := ⟨by decide +kernel, by decide⟩

end QtPb.Qt
