import Verif.SpecQtObjects
import Verif.PropsQtFields
/-
C121: comparison, copies and the target of `deserialize` for classes with fields of Qt's types.
-/
namespace QtPb.Qt
open QtPb QtPb.Spec FieldSpec ObjectSpec

section
variable {eq : QtVal → QtVal → Bool} {env envQ : Env} {fs : List Member}

theorem carrier_default (q : QtVal) : Peer.carrier (qtDefault (Peer.carrier q)) = Peer.carrier q := by cases q <;> rfl

theorem assignSlot_takes {k : Nat} {ty : SlotTy} {c s r : Slot} (hc : Typed env ty c) (hs : Typed env ty s) (h : assignSlot eq env k ty c s = .ok r) :
    Assigned eq env ty c s r ∧ Typed env ty r := by
  cases hs with
  | @plain ty s hs =>
    cases hc with
    | @plain _ c hc =>
      simp only [assignSlot, Res.bind_eq, Res.bind_eq_ok, Res.ok.injEq] at h
      obtain ⟨v, hv, rfl⟩ := h
      obtain ⟨h1, h2⟩ := assignVal_sound (fun h1 h2 h3 => assign_sound h1 h2 h3) hc hs hv
      exact ⟨.plain h1, .plain h2⟩
  | qt s =>
    generalize hm : Peer.carrier s = m at hc h ⊢
    cases hc with
    | qt c =>
      simp only [assignSlot, Res.ok.injEq, setQt] at h
      subst h
      cases he : eq c s with
      | true => exact ⟨.kept he, .qt c⟩
      | false => exact ⟨.copied he, hm ▸ .qt s⟩

theorem assignMembers_takes {k : Nat} : ∀ {fs : List Member} {cur src r : List Slot}, Object env fs cur → Object env fs src →
    assignMembers eq env k fs cur src = .ok r →
    r.length = fs.length ∧ ∀ (i : Nat) (f : Member) (c s x : Slot), fs[i]? = some f → cur[i]? = some c → src[i]? = some s → r[i]? = some x →
      Assigned eq env f.ty c s x ∧ Typed env f.ty x
  | [], _, _, _, _, _, h => by
    simp only [assignMembers, Res.ok.injEq] at h
    subst h
    simp
  | f :: fs, [], _, _, hc, _, _ => by simp [Object] at hc
  | f :: fs, _ :: _, [], _, _, hs, _ => by simp [Object] at hs
  | f :: fs, c :: cur, s :: src, r, hc, hs, h => by
    simp only [assignMembers, Res.bind_eq, Res.bind_eq_ok, Res.ok.injEq] at h
    obtain ⟨x, hx, r', hr, rfl⟩ := h
    have h1 := assignSlot_takes (hc.2 0 f c rfl rfl) (hs.2 0 f s rfl rfl) hx
    obtain ⟨h2, h3⟩ := assignMembers_takes (fs := fs) (cur := cur) (src := src)
      ⟨by simpa using hc.1, fun i f s hf hv => hc.2 (i + 1) f s (by simpa using hf) (by simpa using hv)⟩
      ⟨by simpa using hs.1, fun i f s hf hv => hs.2 (i + 1) f s (by simpa using hf) (by simpa using hv)⟩ hr
    refine ⟨by simp [h2], fun i f' c' s' x' hf hc' hs' hx' => ?_⟩
    cases i with
    | zero => simp at hf hc' hs' hx'; subst hf hc' hs' hx'; exact h1
    | succ i => exact h3 i f' c' s' x' (by simpa using hf) (by simpa using hc') (by simpa using hs') (by simpa using hx')

theorem assignMembers_returns : ∀ {fs : List Member} {cur src : List Slot}, Object env fs cur → Object env fs src →
    (∀ (i : Nat) (f : Member) (ty : FieldTy) (c s : Val), fs[i]? = some f → f.ty = .plain ty → cur[i]? = some (.val c) → src[i]? = some (.val s) →
      AssignVal env ty c s) → Returns fun k => assignMembers eq env k fs cur src
  | [], _, _, _, _, _ => Returns.pure _
  | f :: fs, [], _, hc, _, _ => by simp [Object] at hc
  | f :: fs, _ :: _, [], _, hs, _ => by simp [Object] at hs
  | f :: fs, c :: cur, s :: src, hc, hs, h => by
    obtain ⟨N, hN⟩ := assignMembers_returns (fs := fs) (cur := cur) (src := src)
      ⟨by simpa using hc.1, fun i f s hf hv => hc.2 (i + 1) f s (by simpa using hf) (by simpa using hv)⟩
      ⟨by simpa using hs.1, fun i f s hf hv => hs.2 (i + 1) f s (by simpa using hf) (by simpa using hv)⟩
      (fun i f ty c s hf hty hc hs => h (i + 1) f ty c s (by simpa using hf) hty (by simpa using hc) (by simpa using hs))
    have h1 : Returns fun k => assignSlot eq env k f.ty c s := by
      have tc := hc.2 0 f c rfl rfl
      have ts := hs.2 0 f s rfl rfl
      have h0 := fun ty c s => h 0 f ty c s rfl
      clear h hc hs hN
      obtain ⟨num, ty⟩ := f
      simp only at tc ts h0 ⊢
      cases ts with
      | @plain ty s hs =>
        cases tc with
        | @plain _ c hc =>
          obtain ⟨M, hM⟩ := h0 ty c s rfl rfl rfl
          refine ⟨M, fun k hk => ?_⟩
          obtain ⟨v, hv⟩ := hM k hk
          exact ⟨.val v, by simp only [assignSlot, hv, Res.bind_eq, Res.bind]⟩
      | qt s =>
        generalize Peer.carrier s = m at tc h0 ⊢
        cases tc with
        | qt c => exact ⟨0, fun k _ => ⟨_, rfl⟩⟩
    obtain ⟨M, hM⟩ := h1
    refine ⟨max N M, fun k hk => ?_⟩
    obtain ⟨r, hr⟩ := hN k (by omega)
    obtain ⟨x, hx⟩ := hM k (by omega)
    exact ⟨x :: r, by simp only [assignMembers, hx, hr, Res.bind_eq, Res.bind]⟩

theorem assignVal_any (hm : NoMessageMaps env) {ty : FieldTy} {c s : Val} (hc : Safe env ty c) (hs : Safe env ty s) : AssignVal env ty c s := by
  cases ty with
  | msg m => exact assignMsg_of hm hc hs (assign_returns hm (holds_contents default_holds hc) (holds_contents default_holds hs))
  | _ => exact assignOther (by simp) _ _

theorem assignVal_null {m : Nat} {s : Val} (hs : Safe env (.msg m) s) : AssignVal env (.msg m) .msgNull s := by
  obtain ⟨N, hN⟩ := lazyNe_null_returns hs
  obtain ⟨M, hM⟩ := assign_to_default (holds_contents default_holds hs)
  refine ⟨max N M, fun n hn => ?_⟩
  obtain ⟨q, hq⟩ := hN n (by omega)
  obtain ⟨r, hr⟩ := hM n (by omega)
  cases q with
  | false => exact ⟨.msgNull, by simp [assignVal, hq, Res.bind]⟩
  | true =>
    refine ⟨.msg r, ?_⟩
    simp [assignVal, hq, Res.bind, deref_eq]
    have : contents env m .msgNull = defaultObj env m := rfl
    simp only at hr
    rw [this, hr]

theorem startSlot_val (num : Nat) (ty : FieldTy) (g : Slot) :
    ∃ v, startSlot ⟨num, .plain ty⟩ g = .val v ∧ Safe env ty v ∧ ∀ m, ty = .msg m → v = .msgNull := by
  have hd : Safe env ty (defaultVal ty) := Holds.default default_holds ty
  cases g with
  | val g =>
    cases h : (copyStart [⟨num, ty⟩] [g]) with
    | nil => simp [copyStart] at h
    | cons v l =>
      refine ⟨v, by simp [startSlot, h], ?_, ?_⟩
      · exact copyStart_safe [⟨num, ty⟩] [g] (i := 0) (f := ⟨num, ty⟩) rfl (by rw [h]; rfl)
      · rintro m rfl
        simp [copyStart, defaultVal] at h
        exact h.1.symm
  | qt q => exact ⟨defaultVal ty, rfl, hd, fun m h => by subst h; rfl⟩

theorem start_object {src garbage : List Slot} (hs : Object env fs src) (hg : garbage.length = fs.length) : Object env fs (fs.zipWith startSlot garbage) := by
  refine ⟨by simp [hg], fun i f s hf hv => ?_⟩
  rw [List.getElem?_zipWith, hf] at hv
  obtain ⟨g, hg'⟩ : ∃ g, garbage[i]? = some g := by
    have := (List.getElem?_eq_some_iff.mp hf).1
    exact ⟨_, List.getElem?_eq_getElem (by omega)⟩
  rw [hg'] at hv
  simp only [Option.some.injEq] at hv
  obtain ⟨y, hy⟩ : ∃ y, src[i]? = some y := by
    have := (List.getElem?_eq_some_iff.mp hf).1
    exact ⟨_, List.getElem?_eq_getElem (by have := hs.1; omega)⟩
  have ht := hs.2 i f y hf hy
  obtain ⟨num, ty⟩ := f
  simp only at ht ⊢
  cases ht with
  | @plain ty v h =>
    obtain ⟨w, hw, h2, _⟩ := startSlot_val (env := env) num ty g
    rw [← hv, hw]
    exact .plain h2
  | qt q =>
    rw [← hv]
    show Typed env (.qt (Peer.carrier q)) (.qt (qtDefault (Peer.carrier q)))
    have := Typed.qt (env := env) (qtDefault (Peer.carrier q))
    rw [carrier_default] at this
    exact this

theorem start_fresh {garbage : List Slot} {i : Nat} {f : Member} {s : Slot} (hf : fs[i]? = some f)
    (hs : (fs.zipWith startSlot garbage)[i]? = some s) : Fresh f s := by
  rw [List.getElem?_zipWith, hf] at hs
  cases hg : garbage[i]? with
  | none => rw [hg] at hs; simp at hs
  | some g =>
    rw [hg] at hs
    simp only [Option.some.injEq] at hs
    subst hs
    obtain ⟨num, ty⟩ := f
    cases ty with
    | plain ty =>
      obtain ⟨v, hv, _⟩ := startSlot_val (env := demoEnv) num ty g
      rw [hv]
      exact .plain v
    | qt m => exact .qt num m

theorem eqSlot_dec {ty : SlotTy} {a b : Slot} (ha : Typed env ty a) (hb : Typed env ty b) : Dec (fun n => eqSlot eq env n ty a b) (Alike eq env ty a b) := by
  cases ha with
  | @plain ty a ha =>
    cases hb with
    | @plain _ b hb =>
      exact ((dec_safe ha hb).left).congr ⟨fun h => .plain h, fun h => by cases h; assumption⟩
  | qt a =>
    generalize Peer.carrier a = m at hb ⊢
    cases hb with
    | qt b => exact Dec.pure ⟨fun h => .qt h, fun h => by cases h; assumption⟩

theorem eqMembers_dec : ∀ {fs : List Member} {a b : List Slot}, Object env fs a → Object env fs b →
    Dec (fun n => eqMembers eq env n fs a b)
      (∀ (i : Nat) (f : Member) (x y : Slot), fs[i]? = some f → a[i]? = some x → b[i]? = some y → Alike eq env f.ty x y)
  | [], _, _, _, _ => Dec.pure (by simp)
  | f :: fs, [], _, ha, _ => by simp [Object] at ha
  | f :: fs, _ :: _, [], _, hb => by simp [Object] at hb
  | f :: fs, x :: a, y :: b, ha, hb => by
    have h := eqMembers_dec (fs := fs) (a := a) (b := b)
      ⟨by simpa using ha.1, fun i f s hf hv => ha.2 (i + 1) f s (by simpa using hf) (by simpa using hv)⟩
      ⟨by simpa using hb.1, fun i f s hf hv => hb.2 (i + 1) f s (by simpa using hf) (by simpa using hv)⟩
    refine ((eqSlot_dec (eq := eq) (ha.2 0 f x rfl rfl) (hb.2 0 f y rfl rfl)).and h).congr ⟨?_, ?_⟩
    · rintro ⟨h1, h2⟩ i f' x' y' hf hx hy
      cases i with
      | zero => simp at hf hx hy; subst hf hx hy; exact h1
      | succ i => exact h2 i f' x' y' (by simpa using hf) (by simpa using hx) (by simpa using hy)
    · intro h
      exact ⟨h 0 f x y rfl rfl rfl, fun i f' x' y' hf hx hy => h (i + 1) f' x' y' (by simpa using hf) (by simpa using hx) (by simpa using hy)⟩

/-! ### C121 -/

/-- C121, assignment: whenever `a = b` returns, every field of `a` is a copy of that of `b`; a field of a Qt type has its very value, unless Qt took the
two for equal before. -/
theorem C121_assign {k : Nat} {cur src r : List Slot} (hc : Object env fs cur) (hs : Object env fs src)
    (h : assignMembers eq env k fs cur src = .ok r) :
    Object env fs r ∧ ∀ (i : Nat) (f : Member) (c s x : Slot), fs[i]? = some f → cur[i]? = some c → src[i]? = some s → r[i]? = some x →
      Assigned eq env f.ty c s x := by
  obtain ⟨h1, h2⟩ := assignMembers_takes hc hs h
  refine ⟨⟨h1, fun i f x hf hx => ?_⟩, fun i f c s x hf hc' hs' hx => (h2 i f c s x hf hc' hs' hx).1⟩
  have hi := (List.getElem?_eq_some_iff.mp hf).1
  have hi1 : i < cur.length := hc.1 ▸ hi
  have hi2 : i < src.length := hs.1 ▸ hi
  exact (h2 i f cur[i] src[i] x hf (by simp [hi1]) (by simp [hi2]) hx).2

/-- It returns, unless there are maps with message values inside of message fields. -/
theorem C121_assign_returns_partial (hm : NoMessageMaps env) {cur src : List Slot} (hc : Object env fs cur) (hs : Object env fs src) :
    ∃ K, ∀ k, K ≤ k → ∃ r, assignMembers eq env k fs cur src = .ok r := by
  refine assignMembers_returns hc hs fun i f ty c s hf hty h1 h2 => ?_
  have t1 := hc.2 i f _ hf h1
  have t2 := hs.2 i f _ hf h2
  rw [hty] at t1 t2
  cases t1 with
  | plain t1 => cases t2 with
    | plain t2 => exact assignVal_any hm t1 t2

/-- C121, copy construction: it returns for every object, whatever the memory contained; every field is a copy, and a field of a Qt type has the very
value of the original, unless Qt takes that for equal to the value of a new object. -/
theorem C121_copy {src garbage : List Slot} (hs : Object env fs src) (hg : garbage.length = fs.length) :
    ∃ K, ∀ k, K ≤ k → ∃ r, copyMembers eq env k fs garbage src = .ok r ∧ Object env fs r ∧
      ∀ (i : Nat) (f : Member) (s x : Slot), fs[i]? = some f → src[i]? = some s → r[i]? = some x → ∃ c, Fresh f c ∧ Assigned eq env f.ty c s x := by
  have hst := start_object hs hg
  have hret : Returns fun k => assignMembers eq env k fs (fs.zipWith startSlot garbage) src := by
    refine assignMembers_returns hst hs fun i f ty c s hf hty h1 h2 => ?_
    have t2 := hs.2 i f _ hf h2
    rw [hty] at t2
    cases t2 with
    | plain t2 =>
      cases ty with
      | msg m =>
        rw [List.getElem?_zipWith, hf] at h1
        cases hgi : garbage[i]? with
        | none => rw [hgi] at h1; simp at h1
        | some g =>
          rw [hgi] at h1
          simp only [Option.some.injEq] at h1
          obtain ⟨num, fty⟩ := f
          simp only at hty
          subst hty
          obtain ⟨v, hv, _, h3⟩ := startSlot_val (env := env) num (.msg m) g
          rw [hv] at h1
          cases h1
          rw [h3 m rfl]
          exact assignVal_null t2
      | _ => exact assignOther (by simp) _ _
  obtain ⟨K, hK⟩ := hret
  refine ⟨K, fun k hk => ?_⟩
  obtain ⟨r, hr⟩ := hK k hk
  obtain ⟨h1, h2⟩ := C121_assign hst hs hr
  refine ⟨r, hr, h1, fun i f s x hf hs' hx => ?_⟩
  have hi := (List.getElem?_eq_some_iff.mp hf).1
  have hc : (fs.zipWith startSlot garbage)[i]? = some ((fs.zipWith startSlot garbage)[i]'(by rw [hst.1]; exact hi)) := by simp [hst.1, hi]
  exact ⟨_, start_fresh hf hc, h2 i f _ s x hf hc hs' hx⟩

/-- C121, comparison: `==` answers whether all fields are equal, those of Qt's types in the sense of Qt; it confirms equality whenever it holds. -/
theorem C121_equal {a b : List Slot} (ha : Object env fs a) (hb : Object env fs b) :
    (∀ n r, eqMembers eq env n fs a b = .ok r → (r = true ↔
      ∀ (i : Nat) (f : Member) (x y : Slot), fs[i]? = some f → a[i]? = some x → b[i]? = some y → Alike eq env f.ty x y)) ∧
    ((∀ (i : Nat) (f : Member) (x y : Slot), fs[i]? = some f → a[i]? = some x → b[i]? = some y → Alike eq env f.ty x y) →
      ∃ N, ∀ n, N ≤ n → eqMembers eq env n fs a b = .ok true) :=
  ⟨(eqMembers_dec ha hb).sound, (eqMembers_dec ha hb).complete⟩

/-- A field that took a value is equal to it, if Qt takes values for equal to themselves. -/
theorem takes_alike (hr : ∀ q, eq q q = true) {ty : SlotTy} {c s x : Slot} (h : Assigned eq env ty c s x)
    (hn : ∀ t v, ty = .plain t → s = .val v → Plain env t v) : Alike eq env ty x s := by
  cases h with
  | plain h => exact .plain (h.toSame (hn _ _ rfl rfl))
  | copied h => exact .qt (hr _)
  | kept h => exact .qt h

/-- After `a = b`, `a == b` holds, if there is no NaN and Qt takes values for equal to themselves. -/
theorem C121_assign_equal (hr : ∀ q, eq q q = true) {k : Nat} {cur src r : List Slot} (hc : Object env fs cur) (hs : Object env fs src)
    (hn : NoNaN env fs src) (h : assignMembers eq env k fs cur src = .ok r) : ∃ N, ∀ n, N ≤ n → eqMembers eq env n fs r src = .ok true := by
  obtain ⟨h1, h2⟩ := C121_assign hc hs h
  refine (C121_equal h1 hs).2 fun i f x y hf hx hy => ?_
  have hi := (List.getElem?_eq_some_iff.mp hf).1
  have hi1 : i < cur.length := hc.1 ▸ hi
  exact takes_alike hr (h2 i f cur[i] y x hf (by simp [hi1]) hy hx) fun t v ht hv => hn i f t v hf ht (hv ▸ hy)

/-- The same for a copy. -/
theorem C121_copy_equal (hr : ∀ q, eq q q = true) {k : Nat} {src garbage r : List Slot} (hs : Object env fs src) (hg : garbage.length = fs.length)
    (hn : NoNaN env fs src) (h : copyMembers eq env k fs garbage src = .ok r) : ∃ N, ∀ n, N ≤ n → eqMembers eq env n fs r src = .ok true :=
  C121_assign_equal hr (start_object hs hg) hs hn h

/-- Copies of copies do not drift: a copy of a copy has the same values in its fields of Qt's types as the copy. -/
theorem C121_copy_stable {k k' : Nat} {src garbage garbage' r r' : List Slot} (hs : Object env fs src) (hg : garbage.length = fs.length)
    (hg' : garbage'.length = fs.length) (h : copyMembers eq env k fs garbage src = .ok r) (h' : copyMembers eq env k' fs garbage' r = .ok r')
    {i num m : Nat} (hf : fs[i]? = some ⟨num, .qt m⟩) : r'[i]? = r[i]? := by
  have hst := start_object hs hg
  obtain ⟨h1, h2⟩ := C121_assign hst hs h
  have hst' := start_object h1 hg'
  obtain ⟨h3, h4⟩ := C121_assign hst' h1 h'
  have hi := (List.getElem?_eq_some_iff.mp hf).1
  have get : ∀ {l : List Slot}, l.length = fs.length → ∃ x, l[i]? = some x := fun {l} hl => ⟨l[i]'(by omega), by simp [hl, hi]⟩
  obtain ⟨a, ha⟩ := get hst.1
  obtain ⟨b, hb⟩ := get hs.1
  obtain ⟨c, hc⟩ := get h1.1
  obtain ⟨d, hd⟩ := get hst'.1
  obtain ⟨e, he⟩ := get h3.1
  have e1 := start_fresh hf ha
  have e2 := start_fresh hf hd
  have t1 := h2 i _ a b c hf ha hb hc
  have t2 := h4 i _ d c e hf hd hc he
  cases e1
  cases e2
  rw [hc, he]
  cases t1 with
  | copied q1 => cases t2 with
    | copied q2 => rfl
    | kept q2 => rw [q1] at q2; cases q2
  | kept q1 => cases t2 with
    | copied q2 => rfl
    | kept q2 => rfl

/-- C121, `deserialize` into an object: whatever the decoding of the bytes gives, also after an exception, is what the fields of the target take. -/
theorem C121_target_partial (hm : NoMessageMaps env) {n : Nat} {data : Bytes} {st : Res Unit} {o old : List Slot}
    (h : deserializeMembers eq env envQ fs n data = (st, o)) (ho : Object env fs o) (hold : Object env fs old) :
    ∃ K, ∀ k, K ≤ k → ∃ r, deserializeTo eq env envQ fs n k data old = (st, .ok r) ∧ Object env fs r ∧
      ∀ (i : Nat) (f : Member) (c s x : Slot), fs[i]? = some f → old[i]? = some c → o[i]? = some s → r[i]? = some x → Assigned eq env f.ty c s x := by
  obtain ⟨K, hK⟩ := C121_assign_returns_partial (eq := eq) hm hold ho
  refine ⟨K, fun k hk => ?_⟩
  obtain ⟨r, hr⟩ := hK k hk
  obtain ⟨h1, h2⟩ := C121_assign hold ho hr
  exact ⟨r, by simp [deserializeTo, h, hr], h1, h2⟩

theorem exact_sendable {ty : SlotTy} {s : Slot} (h : Exact env ty s) : Sendable env ty s := by
  cases h with
  | plain h => exact .plain h.plain.safe.hasTy
  | qt h => exact .qt h

/-- C121, `deserialize(serialize())` into an object that has been used before: no exception, all fields have the values that were sent, for fields of Qt's
types up to the sign of zeros and to what Qt takes for equal to a new value or to the value the target had.
Missing: maps with message values inside of message fields, and as for C120. -/
theorem C121_roundtrip_partial (w : World env envQ) (hV : Valid fs) (hm : NoMessageMaps env) (hE : env.fromUtf8 (env.toUtf8 []) = []) {ord : List Nat}
    (hord : ord.Perm (List.range fs.length)) {obj old : List Slot} (hol : obj.length = fs.length)
    (hobj : ∀ (i : Nat) (f : Member) (s : Slot), fs[i]? = some f → obj[i]? = some s → Exact env f.ty s) (hold : Object env fs old) {n : Nat} {bs : Bytes}
    (hs : serializeMembers env envQ n ord fs obj = .ok bs) (hlen : bs.length < 2 ^ 31) {j : Nat} (hj : bs.length < j) :
    ∃ K, ∀ k, K ≤ k → ∃ r, deserializeTo eq env envQ fs j k bs old = (.ok (), .ok r) ∧ r.length = fs.length ∧
      ∀ (i : Nat) (f : Member) (c s x : Slot), fs[i]? = some f → old[i]? = some c → obj[i]? = some s → r[i]? = some x → EndsAs eq env f.ty c s x := by
  obtain ⟨o, h1, h2, h3⟩ := C120_roundtrip_partial (eq := eq) w hV hord hol (fun i f s hf hs => exact_sendable (hobj i f s hf hs)) hs hlen hj
  have slot : ∀ {i : Nat} {f : Member}, fs[i]? = some f → ∃ s, obj[i]? = some s := fun {i f} hf =>
    ⟨obj[i]'(by have := (List.getElem?_eq_some_iff.mp hf).1; omega), by simp⟩
  have slot' : ∀ {i : Nat} {f : Member}, fs[i]? = some f → ∃ s, o[i]? = some s := fun {i f} hf =>
    ⟨o[i]'(by have := (List.getElem?_eq_some_iff.mp hf).1; omega), by simp⟩
  have ho : Object env fs o := by
    refine ⟨h2, fun i f s' hf hs' => ?_⟩
    obtain ⟨s, hs⟩ := slot hf
    have he := hobj i f s hf hs
    have hr := h3 i f s s' hf hs hs'
    obtain ⟨num, ty⟩ := f
    simp only at he hr ⊢
    cases he with
    | plain hc => cases hr with
      | plain ha => exact .plain (arrives_same hE ha hc).2
    | @qt q hq =>
      generalize hcq : Peer.carrier q = m at hr ⊢
      cases hr with
      | qt => rw [← hcq, ← carrier_plusZero]; exact .qt _
      | asNew =>
        have := Typed.qt (env := env) (qtDefault (Peer.carrier q))
        rw [carrier_default, hcq] at this
        exact this
  obtain ⟨K, hK⟩ := C121_target_partial hm h1 ho hold
  refine ⟨K, fun k hk => ?_⟩
  obtain ⟨r, e1, e2, e3⟩ := hK k hk
  refine ⟨r, e1, e2.1, fun i f c s x hf hc hs hx => ?_⟩
  obtain ⟨s', hs'⟩ := slot' hf
  have he := hobj i f s hf hs
  have hr := h3 i f s s' hf hs hs'
  have ha := e3 i f c s' x hf hc hs' hx
  have tx := e2.2 i f x hf hx
  obtain ⟨num, ty⟩ := f
  simp only at he hr ha tx ⊢
  cases he with
  | @plain ty v hcl => cases hr with
    | @plain _ _ v' har => cases ha with
      | plain hmir => cases tx with
        | plain tx =>
          obtain ⟨p1, p2⟩ := arrives_same hE har hcl
          have p3 := hmir.toSame (p1.plain_right hcl.plain p2)
          exact .plain (p3.trans p1.symm tx p2 hcl.plain.safe)
  | @qt q hq =>
    clear tx
    generalize Peer.carrier q = m at hr ha ⊢
    cases hr with
    | qt hd => cases ha with
      | copied h => exact .qt (Or.inl ⟨rfl, hd⟩) (Or.inl ⟨rfl, h⟩)
      | kept h => exact .qt (Or.inl ⟨rfl, hd⟩) (Or.inr ⟨rfl, h⟩)
    | asNew hd => cases ha with
      | copied h => exact .qt (Or.inr ⟨rfl, hd⟩) (Or.inl ⟨rfl, h⟩)
      | kept h => exact .qt (Or.inr ⟨rfl, hd⟩) (Or.inr ⟨rfl, h⟩)

end

/-! ### Cases -/

theorem demo_object : Object demoEnv qtClass qtObject := by
  refine ⟨rfl, fun i f s hf hs => ?_⟩
  match i with
  | 0 => cases hf; cases hs; exact .plain (.sc rfl)
  | 1 => cases hf; cases hs; exact .qt (.size ⟨3, 4⟩)
  | 2 => cases hf; cases hs; exact .plain (.null 1)
  | 3 => cases hf; cases hs; exact .qt (.rect ⟨BitVec.ofInt 32 (-5), 7, 100, BitVec.ofInt 32 (-20)⟩)
  | _ + 4 => simp [qtClass] at hf

/-- Another object of the class. -/
def qtOther : List Slot := [.val (.sc (.w32 1)), .qt (.size ⟨0, 4⟩), .val (.msg [.sc (.w32 5), .sc (.bytes none)]), .qt (.rect ⟨1, 2, 3, 4⟩)]

/-- An assignment, a copy in memory that contained something else, and comparisons. -/
example : assignMembers (fun _ _ => false) demoEnv 4 qtClass qtOther qtObject =
      .ok [.val (.sc (.w32 7)), .qt (.size ⟨3, 4⟩), .val (.msg [.sc (.w32 0), .sc (.bytes none)]),
        .qt (.rect ⟨BitVec.ofInt 32 (-5), 7, 100, BitVec.ofInt 32 (-20)⟩)] ∧
    copyMembers (fun _ _ => false) demoEnv 4 qtClass qtOther qtObject = .ok qtObject ∧
    eqMembers (fun _ _ => true) demoEnv 4 qtClass qtObject qtOther = .ok false ∧
    eqMembers (fun _ _ => true) demoEnv 4 qtClass qtObject qtObject = .ok true := by
  refine ⟨by with_unfolding_all rfl, by with_unfolding_all rfl, by with_unfolding_all rfl, by with_unfolding_all rfl⟩

/-- What the round trip gives in the used object. -/
example : (∀ (i : Nat) (f : Member) (s : Slot), qtClass[i]? = some f → qtObject[i]? = some s → Exact demoEnv f.ty s) ∧
    deserializeTo (fun _ _ => false) demoEnv qtEnv qtClass 40 4
        [58, 13, 18, 5, 16, 51, 8, 212, 1, 10, 4, 16, 14, 8, 9, 34, 5, 13, 0, 0, 0, 0, 18, 4, 16, 8, 8, 6, 8, 7] qtOther =
      (.ok (), .ok [.val (.sc (.w32 7)), .qt (.size ⟨3, 4⟩), .val (.msg [.sc (.w32 0), .sc (.bytes none)]),
        .qt (.rect ⟨BitVec.ofInt 32 (-5), 7, 100, BitVec.ofInt 32 (-20)⟩)]) := by
  refine ⟨fun i f s hf hs => ?_, by with_unfolding_all rfl⟩
  match i with
  | 0 => cases hf; cases hs; exact .plain (.sc ⟨rfl, trivial, trivial⟩)
  | 1 => cases hf; cases hs; exact Exact.qt (q := .size ⟨3, 4⟩) trivial
  | 2 => cases hf; cases hs; exact .plain (.null 1)
  | 3 =>
    cases hf; cases hs
    exact Exact.qt (q := .rect ⟨BitVec.ofInt 32 (-5), 7, 100, BitVec.ofInt 32 (-20)⟩) (by simp only [Faithful, Fits]; decide)
  | _ + 4 => simp [qtClass] at hf

/-- Message types without maps. -/
def smallEnv : Env := { demoEnv with sch := fun m => if m = 1 then demoSch 1 else [], ord := fun m => if m = 1 then demoEnv.ord 1 else [] }

/-- The hypotheses of `C121_assign_returns_partial`, `C121_target_partial` and `C121_roundtrip_partial`. -/
example : NoMessageMaps smallEnv ∧ World smallEnv qtEnv ∧ Object smallEnv qtClass qtObject ∧ Object smallEnv qtClass qtOther := by
  refine ⟨?_, ⟨?_, ?_, qtEnv_ok.1.trans Peer.C86_schema.1, qtEnv_ok.2.1, qtEnv_ok.2.2⟩, ⟨rfl, fun i f s hf hs => ?_⟩, ⟨rfl, fun i f s hf hs => ?_⟩⟩
  · intro m f hf
    by_cases h : m = 1
    · subst h; simp [smallEnv, demoSch] at hf; rcases hf with rfl | rfl <;> simp
    · simp [smallEnv, h] at hf
  · intro m
    by_cases h : m = 1
    · subst h; exact demo_valid 1
    · simp [smallEnv, h]
  · intro m
    by_cases h : m = 1
    · subst h; exact demo_order 1
    · simp [smallEnv, h]
  · match i with
    | 0 => cases hf; cases hs; exact .plain (.sc rfl)
    | 1 => cases hf; cases hs; exact .qt (.size ⟨3, 4⟩)
    | 2 => cases hf; cases hs; exact .plain (.null 1)
    | 3 => cases hf; cases hs; exact .qt (.rect ⟨BitVec.ofInt 32 (-5), 7, 100, BitVec.ofInt 32 (-20)⟩)
    | _ + 4 => simp [qtClass] at hf
  · match i with
    | 0 => cases hf; cases hs; exact .plain (.sc rfl)
    | 1 => cases hf; cases hs; exact .qt (.size ⟨0, 4⟩)
    | 2 => cases hf; cases hs; exact .plain (holds_of_holdsB (n := 3) (fun k s h => h) (p := Kind.holds) (by decide))
    | 3 => cases hf; cases hs; exact .qt (.rect ⟨1, 2, 3, 4⟩)
    | _ + 4 => simp [qtClass] at hf

/-! ### Where it fails -/

/-- A copy of a message with a point that Qt takes for equal to (0, 0), such as (1e-13, 0), has (0, 0). -/
theorem C121_copy_violated (eq : QtVal → QtVal → Bool) (h : eq (.pointF ⟨0, 0⟩) (.pointF ⟨0x3d3c25c268497682#64, 0⟩) = true) (garbage : Slot) :
    copyMembers eq demoEnv 1 [⟨1, .qt 8⟩] [garbage] [.qt (.pointF ⟨0x3d3c25c268497682#64, 0⟩)] = .ok [.qt (.pointF ⟨0, 0⟩)] := by
  have : copyMembers eq demoEnv 1 [⟨1, .qt 8⟩] [garbage] [.qt (.pointF ⟨0x3d3c25c268497682#64, 0⟩)] =
      .ok [.qt (setQt eq (.pointF ⟨0, 0⟩) (.pointF ⟨0x3d3c25c268497682#64, 0⟩))] := by
    with_unfolding_all rfl
  rw [this, setQt, if_pos h]

end QtPb.Qt
