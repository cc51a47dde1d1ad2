import Verif.SpecQtNestedBytes
import Verif.UbConverse
import Verif.PropsQtNestedJsonSafe
/-
Lemmas for C128: reading ends when no length is negative.
-/
namespace QtPb.Qt
open QtPb Spec NestedBytesSpec

section
variable {eq : QtVal → QtVal → Bool} {env envQ : Env} {cls : Classes}

theorem NestedBytesSpec.NoNegativeLengths.suffix {c r : Bytes} (h : NoNegativeLengths env envQ cls (c ++ r)) : NoNegativeLengths env envQ cls r := by
  intro pre tag l rest t n he
  exact h (c ++ pre) tag l rest t n (by rw [he]; simp)

theorem NestedBytesSpec.NoNegativeLengths.prefix {c r : Bytes} (h : NoNegativeLengths env envQ cls (c ++ r)) : NoNegativeLengths env envQ cls c := by
  intro pre tag l rest t n he
  exact h pre tag l (rest ++ r) t n (by rw [he]; simp)

theorem NestedBytesSpec.NoNegativeLengths.lenOk {tag r : Bytes} {t : Nat} (h : NoNegativeLengths env envQ cls (tag ++ r)) (hv : Varint tag t)
    (hs : announcesLength env envQ cls (t % 2 ^ 32 / 8) (t % 8)) : LenOk r := by
  intro l n rest he hl
  exact h [] tag l rest t n (by rw [he]; rfl) hv hs hl

theorem NestedBytesSpec.NoNegativeLengths.left {bs : Bytes} (h : NoNegativeLengths env envQ cls bs) : NoNegativeLength env bs :=
  fun pre tag l rest t n he hv hs hl => h pre tag l rest t n he hv (.inl hs) hl

theorem NestedBytesSpec.NoNegativeLengths.right {bs : Bytes} (h : NoNegativeLengths env envQ cls bs) : NoNegativeLength envQ bs :=
  fun pre tag l rest t n he hv hs hl => h pre tag l rest t n he hv (.inr (.inl hs)) hl

theorem recEnds (env : Env) (n : Nat) : RecEnds env (deserializeMessage env n) n :=
  fun m body h hb hl => deserializeMessage_ends n m body h hl hb

theorem derefAll_ends {α : Type} (f : Obj → α) : ∀ l : List Val, derefAll f l ≠ .fuel
  | [] => by simp [derefAll]
  | v :: l => by
    have ih := derefAll_ends f l
    cases v <;> first
      | exact bind_ne_fuel ih fun _ _ => by simp
      | simp [derefAll]

theorem farEnd_ends (a b : BitVec 32) : farEnd a b ≠ .fuel := by
  have h : ∀ x : Int, int32 x ≠ .fuel := by
    intro x
    unfold int32
    split <;> simp
  exact bind_ne_fuel (h _) fun _ _ => h _

theorem fromMessage_ends (m : Nat) (o : Obj) : fromMessage envQ m o ≠ .fuel := by
  unfold fromMessage
  split <;> first
    | exact bind_ne_fuel (derefAll_ends _ _) fun _ _ => by simp
    | exact bind_ne_fuel (bind_ne_fuel (farEnd_ends _ _) fun _ _ => bind_ne_fuel (farEnd_ends _ _) fun _ _ => by simp) fun _ _ => by simp
    | simp

/-- Where a record may start. -/
def DeepOk (env envQ : Env) (cls : Classes) (ty : DeepTy) (r : Bytes) : Prop := NoNegativeLengths env envQ cls r ∧ (lengthFirst ty → LenOk r)

/-- Nested objects of fewer than `B` bytes do not run out of steps. -/
def DeepEnds (env envQ : Env) (cls : Classes) (rec : Nat → Bytes → Res Unit × List Deep) (B : Nat) : Prop :=
  ∀ c body, NoNegativeLengths env envQ cls body → body.length < B → body.length < 2 ^ 31 → (rec c body).1 ≠ .fuel

variable {rec : Nat → Bytes → Res Unit × List Deep}

theorem deserializeSub_adv {c : Nat} {it it' : It} {o : List Deep} {r : Bytes} (hat : At it r) (hl : LenOk r) (h : deserializeSub rec c it = .ok (o, it')) :
    ∃ a r', r = a ++ r' ∧ it' = ⟨it.data, it.pos + a.length⟩ ∧
      ∀ it2 post, At it2 (a ++ post) → deserializeSub rec c it2 = .ok (o, ⟨it2.data, it2.pos + a.length⟩) := by
  simp only [deserializeSub, Res.bind_eq, Res.bind_eq_ok] at h
  obtain ⟨⟨body, it1⟩, h1, h⟩ := h
  obtain ⟨a, r', rfl, _, rfl, hloc⟩ := deserializeLengthDelimited_local.ok hat hl h1
  simp only at h
  split at h
  · rename_i o' hrec
    cases h
    refine ⟨a, r', rfl, rfl, fun it2 post hat2 => ?_⟩
    simp only [deserializeSub, hloc it2 post hat2, Res.bind_eq, Res.bind, hrec]
  all_goals cases h

theorem deserializeSub_ends {B c : Nat} {it : It} {r : Bytes} (hrec : DeepEnds env envQ cls rec B) (hat : At it r) (hr : NoNegativeLengths env envQ cls r)
    (hl : LenOk r) (hB : r.length < B) : deserializeSub rec c it ≠ .fuel := by
  refine bind_ne_fuel (deserializeLengthDelimited_ends it) fun x hx => ?_
  obtain ⟨body, it1⟩ := x
  obtain ⟨a, r', rfl, ⟨l, N, rfl, _, _⟩, rfl, _⟩ := deserializeLengthDelimited_local.ok hat hl hx
  have h1 := hat.len
  have h2 := hat.1
  simp only [List.length_append] at hB h1
  rw [List.append_assoc] at hr
  have := hrec c body hr.suffix.prefix (by omega) (by omega)
  simp only
  split <;> simp_all

theorem readDeep_adv {n k : Nat} {f : DeepField} {cur s : Deep} {it it' : It} {r : Bytes}
    (hm : ∀ kk vt, f.ty = .plain (.map kk vt) → ∃ m, ∃ g ∈ env.sch m, g.ty = .map kk vt) (hat : At it r)
    (hr : DeepOk env envQ cls f.ty r) (h : readDeep eq env envQ rec n k f cur it = .ok (s, it')) :
    ∃ a r', r = a ++ r' ∧ it' = ⟨it.data, it.pos + a.length⟩ ∧
      ∀ it2 post, At it2 (a ++ post) → readDeep eq env envQ rec n k f cur it2 = .ok (s, ⟨it2.data, it2.pos + a.length⟩) := by
  obtain ⟨num, ty⟩ := f
  unfold readDeep at h ⊢
  simp only at h hr hm ⊢
  split at h
  · simp only [Res.bind_eq, Res.bind_eq_ok] at h
    obtain ⟨⟨v, it1⟩, h1, h2⟩ := h
    cases h2
    obtain ⟨a, r', e, _, e2, hloc⟩ := (deserializeValue_local (fun kk vt ht => hm kk vt (by rw [ht])) k _).ok hat ⟨hr.1.left, hr.2⟩ h1
    exact ⟨a, r', e, e2, fun it2 post hat2 => by simp only [hloc it2 post hat2, Res.bind_eq, Res.bind]⟩
  · simp only [handlerDeserialize, Res.bind_eq, Res.bind_eq_ok] at h
    obtain ⟨⟨q', it1⟩, ⟨⟨o, it2⟩, h1, q2, h3, h4⟩, h2⟩ := h
    cases h4
    cases h2
    obtain ⟨a, r', e, _, e2, hloc⟩ := (deserializeObject_local _).ok hat (hr.2 trivial) h1
    exact ⟨a, r', e, e2, fun it2 post hat2 => by simp only [handlerDeserialize, hloc it2 post hat2, Res.bind_eq, Res.bind, h3]⟩
  · simp only [Res.bind_eq, Res.bind_eq_ok] at h
    obtain ⟨⟨o, it1⟩, h1, h2⟩ := h
    cases h2
    obtain ⟨a, r', e, e2, hloc⟩ := deserializeSub_adv hat (hr.2 trivial) h1
    exact ⟨a, r', e, e2, fun it2 post hat2 => by simp only [hloc it2 post hat2, Res.bind_eq, Res.bind]⟩
  · simp only [Res.bind_eq, Res.bind_eq_ok] at h
    obtain ⟨⟨o, it1⟩, h1, h2⟩ := h
    cases h2
    obtain ⟨a, r', e, e2, hloc⟩ := deserializeSub_adv hat (hr.2 trivial) h1
    exact ⟨a, r', e, e2, fun it2 post hat2 => by simp only [hloc it2 post hat2, Res.bind_eq, Res.bind]⟩
  · cases h

theorem readDeep_ends {n k : Nat} {f : DeepField} {cur : Deep} {it : It} {r : Bytes}
    (hm : ∀ kk vt, f.ty = .plain (.map kk vt) → ∃ m, ∃ g ∈ env.sch m, g.ty = .map kk vt) (hrec : DeepEnds env envQ cls rec n) (hat : At it r)
    (hr : DeepOk env envQ cls f.ty r) (hn : r.length < n) (hk : r.length ≤ k) : readDeep eq env envQ rec n k f cur it ≠ .fuel := by
  obtain ⟨num, ty⟩ := f
  unfold readDeep
  simp only at hr hm ⊢
  split
  · exact bind_ne_fuel (deserializeValue_ends (recEnds env n) (fun kk vt ht => hm kk vt (by rw [ht])) hat ⟨hr.1.left, hr.2⟩ hn hk) fun _ _ => by simp
  · refine bind_ne_fuel (bind_ne_fuel (deserializeObject_ends (recEnds envQ n) _ it r hat ⟨hr.1.right, hr.2 trivial⟩ hn) fun _ _ => ?_) fun _ _ => by simp
    exact bind_ne_fuel (fromMessage_ends _ _) fun _ _ => by simp
  · exact bind_ne_fuel (deserializeSub_ends hrec hat hr.1 (hr.2 trivial) hn) fun _ _ => by simp
  · exact bind_ne_fuel (deserializeSub_ends hrec hat hr.1 (hr.2 trivial) hn) fun _ _ => by simp
  · simp

theorem findDeep_found {fs : List DeepField} {num i : Nat} (h : findDeep fs num = some i) : ∃ f, fs[i]? = some f ∧ f ∈ fs ∧ f.num = num := by
  unfold findDeep at h
  rw [List.findIdx?_eq_some_iff_getElem] at h
  obtain ⟨hi, h1, _⟩ := h
  exact ⟨fs[i], by simp [hi], by simp, by simpa using h1⟩

theorem deepProperty_adv (hm : MapsKnown env cls) {n k c : Nat} {it it' : It} {o o' : List Deep} {r : Bytes} (hat : At it r)
    (hr : NoNegativeLengths env envQ cls r) (h : deepProperty eq env envQ rec n k (cls.tab c) it o = .ok (it', o')) :
    ∃ a r', r = a ++ r' ∧ 0 < a.length ∧ it' = ⟨it.data, it.pos + a.length⟩ ∧
      ∀ it2 post, At it2 (a ++ post) → deepProperty eq env envQ rec n k (cls.tab c) it2 o = .ok (⟨it2.data, it2.pos + a.length⟩, o') := by
  simp only [deepProperty, Res.bind_eq, Res.bind_eq_ok] at h
  obtain ⟨⟨hd, it1⟩, h1, h⟩ := h
  obtain ⟨a, r', rfl, ⟨t, hv, e1, e2⟩, rfl, hloc⟩ := decodeHeader_local.ok hat trivial h1
  have hpos := hv.pos
  simp only at h
  split at h
  · cases h
  · rename_i hval
    split at h
    · rename_i hnone
      simp only [Res.bind_eq_ok] at h
      obtain ⟨it2, h2, h3⟩ := h
      cases h3
      obtain ⟨b, r2, rfl, _, e, hloc2⟩ := (skipOp_local hd.wt).ok (v := ()) (it' := it') hat.adv
        (fun hw => hr.lenOk hv (by rw [← e1, ← e2]; exact .inl (.inl hw))) (by rw [skipOp, h2]; rfl)
      refine ⟨a ++ b, r2, by simp, by simp; omega, by rw [e]; simp [Nat.add_assoc], fun it2 post hat2 => ?_⟩
      rw [List.append_assoc] at hat2
      have h5 := hloc2 _ _ hat2.adv
      simp only [skipOp, Res.bind_eq, Res.bind_eq_ok, Res.ok.injEq, Prod.mk.injEq] at h5
      obtain ⟨it3, h6, _, rfl⟩ := h5
      simp only [deepProperty, hloc _ _ hat2, Res.bind_eq, Res.bind, hval, hnone, h6]
      simp [Nat.add_assoc]
    · rename_i i hfd
      obtain ⟨f, hf, hmem, hnum⟩ := findDeep_found hfd
      cases hv2 : o[i]? with
      | none => simp only [hf, hv2] at h; cases h
      | some cur =>
        simp only [hf, hv2, Res.bind_eq_ok] at h
        obtain ⟨⟨s, it2⟩, h2, h3⟩ := h
        cases h3
        obtain ⟨b, r2, rfl, e, hloc2⟩ := readDeep_adv (fun kk vt ht => hm c f hmem kk vt ht) hat.adv
          ⟨hr.suffix, fun hl => hr.lenOk hv (by rw [← e1]; exact .inr (.inr ⟨c, f, hmem, hnum, hl⟩))⟩ h2
        refine ⟨a ++ b, r2, by simp, by simp; omega, by rw [e]; simp [Nat.add_assoc], fun it2 post hat2 => ?_⟩
        rw [List.append_assoc] at hat2
        simp only [deepProperty, hloc _ _ hat2, Res.bind_eq, Res.bind, hval, hfd, hf, hv2, hloc2 _ _ hat2.adv]
        simp [Nat.add_assoc]

theorem deepProperty_ends (hm : MapsKnown env cls) {n k c : Nat} {it : It} {o : List Deep} {r : Bytes} (hrec : DeepEnds env envQ cls rec n) (hat : At it r)
    (hr : NoNegativeLengths env envQ cls r) (hn : r.length ≤ n) (hk : r.length ≤ k) : deepProperty eq env envQ rec n k (cls.tab c) it o ≠ .fuel := by
  refine bind_ne_fuel (decodeHeader_ends it) fun x hx => ?_
  obtain ⟨hd, it1⟩ := x
  obtain ⟨a, r', rfl, ⟨t, hv, e1, e2⟩, rfl, _⟩ := decodeHeader_local.ok hat trivial hx
  have hpos := hv.pos
  simp only [List.length_append] at hn hk
  simp only
  split
  · simp
  · split
    · exact bind_ne_fuel (skipField_ends _ _) fun _ _ => by simp
    · rename_i i hfd
      obtain ⟨f, hf, hmem, hnum⟩ := findDeep_found hfd
      rw [hf]
      cases ho : o[i]? with
      | none => simp
      | some cur =>
        exact bind_ne_fuel (readDeep_ends (fun kk vt ht => hm c f hmem kk vt ht) hrec hat.adv
          ⟨hr.suffix, fun hl => hr.lenOk hv (by rw [← e1]; exact .inr (.inr ⟨c, f, hmem, hnum, hl⟩))⟩ (by omega) (by omega)) fun _ _ => by simp

theorem deepLoop_ends (hm : MapsKnown env cls) {n c : Nat} (hrec : DeepEnds env envQ cls rec n) : ∀ (k : Nat) {it : It} {o : List Deep} {r : Bytes}, At it r →
    NoNegativeLengths env envQ cls r → r.length ≤ n → r.length < k → (deepLoop eq env envQ rec n (cls.tab c) k it o).1 ≠ .fuel
  | 0, _, _, _, _, _, _, h => by omega
  | k + 1, it, o, r, hat, hr, hn, hk => by
    unfold deepLoop
    split
    · simp
    · split
      · rename_i it1 o1 h1
        obtain ⟨a, r', rfl, ha, rfl, _⟩ := deepProperty_adv hm hat hr h1
        simp only [List.length_append] at hn hk
        exact deepLoop_ends hm hrec k hat.adv hr.suffix (by omega) (by omega)
      · simp
      · simp
      · rename_i h1
        exact absurd h1 (deepProperty_ends hm hrec hat hr hn (by omega))

theorem deserializeDeep_ends (hm : MapsKnown env cls) (n : Nat) : DeepEnds env envQ cls (deserializeDeep eq env envQ cls n) n := by
  induction n with
  | zero => intro c body _ h; omega
  | succ n ih =>
    intro c body h hb hl
    exact deepLoop_ends hm ih (n + 1) (At.start hl) h (by omega) hb

/-! ### Larger budgets -/

/-- `rec'` gives every result that `rec` gives. -/
def DeepLe (rec rec' : Nat → Bytes → Res Unit × List Deep) : Prop := ∀ c b, (rec c b).1 ≠ .fuel → rec' c b = rec c b

variable {rec' : Nat → Bytes → Res Unit × List Deep}

theorem deserializeSub_le (hle : DeepLe rec rec') {c : Nat} {it : It} (h : deserializeSub rec c it ≠ .fuel) :
    deserializeSub rec' c it = deserializeSub rec c it := by
  refine bind_le h (fun _ => rfl) fun a ha => ?_
  obtain ⟨body, it1⟩ := a
  have : (rec c body).1 ≠ .fuel := by
    intro e
    apply ha
    simp only
    generalize rec c body = x at e
    obtain ⟨y, o⟩ := x
    cases e
    rfl
  simp only [hle c body this]

theorem recLe (env : Env) {n n' : Nat} (hn : n ≤ n') : RecLe (deserializeMessage env n) (deserializeMessage env n') :=
  fun _ _ h => deserializeMessage_le hn h

theorem readDeep_le (hle : DeepLe rec rec') {n n' k k' : Nat} (hn : n ≤ n') (hk : k ≤ k') {f : DeepField} {cur : Deep} {it : It}
    (h : readDeep eq env envQ rec n k f cur it ≠ .fuel) : readDeep eq env envQ rec' n' k' f cur it = readDeep eq env envQ rec n k f cur it := by
  obtain ⟨num, ty⟩ := f
  cases ty with
  | plain ty =>
    cases cur with
    | val v => exact bind_le h (fun h => deserializeValue_le (recLe env hn) hk h) fun _ _ => rfl
    | _ => rfl
  | qt m =>
    cases cur with
    | qt q => exact bind_le h (fun h => bind_le h (fun h => deserializeObject_le (recLe envQ hn) h) fun _ _ => rfl) fun _ _ => rfl
    | _ => rfl
  | sub c => cases cur <;> exact bind_le h (fun h => deserializeSub_le hle h) fun _ _ => rfl
  | subs c =>
    cases cur with
    | subs l => exact bind_le h (fun h => deserializeSub_le hle h) fun _ _ => rfl
    | _ => rfl

theorem deepProperty_le (hle : DeepLe rec rec') {n n' k k' : Nat} (hn : n ≤ n') (hk : k ≤ k') {fs : List DeepField} {it : It} {o : List Deep}
    (h : deepProperty eq env envQ rec n k fs it o ≠ .fuel) : deepProperty eq env envQ rec' n' k' fs it o = deepProperty eq env envQ rec n k fs it o := by
  refine bind_le h (fun _ => rfl) fun a ha => ?_
  dsimp only at ha ⊢
  split
  · rfl
  · rename_i hv
    rw [if_neg hv] at ha
    cases hf : findDeep fs a.1.num with
    | none => rfl
    | some i =>
      rw [hf] at ha
      dsimp only at ha ⊢
      cases h1 : fs[i]? with
      | none => rfl
      | some f =>
        cases h2 : o[i]? with
        | none => rfl
        | some cur =>
          rw [h1, h2] at ha
          exact bind_le ha (fun h => readDeep_le hle hn hk h) fun _ _ => rfl

theorem deepLoop_le (hle : DeepLe rec rec') {n n' : Nat} (hn : n ≤ n') {fs : List DeepField} : ∀ {k k' : Nat} {it : It} {o : List Deep}, k ≤ k' →
    (deepLoop eq env envQ rec n fs k it o).1 ≠ .fuel → deepLoop eq env envQ rec' n' fs k' it o = deepLoop eq env envQ rec n fs k it o
  | 0, _, _, _, _, h => by simp [deepLoop] at h
  | k + 1, k', it, o, hk, h => by
    obtain ⟨j, rfl⟩ : ∃ j, k' = j + 1 := ⟨k' - 1, by omega⟩
    simp only [deepLoop] at h ⊢
    split
    · rfl
    · rename_i hl
      rw [if_neg hl] at h
      have : deepProperty eq env envQ rec n k fs it o ≠ .fuel := by
        intro e
        rw [e] at h
        exact h rfl
      rw [deepProperty_le hle hn (by omega) this]
      cases h1 : deepProperty eq env envQ rec n k fs it o with
      | ok x =>
        rw [h1] at h
        exact deepLoop_le hle hn (by omega) h
      | _ => rfl

theorem deserializeDeep_le {n n' : Nat} (hn : n ≤ n') : DeepLe (deserializeDeep eq env envQ cls n) (deserializeDeep eq env envQ cls n') := by
  induction n generalizing n' with
  | zero => intro c b h; simp [deserializeDeep] at h
  | succ n ih =>
    obtain ⟨j, rfl⟩ : ∃ j, n' = j + 1 := ⟨n' - 1, by omega⟩
    intro c b h
    exact deepLoop_le (ih (by omega)) (by omega) hn h

end

end QtPb.Qt
