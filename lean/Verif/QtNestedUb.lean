import Verif.QtNestedEnds
import Verif.PropsCompare
/-
Lemmas for C128: what is left in the object, and where undefined behaviour can come from.
-/
namespace QtPb.Qt
open QtPb Spec NestedSafeSpec NestedBytesSpec

section
variable {eq : QtVal → QtVal → Bool} {env envQ : Env} {cls : Classes}

theorem write_hasTy {ty : FieldTy} {cur v : Val} (hc : HasTy env ty cur) (hv : HasTy env ty v) : HasTy env ty (writeVal ty cur v) := by
  unfold writeVal
  split
  · split
    · exact hc
    · exact hv
  · split
    · exact hc
    · exact hv
  · split
    · exact hc
    · exact hv
  · split
    · exact hc
    · exact hv
  · exact hv

theorem newObject_class (hq : QtOnly cls) (c : Nat) : Shaped env cls (.sub c) (.sub (newObject cls c)) := by
  refine .sub (by simp [newObject]) fun i f s hf hs => ?_
  rw [newObject_get hf] at hs
  cases hs
  cases hty : f.ty with
  | plain ty => simp only [DeepField.default, hty]; exact .plain (hasTy_default ty)
  | qt m =>
    simp only [DeepField.default, hty]
    obtain ⟨q, rfl⟩ := hq c f (List.mem_of_getElem? hf) m hty
    have := Shaped.qt (env := env) (cls := cls) (qtDefault (Peer.carrier q))
    rwa [carrier_default] at this
  | sub c' => simp only [DeepField.default, hty]; exact .unset c'
  | subs c' => simp only [DeepField.default, hty]; exact .subs (by simp) (by simp)

theorem shaped_put {c i : Nat} {o : List Deep} {f : DeepField} {s : Deep} (ho : Shaped env cls (.sub c) (.sub o)) (hf : (cls.tab c)[i]? = some f)
    (hs : Shaped env cls f.ty s) : Shaped env cls (.sub c) (.sub (o.set i s)) := by
  cases ho with
  | sub a b =>
    refine .sub (by simpa using a) fun k g w hg hw => ?_
    by_cases hk : i = k
    · subst hk
      rw [hf] at hg
      cases hg
      rw [List.getElem?_set_self (by rw [a]; exact (List.getElem?_eq_some_iff.mp hf).1)] at hw
      cases hw
      exact hs
    · rw [List.getElem?_set_ne hk] at hw
      exact b k g w hg hw

theorem deserializeSub_shaped {rec : Nat → Bytes → Res Unit × List Deep} (h : ∀ c data, Shaped env cls (.sub c) (.sub (rec c data).2)) {c : Nat}
    {it it' : It} {o : List Deep} (hr : deserializeSub rec c it = .ok (o, it')) : Shaped env cls (.sub c) (.sub o) := by
  simp only [deserializeSub, Res.bind_eq, Res.bind_eq_ok] at hr
  obtain ⟨⟨body, it1⟩, _, hr⟩ := hr
  have := h c body
  simp only at hr
  split at hr <;> simp_all

theorem readDeep_shaped {rec : Nat → Bytes → Res Unit × List Deep} (h : ∀ c data, Shaped env cls (.sub c) (.sub (rec c data).2)) {n k : Nat}
    {f : DeepField} {cur s : Deep} {it it' : It} (hc : Shaped env cls f.ty cur) (hr : readDeep eq env envQ rec n k f cur it = .ok (s, it')) :
    Shaped env cls f.ty s := by
  obtain ⟨num, ty⟩ := f
  have sub : ∀ {c' : Nat} {cur : Deep}, readDeep eq env envQ rec n k ⟨num, .sub c'⟩ cur it = .ok (s, it') → Shaped env cls (.sub c') s := by
    intro c' cur hr
    simp only [readDeep, Res.bind_eq, Res.bind_eq_ok] at hr
    obtain ⟨⟨o, it1⟩, h1, h2⟩ := hr
    cases h2
    exact deserializeSub_shaped h h1
  simp only at hc ⊢
  cases hc with
  | plain hv =>
    simp only [readDeep, Res.bind_eq, Res.bind_eq_ok] at hr
    obtain ⟨⟨v, it1⟩, h1, h2⟩ := hr
    cases h2
    exact .plain (write_hasTy hv (deserializeValue_typed (fun m data => deserializeMessage_typed n m data) hv h1))
  | qt q =>
    simp only [readDeep, handlerDeserialize, Res.bind_eq, Res.bind_eq_ok] at hr
    obtain ⟨⟨q', it1⟩, ⟨⟨o, it2⟩, _, q2, h3, h4⟩, h2⟩ := hr
    cases h4
    cases h2
    have e := fromMessage_carrier h3
    have e2 : Peer.carrier (setQt eq q q') = Peer.carrier q := (setQt_carrier e.symm).trans e
    have := Shaped.qt (env := env) (cls := cls) (setQt eq q q')
    rwa [e2] at this
  | unset c' => exact sub hr
  | sub => exact sub hr
  | @subs c' l ha hb =>
    simp only [readDeep, Res.bind_eq, Res.bind_eq_ok] at hr
    obtain ⟨⟨o, it1⟩, h1, h2⟩ := hr
    cases h2
    have ho := deserializeSub_shaped h h1
    refine .subs (fun s hs => ?_) fun s hs => ?_ <;> rcases List.mem_append.mp hs with hs | hs
    · exact ha s hs
    · exact ⟨o, List.mem_singleton.mp hs⟩
    · exact hb s hs
    · rw [List.mem_singleton.mp hs]; exact ho

theorem deepProperty_shaped {rec : Nat → Bytes → Res Unit × List Deep} (h : ∀ c data, Shaped env cls (.sub c) (.sub (rec c data).2)) {n k c : Nat}
    {it it' : It} {o o' : List Deep} (ho : Shaped env cls (.sub c) (.sub o))
    (hr : deepProperty eq env envQ rec n k (cls.tab c) it o = .ok (it', o')) : Shaped env cls (.sub c) (.sub o') := by
  simp only [deepProperty, Res.bind_eq, Res.bind_eq_ok] at hr
  obtain ⟨⟨hd, it1⟩, _, hr⟩ := hr
  simp only at hr
  split at hr
  · cases hr
  · split at hr
    · simp only [Res.bind_eq_ok] at hr
      obtain ⟨it2, _, h2⟩ := hr
      cases h2
      exact ho
    · rename_i i _
      cases hf : (cls.tab c)[i]? with
      | none => simp only [hf] at hr; cases hr
      | some f =>
        cases hv : o[i]? with
        | none => simp only [hf, hv] at hr; cases hr
        | some cur =>
          simp only [hf, hv, Res.bind_eq_ok] at hr
          obtain ⟨⟨s, it2⟩, h1, h2⟩ := hr
          cases h2
          have hc : Shaped env cls f.ty cur := by cases ho with | sub a b => exact b i f cur hf hv
          exact shaped_put ho hf (readDeep_shaped h hc h1)

theorem deepLoop_shaped {rec : Nat → Bytes → Res Unit × List Deep} (h : ∀ c data, Shaped env cls (.sub c) (.sub (rec c data).2)) {n c : Nat} :
    ∀ (k : Nat) {it : It} {o : List Deep}, Shaped env cls (.sub c) (.sub o) →
    Shaped env cls (.sub c) (.sub (deepLoop eq env envQ rec n (cls.tab c) k it o).2)
  | 0, _, _, ho => ho
  | k + 1, it, o, ho => by
    unfold deepLoop
    split
    · exact ho
    · split
      · rename_i it1 o1 h1
        exact deepLoop_shaped h k (deepProperty_shaped h ho h1)
      all_goals exact ho

/-! ### No null pointers in lists of messages that were read -/

theorem deserializeValue_noNull {rec : Nat → Bytes → MsgResult} {ty : FieldTy} {n : Nat} {cur v : Val} {it it' : It}
    (hc : ∀ l, cur = .msgList l → ∀ x ∈ l, ∃ p, x = .msg p) (h : deserializeValue env rec ty n cur it = .ok (v, it')) :
    ∀ l, v = .msgList l → ∀ x ∈ l, ∃ p, x = .msg p := by
  rintro l rfl x hx
  cases ty <;> simp only [deserializeValue, Res.bind_eq, Res.bind_eq_ok] at h
  case msgList m =>
    obtain ⟨⟨o, it1⟩, _, h2⟩ := h
    cases h2
    rcases List.mem_append.mp hx with hx | hx
    · cases cur <;> simp at hx
      exact hc _ rfl x hx
    · exact ⟨o, List.mem_singleton.mp hx⟩
  all_goals
    obtain ⟨y, _, h2⟩ := h
    cases h2

theorem property_noNull {rec : Nat → Bytes → MsgResult} {m n : Nat} {o o' : Obj} {it it' : It} (ho : NoNulls o)
    (h : deserializeProperty env rec m n it o = .ok (it', o')) : NoNulls o' := by
  simp only [deserializeProperty, Res.bind_eq, Res.bind_eq_ok] at h
  obtain ⟨⟨hd, it1⟩, _, h⟩ := h
  simp only at h
  split at h
  · cases h
  · split at h
    · simp only [Res.bind_eq_ok] at h
      obtain ⟨it2, _, h2⟩ := h
      cases h2
      exact ho
    · rename_i i _
      split at h
      · rename_i f cur hf hcur
        simp only [Res.bind_eq_ok] at h
        obtain ⟨⟨v, it2⟩, h1, h2⟩ := h
        cases h2
        have hc : ∀ l, cur = .msgList l → ∀ x ∈ l, ∃ p, x = .msg p := fun l e => ho i l (e ▸ hcur)
        have hv := deserializeValue_noNull hc h1
        intro k l hk
        by_cases hik : i = k
        · subst hik
          rw [List.getElem?_set_self (List.getElem?_eq_some_iff.mp hcur).1] at hk
          have : writeVal f.ty cur v = cur ∨ writeVal f.ty cur v = v := by
            unfold writeVal
            repeat' split
            all_goals first | exact .inl rfl | exact .inr rfl
          rcases this with e | e <;> rw [e] at hk
          · exact hc l (Option.some.inj hk)
          · exact hv l (Option.some.inj hk)
        · rw [List.getElem?_set_ne hik] at hk
          exact ho k l hk
      · cases h

theorem messageLoop_noNull {rec : Nat → Bytes → MsgResult} {m : Nat} : ∀ (n : Nat) {it : It} {o : Obj}, NoNulls o → NoNulls (messageLoop env rec m n it o).2
  | 0, _, _, ho => ho
  | n + 1, it, o, ho => by
    unfold messageLoop
    split
    · exact ho
    · split
      · rename_i it1 o1 h1
        exact messageLoop_noNull n (property_noNull ho h1)
      all_goals exact ho

theorem defaultObj_noNull (m : Nat) : NoNulls (defaultObj env m) := by
  intro i l h
  rw [defaultObj, List.getElem?_map] at h
  cases hf : (env.sch m)[i]? with
  | none => simp [hf] at h
  | some f =>
    simp only [hf, Option.map_some, Option.some.injEq] at h
    cases hty : f.ty <;> simp [hty, defaultVal] at h
    subst h
    simp

theorem deserialize_noNull (n m : Nat) (data : Bytes) : NoNulls (deserializeMessage env n m data).2 := by
  cases n with
  | zero => exact defaultObj_noNull m
  | succ n => exact messageLoop_noNull _ (defaultObj_noNull m)

/-! ### Undefined behaviour -/

variable {rec : Nat → Bytes → Res Unit × List Deep} {ok : Nat → Bytes → Prop}

/-- The induction hypothesis for nested objects. -/
def DeepUb (env envQ : Env) (cls : Classes) (rec : Nat → Bytes → Res Unit × List Deep) (ok : Nat → Bytes → Prop) : Prop :=
  ∀ c body, NoNegativeLengths env envQ cls body → body.length < 2 ^ 31 → (rec c body).1 = .ub → Breaks env envQ cls ok c body

theorem deserializeSub_ub (hrec : DeepUb env envQ cls rec ok) {c : Nat} {it : It} {r : Bytes} (hat : At it r) (hr : NoNegativeLengths env envQ cls r)
    (hl : LenOk r) (h : deserializeSub rec c it = .ub) :
    CutScalar .bytes r ∨ ∃ l body rest n, r = l ++ (body ++ rest) ∧ Varint l n ∧ body.length = n % 2 ^ 32 ∧ Breaks env envQ cls ok c body := by
  rcases bind_ub h with h | ⟨⟨body, it1⟩, h1, h⟩
  · left
    rcases deserializeLengthDelimited_ub hat hl h with h | ⟨l, rest, n, rfl, h1, h2⟩
    · exact .varint (.inr rfl) h
    · exact .body rfl h1 h2
  · right
    obtain ⟨a, r', rfl, ⟨l, N, rfl, hv, hlen⟩, rfl, _⟩ := deserializeLengthDelimited_local.ok hat hl h1
    have h2 := hat.len
    have h3 := hat.1
    simp only [List.length_append] at h2
    rw [List.append_assoc] at hr ⊢
    refine ⟨l, body, r', N, rfl, hv, hlen, hrec c body hr.suffix.prefix (by omega) ?_⟩
    simp only at h
    split at h <;> simp_all

theorem recUb (env : Env) (n : Nat) : RecUb env (deserializeMessage env n) (Accepted env) :=
  fun m body o h hl e => deserializeMessage_ub n m body o h hl e

theorem recAccepts (env : Env) (n : Nat) : RecAccepts (deserializeMessage env n) (Accepted env) := fun _ _ o h => ⟨n, o, h⟩

/-- Qt types. -/
def IsQt : DeepTy → Prop
  | .qt m => ∃ q, Peer.carrier q = m
  | _ => True

theorem int32_default (m i : Nat) : int32At (defaultObj env m) i = 0 := by
  unfold int32At
  split
  · rename_i b h
    rw [defaultObj, List.getElem?_map] at h
    cases hf : (env.sch m)[i]? with
    | none => simp [hf] at h
    | some f =>
      simp only [hf, Option.map_some, Option.some.injEq] at h
      cases hty : f.ty with
      | scalar k => cases k <;> simp [hty, defaultVal, defaultScalar] at h <;> exact h.symm
      | _ => simp [hty, defaultVal] at h
  · rfl

theorem number_at (o : Obj) (i : Nat) : (int32At o i).toInt = numberOf o i := by
  unfold int32At numberOf
  split <;> simp_all

theorem number_part (m j i : Nat) (o : Obj) : (int32At (msgAt env m o j) i).toInt = numberOf (part o j) i := by
  unfold msgAt part
  cases h : o[j]? with
  | none => simp [numberOf, int32At]
  | some v =>
    cases v <;> simp only [materialize, number_at] <;> first
      | rfl
      | (rw [← number_at, int32_default]; simp [numberOf])

theorem int32_cases (v : Int) : (-2 ^ 31 ≤ v ∧ v < 2 ^ 31 ∧ ∃ b : BitVec 32, int32 v = .ok b ∧ b.toInt = v) ∨ (¬ (-2 ^ 31 ≤ v ∧ v < 2 ^ 31) ∧ int32 v = .ub) := by
  unfold int32
  split
  · rename_i h
    refine .inl ⟨h.1, h.2, _, rfl, ?_⟩
    rw [BitVec.toInt_ofInt]
    exact Int.bmod_eq_of_le (by omega) (by omega)
  · exact .inr ⟨by assumption, rfl⟩

theorem farEnd_cases (a w : BitVec 32) : (-2 ^ 31 + 1 ≤ a.toInt + w.toInt ∧ a.toInt + w.toInt < 2 ^ 31 ∧ ∃ b, farEnd a w = .ok b) ∨
    (¬ (-2 ^ 31 + 1 ≤ a.toInt + w.toInt ∧ a.toInt + w.toInt < 2 ^ 31) ∧ farEnd a w = .ub) := by
  unfold farEnd
  rcases int32_cases (a.toInt + w.toInt) with ⟨h1, h2, b, h3, h4⟩ | ⟨h1, h2⟩
  · simp only [h3, Res.bind_eq, Res.bind, h4]
    rcases int32_cases (a.toInt + w.toInt - 1) with ⟨h5, h6, b', h7, _⟩ | ⟨h5, h6⟩
    · exact .inl ⟨by omega, h2, b', h7⟩
    · exact .inr ⟨by omega, h6⟩
  · simp only [h2, Res.bind_eq, Res.bind]
    exact .inr ⟨by omega, by trivial⟩

theorem rect_ub (o : Obj) : fromMessage env mRect o = .ub ↔ TooFar o := by
  have e : fromMessage env mRect o = (rectFrom env o >>= fun r => .ok (.rect r)) := rfl
  rw [e]
  unfold rectFrom TooFar
  simp only [pointFrom, sizeFrom]
  have hx := farEnd_cases (int32At (msgAt env mPoint o 0) 0) (int32At (msgAt env mSize o 1) 0)
  have hy := farEnd_cases (int32At (msgAt env mPoint o 0) 1) (int32At (msgAt env mSize o 1) 1)
  rw [number_part, number_part] at hx hy
  rcases hx with ⟨h1, h2, b, h3⟩ | ⟨h1, h2⟩
  · rcases hy with ⟨h4, h5, b', h6⟩ | ⟨h4, h5⟩
    · simp only [h3, h6, Res.bind_eq, Res.bind]
      constructor
      · intro h
        simp at h
      rintro ⟨i, hi, h⟩
      obtain rfl | rfl : i = 0 ∨ i = 1 := by omega
      · exact absurd ⟨h1, h2⟩ h
      · exact absurd ⟨h4, h5⟩ h
    · simp only [h3, h5, Res.bind_eq, Res.bind, true_iff]
      exact ⟨1, by omega, h4⟩
  · simp only [h2, Res.bind_eq, Res.bind, true_iff]
    exact ⟨0, by omega, h1⟩

theorem rect_ok {o : Obj} (h : ¬ TooFar o) : ∃ q, fromMessage env mRect o = .ok q := by
  have e : fromMessage env mRect o = (rectFrom env o >>= fun r => .ok (.rect r)) := rfl
  have hu := mt (rect_ub (env := env) o).mp h
  rw [e] at hu ⊢
  unfold rectFrom at hu ⊢
  rcases farEnd_cases (pointFrom (msgAt env mPoint o 0)).x (sizeFrom (msgAt env mSize o 1)).w with ⟨_, _, b, h1⟩ | ⟨_, h1⟩
  · rcases farEnd_cases (pointFrom (msgAt env mPoint o 0)).y (sizeFrom (msgAt env mSize o 1)).h with ⟨_, _, b', h2⟩ | ⟨_, h2⟩
    · simp only [h1, h2, Res.bind_eq, Res.bind]
      exact ⟨_, rfl⟩
    · simp [h1, h2, Res.bind_eq, Res.bind] at hu
  · simp [h1, Res.bind_eq, Res.bind] at hu

theorem readDeep_ub (hrec : DeepUb env envQ cls rec ok) {n k c t : Nat} {f : DeepField} {cur : Deep} {it : It} {pre tag r : Bytes}
    (hm : ∀ kk vt, f.ty = .plain (.map kk vt) → ∃ m, ∃ g ∈ env.sch m, g.ty = .map kk vt) (hq : IsQt f.ty) (hs : Shaped env cls f.ty cur) (hat : At it r)
    (hr : DeepOk env envQ cls f.ty r) (hpre : ok c pre) (hv : Varint tag t) (hw : KnownWireType (t % 8)) (hf : f ∈ cls.tab c)
    (hnum : f.num = t % 2 ^ 32 / 8) (h : readDeep eq env envQ rec n k f cur it = .ub) : Breaks env envQ cls ok c (pre ++ (tag ++ r)) := by
  have sub : ∀ {c'}, (f.ty = .sub c' ∨ f.ty = .subs c') → LenOk r → deserializeSub rec c' it = .ub → Breaks env envQ cls ok c (pre ++ (tag ++ r)) := by
    intro c' hty hl h
    rcases deserializeSub_ub hrec hat hr.1 hl h with h | ⟨l, body, rest, N, rfl, h1, h2, h3⟩
    · exact .short hpre hv hw hf hnum hty h
    · exact .inside hpre hv hw hf hnum hty h1 h2 h3
  unfold readDeep at h
  split at h
  · rename_i ty cur hty
    rw [hty] at hr
    exact .plain hpre hv hw hf hnum hty (deserializeValue_ub (recUb env n) (recAccepts env n) (fun kk vt ht => hm kk vt (by rw [hty, ht])) hat ⟨hr.1.left, hr.2⟩
      (bind_ub_pure h))
  · rename_i m cur hty
    rw [hty] at hr hq
    rcases bind_ub (bind_ub_pure h) with h | ⟨⟨o, it1⟩, h1, h⟩
    · exact .qt hpre hv hw hf hnum hty (deserializeObject_ub (recUb envQ n) (.inl rfl) hat hr.1.right (hr.2 trivial) h)
    · obtain ⟨q, rfl⟩ := hq
      rw [deserializeObject_eq] at h1
      simp only [Res.bind_eq, Res.bind_eq_ok] at h1
      obtain ⟨⟨body, it2⟩, h0, o', h2, h3⟩ := h1
      cases h3
      have hd := ofSub_ok h2
      have ho : NoNulls o := by
        have := deserialize_noNull (env := envQ) n (Peer.carrier q) body
        rwa [hd] at this
      have hu := bind_ub_pure h
      obtain ⟨a, r', rfl, ⟨l, N, rfl, hl, hlen⟩, _, _⟩ := deserializeLengthDelimited_local.ok hat (hr.2 trivial) h0
      by_cases hne : Peer.carrier q = mRect
      · rw [hne] at hu hd hty
        rw [List.append_assoc]
        exact .rect hpre hv hw hf hnum hty hl hlen hd ((rect_ub o).mp hu)
      · obtain ⟨q', e, _⟩ := fromMessage_returns (env := envQ) q (fun _ => hne) ho
        rw [e] at hu
        cases hu
  · rename_i c' hty
    rw [hty] at hr
    exact sub (.inl hty) (hr.2 trivial) (bind_ub_pure h)
  · rename_i c' l hty
    rw [hty] at hr
    exact sub (.inr hty) (hr.2 trivial) (bind_ub_pure h)
  · exfalso
    cases hty : f.ty <;> rw [hty] at hs <;> cases hs <;> simp_all

theorem findDeep_missing {fs : List DeepField} {num : Nat} (h : findDeep fs num = none) : ∀ f ∈ fs, f.num ≠ num := by
  unfold findDeep at h
  rw [List.findIdx?_eq_none_iff] at h
  intro f hf
  simpa using h f hf

theorem deepProperty_ub (hrec : DeepUb env envQ cls rec ok) (hm : MapsKnown env cls) (hq : ∀ c, ∀ f ∈ cls.tab c, IsQt f.ty) {n k c : Nat} {it : It}
    {o : List Deep} {r pre : Bytes} (hs : Shaped env cls (.sub c) (.sub o)) (hat : At it r) (hr : NoNegativeLengths env envQ cls r) (hpre : ok c pre)
    (h : deepProperty eq env envQ rec n k (cls.tab c) it o = .ub) : Breaks env envQ cls ok c (pre ++ r) := by
  rcases bind_ub h with h | ⟨⟨hd, it1⟩, h1, h⟩
  · exact .tag hpre (decodeHeader_ub hat h)
  · obtain ⟨a, r', rfl, ⟨t, hv, e1, e2⟩, rfl, _⟩ := decodeHeader_local.ok hat trivial h1
    simp only at h
    split at h
    · simp at h
    · rename_i hval
      obtain ⟨hw, hnz⟩ := decodeHeader_valid h1 (by simpa using hval)
      split at h
      · rename_i hnone
        obtain ⟨h4, h5⟩ := skipField_ub hat.adv (fun hw => hr.lenOk hv (.inl (.inl (e2 ▸ hw)))) (bind_ub_pure h)
        exact .unknown hpre hv (e2 ▸ h4) (e1 ▸ hnz) (e1 ▸ findDeep_missing hnone) h5
      · rename_i i hfd
        obtain ⟨f, hf, hmem, hnum⟩ := findDeep_found hfd
        cases hs with
        | sub ha hb =>
          have hi := (List.getElem?_eq_some_iff.mp hf).1
          have ho : o[i]? = some (o[i]'(by omega)) := by simp
          rw [hf, ho] at h
          exact readDeep_ub hrec (fun kk vt ht => hm c f hmem kk vt ht) (hq c f hmem) (hb i f _ hf ho) hat.adv
            ⟨hr.suffix, fun hl => hr.lenOk hv (by rw [← e1]; exact .inr (.inr ⟨c, f, hmem, hnum, hl⟩))⟩ hpre hv (e2 ▸ hw) hmem (hnum.trans e1) (bind_ub_pure h)

theorem deepLoop_ub (hrec : DeepUb env envQ cls rec ok) (hshape : ∀ c data, Shaped env cls (.sub c) (.sub (rec c data).2)) (hm : MapsKnown env cls)
    (hq : ∀ c, ∀ f ∈ cls.tab c, IsQt f.ty) {n c : Nat} : ∀ (k : Nat) {it : It} {o : List Deep} {r pre : Bytes}, Shaped env cls (.sub c) (.sub o) →
    At it r → NoNegativeLengths env envQ cls r → ok c pre →
    (∀ p post (o1 : List Deep), r = p ++ post → (∀ it2, At it2 p → deepLoop eq env envQ rec n (cls.tab c) k it2 o = (.ok (), o1)) → ok c (pre ++ p)) →
    (deepLoop eq env envQ rec n (cls.tab c) k it o).1 = .ub → Breaks env envQ cls ok c (pre ++ r)
  | 0, _, _, _, _, _, _, _, _, _, h => by simp [deepLoop] at h
  | k + 1, it, o, r, pre, hs, hat, hr, hpre, hacc, h => by
    simp only [deepLoop] at h
    split at h
    · simp at h
    · cases h1 : deepProperty eq env envQ rec n k (cls.tab c) it o with
      | ok x =>
        rw [h1] at h
        obtain ⟨it', o1⟩ := x
        obtain ⟨a, r', rfl, ha, rfl, hloc⟩ := deepProperty_adv hm hat hr h1
        have hs1 := deepProperty_shaped hshape hs h1
        have hcont : ∀ p (o2 : List Deep), (∀ it2, At it2 p → deepLoop eq env envQ rec n (cls.tab c) k it2 o1 = (.ok (), o2)) →
            ∀ it2, At it2 (a ++ p) → deepLoop eq env envQ rec n (cls.tab c) (k + 1) it2 o = (.ok (), o2) := by
          intro p o2 hp it2 hat2
          simp only [deepLoop]
          rw [if_neg (by rw [at_end hat2]; intro h0; simp at h0; simp [h0.1] at ha), hloc _ _ hat2]
          exact hp _ hat2.adv
        have hk0 : k ≠ 0 := by
          rintro rfl
          simp [deepLoop] at h
        obtain ⟨k', rfl⟩ : ∃ k', k = k' + 1 := ⟨k - 1, by omega⟩
        rw [← List.append_assoc]
        refine deepLoop_ub hrec hshape hm hq (k' + 1) hs1 hat.adv hr.suffix (hacc a r' o1 rfl ?_) ?_ h
        · have := hcont [] o1 (fun it2 hat2 => by
            simp only [deepLoop]
            rw [if_pos ((at_end hat2).2 rfl)])
          simpa using this
        · intro p post o2 he hp
          rw [List.append_assoc]
          exact hacc (a ++ p) post o2 (by rw [he]; simp) (hcont p o2 hp)
      | throw e' => rw [h1] at h; simp at h
      | ub => exact deepProperty_ub hrec hm hq hs hat hr hpre h1
      | fuel => rw [h1] at h; simp at h

theorem shaped_all (hq : QtOnly cls) (n c : Nat) (data : Bytes) : Shaped env cls (.sub c) (.sub (deserializeDeep eq env envQ cls n c data).2) := by
  induction n generalizing c data with
  | zero => exact newObject_class hq c
  | succ n ih => exact deepLoop_shaped (fun c data => ih c data) _ (newObject_class hq c)

theorem deserializeDeep_ub (hm : MapsKnown env cls) (hq : QtOnly cls) (n : Nat) :
    DeepUb env envQ cls (deserializeDeep eq env envQ cls n) (fun c p => ∃ n o, deserializeDeep eq env envQ cls n c p = (.ok (), o)) := by
  have hnot : ∀ c, ∀ f ∈ cls.tab c, IsQt f.ty := by
    intro c f hf
    cases hty : f.ty with
    | qt m => exact hq c f hf m hty
    | _ => trivial
  induction n with
  | zero => intro c body _ _ h; simp [deserializeDeep] at h
  | succ n ih =>
    intro c body hr hl h
    have := deepLoop_ub ih (fun c data => shaped_all hq n c data) hm hnot (n + 1) (pre := []) (newObject_class hq c) (At.start hl) hr
      ⟨1, newObject cls c, by simp [deserializeDeep, deepLoop, It.start]⟩ ?_ h
    · simpa using this
    · intro p post o1 he hp
      subst he
      simp only [List.length_append] at hl
      exact ⟨n + 1, o1, hp _ (At.start (by simpa using by omega))⟩

end

end QtPb.Qt
