import Verif.QtNestedUb
/-
Lemmas for C128: everything that is cut off leads to an undefined operation.
-/
namespace QtPb.Qt
open QtPb Spec NestedSafeSpec NestedBytesSpec

section
variable {eq : QtVal → QtVal → Bool} {env envQ : Env} {cls : Classes} {rec : Nat → Bytes → Res Unit × List Deep}

/-- Objects that are accepted with some budget. -/
abbrev DeepAccepted (eq : QtVal → QtVal → Bool) (env envQ : Env) (cls : Classes) (c : Nat) (p : Bytes) : Prop :=
  ∃ n o, deserializeDeep eq env envQ cls n c p = (.ok (), o)

theorem deepAccepted_budget (hm : MapsKnown env cls) {n c : Nat} {data : Bytes} (hr : NoNegativeLengths env envQ cls data) (hlen : data.length < 2 ^ 31)
    (hn : data.length < n) (h : DeepAccepted eq env envQ cls c data) : ∃ o, deserializeDeep eq env envQ cls n c data = (.ok (), o) := by
  obtain ⟨k, o, h⟩ := h
  refine ⟨o, ?_⟩
  have h1 := deserializeDeep_le (n := n) (n' := max n k) (by omega) c data (deserializeDeep_ends (eq := eq) hm n c data hr hn hlen)
  have h2 := deserializeDeep_le (eq := eq) (env := env) (envQ := envQ) (cls := cls) (n := k) (n' := max n k) (by omega) c data (by rw [h]; simp)
  rw [← h1, h2, h]

theorem deepLoop_over (hm : MapsKnown env cls) (hshape : ∀ c data, Shaped env cls (.sub c) (.sub (rec c data).2)) {n c : Nat} :
    ∀ (k : Nat) {it it2 : It} {o o1 : List Deep} {pre rest : Bytes}, Shaped env cls (.sub c) (.sub o) → At it pre → NoNegativeLengths env envQ cls pre →
    deepLoop eq env envQ rec n (cls.tab c) k it o = (.ok (), o1) → At it2 (pre ++ rest) → (pre ++ rest).length < k →
    ∃ b, rest.length < b ∧ Shaped env cls (.sub c) (.sub o1) ∧
      deepLoop eq env envQ rec n (cls.tab c) k it2 o = deepLoop eq env envQ rec n (cls.tab c) b ⟨it2.data, it2.pos + pre.length⟩ o1
  | 0, _, _, _, _, _, _, _, _, _, h, _, _ => by simp [deepLoop] at h
  | k + 1, it, it2, o, o1, pre, rest, hs, hat, hr, h, hat2, hb => by
    simp only [deepLoop] at h
    split at h
    · rename_i he
      rw [at_end hat] at he
      subst he
      simp only [Prod.mk.injEq, true_and] at h
      subst h
      exact ⟨k + 1, by simpa using hb, hs, by simp⟩
    · cases h1 : deepProperty eq env envQ rec n k (cls.tab c) it o with
      | ok x =>
        rw [h1] at h
        obtain ⟨it', o2⟩ := x
        obtain ⟨a, r', rfl, ha, rfl, hloc⟩ := deepProperty_adv hm hat hr h1
        rw [List.append_assoc] at hat2
        simp only [List.length_append] at hb
        obtain ⟨b, h2, h3, h4⟩ := deepLoop_over hm hshape k (deepProperty_shaped hshape hs h1) hat.adv hr.suffix h hat2.adv
          (by simp only [List.length_append]; omega)
        refine ⟨b, h2, h3, ?_⟩
        simp only [deepLoop]
        rw [if_neg (by rw [at_end hat2]; intro h0; simp at h0; simp [h0.1] at ha), hloc _ _ hat2]
        simp only [h4, List.length_append, Nat.add_assoc]
      | throw e => rw [h1] at h; simp at h
      | ub => rw [h1] at h; simp at h
      | fuel => rw [h1] at h; simp at h

/-- Behind an accepted object, an undefined operation of the next record is one of the whole object. -/
theorem deserializeDeep_over (hm : MapsKnown env cls) (hq : QtOnly cls) {n c : Nat} {pre rest : Bytes} (hr : NoNegativeLengths env envQ cls (pre ++ rest))
    (hlen : (pre ++ rest).length < 2 ^ 31) (hn : (pre ++ rest).length < n) (hacc : DeepAccepted eq env envQ cls c pre) (hne : rest ≠ [])
    (h : ∀ k it o, At it rest → rest.length ≤ k → Shaped env cls (.sub c) (.sub o) →
      deepProperty eq env envQ (deserializeDeep eq env envQ cls (n - 1)) (n - 1) k (cls.tab c) it o = .ub) :
    (deserializeDeep eq env envQ cls n c (pre ++ rest)).1 = .ub := by
  obtain ⟨k, rfl⟩ : ∃ k, n = k + 1 := ⟨n - 1, by omega⟩
  simp only [List.length_append] at hlen hn
  obtain ⟨o, ho⟩ := deepAccepted_budget (n := k + 1) hm hr.prefix (by omega) (by omega) hacc
  simp only [deserializeDeep] at ho ⊢
  obtain ⟨b', h1, h2, h3⟩ := deepLoop_over hm (fun c data => shaped_all hq k c data) (k + 1) (newObject_class hq c) (At.start (by omega)) hr.prefix ho
    (At.start (data := pre ++ rest) (by simp only [List.length_append]; omega)) (by simp only [List.length_append]; omega)
  have hat := (At.start (data := pre ++ rest) (by simp only [List.length_append]; omega)).adv
  rw [h3]
  obtain ⟨b, rfl⟩ : ∃ b, b' = b + 1 := ⟨b' - 1, by omega⟩
  simp only [deepLoop]
  rw [if_neg (by rw [at_end hat]; exact hne)]
  have h4 := h b _ o hat (by omega) h2
  simp only [Nat.add_sub_cancel] at h4
  rw [h4]

theorem deepProperty_header {n k : Nat} {fs : List DeepField} {it : It} {o : List Deep} {tag rest : Bytes} {t : Nat} (hat : At it (tag ++ rest))
    (hv : Varint tag t) (hnz : t % 2 ^ 32 / 8 ≠ 0) (hw : KnownWireType (t % 8)) :
    deepProperty eq env envQ rec n k fs it o = match findDeep fs (t % 2 ^ 32 / 8) with
    | none => skipField ⟨it.data, it.pos + tag.length⟩ (t % 8) >>= fun it => .ok (it, o)
    | some i =>
      match fs[i]?, o[i]? with
      | some f, some cur => readDeep eq env envQ rec n k f cur ⟨it.data, it.pos + tag.length⟩ >>= fun x => .ok (x.2, o.set i x.1)
      | _, _ => .ub := by
  obtain ⟨h, h1, h2, h3, h4⟩ := decodeHeader_whole hat hv
  unfold deepProperty
  rw [bind_of_ok h1]
  simp only [h4 (h2 ▸ hnz) (h3 ▸ hw), Bool.not_true, if_neg Bool.false_ne_true, h2, h3]
  rfl

/-- A record of field `f` behind an accepted object. -/
theorem deepField_cut (hV : NestedSpec.Valid cls) (hm : MapsKnown env cls) (hq : QtOnly cls) {n c t : Nat} {f : DeepField} {pre tag bs : Bytes}
    (hr : NoNegativeLengths env envQ cls (pre ++ (tag ++ bs))) (hlen : (pre ++ (tag ++ bs)).length < 2 ^ 31) (hn : (pre ++ (tag ++ bs)).length < n)
    (hacc : DeepAccepted eq env envQ cls c pre) (hv : Varint tag t) (hw : KnownWireType (t % 8)) (hf : f ∈ cls.tab c) (hnum : f.num = t % 2 ^ 32 / 8)
    (h : ∀ k it cur, At it bs → bs.length ≤ k → bs.length < n - 1 → DeepOk env envQ cls f.ty bs → Shaped env cls f.ty cur →
      readDeep eq env envQ (deserializeDeep eq env envQ cls (n - 1)) (n - 1) k f cur it = .ub) :
    (deserializeDeep eq env envQ cls n c (pre ++ (tag ++ bs))).1 = .ub := by
  have hpos := hv.pos
  refine deserializeDeep_over hm hq hr hlen hn hacc (by rintro h0; simp at h0; simp [h0.1] at hpos) fun k it o hat hk ho => ?_
  have hok := (hV c).2.1 f hf
  rw [deepProperty_header hat hv (by omega) hw]
  obtain ⟨i, hi, hfi⟩ := List.getElem_of_mem hf
  have hfi' : (cls.tab c)[i]? = some f := by rw [List.getElem?_eq_some_iff]; exact ⟨hi, hfi⟩
  cases ho with
  | sub ha hb =>
    have ho' : o[i]? = some (o[i]'(by omega)) := by simp
    rw [← hnum, findDeep_of (hV c).1 hfi']
    simp only [hfi', ho']
    simp only [List.length_append] at hlen hn hk
    exact bind_of_ub (h k _ _ hat.adv (by omega) (by omega) ⟨hr.suffix.suffix, fun hl =>
      hr.suffix.lenOk hv (.inr (.inr ⟨c, f, hf, hnum, hl⟩))⟩ (hb i f _ hfi' ho'))

theorem deserializeObject_cut (hvs : ValidSchema env) {N m : Nat} {it : It} {bs : Bytes} (hc : CutValue env (Accepted env) (.msg m) bs) (hat : At it bs)
    (hr : NoNegativeLength env bs) (hl : LenOk bs) (hN : bs.length ≤ N) : deserializeObject (deserializeMessage env N) m it = .ub := by
  have := (cut_ub hvs (bs.length + 1)).2 hc (by omega) (N := N) (n := bs.length) (cur := .msgNull) (it := it) (fun kk vt h => by cases h) hat
    ⟨hr, fun _ => hl⟩ (by omega) hN
  exact bind_ub_pure this

theorem deserializeDeep_cut (hvs : ValidSchema env) (hvq : ValidSchema envQ) (hV : NestedSpec.Valid cls) (hm : MapsKnown env cls) (hq : QtOnly cls) {c : Nat}
    {data : Bytes} (h : Breaks env envQ cls (DeepAccepted eq env envQ cls) c data) : ∀ {n : Nat}, NoNegativeLengths env envQ cls data →
    data.length < 2 ^ 31 → data.length < n → (deserializeDeep eq env envQ cls n c data).1 = .ub := by
  induction h with
  | tag hacc hl =>
    intro n hr hlen hn
    exact deserializeDeep_over hm hq hr hlen hn hacc hl.ne fun b it obj hat _ _ => bind_of_ub (bind_of_ub (deserializeVarint_long hat hl))
  | unknown hacc hv hw hnz hno hl =>
    intro n hr hlen hn
    refine deserializeDeep_over hm hq hr hlen hn hacc (by have := hl.ne; simp [this]) fun b it obj hat _ _ => ?_
    rw [deepProperty_header hat hv hnz (.inr (.inr (.inl hw))), findDeep_none hno, hw]
    exact bind_of_ub (skipField_long hat.adv hl)
  | @plain c pre tag bs t f ty hacc hv hw hf hnum hty hc =>
    intro n hr hlen hn
    refine deepField_cut hV hm hq hr hlen hn hacc hv hw hf hnum fun k it cur hat hk hn' hok hs => ?_
    obtain ⟨num, fty⟩ := f
    subst hty
    cases hs with
    | plain _ =>
      exact bind_of_ub ((cut_ub hvs (bs.length + 1)).2 hc (by omega) (fun kk vt ht => hm c _ hf kk vt (by rw [ht])) hat ⟨hok.1.left, hok.2⟩ hk (by omega))
  | @qt c pre tag bs t f m hacc hv hw hf hnum hty hc =>
    intro n hr hlen hn
    refine deepField_cut hV hm hq hr hlen hn hacc hv hw hf hnum fun k it cur hat hk hn' hok hs => ?_
    obtain ⟨num, fty⟩ := f
    subst hty
    cases hs with
    | qt q => exact bind_of_ub (bind_of_ub (deserializeObject_cut hvq hc hat hok.1.right (hok.2 trivial) (by omega)))
  | @rect c pre tag l body rest t N k0 f o hacc hv hw hf hnum hty hl hlen' hd hfar =>
    intro n hr hlen hn
    refine deepField_cut hV hm hq hr hlen hn hacc hv hw hf hnum fun k it cur hat hk hn' hok hs => ?_
    obtain ⟨num, fty⟩ := f
    simp only at hty
    subst hty
    have h1 := hat.len
    have h2 := hat.1
    simp only [List.length_append] at h1 hn'
    have e1 := deserializeMessage_le (n := n - 1) (n' := max (n - 1) k0) (by omega)
      (deserializeMessage_ends (n - 1) mRect body hok.1.right.suffix.prefix (by omega) (by omega))
    have e2 := deserializeMessage_le (env := envQ) (n := k0) (n' := max (n - 1) k0) (m := mRect) (data := body) (by omega) (by rw [hd]; simp)
    have e3 : deserializeMessage envQ (n - 1) mRect body = (.ok (), o) := by rw [← e1, e2, hd]
    have e4 : handlerDeserialize envQ (n - 1) mRect it = .ub := by
      unfold handlerDeserialize
      rw [deserializeObject_eq, bind_of_ok (deserializeLengthDelimited_whole hat hl hlen')]
      simp only [e3, ofSub, Res.bind_eq, Res.bind]
      rw [(rect_ub o).mpr hfar]
    generalize hmm : mRect = mm at hs e4
    cases hs with
    | qt q =>
      exact bind_of_ub e4
  | @short c pre tag bs t f c' hacc hv hw hf hnum hty hc =>
    intro n hr hlen hn
    refine deepField_cut hV hm hq hr hlen hn hacc hv hw hf hnum fun k it cur hat hk hn' hok hs => ?_
    obtain ⟨num, fty⟩ := f
    have h1 : ∀ _ : LenOk bs, deserializeLengthDelimited it = .ub := by
      intro hl
      cases hc with
      | varint _ h => exact deserializeLengthDelimited_long hat h
      | fixed32 hw _ => exact absurd hw (by decide)
      | fixed64 hw _ => exact absurd hw (by decide)
      | body _ hv h => exact deserializeLengthDelimited_short hat hl hv h
    simp only at hty
    rcases hty with rfl | rfl <;> cases hs <;> exact bind_of_ub (bind_of_ub (h1 (hok.2 trivial)))
  | @inside c pre tag l body rest t N f c' hacc hv hw hf hnum hty hl hlen' _ ih =>
    intro n hr hlen hn
    refine deepField_cut hV hm hq hr hlen hn hacc hv hw hf hnum fun k it cur hat hk hn' hok hs => ?_
    obtain ⟨num, fty⟩ := f
    have h1 := hat.len
    have h2 := hat.1
    simp only [List.length_append] at h1 hn'
    have h3 := ih (n := n - 1) hok.1.suffix.prefix (by omega) (by omega)
    have h4 : deserializeSub (deserializeDeep eq env envQ cls (n - 1)) c' it = .ub := by
      unfold deserializeSub
      rw [bind_of_ok (deserializeLengthDelimited_whole hat hl hlen')]
      simp only
      generalize deserializeDeep eq env envQ cls (n - 1) c' body = x at h3
      obtain ⟨a, o⟩ := x
      cases h3
      rfl
    simp only at hty
    rcases hty with rfl | rfl <;> cases hs <;> exact bind_of_ub h4

end

end QtPb.Qt
