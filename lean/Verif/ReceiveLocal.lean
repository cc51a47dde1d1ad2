import Verif.ReceiveTotal
/-
`SpecReceive` says only one thing about an input, and what it says about a part that is read does not depend on what follows.
-/
namespace QtPb
open Spec

variable {env : Env}

/-! ### Uniqueness -/

theorem varint_split {c c' rest rest' : Bytes} {n n' : Nat} (h : IsVarint c n) (h' : IsVarint c' n') (he : c ++ rest = c' ++ rest') :
    n = n' ∧ rest = rest' := by
  induction h generalizing c' n' with
  | last b hb =>
    cases h' with
    | last b' hb' =>
      simp only [List.cons_append, List.nil_append, List.cons.injEq] at he
      exact ⟨by rw [he.1], he.2⟩
    | more b' bs' n' hb' _ =>
      simp only [List.cons_append, List.nil_append, List.cons.injEq] at he
      rw [he.1] at hb
      omega
  | more b bs n hb _ ih =>
    cases h' with
    | last b' hb' =>
      simp only [List.cons_append, List.nil_append, List.cons.injEq] at he
      rw [he.1] at hb
      omega
    | more b' bs' n' hb' h' =>
      simp only [List.cons_append, List.cons.injEq] at he
      obtain ⟨rfl, h2⟩ := ih h' he.2
      exact ⟨by rw [he.1], h2⟩

theorem varint_small {c : Bytes} {n : Nat} (h : IsVarint c n) : ∃ b ∈ c, b.toNat < 128 := by
  induction h with
  | last b hb => exact ⟨b, by simp, hb⟩
  | more b bs n _ _ ih =>
    obtain ⟨x, hx, h⟩ := ih
    exact ⟨x, by simp [hx], h⟩

/-- At most one result. -/
def Det {α : Type} (P : Bytes → Got α → Prop) : Prop := ∀ ⦃bs g g'⦄, P bs g → P bs g' → g = g'

theorem varint_not_truncated {c rest : Bytes} {n : Nat} (h : IsVarint c n) (ht : ∀ b ∈ c ++ rest, 128 ≤ b.toNat) : False := by
  obtain ⟨b, hb, h1⟩ := varint_small h
  have := ht b (by simp [hb])
  omega

theorem varint_not_long {c rest : Bytes} {n : Nat} (h : Varint c n) (hl : LongVarint (c ++ rest)) : False := by
  obtain ⟨b, hb, h1⟩ := varint_small h.1
  have := hl.2 b (by
    rw [List.take_append]
    rw [List.take_of_length_le h.2]
    simp [hb])
  omega

theorem getVarint_det : Det GetVarint := by
  intro bs g g' h h'
  generalize hb : bs = bs' at h'
  cases h with
  | value hv =>
    cases h' with
    | value hv' =>
      obtain ⟨rfl, rfl⟩ := varint_split hv.1 hv'.1 hb
      rfl
    | truncated ht => subst hb; exact (varint_not_truncated hv.1 ht.1).elim
    | long hl => subst hb; exact (varint_not_long hv hl).elim
  | truncated ht =>
    cases h' with
    | value hv' => subst hb; exact (varint_not_truncated hv'.1 ht.1).elim
    | truncated => rfl
    | long hl => subst hb; have := ht.2; have := hl.1; omega
  | long hl =>
    cases h' with
    | value hv' => subst hb; exact (varint_not_long hv' hl).elim
    | truncated ht => subst hb; have := ht.2; have := hl.1; omega
    | long => rfl

theorem getVarint_eq {bs rest rest' : Bytes} {n n' : Nat} (h : GetVarint bs (.value n rest)) (h' : GetVarint bs (.value n' rest')) :
    n = n' ∧ rest = rest' := by
  have := getVarint_det h h'
  simpa using this

theorem getVarint_value_trouble {bs rest : Bytes} {n : Nat} {t : Trouble} (h : GetVarint bs (.value n rest))
    (h' : GetVarint bs (.trouble t)) : False := by
  have := getVarint_det h h'
  simp at this

theorem getVarint_trouble {bs : Bytes} {t t' : Trouble} (h : GetVarint bs (.trouble t))
    (h' : GetVarint bs (.trouble t')) : t = t' := by
  have := getVarint_det h h'
  simpa using this

theorem getFixed_det (w : Nat) : Det (GetFixed w) := by
  intro bs g g' h h'
  generalize hb : bs = bs' at h'
  cases h with
  | value hv =>
    cases h' with
    | value hv' =>
      obtain ⟨rfl, rfl⟩ := List.append_inj hb (by omega)
      rfl
    | oneMissing ht => subst hb; simp at ht; omega
    | moreMissing hl => subst hb; simp at hl; omega
  | oneMissing ht =>
    cases h' with
    | value hv' => subst hb; simp at ht; omega
    | oneMissing => rfl
    | moreMissing hl => subst hb; omega
  | moreMissing hl =>
    cases h' with
    | value hv' => subst hb; simp at hl; omega
    | oneMissing ht => subst hb; omega
    | moreMissing => rfl

theorem getBody_det : Det GetBody := by
  intro bs g g' h h'
  cases h with
  | read hv hn h =>
    cases h' with
    | read hv' _ h' => obtain ⟨rfl, rfl⟩ := getVarint_eq hv hv'; exact getFixed_det _ h h'
    | negative hv' hn' => obtain ⟨rfl, rfl⟩ := getVarint_eq hv hv'; omega
    | noLength hv' => exact (getVarint_value_trouble hv hv').elim
  | negative hv hn =>
    cases h' with
    | read hv' hn' h' => obtain ⟨rfl, rfl⟩ := getVarint_eq hv hv'; omega
    | negative => rfl
    | noLength hv' => exact (getVarint_value_trouble hv hv').elim
  | noLength hv =>
    cases h' with
    | read hv' => exact (getVarint_value_trouble hv' hv).elim
    | negative hv' => exact (getVarint_value_trouble hv' hv).elim
    | noLength hv' => rw [getVarint_trouble hv hv']

theorem getScalar_det (k : Kind) : Det (GetScalar env k) := by
  intro bs g g' h h'
  cases h with
  | varint hw h =>
    cases h' with
    | varint _ h' => rw [getVarint_det h h']
    | _ => omega
  | fixed32 hw h =>
    cases h' with
    | fixed32 _ h' => rw [getFixed_det _ h h']
    | _ => omega
  | fixed64 hw h =>
    cases h' with
    | fixed64 _ h' => rw [getFixed_det _ h h']
    | _ => omega
  | body hw h =>
    cases h' with
    | body _ h' => rw [getBody_det h h']
    | _ => omega

theorem getSteps_det {σ : Type} {Step Step' : σ → Bytes → Got σ → Prop} (hd : ∀ ⦃s bs g g'⦄, Step s bs g → Step' s bs g' → g = g')
    {stop done : Nat} {s : σ} {bs : Bytes} {g g' : Got σ}
    (h : GetSteps Step stop done s bs g) (h' : GetSteps Step' stop done s bs g') : g = g' := by
  induction h with
  | stop =>
    cases h' with
    | stop => rfl
    | step hn => exact absurd rfl hn
    | trouble hn => exact absurd rfl hn
  | step hn h1 _ ih =>
    cases h' with
    | stop => exact absurd rfl hn
    | step _ h1' h2' =>
      have := hd h1 h1'
      simp only [Got.value.injEq] at this
      obtain ⟨rfl, rfl⟩ := this
      exact ih h2'
    | trouble _ h1' =>
      have := hd h1 h1'
      simp at this
  | trouble hn h1 =>
    cases h' with
    | stop => exact absurd rfl hn
    | step _ h1' h2' =>
      have := hd h1 h1'
      simp at this
    | trouble _ h1' =>
      have := hd h1 h1'
      simp only [Got.trouble.injEq] at this
      rw [this]

theorem getMany_det {σ : Type} {Step Step' : σ → Bytes → Got σ → Prop} (hd : ∀ ⦃s bs g g'⦄, Step s bs g → Step' s bs g' → g = g')
    {s : σ} {bs : Bytes} {g g' : Got σ} (h : GetMany Step s bs g) (h' : GetMany Step' s bs g') : g = g' := by
  cases h with
  | read hv hn hle h =>
    cases h' with
    | read hv' _ _ h' => obtain ⟨rfl, rfl⟩ := getVarint_eq hv hv'; exact getSteps_det hd h h'
    | tooLong hv' _ hle' => obtain ⟨rfl, rfl⟩ := getVarint_eq hv hv'; omega
    | negative hv' hn' => obtain ⟨rfl, rfl⟩ := getVarint_eq hv hv'; omega
    | noLength hv' => exact (getVarint_value_trouble hv hv').elim
  | tooLong hv hn hle =>
    cases h' with
    | read hv' _ hle' _ => obtain ⟨rfl, rfl⟩ := getVarint_eq hv hv'; omega
    | tooLong => rfl
    | negative hv' hn' => obtain ⟨rfl, rfl⟩ := getVarint_eq hv hv'; omega
    | noLength hv' => exact (getVarint_value_trouble hv hv').elim
  | negative hv hn =>
    cases h' with
    | read hv' hn' _ _ => obtain ⟨rfl, rfl⟩ := getVarint_eq hv hv'; omega
    | tooLong hv' hn' _ => obtain ⟨rfl, rfl⟩ := getVarint_eq hv hv'; omega
    | negative => rfl
    | noLength hv' => exact (getVarint_value_trouble hv hv').elim
  | noLength hv =>
    cases h' with
    | read hv' => exact (getVarint_value_trouble hv' hv).elim
    | tooLong hv' => exact (getVarint_value_trouble hv' hv).elim
    | negative hv' => exact (getVarint_value_trouble hv' hv).elim
    | noLength hv' => rw [getVarint_trouble hv hv']

theorem getElement_det (k : Kind) (l : List Scalar) : Det (GetElement env k l) := by
  intro bs g g' h h'
  cases h with
  | next h => cases h' with
    | next h' => rw [getScalar_det k h h']

theorem getNumber_det (l : List (BitVec 32)) : Det (GetNumber l) := by
  intro bs g g' h h'
  cases h with
  | next h => cases h' with
    | next h' => rw [getVarint_det h h']

theorem getSkipped_det (wt : Nat) : Det (GetSkipped wt) := by
  intro bs g g' h h'
  generalize hb : bs = bs' at h'
  cases h with
  | varint hv =>
    cases h' with
    | varint hv' =>
      obtain ⟨_, rfl⟩ := varint_split hv hv' hb
      rfl
    | openVarint ht => subst hb; exact (varint_not_truncated hv ht).elim
    | fixed hw _ | fixedShort hw _ => omega
  | openVarint ht =>
    cases h' with
    | varint hv' => subst hb; exact (varint_not_truncated hv' ht).elim
    | openVarint => rfl
    | fixed hw _ | fixedShort hw _ => omega
  | fixed hw hc =>
    cases h' with
    | varint | openVarint | body | bodyShort | negative | noLength => omega
    | fixed hw' hc' =>
      obtain ⟨rfl, rfl⟩ := List.append_inj hb (by omega)
      rfl
    | fixedShort hw' hc' => subst hb; simp at hc'; omega
  | fixedShort hw hc =>
    cases h' with
    | varint | openVarint | body | bodyShort | negative | noLength => omega
    | fixed hw' hc' => subst hb; simp at hc; omega
    | fixedShort => rfl
  | body hv hc hn =>
    subst hb
    cases h' with
    | fixed hw _ | fixedShort hw _ => omega
    | body hv' hc' _ =>
      obtain ⟨rfl, he⟩ := getVarint_eq hv hv'
      obtain ⟨_, rfl⟩ := List.append_inj he (by omega)
      rfl
    | bodyShort hv' hc' _ => obtain ⟨rfl, rfl⟩ := getVarint_eq hv hv'; simp at hc'; omega
    | negative hv' hn' => obtain ⟨rfl, rfl⟩ := getVarint_eq hv hv'; omega
    | noLength hv' => exact (getVarint_value_trouble hv hv').elim
  | bodyShort hv hc hn =>
    subst hb
    cases h' with
    | fixed hw _ | fixedShort hw _ => omega
    | body hv' hc' _ => obtain ⟨rfl, rfl⟩ := getVarint_eq hv hv'; simp at hc; omega
    | bodyShort => rfl
    | negative hv' hn' => obtain ⟨rfl, rfl⟩ := getVarint_eq hv hv'; omega
    | noLength hv' => exact (getVarint_value_trouble hv hv').elim
  | negative hv hn =>
    subst hb
    cases h' with
    | fixed hw _ | fixedShort hw _ => omega
    | body hv' _ hn' => obtain ⟨rfl, rfl⟩ := getVarint_eq hv hv'; omega
    | bodyShort hv' _ hn' => obtain ⟨rfl, rfl⟩ := getVarint_eq hv hv'; omega
    | negative => rfl
    | noLength hv' => exact (getVarint_value_trouble hv hv').elim
  | noLength hv =>
    subst hb
    cases h' with
    | fixed hw _ | fixedShort hw _ => omega
    | body hv' => exact (getVarint_value_trouble hv' hv).elim
    | bodyShort hv' => exact (getVarint_value_trouble hv' hv).elim
    | negative hv' => exact (getVarint_value_trouble hv' hv).elim
    | noLength hv' => rw [getVarint_trouble hv hv']

section
variable {Sub Sub' : Nat → Bytes → Obj → Option Trouble → Prop}

/-- `Sub` and `Sub'` say the same, where both say something. -/
def SubDet (Sub Sub' : Nat → Bytes → Obj → Option Trouble → Prop) : Prop :=
  ∀ ⦃m body o r o' r'⦄, Sub m body o r → Sub' m body o' r' → o = o' ∧ r = r'

theorem getObject_det (hs : SubDet Sub Sub') {m : Nat} {bs : Bytes} {g g' : Got Obj} (h : GetObject Sub m bs g)
    (h' : GetObject Sub' m bs g') : g = g' := by
  cases h with
  | value hb h =>
    cases h' with
    | value hb' h' =>
      have := getBody_det hb hb'
      simp only [Got.value.injEq] at this
      obtain ⟨rfl, rfl⟩ := this
      obtain ⟨rfl, _⟩ := hs h h'
      rfl
    | inside hb' h' =>
      have := getBody_det hb hb'
      simp only [Got.value.injEq] at this
      obtain ⟨rfl, rfl⟩ := this
      have := (hs h h').2
      simp at this
    | noBody hb' =>
      have := getBody_det hb hb'
      simp at this
  | inside hb h =>
    cases h' with
    | value hb' h' =>
      have := getBody_det hb hb'
      simp only [Got.value.injEq] at this
      obtain ⟨rfl, rfl⟩ := this
      have := (hs h h').2
      simp at this
    | inside hb' h' =>
      have := getBody_det hb hb'
      simp only [Got.value.injEq] at this
      obtain ⟨rfl, rfl⟩ := this
      have := (hs h h').2
      simp only [Option.some.injEq] at this
      rw [this]
    | noBody hb' =>
      have := getBody_det hb hb'
      simp at this
  | noBody hb =>
    cases h' with
    | value hb' h' =>
      have := getBody_det hb hb'
      simp at this
    | inside hb' h' =>
      have := getBody_det hb hb'
      simp at this
    | noBody hb' =>
      have := getBody_det hb hb'
      simpa using this

theorem getMapValue_det (hs : SubDet Sub Sub') {vt : MapVal} {bs : Bytes} {g g' : Got Val} (h : GetMapValue env Sub vt bs g)
    (h' : GetMapValue env Sub' vt bs g') : g = g' := by
  cases h with
  | scalar h => cases h' with
    | scalar h' => rw [getScalar_det _ h h']
  | enum h => cases h' with
    | enum h' => rw [getVarint_det h h']
  | msg h => cases h' with
    | msg h' => rw [getObject_det hs h h']

theorem getPart_det (hs : SubDet Sub Sub') {kk : Kind} {vt : MapVal} {kv : Scalar × Val} {bs : Bytes} {g g' : Got (Scalar × Val)}
    (h : GetPart env Sub kk vt kv bs g) (h' : GetPart env Sub' kk vt kv bs g') : g = g' := by
  cases h with
  | key hv ht h =>
    cases h' with
    | key hv' _ h' => obtain ⟨rfl, rfl⟩ := getVarint_eq hv hv'; rw [getScalar_det _ h h']
    | value hv' ht' _ => obtain ⟨rfl, rfl⟩ := getVarint_eq hv hv'; exact absurd ht ht'
    | noTag hv' => exact (getVarint_value_trouble hv hv').elim
  | value hv ht h =>
    cases h' with
    | key hv' ht' h' => obtain ⟨rfl, rfl⟩ := getVarint_eq hv hv'; exact absurd ht' ht
    | value hv' _ h' => obtain ⟨rfl, rfl⟩ := getVarint_eq hv hv'; rw [getMapValue_det hs h h']
    | noTag hv' => exact (getVarint_value_trouble hv hv').elim
  | noTag hv =>
    cases h' with
    | key hv' => exact (getVarint_value_trouble hv' hv).elim
    | value hv' => exact (getVarint_value_trouble hv' hv).elim
    | noTag hv' => rw [getVarint_trouble hv hv']

theorem getValue_det (hs : SubDet Sub Sub') {ty : FieldTy} {old : Val} {bs : Bytes} {g g' : Got Val} (h : GetValue env Sub ty old bs g)
    (h' : GetValue env Sub' ty old bs g') : g = g' := by
  cases h with
  | scalar h => cases h' with
    | scalar h' => rw [getScalar_det _ h h']
  | enum h => cases h' with
    | enum h' => rw [getVarint_det h h']
  | append hk h => cases h' with
    | append _ h' => rw [getScalar_det _ h h']
    | bools => simp at hk
    | packed hk' _ => rcases hk with rfl | rfl <;> exact hk'.elim
  | bools => cases h' with
    | append hk _ => simp at hk
    | bools => rfl
    | packed hk _ => exact hk.elim
  | packed hk h => cases h' with
    | append hk' _ => rcases hk' with rfl | rfl <;> exact hk.elim
    | bools => exact hk.elim
    | packed _ h' => rw [getMany_det (fun s => getElement_det _ s) h h']
  | enums h => cases h' with
    | enums h' => rw [getMany_det (fun s => getNumber_det s) h h']
  | msg h => cases h' with
    | msg h' => rw [getObject_det hs h h']
  | msgList h => cases h' with
    | msgList h' => rw [getObject_det hs h h']
  | map h => cases h' with
    | map h' =>
      have := getMany_det (Step := GetPart env Sub _ _) (Step' := GetPart env Sub' _ _)
        (fun _ _ _ _ h h' => getPart_det hs h h') h h'
      rw [this]

theorem getRecord_det (hnd : ValidSchema env) (hs : SubDet Sub Sub') {m : Nat} {o : Obj} {bs : Bytes} {g g' : Got Obj}
    (h : GetRecord env Sub m o bs g) (h' : GetRecord env Sub' m o bs g') : g = g' := by
  cases h with
  | known hv hw hf hn ho h =>
    cases h' with
    | known hv' _ hf' hn' ho' h' =>
      obtain ⟨rfl, rfl⟩ := getVarint_eq hv hv'
      have e1 := findField_of (hnd m).1 hf
      have e2 := findField_of (hnd m).1 hf'
      rw [hn] at e1
      rw [hn', e1] at e2
      cases e2
      rw [hf] at hf'
      cases hf'
      rw [ho] at ho'
      cases ho'
      rw [getValue_det hs h h']
    | unknown hv' _ _ hno _ =>
      obtain ⟨rfl, rfl⟩ := getVarint_eq hv hv'
      exact absurd hn (hno _ (List.mem_of_getElem? hf))
    | badTag hv' hb =>
      obtain ⟨rfl, rfl⟩ := getVarint_eq hv hv'
      rcases hb with hb | hb
      · have := ((hnd m).2 _ (List.mem_of_getElem? hf)).1
        omega
      · exact absurd hw hb
    | noTag hv' => exact (getVarint_value_trouble hv hv').elim
  | unknown hv hw h0 hno h =>
    cases h' with
    | known hv' _ hf' hn' _ _ =>
      obtain ⟨rfl, rfl⟩ := getVarint_eq hv hv'
      exact absurd hn' (hno _ (List.mem_of_getElem? hf'))
    | unknown hv' _ _ _ h' =>
      obtain ⟨rfl, rfl⟩ := getVarint_eq hv hv'
      rw [getSkipped_det _ h h']
    | badTag hv' hb =>
      obtain ⟨rfl, rfl⟩ := getVarint_eq hv hv'
      rcases hb with hb | hb
      · exact absurd hb h0
      · exact absurd hw hb
    | noTag hv' => exact (getVarint_value_trouble hv hv').elim
  | badTag hv hb =>
    cases h' with
    | known hv' hw hf hn _ _ =>
      obtain ⟨rfl, rfl⟩ := getVarint_eq hv hv'
      rcases hb with hb | hb
      · have := ((hnd m).2 _ (List.mem_of_getElem? hf)).1
        omega
      · exact absurd hw hb
    | unknown hv' hw h0 _ _ =>
      obtain ⟨rfl, rfl⟩ := getVarint_eq hv hv'
      rcases hb with hb | hb
      · exact absurd hb h0
      · exact absurd hw hb
    | badTag => rfl
    | noTag hv' => exact (getVarint_value_trouble hv hv').elim
  | noTag hv =>
    cases h' with
    | known hv' => exact (getVarint_value_trouble hv' hv).elim
    | unknown hv' => exact (getVarint_value_trouble hv' hv).elim
    | badTag hv' => exact (getVarint_value_trouble hv' hv).elim
    | noTag hv' => rw [getVarint_trouble hv hv']

theorem getRecords_det (hnd : ValidSchema env) (hs : SubDet Sub Sub') {m : Nat} {o : Obj} {bs : Bytes} {o1 o2 : Obj} {r1 r2 : Option Trouble}
    (h : GetRecords env Sub m o bs o1 r1) (h' : GetRecords env Sub' m o bs o2 r2) : o1 = o2 ∧ r1 = r2 := by
  induction h with
  | done =>
    cases h' with
    | done => exact ⟨rfl, rfl⟩
    | record hne => exact absurd rfl hne
    | trouble hne => exact absurd rfl hne
  | record hne h _ ih =>
    cases h' with
    | done => exact absurd rfl hne
    | record _ h1 h2 =>
      have := getRecord_det hnd hs h h1
      simp only [Got.value.injEq] at this
      obtain ⟨rfl, rfl⟩ := this
      exact ih h2
    | trouble _ h1 =>
      have := getRecord_det hnd hs h h1
      simp at this
  | trouble hne h =>
    cases h' with
    | done => exact absurd rfl hne
    | record _ h1 h2 =>
      have := getRecord_det hnd hs h h1
      simp at this
    | trouble _ h1 =>
      have := getRecord_det hnd hs h h1
      simp only [Got.trouble.injEq] at this
      exact ⟨rfl, by rw [this]⟩

end

theorem received_det (hv : ValidSchema env) {d d' m : Nat} {bs : Bytes} {o o' : Obj} {r r' : Option Trouble}
    (h : Received env d m bs o r) (h' : Received env d' m bs o' r') : o = o' ∧ r = r' := by
  induction d generalizing d' m bs o o' r r' with
  | zero => exact h.elim
  | succ d ih =>
    cases d' with
    | zero => exact h'.elim
    | succ d' =>
      have hs : SubDet (Received env d) (Received env d') := fun _ _ _ _ _ _ h h' => ih h h'
      exact getRecords_det hv hs h h'

end QtPb
