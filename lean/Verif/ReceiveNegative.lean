import Verif.ReceivePrefix
/-
Byte strings without a negative length behind a tag are read without meeting one.
-/
namespace QtPb
open Spec

variable {env : Env}

theorem getVarint_notNegative {bs : Bytes} (h : GetVarint bs (.trouble .negative)) : False := by
  generalize hg : (Got.trouble .negative : Got Nat) = g at h
  cases h <;> cases hg

theorem getFixed_notNegative {w : Nat} {bs : Bytes} (h : GetFixed w bs (.trouble .negative)) : False := by
  generalize hg : (Got.trouble .negative : Got Bytes) = g at h
  cases h <;> cases hg

theorem lenOk_get {bs rest : Bytes} {n : Nat} (hl : LenOk bs) (h : GetVarint bs (.value n rest)) (hn : 2 ^ 31 ≤ n % 2 ^ 32) : False := by
  cases h with
  | value hv => exact absurd (lenOk_of hv hl) (by omega)

theorem getBody_notNegative {bs : Bytes} (hl : LenOk bs) (h : GetBody bs (.trouble .negative)) : False := by
  generalize hg : (Got.trouble .negative : Got Bytes) = g at h
  cases h with
  | read _ _ h => subst hg; exact getFixed_notNegative h
  | negative hv hn => exact lenOk_get hl hv hn
  | noLength h => cases hg; exact getVarint_notNegative h

theorem getScalar_notNegative {k : Kind} {bs : Bytes} (hl : BasicOk k bs) (h : GetScalar env k bs (.trouble .negative)) : False := by
  generalize hg : (Got.trouble .negative : Got Scalar) = g at h
  cases h with
  | varint _ h => obtain rfl := Got.map_trouble hg.symm; exact getVarint_notNegative h
  | fixed32 _ h | fixed64 _ h => obtain rfl := Got.map_trouble hg.symm; exact getFixed_notNegative h
  | body hw h =>
    obtain rfl := Got.map_trouble hg.symm
    exact getBody_notNegative (hl (by cases k <;> simp [wireType] at hw <;> simp [hasLength])) h

section
variable {σ : Type} {Step : σ → Bytes → Got σ → Prop} {P : Bytes → Prop}

theorem getSteps_notNegative (hP : ∀ {c r : Bytes}, P (c ++ r) → P r) (hlocal : ∀ s, LocalGet (Step s))
    (hs : ∀ {s bs}, P bs → Step s bs (.trouble .negative) → False) {stop done : Nat} {s : σ} {bs : Bytes} (hb : P bs)
    (h : GetSteps Step stop done s bs (.trouble .negative)) : False := by
  generalize hg : (Got.trouble .negative : Got σ) = g at h
  induction h with
  | stop => cases hg
  | step _ h1 _ ih =>
    obtain ⟨c, rfl, _⟩ := hlocal _ h1
    exact ih (hP hb) hg
  | trouble _ h => cases hg; exact hs hb h

theorem getMany_notNegative (hP : ∀ {c r : Bytes}, P (c ++ r) → P r) (hlocal : ∀ s, LocalGet (Step s))
    (hs : ∀ {s bs}, P bs → Step s bs (.trouble .negative) → False) {s : σ} {bs : Bytes} (hb : P bs) (hl : LenOk bs)
    (h : GetMany Step s bs (.trouble .negative)) : False := by
  generalize hg : (Got.trouble .negative : Got σ) = g at h
  cases h with
  | read hv _ _ h =>
    subst hg
    obtain ⟨c, rfl, _⟩ := getVarint_local hv
    exact getSteps_notNegative hP hlocal hs (hP hb) h
  | tooLong => cases hg
  | negative hv hn => exact lenOk_get hl hv hn
  | noLength h => cases hg; exact getVarint_notNegative h

end

section
variable {Sub : Nat → Bytes → Obj → Option Trouble → Prop}
  (hs : ∀ {m body o}, NoNegativeLength env body → Sub m body o (some .negative) → False)
include hs

theorem getObject_notNegative {m : Nat} {bs : Bytes} (hn : NoNegativeLength env bs) (hl : LenOk bs)
    (h : GetObject Sub m bs (.trouble .negative)) : False := by
  generalize hg : (Got.trouble .negative : Got Obj) = g at h
  cases h with
  | value => cases hg
  | inside hb h =>
    cases hg
    obtain ⟨l, rest, rfl, hbody⟩ : ∃ l rest, bs = l ++ (_ ++ rest) ∧ True := by
      cases hb with
      | read hv _ h =>
        obtain ⟨c, rfl, _⟩ := getVarint_local hv
        cases h with
        | value _ => exact ⟨c, _, rfl, trivial⟩
    exact hs hn.suffix.prefix h
  | noBody h => cases hg; exact getBody_notNegative hl h

theorem getMapValue_notNegative {vt : MapVal} {bs : Bytes} (hn : NoNegativeLength env bs) (hl : MapValOk vt bs)
    (h : GetMapValue env Sub vt bs (.trouble .negative)) : False := by
  generalize hg : (Got.trouble .negative : Got Val) = g at h
  cases h with
  | scalar h => obtain rfl := Got.map_trouble hg.symm; exact getScalar_notNegative hl h
  | enum h => obtain rfl := Got.map_trouble hg.symm; exact getVarint_notNegative h
  | msg h => obtain rfl := Got.map_trouble hg.symm; exact getObject_notNegative hs hn (hl trivial) h

theorem getPart_notNegative {m : Nat} {f : Field} {kk : Kind} {vt : MapVal} (hf : f ∈ env.sch m) (hty : f.ty = .map kk vt)
    {kv : Scalar × Val} {bs : Bytes} (hn : NoNegativeLength env bs)
    (h : GetPart env Sub kk vt kv bs (.trouble .negative)) : False := by
  generalize hg : (Got.trouble .negative : Got (Scalar × Val)) = g at h
  cases h with
  | key hv ht h =>
    obtain rfl := Got.map_trouble hg.symm
    cases hv with
    | value hv =>
      exact getScalar_notNegative (fun hk => hn.lenOk hv (.inr (.inr ⟨m, f, hf, kk, vt, hty, .inl ⟨ht, hk⟩⟩))) h
  | value hv ht h =>
    obtain rfl := Got.map_trouble hg.symm
    cases hv with
    | value hv =>
      exact getMapValue_notNegative hs hn.suffix
        (fun hk => hn.lenOk hv (.inr (.inr ⟨m, f, hf, kk, vt, hty, .inr ⟨ht, hk⟩⟩))) h
  | noTag h => cases hg; exact getVarint_notNegative h

theorem getValue_notNegative {m : Nat} {f : Field} (hf : f ∈ env.sch m) {ty : FieldTy} (hty : f.ty = ty) {old : Val} {bs : Bytes}
    (hn : NoNegativeLength env bs) (hl : hasLength ty → LenOk bs)
    (h : GetValue env Sub ty old bs (.trouble .negative)) : False := by
  generalize hg : (Got.trouble .negative : Got Val) = g at h
  cases h with
  | scalar h => obtain rfl := Got.map_trouble hg.symm; exact getScalar_notNegative hl h
  | enum h => obtain rfl := Got.map_trouble hg.symm; exact getVarint_notNegative h
  | append _ h => obtain rfl := Got.map_trouble hg.symm; exact getScalar_notNegative (fun _ => hl trivial) h
  | bools => cases hg
  | @packed k _ _ _ hk h =>
    obtain rfl := Got.map_trouble hg.symm
    refine getMany_notNegative (P := fun _ => True) (fun _ => trivial) (getElement_local _) ?_ trivial (hl trivial) h
    intro s bs _ h
    generalize hg : (Got.trouble .negative : Got (List Scalar)) = g at h
    cases h with
    | next h =>
      obtain rfl := Got.map_trouble hg.symm
      refine getScalar_notNegative (fun hk' => ?_) h
      rcases hk' with rfl | rfl <;> exact hk.elim
  | enums h =>
    obtain rfl := Got.map_trouble hg.symm
    refine getMany_notNegative (P := fun _ => True) (fun _ => trivial) getNumber_local ?_ trivial (hl trivial) h
    intro s bs _ h
    generalize hg : (Got.trouble .negative : Got (List (BitVec 32))) = g at h
    cases h with
    | next h => obtain rfl := Got.map_trouble hg.symm; exact getVarint_notNegative h
  | msg h => obtain rfl := Got.map_trouble hg.symm; exact getObject_notNegative hs hn (hl trivial) h
  | msgList h => obtain rfl := Got.map_trouble hg.symm; exact getObject_notNegative hs hn (hl trivial) h
  | map h =>
    obtain rfl := Got.map_trouble hg.symm
    exact getMany_notNegative (P := NoNegativeLength env) (fun h => h.suffix) (getPart_local _ _)
      (fun hn h => getPart_notNegative hs hf hty hn h) hn (hl trivial) h

theorem getRecord_notNegative {m : Nat} {o : Obj} {bs : Bytes} (hn : NoNegativeLength env bs)
    (h : GetRecord env Sub m o bs (.trouble .negative)) : False := by
  generalize hg : (Got.trouble .negative : Got Obj) = g at h
  cases h with
  | known hv _ hf hnum _ h =>
    obtain rfl := Got.map_trouble hg.symm
    cases hv with
    | value hv =>
      have hmem := List.mem_of_getElem? hf
      exact getValue_notNegative hs hmem rfl hn.suffix (fun hk => hn.lenOk hv (.inr (.inl ⟨m, _, hmem, hnum, hk⟩))) h
  | @unknown _ t _ hv _ _ _ h =>
    obtain rfl := Got.map_trouble hg.symm
    cases hv with
    | value hv =>
      generalize hg : (Got.trouble .negative : Got Unit) = g at h
      generalize hw : t % 8 = wt at h
      cases h with
      | varint | openVarint | fixed | fixedShort | body | bodyShort => cases hg
      | negative hv' h31 => exact lenOk_get (hn.lenOk hv (.inl hw)) hv' h31
      | noLength h => cases hg; exact getVarint_notNegative h
  | badTag => cases hg
  | noTag h => cases hg; exact getVarint_notNegative h

theorem getRecords_notNegative {m : Nat} {o o' : Obj} {bs : Bytes} (hn : NoNegativeLength env bs)
    (h : GetRecords env Sub m o bs o' (some .negative)) : False := by
  obtain ⟨p, rest, rfl, _, _, h⟩ := getRecords_prefix h
  exact getRecord_notNegative hs hn.suffix h

end

/-- Without a negative length behind any tag, no negative length is met. -/
theorem received_notNegative {d m : Nat} {bs : Bytes} {o : Obj} (hn : NoNegativeLength env bs) (h : Received env d m bs o (some .negative)) :
    False := by
  induction d generalizing m bs o with
  | zero => exact h
  | succ d ih => exact getRecords_notNegative (fun hn h => ih hn h) hn h

end QtPb
