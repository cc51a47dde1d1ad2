import Verif.SpecReceive
import Verif.UbConverse
/-
The decoder does what `SpecReceive` says, on every input.
-/
namespace QtPb
open Spec

variable {env : Env}

/-- The result `x` of an operation at `it`, in front of the bytes `r`, is what `g` says. -/
def Agrees {α : Type} (it : It) (r : Bytes) : Got α → Res (α × It) → Prop
  | .value a rest, x => ∃ c, r = c ++ rest ∧ x = .ok (a, ⟨it.data, it.pos + c.length⟩)
  | .trouble (.fails e), x => x = .throw e
  | .trouble .cut, x => x = .ub
  | .trouble .negative, _ => True

theorem bind_bind {α β γ : Type} (x : Res α) (f : α → Res β) (g : β → Res γ) : ((x >>= f) >>= g) = (x >>= fun a => f a >>= g) := by
  cases x <;> rfl

section
variable {α β : Type} {it : It} {r rest : Bytes}

theorem Agrees.map {g : Got α} {x : Res (α × It)} (h : Agrees it r g x) (f : α → β) :
    Agrees it r (g.map f) (x >>= fun y => .ok (f y.1, y.2)) := by
  rcases g with ⟨a, rest⟩ | ⟨e⟩ | _ | _
  · obtain ⟨c, h1, h2⟩ := h
    exact ⟨c, h1, by rw [h2]; rfl⟩
  · have h : x = _ := h
    subst h
    exact rfl
  · have h : x = _ := h
    subst h
    exact rfl
  · trivial

theorem Agrees.trouble {t : Trouble} {x : Res (α × It)} (h : Agrees it r (.trouble t) x) (f : α × It → Res (β × It)) :
    Agrees it r (.trouble t) (x >>= f) := by
  rcases t with ⟨e⟩ | _ | _
  · have h : x = _ := h
    subst h
    exact rfl
  · have h : x = _ := h
    subst h
    exact rfl
  · trivial

theorem Agrees.bind {a : α} {g : Got β} {x : Res (α × It)} {f : α × It → Res (β × It)} (hat : At it r)
    (h : Agrees it r (.value a rest) x)
    (hf : ∀ it', it'.pos = it.pos + (r.length - rest.length) → At it' rest → Agrees it' rest g (f (a, it'))) :
    Agrees it r g (x >>= f) := by
  obtain ⟨c, rfl, rfl⟩ := h
  have h1 := hf _ (by simp) hat.adv
  rcases g with ⟨b, rest'⟩ | ⟨e⟩ | _ | _
  · obtain ⟨c', rfl, h2⟩ := h1
    refine ⟨c ++ c', by simp, ?_⟩
    simpa [Res.bind_eq, Res.bind, Nat.add_assoc] using h2
  · exact h1
  · exact h1
  · trivial

end

theorem deserializeVarint_agrees {w : Nat} (hw : w ≤ 64) {it : It} {r : Bytes} {g : Got Nat} (hat : At it r)
    (h : GetVarint r g) : Agrees it r (g.map (· % 2 ^ w)) (deserializeVarint w it) := by
  cases h with
  | value hv => exact ⟨_, rfl, deserializeVarint_of hw hv hat.2.2⟩
  | truncated h => exact deserializeVarint_truncated (hat.2.2 ▸ h)
  | long h => exact deserializeVarint_long hat h

theorem Agrees.ok {α : Type} {it : It} {r rest : Bytes} {a : α} {c : Bytes} (hr : r = c ++ rest) :
    Agrees it r (.value a rest) (.ok (a, ⟨it.data, it.pos + c.length⟩)) := ⟨c, hr, rfl⟩

theorem littleEndian_eq (c : Bytes) : littleEndian c = ofLe c := by
  induction c with
  | nil => rfl
  | cons b bs ih => simp only [littleEndian, ofLe, ih]

theorem deserializeFixed_agrees {n : Nat} {it : It} {r : Bytes} {g : Got Bytes} (hat : At it r) (h : GetFixed n r g) :
    Agrees it r (g.map littleEndian) (deserializeFixed n it) := by
  cases h with
  | @value c rest h =>
    refine ⟨c, rfl, ?_⟩
    rw [deserializeFixed_of h hat.1 hat.2.1 hat.2.2, h, littleEndian_eq]
  | oneMissing h =>
    change deserializeFixed n it = _
    unfold deserializeFixed
    rw [if_neg (by rw [It.left_eq, hat.2.2]; omega), add_nat hat, if_neg (by omega)]
    rfl
  | moreMissing h => exact deserializeFixed_short hat h

theorem deserializeLengthDelimited_agrees {it : It} {r : Bytes} {g : Got Bytes} (hat : At it r) (h : GetBody r g) :
    Agrees it r g (deserializeLengthDelimited it) := by
  cases h with
  | read hv hn h =>
    refine Agrees.bind hat (deserializeVarint_agrees (by omega) hat hv) fun it' _ hat' => ?_
    simp only
    rw [if_neg (toInt32_nonneg hn).1, toInt32_of_lt hn]
    cases h with
    | @value c rest h =>
      rw [if_neg (by rw [It.left_eq, hat'.2.2]; simp only [List.length_append]; omega), add_nat hat', if_pos (by simp; omega)]
      refine ⟨c, rfl, ?_⟩
      simp only [Res.bind_eq, Res.bind, hat'.2.2, ← h, List.take_left']
    | oneMissing h =>
      rw [if_neg (by rw [It.left_eq, hat'.2.2]; omega), add_nat hat', if_neg (by omega)]
      rfl
    | moreMissing h =>
      rw [if_pos (by rw [It.left_eq, hat'.2.2]; omega)]
      rfl
  | negative => trivial
  | noLength h =>
    exact Agrees.trouble (deserializeVarint_agrees (w := 32) (by omega) hat h) _

theorem Got.map_map {α β γ : Type} (g : Got α) (f : α → β) (f' : β → γ) : (g.map f).map f' = g.map (fun a => f' (f a)) := by
  cases g <;> rfl

theorem Got.map_congr {α β : Type} {g : Got α} {f f' : α → β} (h : ∀ a, f a = f' a) : g.map f = g.map f' := by
  have : f = f' := funext h
  rw [this]

theorem Agrees.cast {α : Type} {it : It} {r : Bytes} {g g' : Got α} {x x' : Res (α × It)} (h : Agrees it r g x) (hg : g = g') (hx : x = x') :
    Agrees it r g' x' := by
  subst hg hx
  exact h

theorem deserializeBasic_agrees {k : Kind} {it : It} {r : Bytes} {g : Got Scalar} (hat : At it r) (h : GetScalar env k r g) :
    Agrees it r g (deserializeBasic env k it) := by
  cases h with
  | varint hw h =>
    have h32 := deserializeVarint_agrees (w := 32) (by omega) hat h
    have h64 := deserializeVarint_agrees (w := 64) (by omega) hat h
    cases k with
    | int32 | uint32 =>
      refine (Agrees.map h32 fun v => Scalar.w32 (.ofNat 32 v)).cast ?_ rfl
      rw [Got.map_map]
      exact Got.map_congr fun n => by simp only [ofVarint, ofNat_mod_pow]
    | int64 | uint64 =>
      refine (Agrees.map h64 fun v => Scalar.w64 (.ofNat 64 v)).cast ?_ rfl
      rw [Got.map_map]
      exact Got.map_congr fun n => by simp only [ofVarint, ofNat_mod_pow]
    | sint32 =>
      refine (Agrees.map h32 fun v => Scalar.w32 (unzigzag (.ofNat 32 v))).cast ?_ rfl
      rw [Got.map_map]
      exact Got.map_congr fun n => by
        simp only [ofVarint]
        rw [unzigzag_eq (by omega), BitVec.toNat_ofNat, Nat.mod_mod]
    | sint64 =>
      refine (Agrees.map h64 fun v => Scalar.w64 (unzigzag (.ofNat 64 v))).cast ?_ rfl
      rw [Got.map_map]
      exact Got.map_congr fun n => by
        simp only [ofVarint]
        rw [unzigzag_eq (by omega), BitVec.toNat_ofNat, Nat.mod_mod]
    | bool =>
      refine (Agrees.map h32 fun v => Scalar.bool (v != 0)).cast ?_ rfl
      rw [Got.map_map]
      exact Got.map_congr fun n => by
        simp only [ofVarint]
        congr 1
        simp [bne, BEq.beq]
    | _ => exfalso; revert hw; decide
  | fixed32 hw h =>
    have h1 := deserializeFixed_agrees hat h
    cases k <;> first
      | (exfalso; revert hw; decide)
      | (refine (Agrees.map h1 fun v => Scalar.w32 (BitVec.ofNat 32 v)).cast ?_ rfl; rw [Got.map_map])
  | fixed64 hw h =>
    have h1 := deserializeFixed_agrees hat h
    cases k <;> first
      | (exfalso; revert hw; decide)
      | (refine (Agrees.map h1 fun v => Scalar.w64 (BitVec.ofNat 64 v)).cast ?_ rfl; rw [Got.map_map])
  | body hw h =>
    have h1 := deserializeLengthDelimited_agrees hat h
    cases k <;> first
      | (exfalso; revert hw; decide)
      | exact Agrees.map h1 _

theorem deserializeEnum_agrees {it : It} {r : Bytes} {g : Got Nat} (hat : At it r) (h : GetVarint r g) :
    Agrees it r (g.map fun n => BitVec.ofNat 32 n) (deserializeEnum it) := by
  refine (Agrees.map (deserializeVarint_agrees (w := 64) (by omega) hat h) fun v => enumOfInt64 (BitVec.ofNat 64 v)).cast ?_ rfl
  rw [Got.map_map]
  refine Got.map_congr fun n => ?_
  simp only [enumOfInt64]
  apply BitVec.eq_of_toNat_eq
  simp

/-! ### Loops up to an end position -/

section
variable {σ : Type} {step : σ → It → Res (σ × It)} {Step : σ → Bytes → Got σ → Prop} {L : Nat}

/-- `step` does what `Step` says, in front of at most `L` bytes. -/
def StepAgrees (step : σ → It → Res (σ × It)) (Step : σ → Bytes → Got σ → Prop) (L : Nat) : Prop :=
  ∀ s it r g, At it r → r.length ≤ L → Step s r g → Agrees it r g (step s it)

theorem Agrees.shrinks {α : Type} {it : It} {r rest : Bytes} {a : α} {x : Res (α × It)} (h : Agrees it r (.value a rest) x) :
    rest.length ≤ r.length := by
  obtain ⟨c, rfl, _⟩ := h
  simp

theorem stepLoop_agrees (hs : StepAgrees step Step L) (hpos : ∀ s bs s' rest, Step s bs (.value s' rest) → rest.length < bs.length)
    {last n stop done : Nat} {s : σ} {it : It} {r : Bytes} {g : Got σ} (hat : At it r) (hL : r.length ≤ L)
    (h : GetSteps Step stop done s r g) (hl : (last : Int) - it.pos = stop - done) (hn : r.length < n) :
    Agrees it r g (stepLoop step last n s it) := by
  induction h generalizing it n with
  | stop =>
    obtain ⟨k, rfl⟩ : ∃ k, n = k + 1 := ⟨n - 1, by omega⟩
    simp only [stepLoop]
    rw [if_pos (by omega)]
    exact ⟨[], rfl, by simp⟩
  | @step done s s' bs rest g hd h1 _ ih =>
    obtain ⟨k, rfl⟩ : ∃ k, n = k + 1 := ⟨n - 1, by omega⟩
    simp only [stepLoop]
    rw [if_neg (by omega)]
    have := hpos _ _ _ _ h1
    refine Agrees.bind hat (hs s it bs _ hat hL h1) fun it' hp hat' => ?_
    exact ih hat' (by omega) (by omega) (by omega)
  | trouble hd h1 =>
    obtain ⟨k, rfl⟩ : ∃ k, n = k + 1 := ⟨n - 1, by omega⟩
    simp only [stepLoop]
    rw [if_neg (by omega)]
    exact Agrees.trouble (hs _ _ _ _ hat hL h1) _

theorem getVarint_pos {bs rest : Bytes} {n : Nat} (h : GetVarint bs (.value n rest)) : rest.length < bs.length := by
  cases h with
  | value hv => have := hv.pos; simp; omega

theorem lengthLoop_agrees (hs : StepAgrees step Step L) (hpos : ∀ s bs s' rest, Step s bs (.value s' rest) → rest.length < bs.length)
    {n : Nat} {s : σ} {it : It} {r : Bytes} {g : Got σ} (hat : At it r) (hL : r.length ≤ L) (h : GetMany Step s r g)
    (hn : r.length ≤ n) : Agrees it r g (lengthLoop step n s it) := by
  unfold lengthLoop
  cases h with
  | read hv hN hle h =>
    have := getVarint_pos hv
    refine Agrees.bind hat (deserializeVarint_agrees (by omega) hat hv) fun it' _ hat' => ?_
    simp only [It.plus, toInt32_of_lt hN]
    rw [add_nat hat', if_pos hle]
    simp only [Res.bind_eq, Res.bind]
    exact stepLoop_agrees hs hpos hat' (by omega) h (by omega) (by omega)
  | tooLong hv hN hle =>
    refine Agrees.bind hat (deserializeVarint_agrees (by omega) hat hv) fun it' _ hat' => ?_
    simp only [It.plus, toInt32_of_lt hN]
    rw [add_nat hat', if_neg (by omega)]
    rfl
  | negative => trivial
  | noLength h => exact Agrees.trouble (deserializeVarint_agrees (w := 32) (by omega) hat h) _

end

/-! ### Bytes are consumed -/

theorem getFixed_le {w : Nat} {bs rest c : Bytes} (h : GetFixed w bs (.value c rest)) : bs = c ++ rest ∧ c.length = w := by
  cases h with
  | value h => exact ⟨rfl, h⟩

theorem Got.map_value {α β : Type} {g : Got α} {f : α → β} {b : β} {rest : Bytes} (h : g.map f = .value b rest) :
    ∃ a, g = .value a rest ∧ f a = b := by
  cases g with
  | value a r =>
    simp only [Got.map, Got.value.injEq] at h
    exact ⟨a, by rw [h.2], h.1⟩
  | trouble t => simp [Got.map] at h

theorem getBody_pos {bs rest body : Bytes} (h : GetBody bs (.value body rest)) : body.length + rest.length < bs.length := by
  cases h with
  | read hv _ h =>
    have := getVarint_pos hv
    obtain ⟨rfl, _⟩ := getFixed_le h
    simpa using this

theorem getScalar_pos {k : Kind} {bs rest : Bytes} {s : Scalar} (h : GetScalar env k bs (.value s rest)) : rest.length < bs.length := by
  generalize hg : (Got.value s rest) = g at h
  cases h with
  | varint _ h =>
    obtain ⟨a, rfl, _⟩ := Got.map_value hg.symm
    exact getVarint_pos h
  | fixed32 _ h =>
    obtain ⟨a, rfl, _⟩ := Got.map_value hg.symm
    obtain ⟨rfl, h⟩ := getFixed_le h
    simp; omega
  | fixed64 _ h =>
    obtain ⟨a, rfl, _⟩ := Got.map_value hg.symm
    obtain ⟨rfl, h⟩ := getFixed_le h
    simp; omega
  | body _ h =>
    obtain ⟨a, rfl, _⟩ := Got.map_value hg.symm
    have := getBody_pos h
    omega

theorem getElement_pos {k : Kind} {l : List Scalar} {bs rest : Bytes} {l' : List Scalar}
    (h : GetElement env k l bs (.value l' rest)) : rest.length < bs.length := by
  generalize hg : (Got.value l' rest) = g at h
  cases h with
  | next h =>
    obtain ⟨a, rfl, _⟩ := Got.map_value hg.symm
    exact getScalar_pos h

theorem getNumber_pos {l : List (BitVec 32)} {bs rest : Bytes} {l' : List (BitVec 32)}
    (h : GetNumber l bs (.value l' rest)) : rest.length < bs.length := by
  generalize hg : (Got.value l' rest) = g at h
  cases h with
  | next h =>
    obtain ⟨a, rfl, _⟩ := Got.map_value hg.symm
    exact getVarint_pos h

theorem getSteps_le {σ : Type} {Step : σ → Bytes → Got σ → Prop} (hpos : ∀ s bs s' rest, Step s bs (.value s' rest) → rest.length < bs.length)
    {stop done : Nat} {s s' : σ} {bs rest : Bytes} (h : GetSteps Step stop done s bs (.value s' rest)) : rest.length ≤ bs.length := by
  generalize hg : (Got.value s' rest) = g at h
  induction h with
  | stop => cases hg; exact Nat.le_refl _
  | step _ h1 _ ih => have := hpos _ _ _ _ h1; have := ih hg; omega
  | trouble => cases hg

theorem getMany_pos {σ : Type} {Step : σ → Bytes → Got σ → Prop} (hpos : ∀ s bs s' rest, Step s bs (.value s' rest) → rest.length < bs.length)
    {s s' : σ} {bs rest : Bytes} (h : GetMany Step s bs (.value s' rest)) : rest.length < bs.length := by
  cases h with
  | read hv _ _ h => have := getVarint_pos hv; have := getSteps_le hpos h; omega

section
variable {Sub : Nat → Bytes → Obj → Option Trouble → Prop}

theorem getObject_pos {m : Nat} {bs rest : Bytes} {o : Obj} (h : GetObject Sub m bs (.value o rest)) : rest.length < bs.length := by
  cases h with
  | value h _ => have := getBody_pos h; omega

theorem getMapValue_pos {vt : MapVal} {bs rest : Bytes} {v : Val} (h : GetMapValue env Sub vt bs (.value v rest)) :
    rest.length < bs.length := by
  generalize hg : (Got.value v rest) = g at h
  cases h with
  | scalar h =>
    obtain ⟨a, rfl, _⟩ := Got.map_value hg.symm
    exact getScalar_pos h
  | enum h =>
    obtain ⟨a, rfl, _⟩ := Got.map_value hg.symm
    exact getVarint_pos h
  | msg h =>
    obtain ⟨a, rfl, _⟩ := Got.map_value hg.symm
    exact getObject_pos h

theorem getPart_pos {kk : Kind} {vt : MapVal} {kv kv' : Scalar × Val} {bs rest : Bytes}
    (h : GetPart env Sub kk vt kv bs (.value kv' rest)) : rest.length < bs.length := by
  generalize hg : (Got.value kv' rest) = g at h
  cases h with
  | key hv _ h =>
    obtain ⟨a, rfl, _⟩ := Got.map_value hg.symm
    have := getScalar_pos h
    have := getVarint_pos hv
    omega
  | value hv _ h =>
    obtain ⟨a, rfl, _⟩ := Got.map_value hg.symm
    have := getMapValue_pos h
    have := getVarint_pos hv
    omega
  | noTag => cases hg

theorem getValue_pos {ty : FieldTy} {old new : Val} {bs rest : Bytes} (h : GetValue env Sub ty old bs (.value new rest)) :
    rest.length < bs.length := by
  generalize hg : (Got.value new rest) = g at h
  cases h with
  | scalar h | append _ h =>
    obtain ⟨a, rfl, _⟩ := Got.map_value hg.symm
    exact getScalar_pos h
  | enum h =>
    obtain ⟨a, rfl, _⟩ := Got.map_value hg.symm
    exact getVarint_pos h
  | bools => cases hg
  | packed _ h =>
    obtain ⟨a, rfl, _⟩ := Got.map_value hg.symm
    exact getMany_pos (fun _ _ _ _ => getElement_pos) h
  | enums h =>
    obtain ⟨a, rfl, _⟩ := Got.map_value hg.symm
    exact getMany_pos (fun _ _ _ _ => getNumber_pos) h
  | msg h | msgList h =>
    obtain ⟨a, rfl, _⟩ := Got.map_value hg.symm
    exact getObject_pos h
  | map h =>
    obtain ⟨a, rfl, _⟩ := Got.map_value hg.symm
    exact getMany_pos (fun _ _ _ _ => getPart_pos) h

theorem getSkipped_le {wt : Nat} {bs rest : Bytes} {u : Unit} (h : GetSkipped wt bs (.value u rest)) : rest.length ≤ bs.length := by
  cases h with
  | varint | fixed => simp
  | body hv h => have := getVarint_pos hv; simp at this; omega

theorem getRecord_pos {m : Nat} {o o' : Obj} {bs rest : Bytes} (h : GetRecord env Sub m o bs (.value o' rest)) :
    rest.length < bs.length := by
  generalize hg : (Got.value o' rest) = g at h
  cases h with
  | known hv _ _ _ _ h =>
    obtain ⟨a, rfl, _⟩ := Got.map_value hg.symm
    have := getValue_pos h
    have := getVarint_pos hv
    omega
  | unknown hv _ _ _ h =>
    obtain ⟨a, rfl, _⟩ := Got.map_value hg.symm
    have := getSkipped_le h
    have := getVarint_pos hv
    omega
  | badTag | noTag => cases hg

/-! ### Packed lists, sub-messages and maps -/

theorem packStep_agrees {k : Kind} (L : Nat) : StepAgrees (packStep env k) (GetElement env k) L := by
  intro s it r g hat _ h
  cases h with
  | next h => exact Agrees.map (deserializeBasic_agrees hat h) _

theorem deserializePacked_agrees {k : Kind} {n : Nat} {it : It} {r : Bytes} {g : Got (List Scalar)} (hat : At it r)
    (h : GetMany (GetElement env k) [] r g) (hn : r.length ≤ n) : Agrees it r g (deserializePacked env k n it) := by
  rw [deserializePacked_eq]
  exact lengthLoop_agrees (packStep_agrees r.length) (fun _ _ _ _ => getElement_pos) hat (Nat.le_refl _) h hn

theorem numbers_steps {old : List (BitVec 32)} {stop done : Nat} {acc : List Scalar} {bs : Bytes} {g : Got (List (BitVec 32))}
    (h : GetSteps GetNumber stop done (old ++ acc.map enumOfScalar) bs g) :
    ∃ g', GetSteps (GetElement env .int64) stop done acc bs g' ∧ g = g'.map (fun l => old ++ l.map enumOfScalar) := by
  generalize he : old ++ acc.map enumOfScalar = s at h
  induction h generalizing acc with
  | stop => exact ⟨.value acc _, .stop, by rw [← he]; rfl⟩
  | @step done s s' bs rest g hd h1 _ ih =>
    generalize hg : Got.value s' rest = g1 at h1
    cases h1 with
    | next h1 =>
      obtain ⟨n, rfl, hs'⟩ := Got.map_value hg.symm
      have h2 : GetElement env .int64 acc bs (.value (acc ++ [ofVarint .int64 n]) rest) :=
        .next (g := .value (ofVarint .int64 n) rest) (GetScalar.varint (g := .value n rest) rfl h1)
      obtain ⟨g', h3, h4⟩ := ih (acc := acc ++ [ofVarint .int64 n]) (by
        rw [← hs', ← he]
        simp only [List.map_append, List.map_cons, List.map_nil, List.append_assoc, ofVarint, enumOfScalar, enumOfInt64]
        congr 3
        apply BitVec.eq_of_toNat_eq
        simp)
      exact ⟨g', .step hd h2 h3, h4⟩
  | @trouble done s bs t hd h1 =>
    generalize hg : (Got.trouble t : Got (List (BitVec 32))) = g1 at h1
    cases h1 with
    | next h1 =>
      rename_i g1
      cases g1 with
      | value a r => simp [Got.map] at hg
      | trouble t' =>
        simp only [Got.map, Got.trouble.injEq] at hg
        subst hg
        exact ⟨.trouble t, .trouble hd (.next (g := .trouble t) (GetScalar.varint (g := .trouble t) rfl h1)), rfl⟩

theorem numbers_many {old : List (BitVec 32)} {bs : Bytes} {g : Got (List (BitVec 32))} (h : GetMany GetNumber old bs g) :
    ∃ g', GetMany (GetElement env .int64) [] bs g' ∧ g = g'.map (fun l => old ++ l.map enumOfScalar) := by
  cases h with
  | read hv hn hle h =>
    obtain ⟨g', h1, h2⟩ := numbers_steps (env := env) (old := old) (acc := []) (by simpa using h)
    exact ⟨g', .read hv hn hle h1, h2⟩
  | tooLong hv hn hle => exact ⟨_, .tooLong hv hn hle, rfl⟩
  | negative hv hn => exact ⟨_, .negative hv hn, rfl⟩
  | noLength hv => exact ⟨_, .noLength hv, rfl⟩

/-- What `r` says about the result of a message. -/
def MsgAgrees (o : Obj) : Option Trouble → MsgResult → Prop
  | none, x => x = (.ok (), o)
  | some (.fails e), x => x = (.throw e, o)
  | some .cut, x => x = (.ub, o)
  | some .negative, _ => True

variable {rec : Nat → Bytes → MsgResult} {B : Nat}

/-- `rec` does what `Sub` says, on fewer than `B` bytes. -/
def RecAgrees (rec : Nat → Bytes → MsgResult) (Sub : Nat → Bytes → Obj → Option Trouble → Prop) (B : Nat) : Prop :=
  ∀ m body o r, Sub m body o r → body.length < 2 ^ 31 → body.length < B → MsgAgrees o r (rec m body)

theorem deserializeObject_agrees (hrec : RecAgrees rec Sub B) {m : Nat} {it : It} {r : Bytes} {g : Got Obj} (hat : At it r)
    (h : GetObject Sub m r g) (hB : r.length ≤ B) : Agrees it r g (deserializeObject rec m it) := by
  have h1 := hat.len
  have h2 := hat.1
  rw [deserializeObject_eq]
  cases h with
  | @value body rest o hb hs =>
    have := getBody_pos hb
    refine Agrees.bind hat (deserializeLengthDelimited_agrees hat hb) fun it' _ hat' => ?_
    have h3 : rec m body = _ := hrec m body o none hs (by omega) (by omega)
    simp only [h3]
    exact ⟨[], rfl, by simp [ofSub, Res.bind_eq, Res.bind]⟩
  | @inside body rest o t hb hs =>
    have := getBody_pos hb
    refine Agrees.bind hat (deserializeLengthDelimited_agrees hat hb) fun it' _ hat' => ?_
    have h3 := hrec m body o (some t) hs (by omega) (by omega)
    rcases t with ⟨e⟩ | _ | _
    · have h3 : rec m body = _ := h3
      simp only [h3]
      rfl
    · have h3 : rec m body = _ := h3
      simp only [h3]
      rfl
    · trivial
  | noBody h => exact Agrees.trouble (deserializeLengthDelimited_agrees hat h) _

theorem deserializeMapValue_agrees (hrec : RecAgrees rec Sub B) {vt : MapVal} {it : It} {r : Bytes} {g : Got Val} (hat : At it r)
    (h : GetMapValue env Sub vt r g) (hB : r.length ≤ B) : Agrees it r g (deserializeMapValue env rec vt it) := by
  cases h with
  | scalar h => exact Agrees.map (deserializeBasic_agrees hat h) _
  | enum h =>
    refine (Agrees.map (deserializeEnum_agrees hat h) Val.enum).cast ?_ rfl
    rw [Got.map_map]
  | msg h => exact Agrees.map (deserializeObject_agrees hrec hat h hB) _

theorem decodeHeader_agrees {it : It} {r : Bytes} {g : Got Nat} (hat : At it r) (h : GetVarint r g) :
    Agrees it r (g.map fun t => splitHeader (t % 2 ^ 32)) (decodeHeader it) := by
  refine (Agrees.map (deserializeVarint_agrees (w := 32) (by omega) hat h) splitHeader).cast ?_ rfl
  rw [Got.map_map]

theorem mapStep_agrees (hrec : RecAgrees rec Sub B) (kk : Kind) (vt : MapVal) :
    StepAgrees (mapStep env rec kk vt) (GetPart env Sub kk vt) B := by
  intro kv it r g hat hB h
  unfold mapStep
  cases h with
  | key hv hn h =>
    refine Agrees.bind hat (decodeHeader_agrees hat hv) fun it' _ hat' => ?_
    simp only [splitHeader, shr3]
    rw [if_pos hn]
    exact Agrees.map (deserializeBasic_agrees hat' h) fun s => (s, kv.2)
  | value hv hn h =>
    have := getVarint_pos hv
    refine Agrees.bind hat (decodeHeader_agrees hat hv) fun it' _ hat' => ?_
    simp only [splitHeader, shr3]
    rw [if_neg hn]
    exact Agrees.map (deserializeMapValue_agrees hrec hat' h (by omega)) fun v => (kv.1, v)
  | noTag h => exact Agrees.trouble (decodeHeader_agrees hat h) _

theorem Agrees.unmap {α β : Type} {it : It} {r : Bytes} {g : Got α} {x : Res (α × It)} {y : Res (β × It)} {f : β → α}
    {f' : α → β} (h : Agrees it r g x) (hx : x = (y >>= fun z => .ok (f z.1, z.2))) (hf : ∀ b, f' (f b) = b) :
    Agrees it r (g.map f') y := by
  subst hx
  rcases g with ⟨a, rest⟩ | ⟨e⟩ | _ | _
  · obtain ⟨c, h1, h2⟩ := h
    refine ⟨c, h1, ?_⟩
    cases y with
    | ok z =>
      simp only [Res.bind_eq, Res.bind, Res.ok.injEq, Prod.mk.injEq] at h2
      rw [← h2.1, ← h2.2, hf]
    | _ => simp [Res.bind_eq, Res.bind] at h2
  · cases y <;> simp [Agrees, Got.map, Res.bind_eq, Res.bind] at h ⊢
    exact h
  · cases y <;> simp [Agrees, Got.map, Res.bind_eq, Res.bind] at h ⊢
  · trivial

theorem mapPair_agrees (hrec : RecAgrees rec Sub B) {kk : Kind} {vt : MapVal} {n : Nat} {it : It} {r : Bytes}
    {g : Got (Scalar × Val)} {old : List (Scalar × Val)} (hat : At it r) (h : GetMany (GetPart env Sub kk vt) (emptyEntry kk vt) r g) (hB : r.length ≤ B)
    (hn : r.length ≤ n) : Agrees it r (g.map fun kv => Val.map (mapInsert kk kv.1 kv.2 old))
      (deserializeMapPair env rec kk vt n it >>= fun x => .ok (.map (mapInsert kk x.1 x.2.1 old), x.2.2)) := by
  rw [emptyEntry_eq] at h
  have h1 := lengthLoop_agrees (mapStep_agrees hrec kk vt) (fun _ _ _ _ => getPart_pos) hat hB h hn
  rw [← deserializeMapPair_eq] at h1
  refine (Agrees.map h1 fun kv => Val.map (mapInsert kk kv.1 kv.2 old)).cast rfl ?_
  cases deserializeMapPair env rec kk vt n it <;> rfl

theorem deserializeValue_agrees (hrec : RecAgrees rec Sub B) {ty : FieldTy} {n : Nat} {old : Val} {it : It} {r : Bytes} {g : Got Val}
    (hat : At it r) (h : GetValue env Sub ty old r g) (hB : r.length ≤ B) (hn : r.length ≤ n) :
    Agrees it r g (deserializeValue env rec ty n old it) := by
  cases h with
  | scalar h => exact Agrees.map (deserializeBasic_agrees hat h) _
  | enum h =>
    refine (Agrees.map (deserializeEnum_agrees hat h) Val.enum).cast ?_ rfl
    rw [Got.map_map]
  | @append k old _ g hk h =>
    have h1 : Agrees it r (g.map fun s => old ++ [s]) (deserializeScalarList env k n old it) := by
      rcases hk with rfl | rfl <;> exact Agrees.map (deserializeBasic_agrees hat h) _
    refine (Agrees.map h1 Val.scList).cast ?_ rfl
    rw [Got.map_map]
  | bools => rfl
  | @packed k old _ g hk h =>
    have h1 := deserializePacked_agrees hat h hn
    refine (Agrees.map h1 Val.scList).cast rfl ?_
    cases k <;> simp only [packable] at hk <;> rfl
  | @enums old _ g h =>
    obtain ⟨g', h1, rfl⟩ := numbers_many (env := env) h
    have h2 := Agrees.map (deserializePacked_agrees hat h1 hn) fun l => old ++ l.map enumOfScalar
    exact Agrees.map h2 Val.enumList
  | msg h => exact Agrees.map (deserializeObject_agrees hrec hat h hB) _
  | @msgList m old _ g h => exact Agrees.map (deserializeObject_agrees hrec hat h hB) fun o => Val.msgList (old ++ [.msg o])
  | map h => exact mapPair_agrees hrec hat h hB hn

/-! ### Records -/

theorem skipOp_agrees {wt : Nat} {it : It} {r : Bytes} {g : Got Unit} (hat : At it r) (h : GetSkipped wt r g) :
    Agrees it r g (skipOp wt it) := by
  unfold skipOp skipField
  simp only [wtVarint, wtFixed32, wtFixed64, wtLengthDelimited]
  cases h with
  | @varint c rest n hv =>
    refine ⟨c, rfl, ?_⟩
    simp only [if_true, skipVarint, hat.2.2]
    rw [skipVarintLoop_of hv]
    rfl
  | openVarint h =>
    change _ = _
    simp only [if_true, skipVarint, hat.2.2]
    rw [skipVarintLoop_truncated h]
    rfl
  | @fixed _ w c rest hw hc =>
    refine ⟨c, rfl, ?_⟩
    have h1 : it.add (w : Int) = .ok ⟨it.data, it.pos + c.length⟩ := by
      rw [add_nat hat, if_pos (by simp; omega), hc]
    rcases hw with ⟨rfl, rfl⟩ | ⟨rfl, rfl⟩ <;> exact bind_of_ok h1
  | @fixedShort _ w _ hw hc =>
    have h1 : it.add (w : Int) = .throw .outOfRange := by
      rw [add_nat hat, if_neg (by omega)]
    change _ = _
    rcases hw with ⟨rfl, rfl⟩ | ⟨rfl, rfl⟩
    · simp only [show ¬ (5 : Nat) = 0 by omega, if_false, if_true]
      rw [show (4 : Int) = ((4 : Nat) : Int) from rfl, h1]; rfl
    · simp only [show ¬ (1 : Nat) = 0 by omega, show ¬ (1 : Nat) = 5 by omega, if_false, if_true]
      rw [show (8 : Int) = ((8 : Nat) : Int) from rfl, h1]; rfl
  | @body _ c rest n hv hc hn =>
    simp only [show ¬ (2 : Nat) = 0 by omega, show ¬ (2 : Nat) = 5 by omega, show ¬ (2 : Nat) = 1 by omega, if_false, if_true,
      skipLengthDelimited]
    rw [bind_bind]
    refine Agrees.bind hat (deserializeVarint_agrees (w := 32) (by omega) hat hv) fun it' _ hat' => ?_
    simp only [toInt32_of_lt hn]
    rw [add_nat hat', if_pos (by simp; omega), ← hc]
    exact ⟨c, rfl, rfl⟩
  | bodyShort hv hc hn =>
    simp only [show ¬ (2 : Nat) = 0 by omega, show ¬ (2 : Nat) = 5 by omega, show ¬ (2 : Nat) = 1 by omega, if_false, if_true,
      skipLengthDelimited]
    rw [bind_bind]
    refine Agrees.bind hat (deserializeVarint_agrees (w := 32) (by omega) hat hv) fun it' _ hat' => ?_
    simp only [toInt32_of_lt hn]
    rw [add_nat hat', if_neg (by omega)]
    rfl
  | negative => trivial
  | noLength h =>
    simp only [show ¬ (2 : Nat) = 0 by omega, show ¬ (2 : Nat) = 5 by omega, show ¬ (2 : Nat) = 1 by omega, if_false, if_true,
      skipLengthDelimited]
    rw [bind_bind]
    exact Agrees.trouble (deserializeVarint_agrees (w := 32) (by omega) hat h) _

/-- `deserializeProperty` with the position behind the object. -/
def propertyOp (env : Env) (rec : Nat → Bytes → MsgResult) (m n : Nat) (o : Obj) (it : It) : Res (Obj × It) :=
  deserializeProperty env rec m n it o >>= fun x => .ok (x.2, x.1)

theorem splitHeader_valid {t : Nat} : (splitHeader (t % 2 ^ 32)).valid = true ↔ t % 2 ^ 32 / 8 ≠ 0 ∧ KnownWireType (t % 8) := by
  have h : t % 4294967296 % 8 = t % 8 := by omega
  simp only [splitHeader, KnownWireType, Bool.and_eq_true, Bool.or_eq_true, decide_eq_true_eq, beq_iff_eq, wtVarint, wtFixed64,
    wtFixed32, wtLengthDelimited, shr3, and7]
  rw [show (2 : Nat) ^ 32 = 4294967296 by rfl, h]
  omega

theorem propertyOp_agrees (hv : ValidSchema env) (hrec : RecAgrees rec Sub B) {m n : Nat} {o : Obj} {it : It} {r : Bytes} {g : Got Obj}
    (hat : At it r) (h : GetRecord env Sub m o r g) (hB : r.length ≤ B) (hn : r.length ≤ n) :
    Agrees it r g (propertyOp env rec m n o it) := by
  unfold propertyOp deserializeProperty
  rw [bind_bind]
  cases h with
  | @known rest t i f old g hvar hwt hf hnum hold h =>
    have hlen := getVarint_pos hvar
    refine Agrees.bind hat (decodeHeader_agrees hat hvar) fun it' _ hat' => ?_
    have h0 : f.num ≠ 0 := by
      have := ((hv m).2 f (List.mem_of_getElem? hf)).1
      omega
    have hvalid := splitHeader_valid (t := t) |>.2 ⟨hnum ▸ h0, hwt⟩
    simp only [hvalid, Bool.not_true, Bool.false_eq_true, if_false]
    have hfind : findField (env.sch m) (splitHeader (t % 2 ^ 32)).num = some i := by
      have : (splitHeader (t % 2 ^ 32)).num = f.num := by simp only [splitHeader, shr3, hnum]
      rw [this]
      exact findField_of (hv m).1 hf
    simp only [hfind, hf, hold]
    have h1 := Agrees.map (deserializeValue_agrees hrec (n := n) hat' h (by omega) (by omega)) fun v => o.set i (store f.ty old v)
    refine h1.cast rfl ?_
    cases deserializeValue env rec f.ty n old it' <;> simp [Res.bind_eq, Res.bind, store_eq]
  | @unknown rest t g hvar hwt h0 hnone h =>
    refine Agrees.bind hat (decodeHeader_agrees hat hvar) fun it' _ hat' => ?_
    have hvalid := splitHeader_valid (t := t) |>.2 ⟨h0, hwt⟩
    simp only [hvalid, Bool.not_true, Bool.false_eq_true, if_false]
    have hfind : findField (env.sch m) (splitHeader (t % 2 ^ 32)).num = none := by
      apply findField_none
      simpa only [splitHeader, shr3] using hnone
    simp only [hfind]
    have hw : (splitHeader (t % 2 ^ 32)).wt = t % 8 := by
      simp only [splitHeader, and7]
      omega
    have h1 := Agrees.map (skipOp_agrees hat' h) fun _ => o
    refine h1.cast rfl ?_
    rw [hw]
    unfold skipOp
    cases skipField it' (t % 8) <;> rfl
  | @badTag rest t hvar hbad =>
    refine Agrees.bind hat (decodeHeader_agrees hat hvar) fun it' _ hat' => ?_
    have hvalid : (splitHeader (t % 2 ^ 32)).valid = false := by
      rw [Bool.eq_false_iff]
      intro h
      have := splitHeader_valid.1 h
      rcases hbad with h | h
      · exact this.1 h
      · exact h this.2
    simp only [hvalid, Bool.not_false, if_true]
    rfl
  | noTag h => exact Agrees.trouble (decodeHeader_agrees hat h) _

theorem messageLoop_agrees (hv : ValidSchema env) (hrec : RecAgrees rec Sub B) {m n : Nat} {o o' : Obj} {it : It} {bs : Bytes}
    {r : Option Trouble} (hat : At it bs) (h : GetRecords env Sub m o bs o' r) (hB : bs.length ≤ B) (hn : bs.length < n) :
    MsgAgrees o' r (messageLoop env rec m n it o) := by
  induction h generalizing it n with
  | done =>
    obtain ⟨k, rfl⟩ : ∃ k, n = k + 1 := ⟨n - 1, by omega⟩
    have hl := hat.len
    simp at hl
    change _ = _
    simp [messageLoop, hl]
  | @record o o1 o2 bs rest r hne h1 _ ih =>
    obtain ⟨k, rfl⟩ : ∃ k, n = k + 1 := ⟨n - 1, by omega⟩
    have hl := hat.len
    have hpos : 0 < bs.length := List.length_pos_iff.2 hne
    simp only [messageLoop]
    rw [if_neg (by omega)]
    obtain ⟨c, rfl, h2⟩ := propertyOp_agrees hv hrec (n := k) hat h1 hB (by omega)
    have h3 := getRecord_pos h1
    unfold propertyOp at h2
    cases hd : deserializeProperty env rec m k it o with
    | ok x =>
      rw [hd] at h2
      simp only [Res.bind_eq, Res.bind, Res.ok.injEq, Prod.mk.injEq] at h2
      obtain ⟨it1, oo⟩ := x
      obtain ⟨rfl, rfl⟩ := h2
      exact ih hat.adv (by omega) (by omega)
    | _ => rw [hd] at h2; simp [Res.bind_eq, Res.bind] at h2
  | @trouble o bs t hne h1 =>
    obtain ⟨k, rfl⟩ : ∃ k, n = k + 1 := ⟨n - 1, by omega⟩
    have hl := hat.len
    have hpos : 0 < bs.length := List.length_pos_iff.2 hne
    simp only [messageLoop]
    rw [if_neg (by omega)]
    have h2 := propertyOp_agrees hv hrec (n := k) hat h1 hB (by omega)
    unfold propertyOp at h2
    rcases t with ⟨e⟩ | _ | _
    · cases hd : deserializeProperty env rec m k it o with
      | throw e' => rw [hd] at h2; simp only [Agrees, Res.bind_eq, Res.bind, Res.throw.injEq] at h2; subst h2; rfl
      | _ => rw [hd] at h2; simp [Agrees, Res.bind_eq, Res.bind] at h2
    · cases hd : deserializeProperty env rec m k it o with
      | ub => rfl
      | _ => rw [hd] at h2; simp [Agrees, Res.bind_eq, Res.bind] at h2
    · trivial

end

/-- The decoder does what `Received` says. -/
theorem deserializeMessage_agrees (hv : ValidSchema env) {d m n : Nat} {bs : Bytes} {o : Obj} {r : Option Trouble}
    (h : Received env d m bs o r) (h31 : bs.length < 2 ^ 31) (hn : bs.length < n) : MsgAgrees o r (deserializeMessage env n m bs) := by
  induction d generalizing m bs o r n with
  | zero => exact h.elim
  | succ d ih =>
    obtain ⟨k, rfl⟩ : ∃ k, n = k + 1 := ⟨n - 1, by omega⟩
    exact messageLoop_agrees (B := k) hv (fun m body o r h h31 hn => ih h h31 hn) (At.start h31) h (by omega) hn

end QtPb
