import Verif.ReceiveNegative
import Verif.ReceiveFormat
import Verif.PropsCompare
/-
Property theorems about every input, in terms of `SpecReceive`: C80, and C16, C17, C18 with the weakest condition on
negative lengths, that none is met.
-/
namespace QtPb
open Spec

variable {env : Env}

/-! ### C80 -/

/-- C80, the specification: every input has exactly one outcome, an object and possibly something that is wrong. -/
theorem C80_one_outcome (hv : ValidSchema env) (m : Nat) (data : Bytes) :
    ∃ o r, (∀ d, data.length < d → Received env d m data o r) ∧ ∀ d o' r', Received env d m data o' r' → o' = o ∧ r' = r := by
  obtain ⟨o, r, h⟩ := received_total (env := env) (data.length + 1) m data (by omega)
  refine ⟨o, r, fun d hd => ?_, fun d o' r' h' => received_det hv h' h⟩
  obtain ⟨o', r', h'⟩ := received_total (env := env) d m data hd
  obtain ⟨rfl, rfl⟩ := received_det hv h' h
  exact h'

/-- The encodings of the wire format are among the accepted inputs, and have the same contents. -/
theorem C80_format {d m : Nat} {data : Bytes} {o : Obj} (h : Message env d m data o) (hlen : data.length < 2 ^ 31) :
    Received env d m data o none :=
  message_received h hlen

/-- C80: an input that is read to its end is accepted with the contents that were read. -/
theorem C80_accepts (hv : ValidSchema env) {d n m : Nat} {data : Bytes} {o : Obj} (h : Received env d m data o none)
    (hlen : data.length < 2 ^ 31) (hn : data.length < n) : deserializeMessage env n m data = (.ok (), o) :=
  deserializeMessage_agrees hv h hlen hn

/-- C80: an input with something wrong in it is rejected with the exception for that; the records before it are decoded. -/
theorem C80_rejects (hv : ValidSchema env) {d n m : Nat} {data : Bytes} {o : Obj} {e : Exn}
    (h : Received env d m data o (some (.fails e))) (hlen : data.length < 2 ^ 31) (hn : data.length < n) :
    deserializeMessage env n m data = (.throw e, o) :=
  deserializeMessage_agrees hv h hlen hn

/-- The decoder always has an outcome that `Received` gives, unless a negative length is met. -/
theorem received_cases (hv : ValidSchema env) {n m : Nat} {data : Bytes} (hneg : ¬ MeetsNegative env m data)
    (hlen : data.length < 2 ^ 31) (hn : data.length < n) :
    (∃ d o, Received env d m data o none ∧ deserializeMessage env n m data = (.ok (), o)) ∨
    (∃ d o e, Received env d m data o (some (.fails e)) ∧ deserializeMessage env n m data = (.throw e, o)) ∨
    ∃ d o, Received env d m data o (some .cut) ∧ deserializeMessage env n m data = (.ub, o) := by
  obtain ⟨o, r, h⟩ := received_total (env := env) (data.length + 1) m data (by omega)
  have h1 := deserializeMessage_agrees hv h hlen hn
  match r, h, h1 with
  | none, h, h1 => exact .inl ⟨_, _, h, h1⟩
  | some (.fails e), h, h1 => exact .inr (.inl ⟨_, _, _, h, h1⟩)
  | some .cut, h, h1 => exact .inr (.inr ⟨_, _, h, h1⟩)
  | some .negative, h, _ => exact absurd ⟨_, _, h⟩ hneg

/-- C80: exactly these inputs are accepted, with these contents. Missing: inputs in which a negative length is met. -/
theorem C80_accepted_partial (hv : ValidSchema env) {n m : Nat} {data : Bytes} (hneg : ¬ MeetsNegative env m data)
    (hlen : data.length < 2 ^ 31) (hn : data.length < n) (o : Obj) :
    deserializeMessage env n m data = (.ok (), o) ↔ ∃ d, Received env d m data o none := by
  refine ⟨fun h => ?_, fun ⟨d, h⟩ => C80_accepts hv h hlen hn⟩
  rcases received_cases hv hneg hlen hn with ⟨d, o', h1, h2⟩ | ⟨_, _, _, _, h2⟩ | ⟨_, _, _, h2⟩ <;> rw [h] at h2 <;> cases h2
  exact ⟨d, h1⟩

/-- C80: exactly these inputs are rejected, with these exceptions, and so much of them is decoded.
Missing: inputs in which a negative length is met. -/
theorem C80_rejected_partial (hv : ValidSchema env) {n m : Nat} {data : Bytes} (hneg : ¬ MeetsNegative env m data)
    (hlen : data.length < 2 ^ 31) (hn : data.length < n) (e : Exn) (o : Obj) :
    deserializeMessage env n m data = (.throw e, o) ↔ ∃ d, Received env d m data o (some (.fails e)) := by
  refine ⟨fun h => ?_, fun ⟨d, h⟩ => C80_rejects hv h hlen hn⟩
  rcases received_cases hv hneg hlen hn with ⟨_, _, _, h2⟩ | ⟨d, _, _, h1, h2⟩ | ⟨_, _, _, h2⟩ <;> rw [h] at h2 <;> cases h2
  exact ⟨d, h1⟩

/-- C80 for the public call with a new target: an input that is read to its end is accepted, and the target is left as a copy of what was
read; an input with something wrong in it is rejected, and the target is left as a copy of what was read before. -/
theorem C80_new_target (hv : ValidSchema env) {d n m : Nat} {data : Bytes} {o : Obj} {r : Option Trouble}
    (h : Received env d m data o r) (hlen : data.length < 2 ^ 31) (hn : data.length < n) :
    ∃ K, ∀ k, K ≤ k → ∃ t st, deserialize env n k m data (defaultObj env m) = ⟨st, .ok t⟩ ∧
      (r = none → st = .ok () ∧ Mirrors env (.msg m) (.msg t) (.msg o)) ∧
      ∀ e, r = some (.fails e) → st = .throw e ∧ Mirrors env (.msg m) (.msg t) (.msg o) := by
  obtain ⟨K, hK⟩ := C19_new_target (env := env) (n := n) (m := m) (data := data)
  have h1 := deserializeMessage_agrees hv h hlen hn
  refine ⟨K, fun k hk => ?_⟩
  obtain ⟨t, h2, _, h3⟩ := hK k hk
  refine ⟨t, _, h2, ?_, ?_⟩
  · rintro rfl
    change deserializeMessage env n m data = (.ok (), o) at h1
    rw [h1] at h3 ⊢
    exact ⟨rfl, h3⟩
  · rintro e rfl
    change deserializeMessage env n m data = (.throw e, o) at h1
    rw [h1] at h3 ⊢
    exact ⟨rfl, h3⟩

/-! ### C16, C17, C18 -/

/-- C16, the exact set of inputs on which it fails: an undefined operation is performed if and only if what is read, record after record,
is cut off (`Trouble.cut`: a varint goes on after ten bytes, or at least two bytes of a fixed width or length delimited value are missing).
Missing: inputs in which a negative length is met. -/
theorem C16_reading_partial (hv : ValidSchema env) {n m : Nat} {data : Bytes} (hneg : ¬ MeetsNegative env m data)
    (hlen : data.length < 2 ^ 31) (hn : data.length < n) :
    (deserializeMessage env n m data).1 = .ub ↔ ∃ d o, Received env d m data o (some .cut) := by
  refine ⟨fun h => ?_, fun ⟨d, o, h⟩ => ?_⟩
  · rcases received_cases hv hneg hlen hn with ⟨_, _, _, h2⟩ | ⟨_, _, _, _, h2⟩ | ⟨d, o, h1, h2⟩
    · rw [h2] at h; cases h
    · rw [h2] at h; cases h
    · exact ⟨d, o, h1⟩
  · have h1 : deserializeMessage env n m data = (.ub, o) := deserializeMessage_agrees hv h hlen hn
    rw [h1]

/-- C17 for all inputs in which no negative length is met: decoding ends, and what it gives does not depend on the budget.
Missing: inputs in which a negative length is met, see `C17_skip_violated`. -/
theorem C17_reading_partial (hv : ValidSchema env) {n m : Nat} {data : Bytes} (hneg : ¬ MeetsNegative env m data)
    (hlen : data.length < 2 ^ 31) (hn : data.length < n) :
    (deserializeMessage env n m data).1 ≠ .fuel ∧
    deserializeMessage env n m data = deserializeMessage env (data.length + 1) m data := by
  obtain ⟨o, r, h⟩ := received_total (env := env) (data.length + 1) m data (by omega)
  have h1 := deserializeMessage_agrees hv h hlen hn
  have h2 := deserializeMessage_agrees hv h hlen (show data.length < data.length + 1 by omega)
  match r, h, h1, h2 with
  | none, _, h1, h2 => exact ⟨by rw [show deserializeMessage env n m data = _ from h1]; simp, h1.trans h2.symm⟩
  | some (.fails e), _, h1, h2 => exact ⟨by rw [show deserializeMessage env n m data = _ from h1]; simp, h1.trans h2.symm⟩
  | some .cut, _, h1, h2 => exact ⟨by rw [show deserializeMessage env n m data = _ from h1]; simp, h1.trans h2.symm⟩
  | some .negative, h, _, _ => exact absurd ⟨_, _, h⟩ hneg

/-- C18 for all inputs in which no negative length is met, for every schema and a new target: an input on which the decoder throws splits
into an accepted part and a rest whose first record throws the same exception; the target is a copy of what the accepted part decodes to.
Missing: inputs in which a negative length is met, see `C18_negative_length_violated`. -/
theorem C18_reading_partial (hv : ValidSchema env) {n m : Nat} {data : Bytes} {e : Exn} {o : Obj} (hneg : ¬ MeetsNegative env m data)
    (hlen : data.length < 2 ^ 31) (hn : data.length < n) (h : deserializeMessage env n m data = (.throw e, o)) :
    (∃ p rest, data = p ++ rest ∧ deserializeMessage env n m p = (.ok (), o) ∧
      deserializeMessage env n m rest = (.throw e, defaultObj env m)) ∧
    ∃ K, ∀ k, K ≤ k → ∃ r, deserialize env n k m data (defaultObj env m) = ⟨.throw e, .ok r⟩ ∧
      Mirrors env (.msg m) (.msg r) (.msg o) := by
  obtain ⟨d, h1⟩ := (C80_rejected_partial hv hneg hlen hn e o).1 h
  obtain ⟨p, rest, rfl, _, h2, h3⟩ := received_prefix h1
  simp only [List.length_append] at hlen hn
  refine ⟨⟨p, rest, rfl, C80_accepts hv h2 (by omega) (by omega), C80_rejects hv h3 (by omega) (by omega)⟩, ?_⟩
  obtain ⟨K, hK⟩ := C19_new_target (env := env) (n := n) (m := m) (data := p ++ rest)
  rw [h] at hK
  exact ⟨K, fun k hk => by obtain ⟨r, h1, _, h2⟩ := hK k hk; exact ⟨r, h1, h2⟩⟩

/-! ### Cases -/

/-- `NoNegativeLength`, the condition of C16 to C18 in `PropsBytes`, is stronger: it looks at every place of the input. -/
theorem not_meetsNegative {m : Nat} {data : Bytes} (h : NoNegativeLength env data) : ¬ MeetsNegative env m data :=
  fun ⟨_, _, h'⟩ => received_notNegative h h'

/-- Bytes inside of a string that look like a record with a negative length do not matter: field 2 of type 0 is a string. -/
example : ¬ NoNegativeLength demoEnv [0x12, 0x06, 0x7a, 0xff, 0xff, 0xff, 0xff, 0x0f] ∧
    ¬ MeetsNegative demoEnv 0 [0x12, 0x06, 0x7a, 0xff, 0xff, 0xff, 0xff, 0x0f] := by
  constructor
  · intro h
    have := h [0x12, 0x06] [0x7a] [0xff, 0xff, 0xff, 0xff, 0x0f] [] 0x7a (2 ^ 32 - 1) rfl ⟨.last 0x7a (by decide), by decide⟩ (.inl rfl)
      ⟨.more 0xff _ _ (by decide) (.more 0xff _ _ (by decide) (.more 0xff _ _ (by decide) (.more 0xff _ _ (by decide) (.last 0x0f (by decide))))),
        by decide⟩
    revert this
    decide
  · rintro ⟨d, o, h⟩
    have h1 : Received demoEnv 1 0 [0x12, 0x06, 0x7a, 0xff, 0xff, 0xff, 0xff, 0x0f] _ none :=
      message_received (o := (defaultObj demoEnv 0).set 1 (store (.scalar .string) (.sc (.str none))
        (.sc (.str (some (demoEnv.fromUtf8 [0x7a, 0xff, 0xff, 0xff, 0xff, 0x0f])))))) (.known
        (hdr := [0x12]) (payload := [0x06] ++ [0x7a, 0xff, 0xff, 0xff, 0xff, 0x0f]) (rest := []) (wt := 2) (i := 1) (f := ⟨2, .scalar .string⟩)
        rfl ⟨⟨.last 0x12 (by decide), by decide⟩, by decide, by decide⟩ rfl
        (.scalar _ (.string ⟨.last 6 (by decide), by decide⟩)) (.nil _)) (by decide)
    have := (received_det demo_valid h h1).2
    cases this

/-- Accepted, rejected and cut off inputs; a wire type that does not fit is ignored (second). -/
example : (∃ d o, Received demoEnv d 0 [0x08, 0x05] o none) ∧ (∃ d o, Received demoEnv d 0 [0x0d, 0x05] o none) ∧
    (∃ d o, Received demoEnv d 0 [0x08, 0x05, 0x0b] o (some (.fails .invalidArgument))) ∧
    ∃ d o, Received demoEnv d 0 [0x79, 0x05] o (some .cut) := by
  refine ⟨?_, ?_, ?_, ?_⟩
  · obtain ⟨d, h⟩ := (C80_accepted_partial (n := 3) demo_valid (not_meetsNegative (noNegativeLength_of_small (by decide)))
      (by decide) (by decide) _).1 (show deserializeMessage demoEnv 3 0 [0x08, 0x05] = (.ok (), _) from rfl)
    exact ⟨d, _, h⟩
  · obtain ⟨d, h⟩ := (C80_accepted_partial (n := 3) demo_valid (not_meetsNegative (noNegativeLength_of_small (by decide)))
      (by decide) (by decide) _).1 (show deserializeMessage demoEnv 3 0 [0x0d, 0x05] = (.ok (), _) from rfl)
    exact ⟨d, _, h⟩
  · obtain ⟨d, h⟩ := (C80_rejected_partial (n := 4) demo_valid (not_meetsNegative (noNegativeLength_of_small (by decide)))
      (by decide) (by decide) _ _).1 (show deserializeMessage demoEnv 4 0 [0x08, 0x05, 0x0b] = (.throw .invalidArgument, _) from rfl)
    exact ⟨d, _, h⟩
  · exact (C16_reading_partial (n := 3) demo_valid (not_meetsNegative (noNegativeLength_of_small (by decide)))
      (by decide) (by decide)).1 rfl

/-- A negative length that is met: the input of `C17_skip_violated`. -/
example : MeetsNegative demoEnv 1 [0x7A, 0xFA, 0xFF, 0xFF, 0xFF, 0x0F] :=
  ⟨1, _, .trouble (by simp) (.unknown (g := .trouble .negative)
    (.value (c := [0x7A]) (rest := [0xFA, 0xFF, 0xFF, 0xFF, 0x0F]) ⟨.last 0x7a (by decide), by decide⟩) (.inr (.inr (.inl rfl)))
    (by decide) (by decide)
    (.negative (.value (c := [0xFA, 0xFF, 0xFF, 0xFF, 0x0F]) (rest := []) ⟨.more 0xfa _ _ (by decide) (.more 0xff _ _ (by decide)
      (.more 0xff _ _ (by decide) (.more 0xff _ _ (by decide) (.last 0x0f (by decide))))), by decide⟩) (by decide)))⟩

end QtPb
