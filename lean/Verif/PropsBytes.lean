import Verif.UbConverse
import Verif.PropsRecords
/-
Property theorems about decoding arbitrary byte strings: C16, C17 and the general form of C18.

`NoNegativeLength` excludes byte strings with a length of 2^31 or more behind a tag; the decoder converts
lengths to a signed `int` and would move backwards.
-/
namespace QtPb
open Spec

variable {env : Env}

/-- Bytes below 128 contain no negative length. -/
theorem noNegativeLength_of_small {bs : Bytes} (h : ∀ b ∈ bs, b.toNat < 128) : NoNegativeLength env bs := by
  intro pre tag l rest t n he _ _ hl
  have hm : ∀ b ∈ l, b.toNat < 128 := fun b hb => h b (by rw [he]; simp [hb])
  obtain ⟨hv, _⟩ := hl
  cases hv with
  | last b hb => rw [Nat.mod_eq_of_lt (by omega)]; omega
  | more b tl m hb _ => have := hm b (by simp); omega

/-! ### C17 -/

/-- C17 for all schemas and all byte strings without negative lengths, well formed or not: decoding ends,
with a budget of one step more than there are bytes. (The budget bounds the number of records read at
each nesting level, the number of elements of each packed list and map entry, and the nesting depth.)
Missing: negative lengths, see `C17_skip_violated`. -/
theorem C17_terminates_partial {m : Nat} {data : Bytes} (h : NoNegativeLength env data)
    (hlen : data.length < 2 ^ 31) : (deserializeMessage env (data.length + 1) m data).1 ≠ .fuel :=
  deserializeMessage_ends _ m data h hlen (by omega)

/-- The budget is an artifact of the model: with every budget above the number of bytes the result is the same. -/
theorem C17_budget_partial {m n n' : Nat} {data : Bytes} (h : NoNegativeLength env data) (hlen : data.length < 2 ^ 31)
    (hn : data.length < n) (hn' : data.length < n') : deserializeMessage env n m data = deserializeMessage env n' m data := by
  rw [← deserializeMessage_le (n := n) (n' := max n n') (by omega) (deserializeMessage_ends n m data h hlen hn),
    ← deserializeMessage_le (n := n') (n' := max n n') (by omega) (deserializeMessage_ends n' m data h hlen hn')]

/-- An accepted, a rejected and an undefined decoding, all finished. -/
example : NoNegativeLength demoEnv [0x08, 0x05] ∧ NoNegativeLength demoEnv [0x08, 0x05, 0x0b] ∧
    (deserializeMessage demoEnv 3 0 [0x08, 0x05]).1 = .ok () ∧
    (deserializeMessage demoEnv 4 0 [0x08, 0x05, 0x0b]).1 = .throw .invalidArgument ∧
    (deserializeMessage demoEnv 3 0 [0x79, 0x05]).1 = .ub :=
  ⟨noNegativeLength_of_small (by decide), noNegativeLength_of_small (by decide), rfl, rfl, rfl⟩

/-- C17 is violated by the code: an unknown length delimited field whose length is -6 as a 32 bit
integer makes the decoder jump back to the beginning of the field, so that it never ends: whatever the
budget, it is used up. Six bytes suffice, for every message type that has no field 15. -/
theorem C17_skip_violated {m : Nat} (hno : ∀ f ∈ env.sch m, f.num ≠ 15) (n : Nat) :
    deserializeMessage env n m [0x7A, 0xFA, 0xFF, 0xFF, 0xFF, 0x0F] = (.fuel, defaultObj env m) := by
  have key : ∀ (rec : Nat → Bytes → MsgResult) (n : Nat) (o : Obj),
      messageLoop env rec m n (It.start [0x7A, 0xFA, 0xFF, 0xFF, 0xFF, 0x0F]) o = (.fuel, o) := by
    intro rec n o
    induction n with
    | zero => rfl
    | succ n ih =>
      have h1 : decodeHeader (It.start [0x7A, 0xFA, 0xFF, 0xFF, 0xFF, 0x0F]) =
          .ok (⟨true, 15, 2⟩, ⟨[0x7A, 0xFA, 0xFF, 0xFF, 0xFF, 0x0F], 1⟩) := by decide
      have h2 : skipField ⟨[0x7A, 0xFA, 0xFF, 0xFF, 0xFF, 0x0F], 1⟩ 2 =
          .ok (It.start [0x7A, 0xFA, 0xFF, 0xFF, 0xFF, 0x0F]) := by decide
      have h3 : deserializeProperty env rec m n (It.start [0x7A, 0xFA, 0xFF, 0xFF, 0xFF, 0x0F]) o =
          .ok (It.start [0x7A, 0xFA, 0xFF, 0xFF, 0xFF, 0x0F], o) := by
        simp only [deserializeProperty, h1, Res.bind_eq, Res.bind, findField_none hno, h2]
        rfl
      simp only [messageLoop]
      rw [if_neg (by decide), h3]
      exact ih
  cases n with
  | zero => rfl
  | succ n => exact key _ _ _

example : ∀ f ∈ demoEnv.sch 1, f.num ≠ 15 := by decide

/-! ### C16 -/

/-- C16, the part that holds: on byte strings without negative lengths, an undefined operation happens
only if some varint does not end within ten bytes, or if the input (or the enclosing sub-message) ends at
least two bytes before the end of a fixed width or length delimited value. Every other input is accepted
or rejected with an exception. `CutMessage` says exactly where: behind a prefix that is accepted by
itself, possibly inside of sub-messages, packed lists or map entries.
Missing: the inputs described by `CutMessage`, see `C16_overrun_violated`, and negative lengths. -/
theorem C16_only_cut_partial {n m : Nat} {data : Bytes} (h : NoNegativeLength env data)
    (hlen : data.length < 2 ^ 31) (hn : data.length < n)
    (hcut : ¬ CutMessage env (fun m p => ∃ n o, deserializeMessage env n m p = (.ok (), o)) m data) :
    (∃ o, deserializeMessage env n m data = (.ok (), o)) ∨
    ∃ e o, deserializeMessage env n m data = (.throw e, o) := by
  have h1 := deserializeMessage_ends n m data h hlen hn
  cases h2 : deserializeMessage env n m data with
  | mk st o =>
    cases st with
    | ok u => exact .inl ⟨o, rfl⟩
    | throw e => exact .inr ⟨e, o, rfl⟩
    | ub => exact absurd (deserializeMessage_ub n m data o h hlen h2) hcut
    | fuel => rw [h2] at h1; exact absurd rfl h1

/-- C16, the exact set of inputs on which it fails: on byte strings without negative lengths, for every well formed schema, decoding
performs an undefined operation if and only if something is cut off in the sense of `CutMessage`: behind a prefix that is accepted by
itself, possibly inside of sub-messages, packed lists or map entries, a varint does not end within ten bytes, or the input (or the
enclosing sub-message) ends at least two bytes before the end of a fixed width or length delimited value. (With exactly one byte missing,
the terminating NUL is copied and the decoder then throws. Lists of `bool` are never read at all.)
Missing: negative lengths. -/
theorem C16_exactly_partial (hv : ValidSchema env) {n m : Nat} {data : Bytes} (h : NoNegativeLength env data)
    (hlen : data.length < 2 ^ 31) (hn : data.length < n) :
    (deserializeMessage env n m data).1 = .ub ↔
      CutMessage env (fun m p => ∃ n o, deserializeMessage env n m p = (.ok (), o)) m data := by
  constructor
  · intro h1
    exact deserializeMessage_ub n m data (deserializeMessage env n m data).2 h hlen (by rw [← h1])
  · exact deserializeMessage_cut hv h hlen hn

/-- Cut off, and not cut off: a `double` with six and with seven bytes. -/
example : NoNegativeLength demoEnv [0x79, 1, 1, 1, 1, 1, 1] ∧ (deserializeMessage demoEnv 8 0 [0x79, 1, 1, 1, 1, 1, 1]).1 = .ub ∧
    NoNegativeLength demoEnv [0x79, 1, 1, 1, 1, 1, 1, 1] ∧
    (deserializeMessage demoEnv 9 0 [0x79, 1, 1, 1, 1, 1, 1, 1]).1 = .throw .outOfRange :=
  ⟨noNegativeLength_of_small (by decide), rfl, noNegativeLength_of_small (by decide), rfl⟩

/-- The inputs of the wire format specification, and those with the malformations of `Spec.Fails`
(bad tags, truncated varints, too long lists, ... at any depth), are decoded without undefined
operations. -/
theorem C16_described_partial (hv : ValidSchema env) {d m n : Nat} {bs : Bytes}
    (h : (∃ o, Message env d m bs o) ∨ ∃ e o, Fails env d m bs e o) (hlen : bs.length < 2 ^ 31)
    (hn : bs.length < n) : (deserializeMessage env n m bs).1 ≠ .ub := by
  rcases h with ⟨o, h⟩ | ⟨e, o, h⟩
  · rw [deserializeMessage_of_message hv h hlen hn]; simp
  · rw [deserializeMessage_of_fails hv h hlen hn]; simp

/-- C16 is violated by the code. A fixed width value whose last bytes are missing is read beyond the end
of the buffer, and so is a string that is longer than the rest of the input; a varint of eleven bytes
shifts by more than the width of the type. -/
theorem C16_overrun_violated :
    (deserializeMessage demoEnv 3 0 [0x79, 0x00]).1 = .ub ∧
    (deserializeMessage demoEnv 3 0 [0x12, 0x05]).1 = .ub ∧
    (deserializeMessage demoEnv 13 0
      [0x08, 0x80, 0x80, 0x80, 0x80, 0x80, 0x80, 0x80, 0x80, 0x80, 0x80, 0x00]).1 = .ub :=
  ⟨rfl, rfl, rfl⟩

/-- The specification `CutMessage` does describe these inputs, and it does not hold of everything. -/
example : CutMessage demoEnv (accepted demoEnv) 0 ([0x08, 0x05] ++ ([0x79] ++ [0x00])) ∧
    ¬ CutMessage demoEnv (accepted demoEnv) 7 [0x08] := by
  constructor
  · exact .field (t := 0x79) (f := ⟨15, .scalar .double⟩) ⟨3, _, rfl⟩
      ⟨.last 0x79 (by decide), by decide⟩ (.inr (.inl rfl)) (by decide) rfl (.scalar (.fixed64 rfl (by decide)))
  · intro h
    generalize hb : ([0x08] : Bytes) = bs at h
    generalize hm : (7 : Nat) = m at h
    cases h with
    | tag _ h2 =>
      have := h2.1
      have := congrArg List.length hb
      simp at this; omega
    | unknown _ _ _ _ _ h2 =>
      have := h2.1
      have := congrArg List.length hb
      simp at this; omega
    | field _ _ _ hf _ _ => subst hm; simp [demoEnv, demoSch] at hf

/-! ### C18 -/

/-- C18 for every input without negative lengths on which the decoder throws, well formed up to the
failure or not: the input splits into a part `p` that is accepted, and a rest whose first record fails
with the same exception (decoded by itself, it leaves a default message behind). The decoded object is
exactly that of `p`; the target of the public call, whatever it held, is left as a copy of it.
Missing: negative lengths (`C18_negative_length_violated`), and schemas with maps of messages
(`C18_message_map_violated`). -/
theorem C18_prefix_partial (hm : NoMessageMaps env) {n m : Nat} {data : Bytes} {e : Exn} {o old : Obj}
    (hneg : NoNegativeLength env data) (hlen : data.length < 2 ^ 31)
    (h : deserializeMessage env n m data = (.throw e, o)) (hold : Safe env (.msg m) (.msg old)) :
    (∃ p rest, data = p ++ rest ∧ deserializeMessage env n m p = (.ok (), o) ∧
      deserializeMessage env n m rest = (.throw e, defaultObj env m)) ∧
    ∃ K, ∀ k, K ≤ k → ∃ r, deserialize env n k m data old = ⟨.throw e, .ok r⟩ ∧
      Mirrors env (.msg m) (.msg r) (.msg o) := by
  refine ⟨deserializeMessage_throws hneg hlen h, ?_⟩
  have hs : Safe env (.msg m) (.msg o) := by
    have := deserializeMessage_safe hm n m data
    rwa [h] at this
  obtain ⟨K, hK⟩ := target_any hm h hs hold
  exact ⟨K, fun k hk => by obtain ⟨r, h2, h3, _⟩ := hK k hk; exact ⟨r, h2, h3⟩⟩

/-- A lenient input: the tag of field 4 has the wrong wire type. It is followed by a bad tag. -/
example : let env := { demoEnv with sch := fun m => if m = 1 then demoSch 1 else [] }
    NoMessageMaps env ∧ NoNegativeLength env [0x25, 0x01, 0x41, 0x0b] ∧
    deserializeMessage env 5 1 [0x25, 0x01, 0x41, 0x0b] =
      (.throw .invalidArgument, [.sc (.w32 0#32), .sc (.bytes (some [0x41]))]) ∧
    deserializeMessage env 5 1 [0x25, 0x01, 0x41] =
      (.ok (), [.sc (.w32 0#32), .sc (.bytes (some [0x41]))]) ∧
    Safe env (.msg 1) (.msg [.sc (.w32 0x80000000#32), .sc (.bytes none)]) := by
  refine ⟨?_, noNegativeLength_of_small (by decide), rfl, rfl,
    holds_of_holdsB (n := 3) (fun k s h => h) (p := Kind.holds) (by decide)⟩
  intro m f hf
  by_cases h : m = 1
  · subst h; simp [demoSch] at hf; rcases hf with rfl | rfl <;> simp
  · simp [h] at hf

/-- C18 is violated for negative lengths: the length of the second record is -10, the decoder goes back into the contents of the first one,
an unknown field, takes what it finds there for field 1, sets it to 7 and fails on the next byte. No part of the input that is accepted
gives this object. -/
theorem C18_negative_length_violated :
    let data : Bytes := [0xa2, 0x06, 0x03, 0x08, 0x07, 0x0b, 0xa2, 0x06, 0xf6, 0xff, 0xff, 0xff, 0x0f]
    let o := (defaultObj demoEnv 0).set 0 (.sc (.w32 7#32))
    deserializeMessage demoEnv 20 0 data = (.throw .invalidArgument, o) ∧
    ∀ p, p <+: data → deserializeMessage demoEnv 20 0 p ≠ (.ok (), o) := by
  constructor
  · rfl
  · intro p hp hok
    have hl : p.length < 14 := Nat.lt_succ_of_le hp.length_le
    let test : MsgResult → Bool := fun r => match r with
      | (.ok (), .sc (.w32 v) :: _) => v == 7#32
      | _ => false
    have all : ∀ k : Fin 14, test (deserializeMessage demoEnv 20 0 (List.take k
        [0xa2, 0x06, 0x03, 0x08, 0x07, 0x0b, 0xa2, 0x06, 0xf6, 0xff, 0xff, 0xff, 0x0f])) = false := by decide +kernel
    have h1 := all ⟨p.length, hl⟩
    rw [List.prefix_iff_eq_take.1 hp] at hok
    rw [hok] at h1
    cases h1

end QtPb
