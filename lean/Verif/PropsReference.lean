import Verif.RefLemmas
import Verif.PropsMessage
/-
C21: a reference decoder written from the protobuf specification reads what the library writes.
-/
namespace QtPb

open Spec Ref

variable {env : Env}

/-- C21, exact form: whatever `serialize` returns, the reference decoder accepts, and the message it
reads is the one that was serialized, bit for bit (`Delivered`). -/
theorem C21_reference_exact (hv : ValidSchema env) (ho : ValidOrder env) {n m : Nat} {obj : Obj}
    {bs : Bytes} (hobj : WellTyped env m obj) (hs : serializeMessage env n m obj = .ok bs)
    (hlen : bs.length < 2 ^ 31) :
    ∃ o', Ref.decode env m bs = some o' ∧ Delivered env (.msg m) (.msg obj) (.msg o') :=
  serializeMessage_merge hv ho hobj hs hlen (Nat.lt_succ_self _)

/-- C21: every message (without NaN, with text that survives UTF-8) is serialized to bytes which the
reference decoder reads as the same message. -/
theorem C21_reference (hv : ValidSchema env) (ho : ValidOrder env) {rank : Nat → Nat}
    (ha : Acyclic env rank) (hb : NoRepeatedBool env) (hE : env.fromUtf8 (env.toUtf8 []) = []) {m : Nat}
    {obj : Obj} (hobj : Clean env (.msg m) (.msg obj)) :
    ∃ N bs, (∀ n, N ≤ n → serializeMessage env n m obj = .ok bs) ∧
      (bs.length < 2 ^ 31 → ∃ o', Ref.decode env m bs = some o' ∧
        Same env (.msg m) (.msg obj) (.msg o')) := by
  have hw : WellTyped env m obj := hobj.plain.safe.hasTy
  obtain ⟨N, bs, hs⟩ := C20_serialize_terminates_partial ha hb hw
  refine ⟨N, bs, hs, fun hlen => ?_⟩
  obtain ⟨o', h1, h2⟩ := C21_reference_exact hv ho hw (hs N (Nat.le_refl N)) hlen
  exact ⟨o', h1, delivered_same hE h2 hobj⟩

/-- The hypotheses can be met: a message with a value in every field. -/
example : Clean demoAcyclic (.msg 0) (.msg demoObj) ∧
    demoAcyclic.fromUtf8 (demoAcyclic.toUtf8 []) = [] ∧
    (∃ bs, serializeMessage demoAcyclic 3 0 demoObj = .ok bs ∧ 80 ≤ bs.length ∧ bs.length < 150) := by
  refine ⟨clean_of_cleanB (n := 4) (by decide), rfl, ?_⟩
  exact ⟨_, by rfl, by decide, by decide⟩

/-- The reference decoder concatenates packed and unpacked records and merges sub-messages, as the
protobuf specification demands (field 3: `repeated sint32`, field 6: a message with a float 1 and
bytes 4). -/
example : Ref.decode demoEnv 0 [0x1a, 2, 1, 2, 0x18, 3, 0x1a, 1, 4,
      0x32, 5, 0x0d, 0, 0, 0x80, 0x3f, 0x32, 3, 0x22, 1, 7] =
    some (((defaultObj demoEnv 0).set 2 (.scList [.w32 (-1), .w32 1, .w32 (-2), .w32 2])).set 4
      (.msg [.sc (.w32 0x3f800000), .sc (.bytes (some [7]))])) := by rfl

end QtPb
