import Verif.WholeAsync
import Verif.SpecWhole
import Verif.SpecEndToEndAsync
/-
Specification for C106 with asynchronous calls: what becomes of a call in any session of calls of a program.
-/
namespace QtPb.Whole.Async.Spec
open QtPb.Spec QtPb.Gen.Text QtPb.Gen.Text.Spec Whole.Spec EndToEnd.Spec EndToEnd.Async EndToEnd.Async.Spec SpecCpp

/-! `libs k` are the functions of Qt and of other classes that generated code calls, with a bound of `k` for the depth of calls. -/

section
variable (env : Env) (classes : Nat → Meta.Class) (libs : Nat → Lib) (last : Bool) (mA mR : Nat) (path : String)

/-- Whatever calls are made before, at the same time and later: if the server at the path, which receives the message `sent`, answers the call `act` with a message, its reply emits
`finished` once and no error, and `read()` gives an object whose properties show this message, without an error; and `P` holds for the state of the call and this object. -/
def Delivered (act : Act) (sent : Obj) (P : Call.State → Obj → Prop) : Prop :=
  ∃ N, ∀ (n j : Nat) (before after : List Act) (session : Session) (F : Obj → Obj), N ≤ n →
    run (ser env classes (libs j) last n) [] (before ++ act :: after) = .ok session →
    (∀ body b, Carries env mA body b → (session[calls before]?).map (·.1) = some ⟨path, body⟩ → Answered env mR (F b) (eventsOf (calls before) after)) →
    Plain env (.msg mR) (.msg (F sent)) →
    ∃ body state, session[calls before]? = some (⟨path, body⟩, state) ∧ Carries env mA body sent ∧ state.signals = [.finished] ∧ state.clientErrors = [] ∧
      ∃ N', ∀ n', N' ≤ n' → ∃ K, ∀ k, K ≤ k → ∃ reply, readReply env classes (libs k) n' mR state = some (reply, ⟨Http2.Status.Ok, ""⟩, []) ∧
        Shows env classes (libs k) mR reply (F sent) ∧ P state reply

/-- Whatever calls are made before, at the same time and later: if the server refuses the call `act` with a status other than 0, its reply emits this status once, and so does the
client; and `P` holds for the state of the call and the status. -/
def Failed (act : Act) (P : Call.State → Nat → Prop) : Prop :=
  ∀ (n j : Nat) (before after : List Act) (session : Session) (code : Nat),
    run (ser env classes (libs j) last n) [] (before ++ act :: after) = .ok session → Refused code (eventsOf (calls before) after) → code ≠ 0 → code < 2 ^ 31 →
    ∃ request state, session[calls before]? = some (request, state) ∧ state.signals = [.error (code : Int)] ∧ state.clientErrors = [(code : Int)] ∧ P state code

end

end QtPb.Whole.Async.Spec
