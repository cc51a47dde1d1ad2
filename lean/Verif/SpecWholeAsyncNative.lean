import Verif.WholeAsyncNative
import Verif.SpecWholeAsync
import Verif.SpecEndToEndAsyncNative
import Verif.SpecEndToEndNative
import Verif.SpecNative
/-
Specification for C106 with asynchronous calls over the native channel: what becomes of a call in any session of calls of a program.
-/
namespace QtPb.Whole.Native.Async.Spec
open QtPb.Spec QtPb.Gen.Text QtPb.Gen.Text.Spec Whole.Spec EndToEnd.Spec EndToEnd.Native.Async EndToEnd.Native.Async.Spec SpecCpp QtPb.Native

section
variable (env : Env) (classes : Nat → Meta.Class) (libs : Nat → Lib) (last : Bool) (mA mR : Nat) (path : String)

/-- Whatever calls are made before, at the same time and later: if the call `act` is left alone and the library brings an answer of the server at the path, which receives the message `sent`, in any slices,
the reply emits `finished` once and no error, and `read()` gives an object whose properties show this message, without an error; and `P` holds for the state of the call and this object. -/
def Delivered (act : Act) (sent : Obj) (P : QtPb.Native.State → Obj → Prop) : Prop :=
  ∃ N, ∀ (n j : Nat) (before after : List Act) (session : Session) (F : Obj → Obj), N ≤ n →
    run (Whole.Async.ser env classes (libs j) last n) [] (before ++ act :: after) = .ok session → Undisturbed (eventsOf (calls before) after) →
    (∀ slices b, EndToEnd.Native.Spec.Carries env mA slices b → (session[calls before]?).map (·.1) = some ⟨path, slices⟩ →
      ∃ answer : List Bytes, Answered ⟨0, .ok answer⟩ (eventsOf (calls before) after) ∧ Encodes env mR answer.flatten (F b)) →
    Plain env (.msg mR) (.msg (F sent)) →
    ∃ slices state, session[calls before]? = some (⟨path, slices⟩, state) ∧ EndToEnd.Native.Spec.Carries env mA slices sent ∧ state.signals = [.finished] ∧ state.clientErrors = [] ∧
      ∃ N', ∀ n', N' ≤ n' → ∃ K, ∀ k, K ≤ k → ∃ reply, readReply env classes (libs k) n' mR state = some (reply, ⟨Http2.Status.Ok, ""⟩, []) ∧
        Shows env classes (libs k) mR reply (F sent) ∧ P state reply

/-- Whatever calls are made before, at the same time and later: if the call `act` is left alone and the library brings a status other than 0, the reply emits this status once, and so does the
client; and `P` holds for the state of the call and the status. -/
def Failed (act : Act) (P : QtPb.Native.State → Nat → Prop) : Prop :=
  ∀ (n j : Nat) (before after : List Act) (session : Session) (code : Nat) (nothing : Except Http2.StatusCode (List Bytes)),
    run (Whole.Async.ser env classes (libs j) last n) [] (before ++ act :: after) = .ok session → Undisturbed (eventsOf (calls before) after) →
    Answered ⟨code, nothing⟩ (eventsOf (calls before) after) → code ≠ 0 →
    ∃ request state, session[calls before]? = some (request, state) ∧ state.signals = [.error (code : Int)] ∧ state.clientErrors = [(code : Int)] ∧ P state code

end

end QtPb.Whole.Native.Async.Spec
