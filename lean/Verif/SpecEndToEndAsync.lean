import Verif.SpecEndToEnd
import Verif.EndToEndAsync
/-
Specification for C108: what has happened to one call of a history, and how a server answers it.
-/
namespace QtPb.EndToEnd.Async.Spec
open QtPb.Spec Http2.Spec QtPb.EndToEnd.Spec

/-- The number of calls in a history. -/
def calls (acts : List Act) : Nat := (acts.filter fun | .call .. => true | _ => false).length

/-- What happens to the call number `i`, in order. -/
def eventsOf (i : Nat) (acts : List Act) : List Call.Ev := acts.filterMap fun
  | .event j e => if j = i then some e else none
  | _ => none

/-- The call is answered: its network reply completes first, without an error, with the status 0 and a frame with an encoding of `o`. The user does not abort the call
before or later; anything else may happen later. -/
def Answered (env : Env) (mR : Nat) (o : Obj) (events : List Call.Ev) : Prop :=
  ∃ reply later bs hdr, events = .complete reply :: later ∧ Call.Ev.abort ∉ later ∧ reply.error = Http2.NetworkError.NoError ∧
    reply.grpcStatus = some hdr ∧ Decimal hdr 0 ∧ IsFrame bs reply.body ∧ Encodes env mR bs o

/-- The call is refused with this status. -/
def Refused (code : Nat) (events : List Call.Ev) : Prop :=
  ∃ reply later hdr, events = .complete reply :: later ∧ Call.Ev.abort ∉ later ∧ reply.error = Http2.NetworkError.NoError ∧
    reply.grpcStatus = some hdr ∧ Decimal hdr code

end QtPb.EndToEnd.Async.Spec
