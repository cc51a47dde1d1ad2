import Verif.EndToEndNative
import Verif.EndToEndAsync
/-
Model of asynchronous calls over the native channel: any number of calls of one client, each with its reply, its call object and its thread, in any order of
events. It puts together the models of the client and the channel (`Verif/Native.lean`, `Verif/EndToEndNative.lean`) and the serializer.
-/
namespace QtPb.EndToEnd.Native.Async
open Http2 QtPb.Native Call

/-- The calls of a client in the order in which they were made: what was handed to the gRPC library, and the state of the call. -/
abbrev Session := List (Request × QtPb.Native.State)

/-- What happens: the user calls a method with an argument of message type `m`, or something happens to a call (`Native.Ev`). The channel is one object for all calls: its
end is an event of each of them. -/
inductive Act
  | call (method service : String) (m : Nat) (arg : Obj)
  | event (i : Nat) (e : QtPb.Native.Ev)

/-- `call<A>(method, arg)` (src/grpc/qabstractgrpcclient.h:123-131, src/grpc/qabstractgrpcclient.cpp:99-131, src/grpc/qgrpcchannel.cpp:207-241) with a serializer `ser` (the binary one
is `serializeMessage`): a call object with a thread of its own is made for the reply. -/
def step (ser : Nat → Obj → Res Bytes) (s : Session) : Act → Res Session
  | .call method service m arg => (ser m arg).bind fun argData => .ok (s ++ [(request method service argData, QtPb.Native.start)])
  | .event i e =>
    match s[i]? with
    | some (r, c) => (QtPb.Native.step c e).bind fun c' => .ok (s.set i (r, c'))
    | none => .ok s

/-- A history. -/
def run (ser : Nat → Obj → Res Bytes) : Session → List Act → Res Session
  | s, [] => .ok s
  | s, a :: rest => (step ser s a).bind fun s' => run ser s' rest

/-- `read<T>()` (src/grpc/qgrpcasyncoperationbase_p.h:55-63), as for the other channel. -/
def readReply (env : Env) (n k m : Nat) (c : QtPb.Native.State) : Option (Obj × Call.Status × List Call.Status) :=
  match read env n k m (defaultObj env m) c.data with
  | none => none
  | some result => some (tryDeserialize (some fun _ _ => result) (defaultObj env m) c.data)

end QtPb.EndToEnd.Native.Async
