import Verif.EndToEnd
/-
Model of asynchronous calls over the HTTP/2 channel: a client whose user makes any number of calls, each with a reply object of its own, while the
network, the timers and the user act on the calls in any order; and the reading of a message from a reply. It puts together the models of the client
and the channel (`Verif/Call.lean`, `Verif/EndToEnd.lean`) and the serializer.
-/
namespace QtPb.EndToEnd.Async
open Http2 Native Call

/-- The calls of a client in the order in which they were made: the request that was posted, and the state of the call. The client and its replies
exist all the time. -/
abbrev Session := List (Request × Call.State)

/-- What happens: the user calls a method with an argument of message type `m`, or something happens to a call (`Call.Ev`: its network reply completes, its
timer fires, the event loop deletes the network reply, the user aborts the call, the channel is destroyed). -/
inductive Act
  | call (method service : String) (m : Nat) (arg : Obj)
  | event (i : Nat) (e : Call.Ev)

/-- `call<A>(method, arg)` (src/grpc/qabstractgrpcclient.h:123-131, src/grpc/qabstractgrpcclient.cpp:99-131, src/grpc/qgrpchttp2channel.cpp:231-270) with a
serializer `ser` (the binary one is `serializeMessage`): the argument is posted, and the network reply and the call reply are connected with each other, and with no others. -/
def step (ser : Nat → Obj → Res Bytes) (s : Session) : Act → Res Session
  | .call method service m arg => (ser m arg).bind fun argData => .ok (s ++ [(post method service argData, Call.start)])
  | .event i e =>
    match s[i]? with
    | some (r, c) => .ok (s.set i (r, Call.step c e))
    | none => .ok s

/-- A history. -/
def run (ser : Nat → Obj → Res Bytes) : Session → List Act → Res Session
  | s, [] => .ok s
  | s, a :: rest => (step ser s a).bind fun s' => run ser s' rest

/-- `read<T>()` (src/grpc/qgrpcasyncoperationbase_p.h:55-63) of a reply: a new message is read from the data of the reply. The message, the status of `tryDeserialize` and the
errors that the client emits. `none` with too small bounds. Simplification: the message is returned without a copy. -/
def readReply (env : Env) (n k m : Nat) (c : Call.State) : Option (Obj × Call.Status × List Call.Status) :=
  match read env n k m (defaultObj env m) c.data with
  | none => none
  | some result => some (tryDeserialize (some fun _ _ => result) (defaultObj env m) c.data)

end QtPb.EndToEnd.Async
