import Verif.Stream
/-
Model of the destruction of a client that has streams: `QAbstractGrpcClient::~QAbstractGrpcClient`
(src/grpc/qabstractgrpcclient.cpp:55-56), the slots that the channels connect to `destroyed` of the client
(src/grpc/qgrpchttp2channel.cpp:320-333, src/grpc/qgrpcchannel.cpp:305-314) and what remains usable afterwards. Streams are
children of the client (`new QGrpcStream(method, arg, handler, this)`, qabstractgrpcclient.cpp:143;
qgrpcasyncoperationbase_p.h:93) as well as shared by reference counting (`deleteLater` when the last reference goes).

Qt's part, by its documentation: `~QObject` emits `destroyed`, then removes the connections of the object in both roles (the
functors of these connections and what they own are destroyed), then deletes the children; timers started with the object as
context are not delivered any more; a deferred delete of an object that is deleted meanwhile is dropped.

Simplifications as in Verif/Stream.lean; the client is not destroyed from inside one of its handlers; a worker thread of the native
channel that was told to stop is taken to have stopped; channels that were attached earlier are kept by somebody else.
-/
namespace QtPb.Stream
open Http2

/-- The members are destroyed first (qabstractgrpcclient.cpp:42-45): the references of `activeStreams` and the channel. -/
def Client.dropPrivate (c : Client) : Client := { c with active := [], channel := none }

/-- The network side of attempt `a` exists and runs: its connections were not removed; the worker object of the native channel is a
child of the stream object (qgrpcchannel.cpp:272) and ends with it. -/
def Client.running (c : Client) (a : Nat) : Bool :=
  (c.attempts a).connected && ((c.attempts a).kind == .http2 || !(c.streams (c.attempts a).stream).deleted)

/-- The signal `destroyed` of the client: the slots of all attempts disconnect them and stop the network side
(qgrpchttp2channel.cpp:320-333, qgrpcchannel.cpp:305-314). -/
def Client.emitDestroyed (c : Client) : Client × List Obs :=
  ({ c with attempts := fun a => if c.running a then { c.attempts a with connected := false } else c.attempts a },
   ((List.range c.nAttempts).filter c.running).map .cancelled)

/-- The connections with the client as receiver are removed and with them the references that their functors own
(qabstractgrpcclient.cpp:156-187); timers have the client as their context (line 162). -/
def Client.dropConnections (c : Client) : Client :=
  { c with streams := fun s => { c.streams s with connected := false }, timers := [] }

/-- The children are deleted: every stream object that still exists, whoever holds references to it. -/
def Client.deleteChildren (c : Client) : Client × List Obs :=
  ({ c with streams := fun s => if s < c.nStreams then { c.streams s with deleted := true } else c.streams s },
   ((List.range c.nStreams).filter fun s => !(c.streams s).deleted).map .deleted)

/-- The worker thread of attempt `a` of the native channel runs: it has not posted its end. -/
def Client.working (c : Client) (a : Nat) : Bool :=
  c.running a && (c.attempts a).kind == .native && (c.attempts a).queue.all fun i => match i with | .data _ => true | .close _ => false

/-- Destruction of the client. `channelKept`: somebody else holds the channel. If not, the channel is destroyed with the members of
the client; the replies of HTTP/2 are children of its network access manager and are stopped by that, but worker threads of the
native channel go on using the `grpc::Channel` they were given as a plain pointer (qgrpcchannel.cpp:86-88, 94, 110, 272), which is
undefined (`none`). -/
def Client.destroy (c : Client) (channelKept : Bool) : Option (Client × List Obs) :=
  if !channelKept && (List.range c.nAttempts).any c.working then none
  else
    let r := c.dropPrivate.emitDestroyed
    let q := r.1.dropConnections.deleteChildren
    some (q.1, r.2 ++ q.2)

/-- What can still happen after the destruction: signals of network side and event loop find no connections; calls of the client and
of stream objects that are gone are undefined, and so is giving up the last reference, because it calls `deleteLater` on the object
(qabstractgrpcclient.cpp:143). -/
def Client.after (c : Client) : Ev → Option (Client × List Obs)
  | .attach .. | .subscribe .. => none
  | .net a i => if a < c.nAttempts then some (c.net a i) else some (c, [])
  | .loop a => if a < c.nAttempts then some (c.loop a) else some (c, [])
  | .timer s => c.fire s
  | .abort s =>
    if 0 < (c.streams s).held then (if (c.streams s).deleted then none else some (c.emitFinished s)) else some (c, [])
  | .drop s =>
    if 0 < (c.streams s).held then
      if (c.streams s).held = 1 ∧ (c.streams s).deleted then none
      else some ({ c with streams := update c.streams s { c.streams s with held := (c.streams s).held - 1 } }, [])
    else some (c, [])
  | .reap _ => some (c, [])

/-- A client and whether it still exists. -/
structure World where
  client : Client
  living : Bool

/-- An event, or the destruction of the client. -/
inductive Act
  | ev (e : Ev)
  | destroy (channelKept : Bool)

/-- One step; `none` is undefined behaviour. -/
def World.step (w : World) : Act → Option (World × List Obs)
  | .ev e => (if w.living then w.client.step e else w.client.after e).map fun r => (⟨r.1, w.living⟩, r.2)
  | .destroy kept => if w.living then (w.client.destroy kept).map fun r => (⟨r.1, false⟩, r.2) else none

/-- A history. -/
def World.run (w : World) : List Act → Option (World × List Obs)
  | [] => some (w, [])
  | a :: as => (w.step a).bind fun r => (r.1.run as).map fun q => (q.1, r.2 ++ q.2)

/-- A new client. -/
def World.new (thread : Nat) : World := ⟨Client.new thread, true⟩

end QtPb.Stream
