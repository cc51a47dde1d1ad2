import Verif.Http2
/-
Model of server streams in the gRPC client: `QAbstractGrpcClient::stream` and `attachChannel`
(src/grpc/qabstractgrpcclient.cpp), `QGrpcStream` (src/grpc/qgrpcstream.h/.cpp) and the signal wiring of
`stream` in the HTTP/2 channel (src/grpc/qgrpchttp2channel.cpp:272-386) and in the native channel
(src/grpc/qgrpcchannel.cpp:81-143, 259-317).

Objects have numbers. A stream object (`QGrpcStream`) may be started several times; each start is an
*attempt* (a `QNetworkReply` or a `QGrpcChannelStream`) with its own connections. What happens is recorded
as a list of observations.

Simplifications: everything runs in the client's thread (calls from other threads are forwarded to it,
qabstractgrpcclient.cpp:137-142); handlers do not call back into the client (that case is treated apart, in
`callHandlers`); messages are whole, their reassembly from chunks is modelled in Verif/Http2.lean; the client
is not destroyed; signals are emitted only by the library, not by the user.
-/
namespace QtPb.Stream
open Http2

/-- The two channel classes. -/
inductive Kind
  | http2
  | native
deriving DecidableEq, Repr

/-- How the network side of an attempt ends: `QNetworkReply::RemoteHostClosedError`, another network error
with the status it is mapped to, or an orderly end with the gRPC status. The native channel only has the
last. -/
inductive Close
  | remoteHostClosed
  | networkError (code : StatusCode)
  | status (code : StatusCode)
deriving DecidableEq, Repr

/-- A `QGrpcStream` (qgrpcstream.h:103-107). `connected`: the client's `error` and `finished` connections
exist, whose functors own a reference (qabstractgrpcclient.cpp:155-187). `held`: references owned by the
user. `deleted`: the object is gone. -/
structure Obj where
  method : String
  arg : Bytes
  handlers : List Nat
  data : Bytes
  connected : Bool
  held : Nat
  deleted : Bool
deriving DecidableEq, Repr

/-- What the worker thread of a `QGrpcChannelStream` has posted to the event loop: `dataReady` or
`QThread::finished` (qgrpcchannel.cpp:90-120). -/
inductive Item
  | data (d : Bytes)
  | close (cause : Close)
deriving DecidableEq, Repr

/-- An attempt; `connected`: its read, finish and abort connections exist; `queue`: posted and not yet
delivered signals of the native channel. -/
structure Attempt where
  stream : Nat
  kind : Kind
  connected : Bool
  queue : List Item
deriving DecidableEq, Repr

/-- The client (`QAbstractGrpcClientPrivate`, qabstractgrpcclient.cpp:36-46), all stream objects and
attempts there have been, the pending single shot timers (each with a weak reference to a stream) and the
thread the client lives in. -/
structure Client where
  thread : Nat
  streams : Nat → Obj
  nStreams : Nat
  attempts : Nat → Attempt
  nAttempts : Nat
  active : List Nat
  timers : List Nat
  channel : Option Kind

/-- What can be observed. `started`: the request of attempt `a` for stream `s` is sent. `emitted`: a message
arrives from the network. `recv`: the channel passes the message on to the stream. `handled`: a subscribed
handler is called. `notified`: `messageReceived` is emitted. `closed`: the end of the network side is taken
note of. `cancelled`: the network side is told to stop. `finished`, `failed`: the signals `finished` and
`error` of the stream. `clientFailed`: the signal `error` of the client. `subscribed`: a subscription of
handler `h` is given (and will return) stream `s`. `refused`: a subscription returned a null pointer. `threw`: an exception left
the function. -/
inductive Obs
  | subscribed (method : String) (arg : Bytes) (h : Option Nat) (s : Nat)
  | refused
  | started (a s : Nat) (k : Kind)
  | emitted (a : Nat) (d : Bytes)
  | recv (a : Nat) (d : Bytes)
  | handled (s h : Nat) (d : Bytes)
  | notified (s : Nat)
  | closed (a : Nat)
  | cancelled (a : Nat)
  | finished (s : Nat)
  | failed (s : Nat) (code : StatusCode)
  | clientFailed (code : StatusCode)
  | deleted (s : Nat)
  | threw
deriving DecidableEq, Repr

/-- A client without a channel (qabstractgrpcclient.cpp:49-53). -/
def Client.new (thread : Nat) : Client where
  thread := thread
  streams := fun _ => ⟨"", [], [], [], false, 0, true⟩
  nStreams := 0
  attempts := fun _ => ⟨0, .http2, false, []⟩
  nAttempts := 0
  active := []
  timers := []
  channel := none

/-- Replace one entry of a table (not in the code). -/
def update {α : Type} (f : Nat → α) (i : Nat) (v : α) : Nat → α := fun j => if j = i then v else f j

/-- `QGrpcStream::operator==` (qgrpcstream.h:98-101). -/
def Client.same (c : Client) (s t : Nat) : Bool :=
  (c.streams s).method == (c.streams t).method && (c.streams s).arg == (c.streams t).arg

/-- `QGrpcStream::handler` (qgrpcstream.h:74-80). -/
def Client.handler (c : Client) (s : Nat) (d : Bytes) : Client × List Obs :=
  ({ c with streams := update c.streams s { c.streams s with data := d } },
   (c.streams s).handlers.map (fun h => .handled s h d) ++ [.notified s])

/-- `channel->stream(...)`: the request is sent and the connections are made
(qgrpchttp2channel.cpp:274-385, qgrpcchannel.cpp:265-316). -/
def Client.start (c : Client) (s : Nat) (k : Kind) : Client × List Obs :=
  ({ c with attempts := update c.attempts c.nAttempts ⟨s, k, true, []⟩, nAttempts := c.nAttempts + 1 },
   [.started c.nAttempts s k])

/-- The client's slot for `finished` (qabstractgrpcclient.cpp:173-187): forget the first active stream that
is equal, disconnect, give up the reference. -/
def Client.onFinished (c : Client) (s : Nat) : Client :=
  if (c.streams s).connected then
    { c with
      active := c.active.eraseP (fun t => c.same t s)
      streams := update c.streams s { c.streams s with connected := false } }
  else c

/-- The attempts whose abort connection to stream `s` exists. -/
def Client.liveOf (c : Client) (s : Nat) : List Nat :=
  (List.range c.nAttempts).filter (fun a => (c.attempts a).connected && (c.attempts a).stream == s)

/-- The abort connections of the attempts of `s` (qgrpchttp2channel.cpp:373-385, qgrpcchannel.cpp:294-303):
disconnect and stop the network side. -/
def Client.onAbort (c : Client) (s : Nat) : Client :=
  { c with attempts := fun a =>
      if (c.attempts a).stream = s then { c.attempts a with connected := false } else c.attempts a }

/-- Emission of `QGrpcStream::finished`: the client's slot was connected first and runs first. -/
def Client.emitFinished (c : Client) (s : Nat) : Client × List Obs :=
  ((c.onFinished s).onAbort s, .finished s :: (c.liveOf s).map .cancelled)

/-- Emission of `QGrpcStream::error`: the client's slot (qabstractgrpcclient.cpp:156-171) emits the error and
starts a timer of one second with a weak reference to the stream. -/
def Client.emitError (c : Client) (s : Nat) (code : StatusCode) : Client × List Obs :=
  if (c.streams s).connected then
    ({ c with timers := c.timers ++ [s] }, [.failed s code, .clientFailed code])
  else (c, [.failed s code])

/-- The slots for the end of an attempt: qgrpchttp2channel.cpp:335-371 for HTTP/2, qgrpcchannel.cpp:280-292
for the native channel, which does nothing more if the status is `Ok`. -/
def Client.close (c : Client) (a : Nat) (cause : Close) : Client × List Obs :=
  let s := (c.attempts a).stream
  let c1 : Client := { c with attempts := update c.attempts a { c.attempts a with connected := false } }
  let r : Client × List Obs :=
    match (c.attempts a).kind, cause with
    | .http2, .remoteHostClosed => c1.start s .http2
    | .http2, .networkError code => c1.emitError s code
    | .http2, .status code => if code = Status.Ok then c1.emitFinished s else c1.emitError s code
    | .native, .status code => if code = Status.Ok then (c1, []) else c1.emitError s code
    | .native, _ => (c1, [])
  (r.1, .closed a :: r.2)

/-- What can happen: calls of the user and events of network and event loop.
`attach k channelThread currentThread`: `attachChannel` is called with a channel of class `k`.
`net`: the network side of an attempt delivers a message or ends.
`loop`: the event loop delivers the next posted signal of an attempt of the native channel.
`timer`: a pending timer for stream `s` fires. `abort`: the user calls `abort()`. `drop`: the user gives up a
reference. `reap`: the event loop deletes a stream object on which `deleteLater` was called. -/
inductive Ev
  | attach (k : Kind) (channelThread currentThread : Nat)
  | subscribe (method : String) (arg : Bytes) (h : Option Nat)
  | net (a : Nat) (i : Item)
  | loop (a : Nat)
  | timer (s : Nat)
  | abort (s : Nat)
  | drop (s : Nat)
  | reap (s : Nat)
deriving DecidableEq, Repr

/-- `for (auto stream : activeStreams) stream->abort();` (qabstractgrpcclient.cpp:66-68, 70-72). The loop goes
by the addresses of the elements at its start: `fuel` elements are left, `it` is the current index. `abort`
removes the element from the vector, so the index may come to lie behind the end: the loop then copies a
destroyed element, which is undefined behaviour (`none`). -/
def Client.abortAll (c : Client) (it : Nat) : Nat → Option (Client × List Obs)
  | 0 => some (c, [])
  | fuel + 1 =>
    match c.active[it]? with
    | none => none
    | some s =>
      let r := c.emitFinished s
      (r.1.abortAll (it + 1) fuel).map fun q => (q.1, r.2 ++ q.2)

/-- `QAbstractGrpcClient::attachChannel` (qabstractgrpcclient.cpp:58-73). -/
def Client.attachChannel (c : Client) (k : Kind) (channelThread currentThread : Nat) :
    Option (Client × List Obs) :=
  if channelThread ≠ currentThread then some (c, [.threw])
  else
    (c.abortAll 0 c.active.length).bind fun r =>
      let c1 : Client := { r.1 with channel := some k }
      (c1.abortAll 0 c1.active.length).map fun q => (q.1, r.2 ++ q.2)

/-- The `QGrpcStream` constructor and `addHandler` (qgrpcstream.cpp:33-48): null handlers are skipped. -/
def addHandler (l : List Nat) : Option Nat → List Nat
  | none => l
  | some h => l ++ [h]

/-- `QAbstractGrpcClient::stream` (qabstractgrpcclient.cpp:133-191). -/
def Client.subscribe (c : Client) (method : String) (arg : Bytes) (h : Option Nat) : Client × List Obs :=
  match c.channel with
  | none => (c, [.clientFailed Status.Unknown, .refused])
  | some k =>
    match c.active.find? (fun s => (c.streams s).method == method && (c.streams s).arg == arg) with
    | some s =>
      let o := c.streams s
      ({ c with streams := update c.streams s { o with handlers := addHandler o.handlers h, held := o.held + 1 } },
        [.subscribed method arg h s])
    | none =>
      let s := c.nStreams
      let c1 : Client := { c with
        streams := update c.streams s ⟨method, arg, addHandler [] h, [], true, 1, false⟩
        nStreams := s + 1 }
      let r := c1.start s k
      ({ r.1 with active := r.1.active ++ [s] }, .subscribed method arg h s :: r.2)

/-- A network event of attempt `a`. The slots of the HTTP/2 channel run at once
(qgrpchttp2channel.cpp:280-318, 335-371); the signals of the worker thread of the native channel are posted to
the event loop if they are connected (qgrpcchannel.cpp:107, 120, 276). If the stream object is deleted, its
connections are gone. -/
def Client.net (c : Client) (a : Nat) (i : Item) : Client × List Obs :=
  let s := (c.attempts a).stream
  match (c.attempts a).kind, i with
  | .http2, .data d =>
    if (c.attempts a).connected && !(c.streams s).deleted then
      let r := c.handler s d
      (r.1, .emitted a d :: .recv a d :: r.2)
    else (c, [])
  | .http2, .close cause =>
    if (c.attempts a).connected && !(c.streams s).deleted then c.close a cause else (c, [])
  | .native, .data d =>
    if (c.attempts a).connected && !(c.streams s).deleted then
      ({ c with attempts := update c.attempts a { c.attempts a with queue := (c.attempts a).queue ++ [.data d] } },
        [.emitted a d])
    else (c, [])
  | .native, .close cause =>
    let t := c.attempts a
    ({ c with attempts := update c.attempts a { t with queue := t.queue ++ [.close cause] } }, [])

/-- The event loop delivers the first posted signal of attempt `a`. A posted call of the data slot is carried
out even if the connection has been removed meanwhile (documentation of `QObject::disconnect`), unless the
receiver is gone; `finished` of the attempt is emitted at this point and reaches the slot only if it is still
connected. -/
def Client.loop (c : Client) (a : Nat) : Client × List Obs :=
  let s := (c.attempts a).stream
  match (c.attempts a).queue with
  | [] => (c, [])
  | i :: rest =>
    let c1 : Client := { c with attempts := update c.attempts a { c.attempts a with queue := rest } }
    match i with
    | .data d =>
      if !(c.streams s).deleted then
        let r := c1.handler s d
        (r.1, .recv a d :: r.2)
      else (c1, [])
    | .close cause =>
      if (c.attempts a).connected && !(c.streams s).deleted then c1.close a cause else (c1, [])

/-- References to the stream exist: the client's connections or the user's. -/
def Client.alive (c : Client) (s : Nat) : Bool := (c.streams s).connected || decide (0 < (c.streams s).held)

/-- The timer's functor (qabstractgrpcclient.cpp:162-169); without a channel it would follow a null pointer
(`none`). -/
def Client.fire (c : Client) (s : Nat) : Option (Client × List Obs) :=
  if s ∈ c.timers then
    let c1 : Client := { c with timers := c.timers.erase s }
    if c.alive s then
      match c.channel with
      | none => none
      | some k => some (c1.start s k)
    else some (c1, [])
  else some (c, [])

/-- One event; `none` is undefined behaviour. Calls on a stream need a reference to it. -/
def Client.step (c : Client) : Ev → Option (Client × List Obs)
  | .attach k ct cur => c.attachChannel k ct cur
  | .subscribe m a h => some (c.subscribe m a h)
  | .net a i => if a < c.nAttempts then some (c.net a i) else some (c, [])
  | .loop a => if a < c.nAttempts then some (c.loop a) else some (c, [])
  | .timer s => c.fire s
  | .abort s => if 0 < (c.streams s).held then some (c.emitFinished s) else some (c, [])
  | .drop s =>
    if 0 < (c.streams s).held then
      some ({ c with streams := update c.streams s { c.streams s with held := (c.streams s).held - 1 } }, [])
    else some (c, [])
  | .reap s =>
    if s < c.nStreams ∧ c.alive s = false ∧ (c.streams s).deleted = false then
      some ({ c with streams := update c.streams s { c.streams s with deleted := true } }, [.deleted s])
    else some (c, [])

/-- A history: the final state and everything observed. -/
def Client.run (c : Client) : List Ev → Option (Client × List Obs)
  | [] => some (c, [])
  | e :: es =>
    (c.step e).bind fun r => (r.1.run es).map fun q => (q.1, r.2 ++ q.2)

/-! ### Handlers that subscribe

`for (auto handler : m_handlers) handler(data);` (qgrpcstream.h:76-78) with handlers that may themselves
subscribe to the same stream, which appends to the vector being iterated (qabstractgrpcclient.cpp:149-151).
`push_back` invalidates the end of the range the loop runs to, and every element if it has to reallocate. -/

/-- The loop over the handlers: `adds h` is how many subscriptions to this stream handler `h` makes when it is
called. Going on after the vector was changed is undefined behaviour (`none`). -/
def callHandlers (adds : Nat → Nat) : List Nat → Option (List Nat)
  | [] => some []
  | h :: rest => if adds h = 0 then (callHandlers adds rest).map (h :: ·) else none

end QtPb.Stream
