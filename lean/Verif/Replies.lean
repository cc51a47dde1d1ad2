import Verif.Http2
/-
Model of the life of call replies: `QAbstractGrpcClient::call` (src/grpc/qabstractgrpcclient.h:123-131,
src/grpc/qabstractgrpcclient.cpp:99-131), `QGrpcCallReply` (src/grpc/qgrpccallreply.h/.cpp), the methods
of generated clients that use it (src/generator/templates.cpp:311-371) and what channels do with a reply
(src/grpc/qgrpchttp2channel.cpp:231-270, src/grpc/qgrpcchannel.cpp: QGrpcChannelPrivate::call).

A reply is a child of the client (the client's destructor deletes it) and is also shared: copies of a
`std::shared_ptr` are held by the user, by the two functors the client connects and by the functor a
callback method connects. When the last copy goes, the reply is deleted later by the event loop.

Simplifications: calls from the client's own thread; the contents of replies are bytes; the copies held
by the client's two functors are dropped together (both are dropped inside the first one that runs);
destroying the client runs the deleter on replies that are being destroyed, which is taken to do nothing.
-/
namespace QtPb.Replies
open Http2

/-- Methods of a generated client for one rpc: `Reply m(arg)` (templates.cpp:311-315),
`void m(arg, context, callback)` (316-322) and the two methods for QML (324-371). -/
inductive Method
  | async
  | callback
  | qml
  deriving DecidableEq, Repr

/-- A `QGrpcCallReply` object and the shared pointers to it. -/
structure Reply where
  method : Method
  /-- the object exists -/
  alive : Bool
  /-- `deleteLater` was called -/
  pending : Bool
  /-- copies of the shared pointer held by user code -/
  user : Nat
  /-- the client's functors are connected (qabstractgrpcclient.cpp:112-123), each holds a copy -/
  client : Bool
  /-- the functor of the callback method is connected (templates.cpp:319-321, 343-347, 361-367), it holds a copy -/
  sub : Bool
  /-- `m_data` -/
  data : Bytes
  deriving DecidableEq, Repr

/-- What the user observes. -/
inductive Obs
  /-- signal `error` of the client -/
  | clientError (code : StatusCode)
  /-- the callback for the answer runs; the reply holds this data -/
  | callback (i : Nat) (data : Bytes)
  /-- the error callback runs -/
  | errorCallback (i : Nat) (code : StatusCode)
  deriving DecidableEq, Repr

/-- A client, its replies in the order of the calls, and what was observed. -/
structure World where
  clientAlive : Bool
  /-- a channel with a serializer is attached -/
  channel : Bool
  replies : List Reply
  log : List Obs
  deriving DecidableEq, Repr

/-- What can happen. -/
inductive Ev
  /-- the user calls a generated method -/
  | call (m : Method)
  /-- the channel delivers an answer; `keep`: the callback of the user stores a copy of its argument -/
  | finish (i : Nat) (data : Bytes) (keep : Bool)
  /-- the channel reports a failure -/
  | fail (i : Nat) (code : StatusCode)
  /-- the user copies or destroys a shared pointer -/
  | copy (i : Nat)
  | drop (i : Nat)
  /-- the user calls `read<T>()` or `abort()` through a shared pointer -/
  | read (i : Nat)
  | abort (i : Nat)
  /-- the receiver given to the callback method is destroyed -/
  | destroyContext (i : Nat)
  /-- a turn of the event loop: deferred deletes -/
  | loop
  | destroyClient
  deriving DecidableEq, Repr

/-- Number of shared pointers to a reply. -/
def Reply.refs (r : Reply) : Nat := r.user + (if r.client then 2 else 0) + (if r.sub then 1 else 0)

/-- The deleter given to `reset` (qabstractgrpcclient.cpp:108), when the last shared pointer is gone: `reply->deleteLater()`.
On an object that does not exist any more this is undefined. -/
def Reply.release (r : Reply) : Res Reply :=
  if r.refs = 0 then (if r.alive then .ok { r with pending := true } else .ub) else .ok r

/-- Replace reply `i`. -/
def World.put (w : World) (i : Nat) (r : Reply) : World := { w with replies := w.replies.set i r }

/-- Signal `finished` of an existing reply: the client's functor (qabstractgrpcclient.cpp:119-123), then
the one of the callback method, in the order of their connection. The channel has called `setData`
(qgrpchttp2channel.cpp:249-251). -/
def finished (w : World) (i : Nat) (r : Reply) (data : Bytes) (keep : Bool) : Res World := do
  let r := { r with data := data, client := false }
  if r.sub then
    let r' := if r.method = .callback ∧ keep = true then { r with user := r.user + 1 } else r
    let r' ← r'.release
    .ok { w.put i r' with log := w.log ++ [.callback i data] }
  else
    let r' ← r.release
    .ok (w.put i r')

/-- Signal `error` of an existing reply: the client's functor (qabstractgrpcclient.cpp:112-117), then the
error callback of the QML methods. The data was set to nothing (qgrpchttp2channel.cpp:252-255,
qgrpccallreply.cpp:35). -/
def failed (w : World) (i : Nat) (r : Reply) (code : StatusCode) : Res World := do
  let log1 := if r.client then [Obs.clientError code] else []
  let log2 := if r.sub ∧ r.method = .qml then [Obs.errorCallback i code] else []
  let r' ← { r with data := [], client := false }.release
  .ok { w.put i r' with log := w.log ++ log1 ++ log2 }

/-- One event. A method called on a client that does not exist, and a reply used after its end, are
undefined. Signals of channels reach existing replies only: the reply is the receiver of the channel's
connection (qgrpchttp2channel.cpp:238). -/
def step (w : World) : Ev → Res World
  | .call m =>
    if ¬ w.clientAlive then .ub
    else if w.channel then
      .ok { w with replies := w.replies ++
        [⟨m, true, false, if m = .async then 1 else 0, true, m ≠ .async, []⟩] }
    else
      -- `trySerialize` (qabstractgrpcclient.h:240-243), a null reply; QObject::connect refuses a null
      -- sender (templates.cpp:319), `reply->subscribe` (342, 360) is a call through a null pointer
      let w := { w with log := w.log ++ [.clientError Status.Unknown] }
      if m = .qml then .ub else .ok w
  | .finish i data keep =>
    match w.replies[i]? with
    | some r => if r.alive then finished w i r data keep else .ok w
    | none => .ok w
  | .fail i code =>
    match w.replies[i]? with
    | some r => if r.alive then failed w i r code else .ok w
    | none => .ok w
  | .copy i =>
    match w.replies[i]? with
    | some r => .ok (w.put i { r with user := r.user + 1 })
    | none => .ok w
  | .drop i =>
    match w.replies[i]? with
    | some r => do
      let r' ← { r with user := r.user - 1 }.release
      .ok (w.put i r')
    | none => .ok w
  | .read i =>
    match w.replies[i]? with
    | some r => if r.alive then .ok w else .ub
    | none => .ok w
  | .abort i =>
    match w.replies[i]? with
    | some r => if r.alive then failed w i r Status.Aborted else .ub
    | none => .ok w
  | .destroyContext i =>
    match w.replies[i]? with
    | some r =>
      if r.sub then do
        let r' ← { r with sub := false }.release
        .ok (w.put i r')
      else .ok w
    | none => .ok w
  | .loop => .ok { w with replies := w.replies.map fun r =>
      if r.pending then { r with alive := false, pending := false, client := false, sub := false } else r }
  | .destroyClient =>
    if w.clientAlive then
      .ok { w with clientAlive := false, replies := w.replies.map fun r =>
        { r with alive := false, pending := false, client := false, sub := false } }
    else .ub

/-- A history of events. -/
def run : World → List Ev → Res World
  | w, [] => .ok w
  | w, e :: es => do
    let w ← step w e
    run w es

/-- A new client. -/
def start (channel : Bool) : World := ⟨true, channel, [], []⟩

end QtPb.Replies
