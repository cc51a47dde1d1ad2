import Verif.Call
/-
Model of calls over the native gRPC channel (src/grpc/qgrpcchannel.cpp, qgrpcchannel_p.h): a call object
owns a worker thread that makes a blocking call; its end is delivered by the event loop of the main thread.
Also the waiting loop of the synchronous calls of both channels.

Simplifications: what the gRPC library answers is an input; sizes of answers are below 2^31; texts of
statuses are not part of the model, except in `Call`.
-/
namespace QtPb.Native
open Http2

/-- What `BlockingUnaryCall` returns: a status code, and for code Ok what `ByteBuffer::Dump` gives for the
response: slices or the code of an error. -/
structure Answer where
  code : StatusCode
  dump : Except StatusCode (List Bytes)
  deriving Repr

/-- The loop of `parseByteBuffer` (qgrpcchannel.cpp:67-69): slices are appended. -/
def appendSlices (data : Bytes) : List Bytes → Bytes
  | [] => data
  | s :: ss => appendSlices (data ++ s) ss

/-- `status` and `response` of the call object at the end of the thread (qgrpcchannel.cpp:149-174, parseByteBuffer 59-72). -/
def outcome (a : Answer) : StatusCode × Bytes :=
  if a.code ≠ Status.Ok then (a.code, [])
  else match a.dump with
    | .error c => (c, [])
    | .ok slices => (Status.Ok, appendSlices [] slices)

/-- The worker thread: started, using the channel, ended with `status` and `response`. -/
inductive Thread
  | created
  | running
  | ended (code : StatusCode) (response : Bytes)
  deriving DecidableEq, Repr

/-- A call in progress. -/
structure State where
  /-- the channel object exists -/
  channel : Bool
  /-- the reply object exists -/
  reply : Bool
  thread : Thread
  /-- `finished` of the thread waits in the event loop of the main thread (qgrpcchannel.cpp:176) -/
  posted : Bool
  /-- the `QGrpcChannelCall` object exists -/
  call : Bool
  /-- `deleteLater` of the call object was called: both functors that own it are gone (qgrpcchannel.cpp:215-218) -/
  deletePending : Bool
  /-- connection of the call object's `finished` (qgrpcchannel.cpp:220) -/
  connection : Bool
  /-- connection of the reply's `error` (qgrpcchannel.cpp:233) -/
  abortConnection : Bool
  /-- connections of the client (qabstractgrpcclient.cpp:112-123) -/
  client : Bool
  data : Bytes
  signals : List Call.Signal
  clientErrors : List StatusCode
  deriving DecidableEq, Repr

/-- After `QGrpcChannelPrivate::call` for a reply (qgrpcchannel.cpp:207-241) called by the client
(qabstractgrpcclient.cpp:107-125). -/
def start : State := ⟨true, true, .created, false, true, false, true, true, true, [], [], []⟩

/-- The slots of the reply's `error`: the client's (qabstractgrpcclient.cpp:112-117), then the channel's
(qgrpcchannel.cpp:233-238). -/
def onError (s : State) (code : StatusCode) : State :=
  let s := if s.client then { s with clientErrors := s.clientErrors ++ [code], client := false } else s
  if s.abortConnection ∧ code = Status.Aborted then
    { s with connection := false, abortConnection := false, deletePending := true }
  else s

/-- The slot of the call object's `finished` (qgrpcchannel.cpp:220-231). -/
def onFinished (s : State) (code : StatusCode) (response : Bytes) : State :=
  let s :=
    if code = Status.Ok then
      { s with data := response, signals := s.signals ++ [.finished], client := false }
    else
      onError { s with data := [], signals := s.signals ++ [.error code] } code
  { s with connection := false, abortConnection := false, deletePending := true }

/-- The destructor of the call object (qgrpcchannel.cpp:184-189): cancel, and wait for the thread, which
has to make its call first. What the library answers after the cancellation is not observable. -/
def destroyCall (s : State) : Res State :=
  match s.thread with
  | .created =>
    if s.channel then
      .ok { s with thread := .ended Status.Cancelled [], call := false, posted := false, connection := false, abortConnection := false, deletePending := false }
    else .ub
  | .running =>
    .ok { s with thread := .ended Status.Cancelled [], call := false, posted := false, connection := false, abortConnection := false, deletePending := false }
  | .ended _ _ => .ok { s with call := false, posted := false, connection := false, abortConnection := false, deletePending := false }

/-- What can happen. -/
inductive Ev
  /-- the thread starts the call on the channel; from here on the library keeps the channel -/
  | threadBegin
  /-- the library answers and the thread ends -/
  | threadEnd (a : Answer)
  /-- the event loop delivers the end of the thread -/
  | deliver
  /-- the user calls `abort()` on the reply -/
  | abort
  /-- the event loop deletes the call object -/
  | deleteCall
  /-- the reply is destroyed, with the client or by the event loop -/
  | destroyReply
  /-- the channel is destroyed -/
  | destroyChannel

/-- One event. The thread uses the channel through a pointer that does not own it
(qgrpcchannel.cpp:145-155, 216). -/
def step (s : State) : Ev → Res State
  | .threadBegin =>
    if s.thread = .created then (if s.channel then .ok { s with thread := .running } else .ub) else .ok s
  | .threadEnd a =>
    if s.thread = .running then
      .ok { s with thread := .ended (outcome a).1 (outcome a).2, posted := true }
    else .ok s
  | .deliver =>
    if s.posted then
      let s := { s with posted := false }
      match s.thread with
      | .ended code response => .ok (if s.connection then onFinished s code response else s)
      | _ => .ok s
    else .ok s
  | .abort =>
    if s.reply then .ok (onError { s with data := [], signals := s.signals ++ [.aborted] } Status.Aborted) else .ub
  | .deleteCall => if s.deletePending then destroyCall s else .ok s
  | .destroyReply =>
    if s.reply then
      let s := { s with reply := false, client := false }
      if s.call then destroyCall s else .ok s
    else .ub
  | .destroyChannel => .ok { s with channel := false }

/-- A history. -/
def run : State → List Ev → Res State
  | s, [] => .ok s
  | s, e :: es => do
    let s ← step s e
    run s es

/-! ### Synchronous calls -/

/-- What happens while a synchronous call waits in its event loop. -/
inductive Wait
  | threadBegin
  | threadEnd (a : Answer)
  /-- the event loop delivers the end of the thread -/
  | deliver
  /-- the application is told to quit (`QCoreApplication::quit`): all event loops of the thread end -/
  | quit
  | destroyChannel

/-- `QGrpcChannelPrivate::call` for bytes (qgrpcchannel.cpp:243-257): `loop.exec()` ends with the delivery of
the end of the thread or because the application quits; then `call.response` and `call.status` are read.
Reading them while the thread writes them is a data race. `none`: the loop still waits. -/
def syncCall (channel : Bool) : Thread → List Wait → Res (Option (StatusCode × Bytes))
  | _, [] => .ok none
  | t, .threadBegin :: ws =>
    if t = .created then (if channel then syncCall channel .running ws else .ub) else syncCall channel t ws
  | t, .threadEnd a :: ws =>
    if t = .running then syncCall channel (.ended (outcome a).1 (outcome a).2) ws else syncCall channel t ws
  | t, .deliver :: ws =>
    match t with
    | .ended code response => .ok (some (code, response))
    | _ => syncCall channel t ws
  | t, .quit :: _ =>
    match t with
    | .ended code response => .ok (some (code, response))
    | _ => .ub
  | t, .destroyChannel :: ws => syncCall false t ws

/-- What happens while a synchronous call of the HTTP/2 channel waits. -/
inductive Wait2
  /-- more of the answer arrives: the status header, if it was among it, and the body so far -/
  | receive (status : Option Bytes) (body : Bytes)
  /-- the network reply ends, with an error, with an answer of the server, or after the timeout -/
  | finished (r : Http2.Reply)
  | quit

/-- `QGrpcHttp2Channel::call` for bytes (qgrpchttp2channel.cpp:211-229). When the application quits, the
network reply is examined as it is then. -/
def syncCall2 : Http2.Reply → List Wait2 → Option (Res (Bytes × StatusCode))
  | _, [] => none
  | sofar, .receive status body :: ws => syncCall2 { sofar with grpcStatus := status, body := body } ws
  | _, .finished r :: _ => some (processReply r)
  | sofar, .quit :: _ => some (processReply sofar)

end QtPb.Native
