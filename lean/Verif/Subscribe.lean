import Verif.Http2
/-
Model of asynchronous calls made in any thread, up to the callbacks of the caller: `QAbstractGrpcClient::call`
(src/grpc/qabstractgrpcclient.cpp:99-131), which forwards a call made in another thread to the thread of the client and waits until it was
made there, `QGrpcCallReply::subscribe` and `abort` (src/grpc/qgrpccallreply.h:57-74, src/grpc/qgrpccallreply.cpp:32-43),
`QGrpcAsyncOperationBase::setData` and `read` (src/grpc/qgrpcasyncoperationbase_p.h:54-74) and the signals a channel emits on the reply
(src/grpc/qgrpchttp2channel.cpp:231-270, src/grpc/qgrpcchannel.cpp:205-241).

One client with any number of calls. A call is made either in the thread of the client or in another one. Its caller then subscribes
with a callback for each of the two signals; receivers live in the calling thread. With the default type of connection (`AutoConnection`)
a signal runs the callbacks of receivers of the same thread at once and is queued for those of other threads.

Simplifications: the client exists and has a channel and a serializer; the caller keeps the reply; a thread other than the client's may
handle its queued signals whenever it has subscribed.
-/
namespace QtPb.Subscribe
open Http2

/-- How a request ends: an answer, or a failure. -/
inductive Outcome
  | ok (d : Bytes)
  | failed (c : StatusCode)
deriving DecidableEq, Repr

/-- The signals of a reply (qgrpcasyncoperationbase_p.h:78-89). -/
inductive Sig
  | finished
  | error (c : StatusCode)
deriving DecidableEq, Repr

/-- Where the calling thread is: the call waits to be handled by the thread of the client; the call has returned; the callback for
`finished` is connected; both are (qgrpccallreply.h:61-62). -/
inductive Stage
  | posted
  | returned
  | half
  | subscribed
deriving DecidableEq, Repr

/-- A call. -/
structure Reply where
  /-- made in the thread of the client -/
  own : Bool
  stage : Stage
  /-- how the request has ended -/
  ended : Option Outcome
  /-- `m_data` (qgrpcasyncoperationbase_p.h:103) -/
  data : Bytes
  /-- signals queued for the thread of the receiver -/
  queue : List Sig
  /-- callbacks that have run, with what `read` decoded in them -/
  ran : List (Sig × Bytes)
deriving DecidableEq, Repr

/-- All calls of the client. -/
abbrev World := List Reply

/-- What can happen. `call`: a call is made; `handle`: the thread of the client handles a call posted by another thread; `connect`: the
calling thread executes the next of the two statements of `subscribe`; `answer`: the channel ends the request; `abort`: the user
calls `abort`; `deliver`: the event loop of the calling thread handles a queued signal. -/
inductive Ev
  | call (own : Bool)
  | handle (i : Nat)
  | connect (i : Nat)
  | answer (i : Nat) (o : Outcome)
  | abort (i : Nat)
  | deliver (i : Nat)
deriving DecidableEq, Repr

/-- The thread of the client is between a call of its own and the end of `subscribe`: it does not get back to its event loop before. -/
def busy (w : World) : Bool := w.any fun r => r.own && r.stage != .subscribed

/-- The callback for the signal is connected (qgrpccallreply.h:61-62). -/
def Reply.connected (r : Reply) : Sig → Bool
  | .finished => r.stage == .half || r.stage == .subscribed
  | .error _ => r.stage == .subscribed

/-- Emit a signal: the connected callback runs, or is queued for its thread. -/
def Reply.emit (r : Reply) (s : Sig) : Reply :=
  if r.connected s then
    if r.own then { r with ran := r.ran ++ [(s, r.data)] } else { r with queue := r.queue ++ [s] }
  else r

/-- `QGrpcAsyncOperationBase::setData` (qgrpcasyncoperationbase_p.h:70-74). -/
def Reply.setData (r : Reply) (d : Bytes) : Reply := { r with data := d }

/-- The channel ends the request (qgrpchttp2channel.cpp:240-256, qgrpcchannel.cpp:218-230). -/
def Reply.finish (r : Reply) (o : Outcome) : Reply :=
  let r : Reply := { r with ended := some o }
  match o with
  | .ok d => (r.setData d).emit .finished
  | .failed c => (r.setData []).emit (.error c)

/-- `QGrpcCallReply::abort` (qgrpccallreply.cpp:32-43), in the thread of the client. If the request is not over, the channel gives it
up (qgrpchttp2channel.cpp:258-266, qgrpcchannel.cpp:232-238). -/
def Reply.abort (r : Reply) : Reply :=
  let r : Reply := { r with ended := some (r.ended.getD (.failed Status.Aborted)) }
  (r.setData []).emit (.error Status.Aborted)

/-- A new call (qabstractgrpcclient.cpp:99-125). -/
def newReply (own : Bool) : Reply := ⟨own, if own then .returned else .posted, none, [], [], []⟩

/-- Change one call (not in the code). -/
def World.at (w : World) (i : Nat) (f : Reply → Reply) : World := List.modify w i f

/-- One event. Events that are not possible in the state change nothing. -/
def step (w : World) : Ev → World
  | .call own => if own && busy w then w else w ++ [newReply own]
  | .handle i =>
    if busy w then w else w.at i fun r => if r.stage = .posted then { r with stage := .returned } else r
  | .connect i => w.at i fun r =>
    match r.stage with
    | .returned => { r with stage := .half }
    | .half => { r with stage := .subscribed }
    | _ => r
  | .answer i o =>
    if busy w then w else w.at i fun r => if r.stage ≠ .posted ∧ r.ended = none then r.finish o else r
  | .abort i =>
    if busy w then w else w.at i fun r => if r.stage = .subscribed then r.abort else r
  | .deliver i => w.at i fun r =>
    if r.stage = .subscribed then
      match r.queue with
      | [] => r
      | s :: rest => { r with queue := rest, ran := r.ran ++ [(s, r.data)] }
    else r

/-- A history. -/
def run (w : World) (es : List Ev) : World := es.foldl step w

end QtPb.Subscribe
