import Verif.Basic
/-
Model of how the messages of a stream reach those who listen to it: `QGrpcStream::handler` (src/grpc/qgrpcstream.h:74-80),
`QGrpcAsyncOperationBase::setData` and `read` (src/grpc/qgrpcasyncoperationbase_p.h:54-74).

There are three ways to listen: a handler gets each message as its argument; a slot connected to `messageReceived` calls `read`, and
runs at once if its object lives in the thread of the stream, else when the event loop of its thread gets to it.
A handler may start an event loop, for example by a synchronous call, in which the next message is received.

Simplifications: one listener of each kind; the stream is not finished; `read` is taken to give the stored bytes.
-/
namespace QtPb.StreamRead

/-- The stream and what its listeners have got. -/
structure World where
  /-- `m_data` (qgrpcasyncoperationbase_p.h:103) -/
  data : Bytes
  /-- calls of `handler` that have not emitted `messageReceived` yet -/
  inside : Nat
  /-- signals queued for the other thread -/
  queued : Nat
  /-- what handlers were called with -/
  handled : List Bytes
  /-- what was read by the slot in the thread of the stream -/
  own : List Bytes
  /-- what was read by the slot in the other thread -/
  other : List Bytes
deriving DecidableEq, Repr

/-- A new stream. -/
def start : World := ⟨[], 0, 0, [], [], []⟩

/-- What can happen. `message`: the channel receives a message and calls `handler`, up to the end of the loop over the handlers
(qgrpcstream.h:74-78); `emit`: the innermost call of `handler` goes on after the loop (79); `deliver`: the other thread handles a queued
signal. -/
inductive Ev
  | message (d : Bytes)
  | emit
  | deliver
deriving DecidableEq, Repr

/-- `read` (qgrpcasyncoperationbase_p.h:54-63). -/
def World.read (w : World) : Bytes := w.data

/-- One event. Events that are not possible in the state change nothing. -/
def step (w : World) : Ev → World
  | .message d => { w with data := d, handled := w.handled ++ [d], inside := w.inside + 1 }
  | .emit =>
    match w.inside with
    | 0 => w
    | n + 1 => { w with inside := n, own := w.own ++ [w.read], queued := w.queued + 1 }
  | .deliver =>
    match w.queued with
    | 0 => w
    | n + 1 => { w with queued := n, other := w.other ++ [w.read] }

/-- A history. -/
def run (w : World) (es : List Ev) : World := es.foldl step w

end QtPb.StreamRead
