import Verif.Basic
/-
Model of the memory that a client shares between threads: the members `channel` and `activeStreams` of `QAbstractGrpcClientPrivate`
(src/grpc/qabstractgrpcclient.cpp:38-45) and where they are read and written: `attachChannel` (57-73), the calls (75-131) and `stream`
(133-191), which forward to the thread of the client, and `serializer` (193-199), which `trySerialize`, `tryDeserialize` and `read` call in
the thread they are called in (src/grpc/qabstractgrpcclient.h:92-131, 139-184, 206-246, src/grpc/qgrpcasyncoperationbase_p.h:54-63).

The model records the accesses of every thread, and the points at which one thread waits for another: a thread is started, a call is
posted to the thread of the client, the caller of a posted call goes on when it was carried out.

Simplifications: one client, whose thread is number 0; other threads are started by it; the accesses of one step (the calling thread
before and after the forwarding, the thread of the client in between) are recorded together, which does not change what happens before
what; the timer that restarts a stream reads the channel in the thread of the client and is left out; a channel is
attached in a thread in which it lives, otherwise `attachChannel` throws (59-65).
-/
namespace QtPb.Races

/-- What is shared: `dPtr->channel` and `dPtr->activeStreams`. -/
inductive Loc
  | channel
  | streams
deriving DecidableEq, Repr

/-- What one thread does for another to wait for: start it, post call `k`, end call `k`. -/
inductive Token
  | started (t : Nat)
  | posted (k : Nat)
  | ended (k : Nat)
deriving DecidableEq, Repr

/-- An entry of the record: thread `t` accesses a location (`write` or not), signals, or has waited for a signal. -/
inductive Item
  | access (t : Nat) (l : Loc) (write : Bool)
  | signal (t : Nat) (m : Token)
  | wait (t : Nat) (m : Token)
deriving DecidableEq, Repr

/-- The functions of the interface: synchronous call, asynchronous call, stream. -/
inductive Op
  | call
  | async
  | stream
deriving DecidableEq, Repr

/-- `serializer` (qabstractgrpcclient.cpp:193-199). -/
def serializer (t : Nat) : List Item := [.access t .channel false]

/-- What the calling thread does first: `trySerialize` (qabstractgrpcclient.h:105, 126, 144, 170). -/
def before (t : Nat) : Op → List Item := fun _ => serializer t

/-- What the thread of the client does: the test of `channel` and its use (qabstractgrpcclient.cpp:86-87, 108-125, 143-186). -/
def inside : Op → List Item
  | .call => [.access 0 .channel false, .access 0 .channel false]
  | .async => [.access 0 .channel false, .access 0 .channel false]
  | .stream => [.access 0 .channel false, .access 0 .streams false, .access 0 .channel false, .access 0 .streams true]

/-- What the calling thread does afterwards: `tryDeserialize` of a synchronous call (qabstractgrpcclient.h:108-110). -/
def after (t : Nat) : Op → List Item
  | .call => serializer t
  | _ => []

/-- `attachChannel` in thread `t` (qabstractgrpcclient.cpp:66-72); the streams it aborts are removed when the client is told, see `closed`. -/
def attach (t : Nat) : List Item :=
  [.access t .streams false, .access t .channel true, .access t .streams false]

/-- The client is told that a stream ended, in its own thread (qabstractgrpcclient.cpp:169-182). -/
def closed : List Item := [.access 0 .streams false, .access 0 .streams true]

/-- The record so far, the threads that were started, the number of calls, the calls posted and not yet handled, and the calls
handled whose caller has not gone on yet. -/
structure World where
  record : List Item
  started : List Nat
  calls : Nat
  posted : List (Nat × Nat × Op)
  handled : List (Nat × Nat × Op)
deriving DecidableEq, Repr

/-- The thread of the client alone. -/
def start : World := ⟨[], [], 0, [], []⟩

/-- What can happen. `spawn t`: the thread of the client starts thread `t`; `use t op`: a function of the client is called in thread `t`;
`handle`: the thread of the client handles the next posted call; `resume`: the caller of the handled call that is first goes on;
`read t`: `read` of a reply or stream in thread `t`; `attach t`: `attachChannel` in thread `t`;
`streamEnd`: a stream ends. -/
inductive Ev
  | spawn (t : Nat)
  | use (t : Nat) (op : Op)
  | handle
  | resume
  | read (t : Nat)
  | attach (t : Nat)
  | streamEnd
deriving DecidableEq, Repr

/-- The thread exists and does not wait for a posted call. -/
def World.ready (w : World) (t : Nat) : Bool :=
  (t == 0 || w.started.contains t) && !(w.posted ++ w.handled).any fun p => p.1 == t

/-- One event. Events that are not possible in the state change nothing. -/
def World.step (w : World) : Ev → World
  | .spawn t =>
    if t = 0 ∨ t ∈ w.started then w
    else { w with record := w.record ++ [.signal 0 (.started t), .wait t (.started t)], started := t :: w.started }
  | .use t op =>
    if w.ready t then
      if t = 0 then { w with record := w.record ++ (before 0 op ++ inside op ++ after 0 op) }
      else { w with record := w.record ++ (before t op ++ [.signal t (.posted w.calls)]),
                    posted := w.posted ++ [(t, w.calls, op)], calls := w.calls + 1 }
    else w
  | .handle =>
    match w.posted with
    | [] => w
    | (t, k, op) :: rest =>
      { w with record := w.record ++ (.wait 0 (.posted k) :: inside op ++ [.signal 0 (.ended k)]), posted := rest,
               handled := w.handled ++ [(t, k, op)] }
  | .resume =>
    match w.handled with
    | [] => w
    | (t, k, op) :: rest => { w with record := w.record ++ (.wait t (.ended k) :: after t op), handled := rest }
  | .read t => if w.ready t then { w with record := w.record ++ serializer t } else w
  | .attach t => if w.ready t then { w with record := w.record ++ attach t } else w
  | .streamEnd => { w with record := w.record ++ closed }

/-- A history. -/
def World.run (w : World) (es : List Ev) : World := es.foldl World.step w

end QtPb.Races
