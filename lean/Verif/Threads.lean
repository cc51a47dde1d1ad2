import Verif.Basic
/-
Model of calls of clients from several threads: `QAbstractGrpcClient::call` and `stream`
(src/grpc/qabstractgrpcclient.cpp:75-191) with the event loops they wait in (`QEventLoop::exec`,
src/grpc/qgrpchttp2channel.cpp:211-229, src/grpc/qgrpcchannel.cpp:243-257) and the calls that are forwarded to the thread of the
client (`QMetaObject::invokeMethod` with `Qt::BlockingQueuedConnection`).

Every client lives in a thread, its home. Threads run event loops; a handler that runs in an event loop may make calls. A thread has a
stack of calls it is in, innermost first: a synchronous call of a client of the same thread waits in an event loop of its own, in which
the thread goes on to handle events; a call of a client of another thread is posted to that thread and the caller waits for a
semaphore, handling nothing. Both are as in Qt's documentation: an event loop that was told to quit returns when the loops started
inside it have returned.

Simplifications: threads do not end; clients are not destroyed and keep their channel; the time a handler takes is not modelled, nor are the
timers of the HTTP/2 channel (for these and for channels that are replaced see `Channels`).
-/
namespace QtPb.Threads

/-- A call: the thread it is made in, the thread of the client, and whether it is one that does not wait for an answer of the server
(asynchronous calls and streams, qabstractgrpcclient.cpp:99-191). -/
structure Call where
  caller : Nat
  home : Nat
  quick : Bool
deriving DecidableEq, Repr

/-- What a thread is doing: `wait k` is in the event loop of call `k`, `blocked k` waits until the home thread has carried out
call `k`. -/
inductive Frame
  | wait (k : Nat)
  | blocked (k : Nat)
deriving DecidableEq, Repr

/-- All calls there have been, the answers that have arrived, the calls posted to each thread and not yet handled, what each thread is
in, and the calls that have returned, with their result (`none` for the calls that do not wait for one). -/
structure World where
  calls : List Call
  answers : Nat → Option Bytes
  queue : Nat → List Nat
  stack : Nat → List Frame
  returned : List (Nat × Option Bytes)

/-- Nothing has happened. -/
def start : World := ⟨[], fun _ => none, fun _ => [], fun _ => [], []⟩

/-- Replace one entry of a table (not in the code). -/
def upd {α : Type} (f : Nat → α) (i : Nat) (v : α) : Nat → α := fun j => if j = i then v else f j

/-- A thread handles events if it is not waiting for a semaphore. -/
def World.free (w : World) (th : Nat) : Bool :=
  match w.stack th with
  | .blocked _ :: _ => false
  | _ => true

/-- What can happen: a handler running in thread `caller` calls a client of thread `home`; the network ends the request of a call; a
thread handles the next call that was posted to it; the innermost event loop of a thread ends. -/
inductive Ev
  | call (caller home : Nat) (quick : Bool)
  | answer (k : Nat) (d : Bytes)
  | dispatch (th : Nat)
  | ret (th : Nat)
deriving DecidableEq, Repr

/-- A call is made (qabstractgrpcclient.cpp:75-97, 99-107, 133-142). -/
def World.makeCall (w : World) (caller home : Nat) (quick : Bool) : World :=
  let k := w.calls.length
  let w : World := { w with calls := w.calls ++ [⟨caller, home, quick⟩] }
  if caller = home then
    if quick then { w with returned := w.returned ++ [(k, none)] }
    else { w with stack := upd w.stack caller (.wait k :: w.stack caller) }
  else { w with queue := upd w.queue home (w.queue home ++ [k]), stack := upd w.stack caller (.blocked k :: w.stack caller) }

/-- The functor given to `invokeMethod` has run: the caller's semaphore is released and its call returns with the result. -/
def World.release (w : World) (caller k : Nat) (result : Option Bytes) : World :=
  { w with stack := upd w.stack caller (w.stack caller).tail, returned := w.returned ++ [(k, result)] }

/-- One event. Events that are not possible in the state change nothing. -/
def World.step (w : World) : Ev → World
  | .call caller home quick => if w.free caller then w.makeCall caller home quick else w
  | .answer k d =>
    match w.calls[k]? with
    | some c => if .wait k ∈ w.stack c.home ∧ w.answers k = none then { w with answers := upd w.answers k (some d) } else w
    | none => w
  | .dispatch th =>
    if w.free th then
      match w.queue th with
      | [] => w
      | k :: rest =>
        let w : World := { w with queue := upd w.queue th rest }
        match w.calls[k]? with
        | some c => if c.quick then w.release c.caller k none else { w with stack := upd w.stack th (.wait k :: w.stack th) }
        | none => w
    else w
  | .ret th =>
    match w.stack th with
    | .wait k :: rest =>
      match w.answers k with
      | some d =>
        let w : World := { w with stack := upd w.stack th rest }
        match w.calls[k]? with
        | some c =>
          if c.caller = th then { w with returned := w.returned ++ [(k, some d)] } else w.release c.caller k (some d)
        | none => w
      | none => w
    | _ => w

/-- A history. -/
def World.run (w : World) (es : List Ev) : World := es.foldl World.step w

end QtPb.Threads
