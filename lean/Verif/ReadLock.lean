import Verif.Basic
/-
Model of the lock of call replies and streams: `QGrpcAsyncOperationBase::read` and `setData` (src/grpc/qgrpcasyncoperationbase_p.h:54-74),
`QAbstractGrpcClient::tryDeserialize` (src/grpc/qabstractgrpcclient.h:206-232), which emits `error` of the client when the data cannot be
decoded, while the lock is held, and the functions that store data: `QGrpcCallReply::abort` (src/grpc/qgrpccallreply.cpp:32-43),
`QGrpcStream::handler` (src/grpc/qgrpcstream.h:74-80) and the ends of calls in the channels.

The lock is a `QMutex`, which is not recursive: a thread that locks it twice waits forever. What handlers of the signal `error` do is
arbitrary: they read and abort operations, and may start event loops in which data arrive.

Simplifications: one thread; the handlers connected to signals return if what they call returns.
-/
namespace QtPb.ReadLock

/-- What a program does with the operations (replies and streams) of a client, and what happens in the event loops it starts:
`read i`: reads operation `i`; `store i d`: the data `d` are stored in operation `i`, because a message or an answer arrives or, with no
data, because the program aborts it. -/
inductive Op
  | read (i : Nat)
  | store (i : Nat) (d : Bytes)
deriving DecidableEq, Repr

/-- A program: what is done one after another, and with each of these what the handlers of the signals emitted meanwhile do. -/
inductive Prog
  | done
  | act (op : Op) (handlers rest : Prog)
deriving Repr

/-- The data of all operations, and what `read` returned (`none` stands for the default constructed message). -/
structure World where
  data : Nat → Bytes
  log : List (Nat × Option Bytes)

/-- `setData` when the lock is free (qgrpcasyncoperationbase_p.h:70-74). -/
def World.store (w : World) (i : Nat) (d : Bytes) : World := { w with data := fun j => if j = i then d else w.data j }

/-- The program, in a thread that holds the locks of the operations in `held`; `decodes` says which data can be decoded. `none`: the
thread waits for a lock it holds itself.

`read`: the lock is taken, the data are decoded, on failure the handlers of `error` run, the lock is released
(qgrpcasyncoperationbase_p.h:54-63, qabstractgrpcclient.h:206-232). `store`: the lock is taken and released, then signals are emitted and
their handlers run (qgrpccallreply.cpp:34-37, qgrpcstream.h:74-80). -/
def exec (decodes : Bytes → Bool) : List Nat → World → Prog → Option World
  | _, w, .done => some w
  | held, w, .act (.read i) handlers rest =>
    if i ∈ held then none
    else if decodes (w.data i) then exec decodes held { w with log := w.log ++ [(i, some (w.data i))] } rest
    else
      match exec decodes (i :: held) w handlers with
      | none => none
      | some w => exec decodes held { w with log := w.log ++ [(i, none)] } rest
  | held, w, .act (.store i d) handlers rest =>
    if i ∈ held then none
    else
      match exec decodes held (w.store i d) handlers with
      | none => none
      | some w => exec decodes held w rest

end QtPb.ReadLock
