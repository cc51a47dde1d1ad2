import Verif.Call
/-
Model of what slots do with replies and streams: `read()` and `setData` hold the lock of the operation (src/grpc/qgrpcasyncoperationbase_p.h),
and `read()` emits the client's `error` while it holds it.

Simplifications: one thread; a slot is a list of the two actions that lock; operations are numbered.
-/
namespace QtPb.Handlers
open Http2

variable {R : Type}

/-- What code can do with an operation. -/
inductive Act
  | read (op : Nat)
  | abort (op : Nat)
  deriving DecidableEq, Repr

/-- A program: the serializer (none: there is none), a new message, what the slots of the client's `error` do, in order, and what the
user's slots of the `error` of an operation do. -/
structure Env (R : Type) where
  deser : Option (Call.Deserialize R)
  fresh : R
  onClientError : List Act
  onError : Nat → List Act

structure State (R : Type) where
  /-- `m_data` -/
  data : Nat → Bytes
  /-- `m_asyncLock` is held -/
  locked : Nat → Bool
  /-- the client's lambda is connected to the `error` of the reply (qabstractgrpcclient.cpp:112) -/
  connected : Nat → Bool
  /-- errors of the client, oldest first -/
  errors : List StatusCode
  /-- what `read` has returned, oldest first -/
  values : List (Nat × R)

/-- What a call does: it returns, or waits for a lock that its own thread holds, or does not end within the budget. -/
inductive Out (R : Type)
  | returned (s : State R)
  | hangs
  | fuel

def Out.bind : Out R → (State R → Out R) → Out R
  | .returned s, f => f s
  | .hangs, _ => .hangs
  | .fuel, _ => .fuel

/-- Actions one after the other. -/
def seq (f : State R → Act → Out R) (s : State R) : List Act → Out R
  | [] => .returned s
  | a :: as => (f s a).bind fun s => seq f s as

def set {α : Type} (f : Nat → α) (i : Nat) (a : α) : Nat → α := fun j => if j = i then a else f j

/-- `read<T>()` (qgrpcasyncoperationbase_p.h:54-63, for an operation whose client exists) and `QGrpcCallReply::abort()` (qgrpccallreply.cpp:32-43) with `setData`
(qgrpcasyncoperationbase_p.h:70-74) and the client's slot (qabstractgrpcclient.cpp:112-117). The slots run within the call. -/
def act (env : Env R) : Nat → State R → Act → Out R
  | 0, _, _ => .fuel
  | n + 1, s, .read i =>
    if s.locked i then .hangs
    else
      match Call.tryDeserialize env.deser env.fresh (s.data i) with
      | (value, _, []) => .returned { s with values := s.values ++ [(i, value)] }
      | (value, status, _ :: _) =>
        (seq (act env n) { s with locked := set s.locked i true, errors := s.errors ++ [status.code] } env.onClientError).bind fun s =>
          .returned { s with locked := set s.locked i false, values := s.values ++ [(i, value)] }
  | n + 1, s, .abort i =>
    if s.locked i then .hangs
    else
      let s := { s with data := set s.data i [] }
      let s :=
        if s.connected i then
          (seq (act env n) { s with errors := s.errors ++ [Status.Aborted] } env.onClientError).bind fun s =>
            .returned { s with connected := set s.connected i false }
        else .returned s
      s.bind fun s => seq (act env n) s (env.onError i)

/-- A program of the user. -/
def run (env : Env R) (n : Nat) (s : State R) (as : List Act) : Out R := seq (act env n) s as

end QtPb.Handlers
