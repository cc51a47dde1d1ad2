import Verif.Basic
/-
`QGrpcStatus` (src/grpc/qgrpcstatus.h, qgrpcstatus.cpp): an object that owns a `QGrpcStatusPrivate` through a `std::unique_ptr`.
The model has a heap of private objects and the pointers of the status objects, so that sharing, leaks, double deletion and
null pointers can be told apart.
-/
namespace QtPb.StatusValue

/-- `QGrpcStatusPrivate` (qgrpcstatus.cpp 29-40): `m_code`, `m_message` (a `QString`, as its UTF-16 units). -/
structure Private where
  code : Int
  message : List Nat
  deriving DecidableEq, Repr

/-- The status objects of the program, numbered, with their `dPtr` (`none`: no such object; `some none`: `dPtr` is null), and the
heap. -/
structure State where
  dPtr : Nat → Option (Option Nat)
  heap : Nat → Option Private
  next : Nat

/-- Before the first status is made. -/
def State.init : State := ⟨fun _ => none, fun _ => none, 0⟩

/-- What a program can do with status objects: the public members of `QGrpcStatus` (qgrpcstatus.h 91-112). -/
inductive Op
  | create (v : Nat) (code : Int) (message : List Nat)
  | copyCreate (v w : Nat)
  | moveCreate (v w : Nat)
  | copyAssign (v w : Nat)
  | moveAssign (v w : Nat)
  | destroy (v : Nat)
  | code (v : Nat)
  | message (v : Nat)
  | isCode (v : Nat) (code : Int)
  | isNotCode (v : Nat) (code : Int)
  | equal (v w : Nat)
  deriving DecidableEq, Repr

/-- What the getters and comparisons return. -/
inductive Answer
  | code (c : Int)
  | message (m : List Nat)
  | bool (b : Bool)
  deriving DecidableEq, Repr

/-- Function update. -/
def set {α : Type} (f : Nat → α) (i : Nat) (x : α) : Nat → α := fun j => if j = i then x else f j

/-- `operator*`, `operator->` of `std::unique_ptr`: undefined for null, and for a pointer whose object is gone. -/
def deref (s : State) (v : Nat) : Res (Nat × Private) :=
  match s.dPtr v with
  | some (some p) =>
    match s.heap p with
    | some x => .ok (p, x)
    | none => .ub
  | _ => .ub

/-- `std::make_unique<QGrpcStatusPrivate>(code, message)` as the initial value of `dPtr` (qgrpcstatus.cpp 42-47). -/
def make (s : State) (v : Nat) (x : Private) : State :=
  { dPtr := set s.dPtr v (some (some s.next)), heap := set s.heap s.next (some x), next := s.next + 1 }

/-- `std::default_delete` applied to the pointer a `std::unique_ptr` gives up: nothing for null. Deleting twice is undefined. -/
def delete (s : State) : Option Nat → Res State
  | none => .ok s
  | some p =>
    match s.heap p with
    | some _ => .ok { s with heap := set s.heap p none }
    | none => .ub

/-- `QGrpcStatus::QGrpcStatus(QGrpcStatus &&)` (qgrpcstatus.cpp 49-51): the pointer is taken over, the source's becomes null. -/
def moveCreate (s : State) (v w : Nat) : Res State :=
  match s.dPtr w with
  | none => .ub
  | some p => .ok { s with dPtr := set (set s.dPtr w (some none)) v (some p) }

/-- `QGrpcStatus::operator=(const QGrpcStatus &)` (qgrpcstatus.cpp 53-58): two assignments through the pointers. -/
def copyAssign (s : State) (v w : Nat) : Res State := do
  let (_, x) ← deref s w
  let (p, y) ← deref s v
  let s1 := { s with heap := set s.heap p (some { y with code := x.code }) }
  let (_, x) ← deref s1 w
  let (p, y) ← deref s1 v
  .ok { s1 with heap := set s1.heap p (some { y with message := x.message }) }

/-- `QGrpcStatus::operator=(QGrpcStatus &&)` (qgrpcstatus.cpp 60-64): `std::unique_ptr`'s assignment, `reset(other.release())`. -/
def moveAssign (s : State) (v w : Nat) : Res State :=
  match s.dPtr w with
  | none => .ub
  | some p =>
    let s1 := { s with dPtr := set s.dPtr w (some none) }
    match s1.dPtr v with
    | none => .ub
    | some old => delete { s1 with dPtr := set s1.dPtr v (some p) } old

/-- `QGrpcStatus::~QGrpcStatus` (qgrpcstatus.cpp 66-67): the destructor of `dPtr` deletes. -/
def destroy (s : State) (v : Nat) : Res State :=
  match s.dPtr v with
  | none => .ub
  | some p => delete { s with dPtr := set s.dPtr v none } p

/-- One operation. `code`, `message` and the comparisons: qgrpcstatus.cpp 69-92; `code == status` and `code != status`
(96-103) call `isCode` and `isNotCode`. -/
def step (s : State) : Op → Res (State × Option Answer)
  | .create v c m => .ok (make s v ⟨c, m⟩, none)
  | .copyCreate v w => do
    let (_, x) ← deref s w
    .ok (make s v ⟨x.code, x.message⟩, none)
  | .moveCreate v w => do let s ← moveCreate s v w; .ok (s, none)
  | .copyAssign v w => do let s ← copyAssign s v w; .ok (s, none)
  | .moveAssign v w => do let s ← moveAssign s v w; .ok (s, none)
  | .destroy v => do let s ← destroy s v; .ok (s, none)
  | .code v => do let (_, x) ← deref s v; .ok (s, some (.code x.code))
  | .message v => do let (_, x) ← deref s v; .ok (s, some (.message x.message))
  | .isCode v c => do let (_, x) ← deref s v; .ok (s, some (.bool (x.code == c)))
  | .isNotCode v c => do let (_, x) ← deref s v; .ok (s, some (.bool (x.code != c)))
  | .equal v w => do
    let (_, x) ← deref s v
    let (_, y) ← deref s w
    .ok (s, some (.bool (x.code == y.code)))

/-- A history: the final state and what was answered, in order. -/
def run (s : State) : List Op → Res (State × List Answer)
  | [] => .ok (s, [])
  | op :: ops => do
    let (s1, a) ← step s op
    let (s2, as) ← run s1 ops
    .ok (s2, a.toList ++ as)

end QtPb.StatusValue
