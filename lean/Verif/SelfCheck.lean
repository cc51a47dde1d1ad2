import Verif.Wire
/-
Model of src/protobuf/qprotobufselfcheckiterator.h with its three members, and its operations on a store
of iterator variables.
-/
namespace QtPb.SelfCheck

/-- Containers in memory: the length of the byte array with a given identity. -/
abbrev Heap := Nat → Nat

/-- `QProtobufSelfcheckIterator` (qprotobufselfcheckiterator.h:132-135): `m_sizeLeft`,
`m_containerSize`, and `m_it` as the array it points into and the offset. -/
structure SIt where
  left : Int
  size : Int
  cont : Nat
  off : Int
  deriving DecidableEq, Repr

/-- What an operation does: complete, throw `std::out_of_range` leaving the members as they are then, or
perform an undefined operation. -/
inductive Eff
  | done (it : SIt)
  | thrown (it : SIt)
  | ub
  deriving DecidableEq, Repr

/-- Does the value fit an `int`? -/
def fits (n : Int) : Bool := -2147483648 ≤ n && n ≤ 2147483647

/-- Pointer arithmetic `m_it + d`: undefined outside of the array (one past the end is allowed). -/
def move (h : Heap) (it : SIt) (d : Int) : Eff :=
  if 0 ≤ it.off + d ∧ it.off + d ≤ h it.cont then .done { it with off := it.off + d } else .ub

/-- Constructor from a container (qprotobufselfcheckiterator.h:42-44). -/
def make (h : Heap) (c : Nat) : SIt := ⟨h c, h c, c, 0⟩

/-- `operator ++` (qprotobufselfcheckiterator.h:59-66). -/
def inc (h : Heap) (it : SIt) : Eff :=
  if !fits (it.left - 1) then .ub
  else
    let it := { it with left := it.left - 1 }
    if it.left < 0 then .thrown it else move h it 1

/-- `operator --` (qprotobufselfcheckiterator.h:68-75). -/
def dec (h : Heap) (it : SIt) : Eff :=
  if !fits (it.left + 1) then .ub
  else
    let it := { it with left := it.left + 1 }
    if it.left > it.size then .thrown it else move h it (-1)

/-- `operator +=` (qprotobufselfcheckiterator.h:77-84). -/
def plusAssign (h : Heap) (it : SIt) (count : Int) : Eff :=
  if !fits (it.left - count) then .ub
  else
    let it := { it with left := it.left - count }
    if it.left < 0 then .thrown it else move h it count

/-- `operator -=` (qprotobufselfcheckiterator.h:86-93). -/
def minusAssign (h : Heap) (it : SIt) (count : Int) : Eff :=
  if !fits (it.left + count) then .ub
  else
    let it := { it with left := it.left + count }
    if it.left > it.size then .thrown it else move h it (-count)

/-- The check of the copy constructor and of the assignment
(qprotobufselfcheckiterator.h:49-51, 102-104). -/
def bad (it : SIt) : Bool := it.left > it.size || it.left < 0

/-- Copy constructor (qprotobufselfcheckiterator.h:46-52). When it throws there is no new object. -/
def copyOf (other : SIt) : Option SIt := if bad other then none else some other

/-- `operator =` to another object (qprotobufselfcheckiterator.h:95-107): when the check throws, the
sizes are already assigned, the position is not. -/
def assign (it other : SIt) : Eff :=
  if bad other then .thrown { it with left := other.left, size := other.size } else .done other

/-- Operations of a program with iterator variables. -/
inductive Op
  /-- `QProtobufSelfcheckIterator it(container)` into a new variable -/
  | make (c : Nat)
  /-- copy construction of a new variable -/
  | copy (src : Nat)
  | inc (i : Nat)
  | dec (i : Nat)
  | plus (i : Nat) (count : Nat)
  | minus (i : Nat) (count : Nat)
  | assign (i src : Nat)
  /-- `it + count` into a new variable (qprotobufselfcheckiterator.h:138-141): copy, advance, copy. -/
  | add (src : Nat) (count : Nat)
  deriving Repr

/-- Result of a step on the list of variables. -/
inductive Step
  | next (vs : List SIt)
  | throws (vs : List SIt)
  | ub
  deriving DecidableEq, Repr

/-- Store the outcome of an operation on variable `i`. -/
def put (vs : List SIt) (i : Nat) : Eff → Step
  | .done it => .next (vs.set i it)
  | .thrown it => .throws (vs.set i it)
  | .ub => .ub

/-- One operation. Operations on variables that do not exist do not compile; here they do nothing. -/
def step (h : Heap) (vs : List SIt) : Op → Step
  | .make c => .next (vs ++ [make h c])
  | .copy s =>
    match vs[s]? with
    | some it => match copyOf it with
      | some it => .next (vs ++ [it])
      | none => .throws vs
    | none => .next vs
  | .inc i => match vs[i]? with | some it => put vs i (inc h it) | none => .next vs
  | .dec i => match vs[i]? with | some it => put vs i (dec h it) | none => .next vs
  | .plus i n => match vs[i]? with | some it => put vs i (plusAssign h it n) | none => .next vs
  | .minus i n => match vs[i]? with | some it => put vs i (minusAssign h it n) | none => .next vs
  | .assign i s =>
    match vs[i]?, vs[s]? with
    | some it, some other => if i = s then .next vs else put vs i (assign it other)
    | _, _ => .next vs
  | .add s n =>
    match vs[s]? with
    | some it => match copyOf it with
      | none => .throws vs
      | some it => match plusAssign h it n with
        | .done it => match copyOf it with
          | some it => .next (vs ++ [it])
          | none => .throws vs
        | .thrown _ => .throws vs
        | .ub => .ub
    | none => .next vs

/-- A sequence of operations; an exception ends it. -/
def run (h : Heap) : List SIt → List Op → Step
  | vs, [] => .next vs
  | vs, op :: ops =>
    match step h vs op with
    | .next vs => run h vs ops
    | r => r

/-- A sequence of operations where every exception is caught and the program goes on. -/
def runCaught (h : Heap) : List SIt → List Op → Step
  | vs, [] => .next vs
  | vs, op :: ops =>
    match step h vs op with
    | .next vs => runCaught h vs ops
    | .throws vs => runCaught h vs ops
    | .ub => .ub

end QtPb.SelfCheck
