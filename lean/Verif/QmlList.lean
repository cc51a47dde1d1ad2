import Verif.Basic
/-
Model of the QML list view of a repeated message field (src/protobuf/qqmllistpropertyconstructor.h) on a list of
shared pointers.

Objects are numbered. A `QSharedPointer` made from a raw pointer has a control block of its own: when the last
pointer of that block goes, the object is deleted. Simplification: nobody else holds shared pointers of these
blocks, so every element of the list is the only pointer of its block.
-/
namespace QtPb.QmlList

/-- The field (`QList<QSharedPointer<T>>`), elements by object number, and the objects that have been deleted. -/
structure State where
  elements : List Nat
  dead : List Nat
deriving DecidableEq, Repr

/-- Operations that QML performs on the list. -/
inductive Op
  | append (v : Nat)
  | count
  | at (index : Int)
  | reset
deriving DecidableEq, Repr

/-- Results of the operations. -/
inductive Answer
  | nothing
  | number (n : Nat)
  | object (v : Nat)
deriving DecidableEq, Repr

/-- Destroy shared pointers: delete their objects; deleting an object twice is undefined. -/
def destroy : List Nat → List Nat → Res (List Nat)
  | [], dead => .ok dead
  | v :: vs, dead => if v ∈ dead then .ub else destroy vs (v :: dead)

/-- The four functions (qqmllistpropertyconstructor.h:33-54). `append` stores a new shared pointer made from the
raw pointer, an object that was deleted before cannot be passed; `at` with an index outside of the list is
undefined (`QList::at` only has an assertion). -/
def step (s : State) : Op → Res (State × Answer)
  | .append v => if v ∈ s.dead then .ub else .ok ({ s with elements := s.elements ++ [v] }, .nothing)
  | .count => .ok (s, .number s.elements.length)
  | .at index =>
    if index < 0 then .ub
    else match s.elements[index.toNat]? with
      | some v => .ok (s, .object v)
      | none => .ub
  | .reset => (destroy s.elements s.dead).bind fun dead => .ok (⟨[], dead⟩, .nothing)

/-- A history of operations: final state and answers. -/
def run : State → List Op → Res (State × List Answer)
  | s, [] => .ok (s, [])
  | s, op :: ops =>
    (step s op).bind fun r => (run r.1 ops).bind fun q => .ok (q.1, r.2 :: q.2)

end QtPb.QmlList
