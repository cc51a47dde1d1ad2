import Verif.Basic
/-
Model of `UniversalListModel<T>` (examples/examples_common/universallistmodel.h), the list model with which the examples show messages
of lists and streams in QML.

Objects and properties are numbered and named. A `QSharedPointer` that is not null is an object and the block that counts its references.
Simplifications: assertions are off (release builds); the order in which a list destroys its elements is from first to last; Qt 5's `QList::removeAt` with
an index that is out of range does nothing.
-/
namespace QtPb.ListModel

/-- A `QSharedPointer<T>` that is not null: two of them share the object if they have the same block. -/
structure Ref where
  obj : Nat
  block : Nat
  deriving DecidableEq

/-- A `QSharedPointer<T>`. -/
abbrev Shared := Option Ref

/-- `QSharedPointer::data`. -/
def ptr (r : Shared) : Option Nat := r.map Ref.obj

/-- What a model tells the views. -/
inductive Note
  | beginInsert (first last : Nat)
  | endInsert
  | beginRemove (first last : Nat)
  | endRemove
  | beginReset
  | endReset
  | countChanged
  deriving DecidableEq

/-- The model, the shared pointers that the application holds itself, the next block, the objects that were deleted, and what was emitted, each with the container at that
moment, which is what `data` and `count` show to those who hear it. -/
structure State where
  rows : List Shared
  held : List Ref
  next : Nat
  deleted : List Nat
  log : List (Note × List Shared)

/-- Emission of a signal. -/
def emit (n : Note) (s : State) : State := { s with log := s.log ++ [(n, s.rows)] }

/-- Destruction of shared pointers: when the last one with its block is gone, the object is deleted; deleting it twice is undefined. -/
def release : List Shared → State → Res State
  | [], s => .ok s
  | none :: rs, s => release rs s
  | some r :: rs, s =>
    if (rs.filterMap id ++ s.rows.filterMap id ++ s.held).any (·.block == r.block) then release rs s
    else if s.deleted.contains r.obj then .ub
    else release rs { s with deleted := s.deleted ++ [r.obj] }

/-- `QSharedPointer<T>(value)` of a plain pointer: a new block. -/
def wrap (v : Option Nat) (block : Nat) : Shared := v.map fun o => ⟨o, block⟩

/-- `append` (universallistmodel.h:71-87). -/
def append (v : Option Nat) (s : State) : State × Int :=
  if s.rows.any (ptr · == v) then (s, -1)
  else
    let s := emit (.beginInsert s.rows.length s.rows.length) s
    let s := { s with rows := s.rows ++ [wrap v s.next], next := s.next + 1 }
    let s := emit .endInsert (emit .countChanged s)
    (s, s.rows.length - 1)

/-- `prepend` (universallistmodel.h:94-110). -/
def prepend (v : Option Nat) (s : State) : State × Int :=
  if s.rows.any (ptr · == v) then (s, -1)
  else
    let s := emit (.beginInsert 0 0) s
    let s := { s with rows := wrap v s.next :: s.rows, next := s.next + 1 }
    let s := emit .endInsert (emit .countChanged s)
    (s, 0)

/-- `remove(T*)` (universallistmodel.h:116-126). -/
def removePtr (v : Option Nat) (s : State) : Res State :=
  match s.rows.findIdx? (ptr · == v) with
  | some i => release (s.rows[i]?.toList) { s with rows := s.rows.eraseIdx i }
  | none => .ok s

/-- `remove(int)` (universallistmodel.h:128-135). -/
def removeAt (i : Int) (s : State) : Res State :=
  if 0 ≤ i then do
    let s := emit (.beginRemove i.toNat i.toNat) s
    let s ← release (s.rows[i.toNat]?.toList) { s with rows := s.rows.eraseIdx i.toNat }
    .ok (emit .endRemove (emit .countChanged s))
  else .ok s

/-- `clear` (universallistmodel.h:195-198). -/
def clear (s : State) : Res State := do
  let s ← release s.rows { s with rows := [] }
  .ok (emit .countChanged s)

/-- `reset` (universallistmodel.h:142-148). The shared pointers of the argument are alive during the call, they count as held. -/
def reset (container : List Shared) (s : State) : Res State := do
  let held := s.held
  let s := emit .beginReset { s with held := held ++ container.filterMap id }
  let s ← clear s
  let s := emit .endReset (emit .countChanged { s with rows := container })
  .ok { s with held := held }

/-- The constructor (universallistmodel.h:23-25) in a program that holds some shared pointers. -/
def construct (container : List Shared) (held : List Ref) (next : Nat) (deleted : List Nat) : Res State := reset container ⟨[], held, next, deleted, []⟩

/-- What an application does with the model. `hold` copies a shared pointer out of `container()` (universallistmodel.h:190-192), `drop` destroys one that the application holds,
`make` makes one of a plain pointer. -/
inductive Op
  | append (v : Option Nat)
  | prepend (v : Option Nat)
  | removePtr (v : Option Nat)
  | removeAt (i : Int)
  | reset (container : List Shared)
  | hold (row : Nat)
  | drop (i : Nat)
  | make (obj : Nat)

/-- One operation. -/
def step (s : State) : Op → Res State
  | .append v => .ok (append v s).1
  | .prepend v => .ok (prepend v s).1
  | .removePtr v => removePtr v s
  | .removeAt i => removeAt i s
  | .reset container => reset container s
  | .hold row => .ok { s with held := s.held ++ (s.rows[row]?.join).toList }
  | .drop i => release ((s.held[i]?).toList.map some) { s with held := s.held.eraseIdx i }
  | .make obj => .ok { s with held := s.held ++ [⟨obj, s.next⟩], next := s.next + 1 }

/-- A history. -/
def run (s : State) : List Op → Res State
  | [] => .ok s
  | o :: os => do
    let s ← step s o
    run s os

/-! ### Roles -/

/-- `roleNames` when nobody has called it before (universallistmodel.h:39-48): `properties` are the names of all properties of `T` with those of its bases, `objectName` first; later insertions into the
hash replace earlier ones. -/
def roleNames (properties : List String) : List (Nat × String) :=
  (List.range properties.length).filterMap (fun i => if i = 0 then none else properties[i]?.map fun n => (256 + i, n)) ++ [(properties.length, "modelData")]

/-- `QHash::value` of a hash into which these pairs were inserted: an empty name for a key that is missing. -/
def value (names : List (Nat × String)) (role : Nat) : String := ((names.reverse.find? (·.1 == role)).map (·.2)).getD ""

/-- What `data` returns. -/
inductive Datum (V : Type) where
  | invalid
  | object (obj : Nat)
  | property (v : V)
  deriving DecidableEq

/-- `data` (universallistmodel.h:50-64): `property` is what `QObject::property` gives, `none` is an invalid variant. -/
def data {V : Type} (property : Nat → String → Option V) (names : List (Nat × String)) (rows : List Shared) (row : Int) (role : Nat) : Datum V :=
  if row < 0 ∨ (rows.length : Int) ≤ row then .invalid
  else match (rows[row.toNat]?).join with
    | none => .invalid
    | some r =>
      if value names role = "modelData" then .object r.obj
      else match property r.obj (value names role) with
        | some v => .property v
        | none => .invalid

/-- `findByProperty` (universallistmodel.h:175-184): `item->property` of a null pointer is undefined. -/
def findByProperty {V : Type} [DecidableEq V] (property : Nat → String → Option V) (name : String) (v : Option V) : List Shared → Res Shared
  | [] => .ok none
  | none :: _ => .ub
  | some r :: rs => if property r.obj name = v then .ok (some r) else findByProperty property name v rs

end QtPb.ListModel
