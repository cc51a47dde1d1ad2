import Verif.ListModel
/-
What C111 says, apart from the code: views of a list, as the documentation of `QAbstractItemModel` describes them.
-/
namespace QtPb.ListModel.Spec

/-- What a view has heard the beginning of. -/
inductive Pending
  | none
  | insert (first last : Nat)
  | remove (first last : Nat)
  | reset
  deriving DecidableEq

/-- A view: the rows that it shows and the number in a label that is bound to `count`. -/
structure View where
  shown : List Shared
  label : Nat
  pending : Pending
  deriving DecidableEq

/-- A view hears a signal while the model has these rows. `none`: the view was told something that makes no sense. -/
def View.hear (v : View) (note : Note) (rows : List Shared) : Option View :=
  match note, v.pending with
  | .countChanged, _ => some { v with label := rows.length }
  | .beginInsert f l, .none => if f ≤ v.shown.length ∧ f ≤ l then some { v with pending := .insert f l } else none
  | .endInsert, .insert f l => some { v with shown := v.shown.take f ++ (rows.drop f).take (l + 1 - f) ++ v.shown.drop f, pending := .none }
  | .beginRemove f l, .none => if f ≤ l ∧ l < v.shown.length then some { v with pending := .remove f l } else none
  | .endRemove, .remove f l => some { v with shown := v.shown.take f ++ v.shown.drop (l + 1), pending := .none }
  | .beginReset, .none => some { v with pending := .reset }
  | .endReset, .reset => some { v with shown := rows, pending := .none }
  | _, _ => none

/-- A view hears a list of signals. -/
def View.hears (v : View) : List (Note × List Shared) → Option View
  | [] => some v
  | (n, rows) :: l => (v.hear n rows).bind (·.hears l)

/-- A view of the rows of a model. -/
def viewOf (rows : List Shared) : View := ⟨rows, rows.length, .none⟩

/-- Operations that the model announces: not `remove` of a pointer, and no row that does not exist. -/
def Announced (s : State) : Op → Prop
  | .removePtr v => ∀ r ∈ s.rows, ptr r ≠ v
  | .removeAt i => i < s.rows.length
  | _ => True

/-- The shared pointers that exist. -/
def refs (s : State) : List Ref := s.rows.filterMap id ++ s.held

/-- Operations of an application that keeps the rules of shared pointers: a plain pointer that is handed over belongs to an object that exists and that no shared pointer owns; the shared pointers in a list are
ones that exist. -/
def Careful (s : State) : Op → Prop
  | .append (some o) | .prepend (some o) => (∃ r ∈ s.rows, ptr r = some o) ∨ (o ∉ s.deleted ∧ ∀ r ∈ refs s, r.obj ≠ o)
  | .make o => o ∉ s.deleted ∧ ∀ r ∈ refs s, r.obj ≠ o
  | .reset container => ∀ r ∈ container, ∀ x, r = some x → x ∈ refs s
  | _ => True

/-- Every operation of a history is allowed by `P` in the state in which it happens. -/
def All (P : State → Op → Prop) (s : State) : List Op → Prop
  | [] => True
  | o :: os => P s o ∧ ∀ s', step s o = .ok s' → All P s' os

/-- A sound beginning: shared pointers with the same block are those with the same object, blocks are known, no object is deleted that a shared pointer owns, none was deleted twice. -/
structure Sound (s : State) : Prop where
  same : ∀ a ∈ refs s, ∀ b ∈ refs s, a.block = b.block ↔ a.obj = b.obj
  known : ∀ a ∈ refs s, a.block < s.next
  alive : ∀ a ∈ refs s, a.obj ∉ s.deleted
  once : s.deleted.Nodup

/-- The objects that the operations hand over. -/
def handedOver : List Op → List Nat
  | [] => []
  | .append (some o) :: os | .prepend (some o) :: os | .make o :: os => o :: handedOver os
  | _ :: os => handedOver os

end QtPb.ListModel.Spec
