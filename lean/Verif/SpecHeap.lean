import Verif.Heap
/-
What a program sees of a message object (specification for C102): the values of its members, and of the messages in it, however deep. A message that was
never created is seen as an empty one. Lists of messages are seen as the pointers that they hold.
-/
namespace QtPb.Heap

/-- What a getter returns: a value, or the pointers of a list. -/
inductive Sight
  | value (v : Nat)
  | many (l : List (Option Nat))
deriving DecidableEq, Repr

/-- What can be seen of a list without following its pointers: its size. -/
inductive Look
  | value (v : Nat)
  | size (n : Nat)
deriving DecidableEq, Repr

def Sight.look : Sight → Look
  | .value v => .value v
  | .many l => .size l.length

def Slot.sight : Slot → Option Sight
  | .value v => some (.value v)
  | .many l => some (.many l)
  | .sub _ => none

/-- `m.x().y().z()`: follow sub-messages along the numbers of their members, then read one member. -/
def seen (sch : Schema) (h : Store) : View → List Nat → Nat → Option Sight
  | v, [], i =>
    match nodeOf sch h v with
    | some n => n.slots[i]?.bind Slot.sight
    | none => none
  | v, j :: path, i =>
    match nodeOf sch h v with
    | some n =>
      match n.slots[j]?, (sch n.cls)[j]? with
      | some (.sub p), some (.sub c) => seen sch h (viewOf c p) path i
      | _, _ => none
    | none => none

/-- Only sub-messages are followed. -/
def Ref.direct (r : Ref) : Bool := r.path.all fun s => match s with | .sub _ => true | .elem _ _ => false

/-- The members that a path of `Ref.direct` follows. -/
def Ref.fields (r : Ref) : List Nat := r.path.filterMap fun s => match s with | .sub i => some i | .elem _ _ => none

/-- `m.x()[k]->y()` -/
def throughElem (sch : Schema) (h : Store) (x i k j : Nat) : Option Sight :=
  match seen sch h (.obj x) [] i with
  | some (.many l) => match l[k]? with
    | some (some e) => seen sch h (.obj e) [] j
    | _ => none
  | _ => none

/-- `m.x().y()[k]->z()`: follow sub-messages and elements of lists in any order, then read one member. -/
def through (sch : Schema) (h : Store) : View → List Step → Nat → Option Sight
  | v, [], i => seen sch h v [] i
  | v, .sub j :: steps, i =>
    match nodeOf sch h v with
    | some n =>
      match n.slots[j]?, (sch n.cls)[j]? with
      | some (.sub p), some (.sub c) => through sch h (viewOf c p) steps i
      | _, _ => none
    | none => none
  | v, .elem j k :: steps, i =>
    match seen sch h v [] j with
    | some (.many l) => match l[k]? with
      | some (some e) => through sch h (.obj e) steps i
      | _ => none
    | _ => none

/-- States that programs reach from nothing. -/
def Reached (sch : Schema) (h : Store) : Prop := ∃ n ops, run sch n empty ops = .ok h

/-- A message that is a variable of the program. -/
def IsVar (h : Store) (x : Nat) : Prop := h.kind x = .root ∧ (h.node x).isSome = true

/-- The class of the message at the end of a path. -/
def classAt (sch : Schema) : Nat → List Nat → Option Nat
  | c, [] => some c
  | c, i :: path => match (sch c)[i]? with
    | some (.sub d) => classAt sch d path
    | _ => none

end QtPb.Heap
