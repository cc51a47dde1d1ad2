import Verif.Basic
/-
Model of message objects in memory: which objects there are, who holds them, and what copying, assigning and writing do to them. The other models of
messages (`Objects`, `Setters`, `Move`) give a message its contents; here a message that is assigned from may be a part of the one that is assigned to.

Simplifications: members that are values (numbers, strings, containers of them) are numbers, and their setters store what they are given (C26 is about
comparing); maps of messages are left out (they hold shared pointers as lists do); comparing creates no objects (where it does, they are empty, and
nothing that can be seen changes); variables of the program hold messages but no shared pointers; pointers are not set (`setX_p`, C57); destructors
and slots do nothing else.
-/
namespace QtPb.Heap

/-- The members of a generated class (templates.cpp:102-104): `MemberTemplate`, `ListMemberTemplate` of scalars; `ComplexMemberTemplate`;
`ListMemberTemplate` of messages. -/
inductive Member
  | value
  | sub (c : Nat)
  | many (c : Nat)
deriving DecidableEq, Repr

/-- The members of the classes, in the order of the fields. -/
abbrev Schema := Nat → List Member

/-- What a member holds: a value, a `QProtobufLazyMessagePointer` (null or an object), a `QList<QSharedPointer<T>>`. -/
inductive Slot
  | value (v : Nat)
  | sub (p : Option Nat)
  | many (l : List (Option Nat))
deriving DecidableEq, Repr

/-- A message object. -/
structure Node where
  cls : Nat
  slots : List Slot
deriving DecidableEq, Repr

/-- What an object was made for: a variable, a lazy pointer (of which member of which object), a shared pointer. -/
inductive Kind
  | root
  | owned (parent field : Nat)
  | elem
deriving DecidableEq, Repr

/-- Objects are numbered as they are made; `none`: not made yet, or destroyed. -/
structure Store where
  next : Nat
  node : Nat → Option Node
  kind : Nat → Kind

def empty : Store := ⟨0, fun _ => none, fun _ => .root⟩

/-- A new member (templates.cpp:257-266): a null pointer, an empty list. -/
def Member.default : Member → Slot
  | .value => .value 0
  | .sub _ => .sub none
  | .many _ => .many []

section
variable (sch : Schema)

/-- A default constructed message. -/
def fresh (c : Nat) : Node := ⟨c, (sch c).map Member.default⟩

/-- A new object. -/
def Store.add (h : Store) (k : Kind) (n : Node) : Store :=
  { next := h.next + 1, node := fun x => if x = h.next then some n else h.node x, kind := fun x => if x = h.next then k else h.kind x }

/-- A member of an object gets another value. -/
def Store.put (h : Store) (p i : Nat) (s : Slot) : Store :=
  { h with node := fun x => if x = p then (h.node p).map fun n => { n with slots := n.slots.set i s } else h.node x }

/-! ### Destruction -/

/-- Some list holds a shared pointer to the object. -/
def Store.refers (h : Store) (e : Nat) : Bool :=
  (List.range h.next).any fun p =>
    match h.node p with
    | some n => n.slots.any fun s => match s with | .many l => l.contains (some e) | _ => false
    | none => false

/-- An object that is destroyed with what held it: the object whose lazy pointer it is in (qprotobuflazymessagepointer.h:44-47), or the last shared
pointer (`QSharedPointer`). -/
def Store.gone (h : Store) (x : Nat) : Bool :=
  match h.kind x with
  | .root => false
  | .owned p _ => (h.node p).isNone
  | .elem => !h.refers x

def sweepStep (h : Store) : Store := { h with node := fun x => if h.gone x then none else h.node x }

def sweepN : Nat → Store → Store
  | 0, h => h
  | k + 1, h => sweepN k (sweepStep h)

/-- What is not held any more is destroyed, and what it held (no chain is longer than the number of objects). -/
def sweep (h : Store) : Store := sweepN h.next h

/-! ### Comparing -/

/-- An object, or the empty message that a null pointer is compared as (`T{}`, qprotobuflazymessagepointer.h:70-71). -/
inductive View
  | obj (p : Nat)
  | dflt (c : Nat)

def nodeOf (h : Store) : View → Option Node
  | .obj p => h.node p
  | .dflt c => some (fresh sch c)

def viewOf (c : Nat) : Option Nat → View
  | some p => .obj p
  | none => .dflt c

/-- `QProtobufLazyMessagePointer::operator==` (qprotobuflazymessagepointer.h:68-73); `rec` is `==` of messages. -/
def lazySame (rec : View → View → Res Bool) (c : Nat) (p q : Option Nat) : Res Bool :=
  match p, q with
  | none, none => .ok true
  | p, q => rec (viewOf c p) (viewOf c q)

/-- The loop of `repeatedValueCompare` (qtprotobuftypes.h:278-294): a null pointer that is compared with another one is dereferenced. -/
def sameElems (rec : View → View → Res Bool) : List (Option Nat) → List (Option Nat) → Res Bool
  | p :: as, q :: bs =>
    if p = q then sameElems rec as bs
    else match p, q with
      | some x, some y => (rec (.obj x) (.obj y)).bind fun r => if r then sameElems rec as bs else .ok false
      | _, _ => .ub
  | _, _ => .ok true

/-- `==` of messages, member by member (messagedefinitionprinter.cpp:314-353). -/
def sameSlots (rec : View → View → Res Bool) : List Member → List Slot → List Slot → Res Bool
  | .value :: ms, .value a :: as, .value b :: bs => if a = b then sameSlots rec ms as bs else .ok false
  | .sub c :: ms, .sub p :: as, .sub q :: bs => (lazySame rec c p q).bind fun r => if r then sameSlots rec ms as bs else .ok false
  | .many _ :: ms, .many l :: as, .many l' :: bs =>
    if l.length ≠ l'.length then .ok false
    else (sameElems rec l l').bind fun r => if r then sameSlots rec ms as bs else .ok false
  | [], [], [] => .ok true
  | _, _, _ => .ub

/-- `==` of messages. Using an object that is destroyed is undefined. The number bounds the nesting of calls. -/
def same (h : Store) : Nat → View → View → Res Bool
  | 0, _, _ => .fuel
  | n + 1, a, b =>
    match nodeOf sch h a, nodeOf sch h b with
    | some x, some y => sameSlots (same h n) (sch x.cls) x.slots y.slots
    | _, _ => .ub

/-! ### Reading, assigning, copying -/

/-- `operator*` and `get` of lazy pointers (qprotobuflazymessagepointer.h:47-52, 61-66): a null pointer is replaced by a new object. -/
def get (h : Store) (p i : Nat) : Res (Store × Nat) :=
  match h.node p with
  | none => .ub
  | some n =>
    match n.slots[i]?, (sch n.cls)[i]? with
    | some (.sub (some q)), _ => .ok (h, q)
    | some (.sub none), some (.sub c) => .ok ((h.add (.owned p i) (fresh sch c)).put p i (.sub (some h.next)), h.next)
    | _, _ => .ub

/-- One member in the generated `operator =`: `CopyFieldTemplate` with the setter (templates.cpp:125, 223-235; lists of messages are compared by their
pointers), `AssignComplexFieldTemplate` (templates.cpp:129-132). `eq` is `==` of messages, `rec` their `operator =`. -/
def assignField (eq : Store → View → View → Res Bool) (rec : Store → Nat → Nat → Res Store) (h : Store) (dst src i : Nat) : Res Store :=
  match h.node dst, h.node src with
  | some d, some s =>
    match (sch d.cls)[i]?, d.slots[i]?, s.slots[i]? with
    | some .value, some (.value _), some (.value v) => .ok (h.put dst i (.value v))
    | some (.many _), some (.many l), some (.many l') => if l = l' then .ok h else .ok (sweep (h.put dst i (.many l')))
    | some (.sub c), some (.sub p), some (.sub q) =>
      (lazySame (eq h) c p q).bind fun r =>
        if r then .ok h
        else (get sch h dst i).bind fun a => (get sch a.1 src i).bind fun b => rec b.1 a.2 b.2
    | _, _, _ => .ub
  | _, _ => .ub

def assignFields (eq : Store → View → View → Res Bool) (rec : Store → Nat → Nat → Res Store) (dst src : Nat) : List Nat → Store → Res Store
  | [], h => .ok h
  | i :: is, h => (assignField sch eq rec h dst src i).bind fun h => assignFields eq rec dst src is h

/-- The generated `operator =` (messagedefinitionprinter.cpp:231-242): all members in the order of the fields, from an object that may be part of the one
that is assigned to, or the other way round. The number bounds the nesting of calls. -/
def assign : Nat → Store → Nat → Nat → Res Store
  | 0, _, _, _ => .fuel
  | n + 1, h, dst, src =>
    match h.node dst with
    | none => .ub
    | some d => assignFields sch (fun h => same sch h n) (assign n) dst src (List.range (sch d.cls).length) h

/-- The generated copy constructor (messagedefinitionprinter.cpp:204-229): a new object whose members are given values as in an assignment. The number of
the copy is that of the next object. -/
def copy (n : Nat) (h : Store) (src : Nat) : Res Store :=
  match h.node src with
  | none => .ub
  | some s => assign sch n (h.add .root (fresh sch s.cls)) h.next src

/-! ### Programs -/

/-- From a message to one that is part of it: `x()`, `*x()[k]`. -/
inductive Step
  | sub (i : Nat)
  | elem (i k : Nat)
deriving DecidableEq, Repr

/-- A message that the program names: a variable and what follows it. -/
structure Ref where
  root : Nat
  path : List Step

/-- The object that is meant. A null pointer, or an element that is not there, is undefined. -/
def resolve : Store → Nat → List Step → Res (Store × Nat)
  | h, p, [] => if (h.node p).isSome then .ok (h, p) else .ub
  | h, p, .sub i :: path => (get sch h p i).bind fun a => resolve a.1 a.2 path
  | h, p, .elem i k :: path =>
    match h.node p with
    | some n => match n.slots[i]? with
      | some (.many l) => match l[k]? with
        | some (some e) => resolve h e path
        | _ => .ub
      | _ => .ub
    | none => .ub

/-- The variable must be one. -/
def find (h : Store) (r : Ref) : Res (Store × Nat) := if h.kind r.root = .root then resolve sch h r.root r.path else .ub

inductive Op
  /-- `T a;` -/
  | new (c : Nat)
  /-- `T a(b);` -/
  | copy (src : Ref)
  /-- `a = b;`, also `a.setX(b)` for messages (`SetterTemplateDefinitionMessageType`, templates.cpp:215-220), where `a.x()` stands for `a` -/
  | assign (dst src : Ref)
  /-- `a.setX(v);` -/
  | setValue (dst : Ref) (i v : Nat)
  /-- `a.x().append(QSharedPointer<T>(new T));` -/
  | append (dst : Ref) (i : Nat)
  /-- `a.x().append(b.y()[k]);` -/
  | share (dst : Ref) (i : Nat) (src : Ref) (j k : Nat)
  /-- `a.x().clear();` -/
  | clear (dst : Ref) (i : Nat)
  /-- `a` goes out of scope. -/
  | destroy (r : Nat)

/-- The variable that is written to. -/
def Op.writes : Op → Option Ref
  | .new _ => none
  | .copy _ => none
  | .assign dst _ => some dst
  | .setValue dst _ _ => some dst
  | .append dst _ => some dst
  | .share dst _ _ _ _ => some dst
  | .clear dst _ => some dst
  | .destroy r => some ⟨r, []⟩

/-- The class of an object. -/
def Store.cls (h : Store) (p : Nat) : Option Nat := (h.node p).map Node.cls

/-- One statement. Arguments are found before anything is done. What does not compile (another class, no such member) has no outcome but `ub`. -/
def exec (n : Nat) (h : Store) : Op → Res Store
  | .new c => .ok (h.add .root (fresh sch c))
  | .copy src => (find sch h src).bind fun a => copy sch n a.1 a.2
  | .assign dst src => (find sch h dst).bind fun a => (find sch a.1 src).bind fun b =>
    if b.1.cls a.2 = b.1.cls b.2 then assign sch n b.1 a.2 b.2 else .ub
  | .setValue dst i v => (find sch h dst).bind fun a =>
    match (a.1.node a.2).bind fun m => m.slots[i]? with
    | some (.value _) => .ok (a.1.put a.2 i (.value v))
    | _ => .ub
  | .append dst i => (find sch h dst).bind fun a =>
    match a.1.node a.2 with
    | some m => match m.slots[i]?, (sch m.cls)[i]? with
      | some (.many l), some (.many c) => .ok ((a.1.add .elem (fresh sch c)).put a.2 i (.many (l ++ [some a.1.next])))
      | _, _ => .ub
    | none => .ub
  | .share dst i src j k => (find sch h dst).bind fun a => (find sch a.1 src).bind fun b =>
    match b.1.node a.2, b.1.node b.2 with
    | some m, some m' => match m.slots[i]?, m'.slots[j]? with
      | some (.many l), some (.many l') => match l'[k]? with
        | some (some e) => if (sch m.cls)[i]? = (sch m'.cls)[j]? then .ok (b.1.put a.2 i (.many (l ++ [some e]))) else .ub
        | _ => .ub
      | _, _ => .ub
    | _, _ => .ub
  | .clear dst i => (find sch h dst).bind fun a =>
    match (a.1.node a.2).bind fun m => m.slots[i]? with
    | some (.many _) => .ok (sweep (a.1.put a.2 i (.many [])))
    | _ => .ub
  | .destroy r => if (h.node r).isSome ∧ h.kind r = .root then .ok (sweep { h with node := fun x => if x = r then none else h.node x }) else .ub

def run (n : Nat) : Store → List Op → Res Store
  | h, [] => .ok h
  | h, op :: ops => (exec sch n h op).bind fun h => run n h ops

end

end QtPb.Heap
