import Verif.QtFields
import Verif.Objects
/-
Model of the generated comparison, copy assignment and copy constructor of classes that have fields of Qt's types among others, and of the target of
`deserialize` for them. Such a field is not a "pure message" for the generator (generatorcommon.cpp:268-277), so it is treated like a scalar with Qt's
operators. Simplifications as in `Verif/QtFields.lean`; the change signals are left out.
-/
namespace QtPb.Qt
open QtPb

/-- One field of the generated `operator =` (messagedefinitionprinter.cpp:231-242): `CopyFieldTemplate`, which calls the setter, for a field of a Qt type
(templates.cpp:125, 223-235). -/
def assignSlot (eq : QtVal → QtVal → Bool) (env : Env) (k : Nat) (ty : SlotTy) (cur src : Slot) : Res Slot :=
  match ty, cur, src with
  | .plain ty, .val c, .val s => do
    let v ← assignVal env (lazyNe env k) (assign env k) ty c s
    .ok (.val v)
  | .qt _, .qt c, .qt s => .ok (.qt (setQt eq c s))
  | _, _, _ => .ub

/-- Generated `operator =` (messagedefinitionprinter.cpp:231-242): all fields in declaration order. -/
def assignMembers (eq : QtVal → QtVal → Bool) (env : Env) (k : Nat) : List Member → List Slot → List Slot → Res (List Slot)
  | f :: fs, a :: as, b :: bs => do
    let s ← assignSlot eq env k f.ty a b
    let r ← assignMembers eq env k fs as bs
    .ok (s :: r)
  | _, _, _ => .ok []

/-- A member before the body of the copy constructor runs (messagedefinitionprinter.cpp:204-219, templates.cpp:102-104): one of a Qt type is default
constructed, the others are as in `copyStart`. -/
def startSlot (f : Member) (garbage : Slot) : Slot :=
  match f.ty, garbage with
  | .plain ty, .val g => .val ((copyStart [⟨f.num, ty⟩] [g]).headD (defaultVal ty))
  | .plain ty, _ => .val (defaultVal ty)
  | .qt m, _ => .qt (qtDefault m)

/-- Generated copy constructor (messagedefinitionprinter.cpp:204-229): every field is set like in an assignment. `garbage` is what the memory of the
members contains. -/
def copyMembers (eq : QtVal → QtVal → Bool) (env : Env) (k : Nat) (fs : List Member) (garbage src : List Slot) : Res (List Slot) :=
  assignMembers eq env k fs (fs.zipWith startSlot garbage) src

/-- One field of the generated `operator ==` (messagedefinitionprinter.cpp:334-340): `EqualOperatorPropertyTemplate` for a field of a Qt type
(templates.cpp:169). -/
def eqSlot (eq : QtVal → QtVal → Bool) (env : Env) (n : Nat) (ty : SlotTy) (a b : Slot) : Res Bool :=
  match ty, a, b with
  | .plain ty, .val a, .val b => eqVal env (objEq env n) ty a b
  | .qt _, .qt a, .qt b => .ok (eq a b)
  | _, _, _ => .ub

/-- Generated `operator ==` (messagedefinitionprinter.cpp:314-353): conjunction over the fields, short circuit, in declaration order. -/
def eqMembers (eq : QtVal → QtVal → Bool) (env : Env) (n : Nat) : List Member → List Slot → List Slot → Res Bool
  | f :: fs, a :: as, b :: bs => do
    let r ← eqSlot eq env n f.ty a b
    if r then eqMembers eq env n fs as bs else .ok false
  | _, _, _ => .ok true

/-- `QAbstractProtobufSerializer::deserialize<T>` (qabstractprotobufserializer.h:97-111): decode into a new object, then copy assign it to the target; on
an exception the partially filled object is assigned as well. `k` bounds the steps of the assignment. -/
def deserializeTo (eq : QtVal → QtVal → Bool) (env envQ : Env) (fs : List Member) (n k : Nat) (data : Bytes) (old : List Slot) :
    Res Unit × Res (List Slot) :=
  let r := deserializeMembers eq env envQ fs n data
  (r.1, assignMembers eq env k fs old r.2)

end QtPb.Qt
