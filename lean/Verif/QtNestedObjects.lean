import Verif.QtNested
import Verif.QtObjects
/-
Model of the generated comparison, copy assignment and copy constructor of classes that refer to each other and have fields of Qt's types, and of the target
of `deserialize` for them. Extends `Verif/QtObjects.lean`, where only the outermost class has such fields. Simplifications as in `Verif/QtNested.lean` and
`Verif/Objects.lean`; the change signals are left out.
-/
namespace QtPb.Qt
open QtPb

/-- `QProtobufLazyMessagePointer::operator==` (qprotobuflazymessagepointer.h:68-73); `rec` is `==` of the class. -/
def lazyEqDeep (cls : Classes) (rec : Nat → List Deep → List Deep → Res Bool) (c : Nat) (a b : Deep) : Res Bool :=
  match a, b with
  | .sub x, .sub y => rec c x y
  | .sub x, _ => rec c x (newObject cls c)
  | _, .sub y => rec c y (newObject cls c)
  | _, _ => .ok true

/-- `repeatedValueCompare` for lists (qtprotobuftypes.h:278-294) after the size test, as in `listEq`. -/
def subsEq (rec : Nat → List Deep → List Deep → Res Bool) (c : Nat) : List Deep → List Deep → Res Bool
  | .sub x :: as, .sub y :: bs => do
    let r ← rec c x y
    if r then subsEq rec c as bs else .ok false
  | .sub _ :: _, _ :: _ => .ub
  | _ :: _, .sub _ :: _ => .ub
  | _ :: as, _ :: bs => subsEq rec c as bs
  | _, _ => .ok true

/-- One field of the generated `operator ==` (messagedefinitionprinter.cpp:334-340): for a class `m_x == other.m_x || *m_x == *other.m_x`
(templates.cpp:170-171), for a Qt type `==` (templates.cpp:169). -/
def eqDeepVal (eq : QtVal → QtVal → Bool) (env : Env) (cls : Classes) (rec : Nat → List Deep → List Deep → Res Bool) (n : Nat) (ty : DeepTy) (a b : Deep) :
    Res Bool :=
  match ty, a, b with
  | .plain ty, .val a, .val b => eqVal env (objEq env n) ty a b
  | .qt _, .qt a, .qt b => .ok (eq a b)
  | .sub c, a, b => do
    let r ← lazyEqDeep cls rec c a b
    if r then .ok true else rec c (lazyGet cls c a) (lazyGet cls c b)
  | .subs c, .subs a, .subs b => if a.length ≠ b.length then .ok false else subsEq rec c a b
  | _, _, _ => .ub

/-- Conjunction over the fields, short circuit, in declaration order (messagedefinitionprinter.cpp:314-353). -/
def eqDeepFields (eq : QtVal → QtVal → Bool) (env : Env) (cls : Classes) (rec : Nat → List Deep → List Deep → Res Bool) (n : Nat) :
    List DeepField → List Deep → List Deep → Res Bool
  | f :: fs, a :: as, b :: bs => do
    let r ← eqDeepVal eq env cls rec n f.ty a b
    if r then eqDeepFields eq env cls rec n fs as bs else .ok false
  | _, _, _ => .ok true

/-- Generated `operator ==` of class `c` (messagedefinitionprinter.cpp:314-353). The number bounds the nesting of calls. -/
def eqDeep (eq : QtVal → QtVal → Bool) (env : Env) (cls : Classes) : Nat → Nat → List Deep → List Deep → Res Bool
  | 0, _, _, _ => .fuel
  | n + 1, c, a, b => eqDeepFields eq env cls (eqDeep eq env cls n) n (cls.tab c) a b

/-- One field of the generated `operator =` (messagedefinitionprinter.cpp:231-242): `AssignComplexFieldTemplate` for a class (templates.cpp:129-132),
otherwise the setter (templates.cpp:125, 223-235). Lists share their elements with the source. -/
def assignDeepVal (eq : QtVal → QtVal → Bool) (env : Env) (cls : Classes) (rec : Nat → List Deep → List Deep → Res (List Deep)) (n : Nat) (ty : DeepTy)
    (cur src : Deep) : Res Deep :=
  match ty, cur, src with
  | .plain ty, .val c, .val s => do
    let v ← assignVal env (lazyNe env n) (assign env n) ty c s
    .ok (.val v)
  | .qt _, .qt c, .qt s => .ok (.qt (setQt eq c s))
  | .sub c, cur, src => do
    let same ← lazyEqDeep cls (eqDeep eq env cls n) c cur src
    if same then .ok cur
    else do
      let o ← rec c (lazyGet cls c cur) (lazyGet cls c src)
      .ok (.sub o)
  | .subs _, .subs _, .subs s => .ok (.subs s)
  | _, _, _ => .ub

/-- All fields in declaration order. -/
def assignDeepFields (eq : QtVal → QtVal → Bool) (env : Env) (cls : Classes) (rec : Nat → List Deep → List Deep → Res (List Deep)) (n : Nat) :
    List DeepField → List Deep → List Deep → Res (List Deep)
  | f :: fs, a :: as, b :: bs => do
    let s ← assignDeepVal eq env cls rec n f.ty a b
    let r ← assignDeepFields eq env cls rec n fs as bs
    .ok (s :: r)
  | _, _, _ => .ok []

/-- Generated `operator =` of class `c` (messagedefinitionprinter.cpp:231-242). -/
def assignDeep (eq : QtVal → QtVal → Bool) (env : Env) (cls : Classes) : Nat → Nat → List Deep → List Deep → Res (List Deep)
  | 0, _, _, _ => .fuel
  | n + 1, c, cur, src => assignDeepFields eq env cls (assignDeep eq env cls n) n (cls.tab c) cur src

/-- A member before the body of the copy constructor runs (messagedefinitionprinter.cpp:204-219, templates.cpp:102-104): class members are unset, lists
empty, the others as in `startSlot`. -/
def startDeep (f : DeepField) (garbage : Deep) : Deep :=
  match f.ty, garbage with
  | .plain ty, .val g => .val ((copyStart [⟨f.num, ty⟩] [g]).headD (defaultVal ty))
  | _, _ => f.default

/-- Generated copy constructor of class `c` (messagedefinitionprinter.cpp:204-229). `garbage` is what the memory of the members contains. -/
def copyDeep (eq : QtVal → QtVal → Bool) (env : Env) (cls : Classes) (n c : Nat) (garbage src : List Deep) : Res (List Deep) :=
  assignDeep eq env cls n c ((cls.tab c).zipWith startDeep garbage) src

/-- `QAbstractProtobufSerializer::deserialize<T>` (qabstractprotobufserializer.h:97-111): decode into a new object, then copy assign it to the target; on
an exception the partially filled object is assigned as well. -/
def deserializeDeepTo (eq : QtVal → QtVal → Bool) (env envQ : Env) (cls : Classes) (n k c : Nat) (data : Bytes) (old : List Deep) :
    Res Unit × Res (List Deep) :=
  let r := deserializeDeep eq env envQ cls n c data
  (r.1, assignDeep eq env cls k c old r.2)

end QtPb.Qt
