import Verif.Codec
/-
Model of generated message objects: equality, assignment, copy construction, and the public
`serialize`/`deserialize` entry points.
-/
namespace QtPb

/-! ### Equality -/

/-- `QMap::value(key)`: the value of an equivalent key, or a default constructed one (here only used
for maps of shared pointers, whose default is a null pointer). -/
def mapLookup (kk : Kind) (key : Scalar) : List (Scalar × Val) → Val
  | [] => .msgNull
  | (k', v) :: es => if !keyLt kk k' key && !keyLt kk key k' then v else mapLookup kk key es

section
variable (env : Env) (rec : Nat → Obj → Obj → Res Bool)

/-- `QProtobufLazyMessagePointer::operator==` (qprotobuflazymessagepointer.h:68-73); `rec` is `==` of
the message class, `T{}` a default constructed message. -/
def lazyEq (m : Nat) (a b : Val) : Res Bool :=
  match a, b with
  | .msg x, .msg y => rec m x y
  | .msg x, _ => rec m x (defaultObj env m)
  | _, .msg y => rec m y (defaultObj env m)
  | _, _ => .ok true

/-- Contents of the object behind a lazy pointer; dereferencing creates it when unset
(qprotobuflazymessagepointer.h:47-52). -/
def deref (m : Nat) : Val → Obj
  | .msg o => o
  | _ => defaultObj env m

/-- Comparison of a message field in the generated `==`
(`EqualOperatorMessagePropertyTemplate`, templates.cpp:170-171):
`m_x == other.m_x || *m_x == *other.m_x`. -/
def msgFieldEq (m : Nat) (a b : Val) : Res Bool := do
  let r ← lazyEq env rec m a b
  if r then .ok true else rec m (deref env m a) (deref env m b)

/-- `repeatedValueCompare` for lists (qtprotobuftypes.h:278-294) after the size test. Two null
pointers are equal; exactly one null pointer is dereferenced. Simplification: non-null pointers are
taken to have different addresses, so the contents are always compared. -/
def listEq (m : Nat) : List Val → List Val → Res Bool
  | .msg x :: as, .msg y :: bs => do
    let r ← rec m x y
    if r then listEq m as bs else .ok false
  | .msg _ :: _, _ :: _ => .ub
  | _ :: _, .msg _ :: _ => .ub
  | _ :: as, _ :: bs => listEq m as bs
  | _, _ => .ok true

/-- `repeatedValueCompare` for maps of shared pointers (qtprotobuftypes.h:301-315) after the size
test: every entry of `a` is looked up in `b`. -/
def mapMsgEq (kk : Kind) (m : Nat) (b : List (Scalar × Val)) : List (Scalar × Val) → Res Bool
  | [] => .ok true
  | (key, v) :: es =>
    match mapLookup kk key b, v with
    | .msg x, .msg y => do
      let r ← rec m x y
      if r then mapMsgEq kk m b es else .ok false
    | .msg _, _ => .ub
    | _, .msg _ => .ub
    | _, _ => mapMsgEq kk m b es

/-- One conjunct of the generated `==` (messagedefinitionprinter.cpp:314-353, templates.cpp:164-172). -/
def eqVal (ty : FieldTy) (a b : Val) : Res Bool :=
  match ty, a, b with
  | .scalar k, .sc x, .sc y => .ok (scalarEq k x y)
  | .list k, .scList x, .scList y => .ok (scalarListEq k x y)
  | .enum, .enum x, .enum y => .ok (x == y)
  | .enumList, .enumList x, .enumList y => .ok (x == y)
  | .msg m, a, b => msgFieldEq env rec m a b
  | .msgList m, .msgList x, .msgList y => if x.length ≠ y.length then .ok false else listEq rec m x y
  | .map kk (.scalar vk), .map x, .map y => .ok (mapScalarEq kk vk x y)
  | .map kk .enum, .map x, .map y => .ok (mapEnumEq kk x y)
  | .map kk (.msg m), .map x, .map y =>
    if x.length ≠ y.length then .ok false else mapMsgEq rec kk m y x
  | _, _, _ => .ok true

/-- Conjunction over the fields, short circuit, in declaration order. -/
def eqFields : List Field → Obj → Obj → Res Bool
  | f :: fs, a :: as, b :: bs => do
    let r ← eqVal env rec f.ty a b
    if r then eqFields fs as bs else .ok false
  | _, _, _ => .ok true

end

/-- Generated `operator ==` of message type `m` (messagedefinitionprinter.cpp:314-353). The first
argument bounds the nesting of calls. -/
def objEq (env : Env) : Nat → Nat → Obj → Obj → Res Bool
  | 0, _, _, _ => .fuel
  | n + 1, m, a, b => eqFields env (objEq env n) (env.sch m) a b

/-- Generated `operator !=` (templates.cpp:175-177). -/
def objNe (env : Env) (n m : Nat) (a b : Obj) : Res Bool := do
  let r ← objEq env n m a b
  .ok (!r)

/-! ### Assignment and copy construction -/

section
variable (env : Env) (neq : Nat → Val → Val → Res Bool) (rec : Nat → Obj → Obj → Res Obj)

/-- Assignment of one field in the generated `operator =`
(messagedefinitionprinter.cpp:233-239): message fields with `AssignComplexFieldTemplate`
(templates.cpp:129-132), all others through the setter (templates.cpp:125, 222-235). -/
def assignVal (ty : FieldTy) (cur src : Val) : Res Val :=
  match ty with
  | .msg m => do
    let differ ← neq m cur src
    if differ then
      let o ← rec m (deref env m cur) (deref env m src)
      .ok (.msg o)
    else .ok cur
  | _ => .ok (writeVal ty cur src)

/-- All fields in declaration order. -/
def assignFields : List Field → Obj → Obj → Res Obj
  | f :: fs, a :: as, b :: bs => do
    let v ← assignVal env neq rec f.ty a b
    let r ← assignFields fs as bs
    .ok (v :: r)
  | _, _, _ => .ok []

end

/-- Lazy pointer `!=` (qprotobuflazymessagepointer.h:75-77). -/
def lazyNe (env : Env) (n m : Nat) (a b : Val) : Res Bool := do
  let r ← lazyEq env (objEq env n) m a b
  .ok (!r)

/-- Generated copy assignment `*this = other` (messagedefinitionprinter.cpp:231-242). -/
def assign (env : Env) : Nat → Nat → Obj → Obj → Res Obj
  | 0, _, _, _ => .fuel
  | n + 1, m, cur, src => assignFields env (lazyNe env n) (assign env n) (env.sch m) cur src

/-- Generated copy constructor (messagedefinitionprinter.cpp:204-229): sub-messages start as null
pointers, the other members are default initialised, which for `float`, `double`, `bool`, the built-in integers
`uint32`, `uint64`, `sint32`, `sint64` (qtprotobuftypes.h:121, 129, 139, 149) and enumerations leaves the arbitrary
contents `garbage` of the memory (the other integers are objects that start as 0, qtprotobuftypes.h:87); then every
field is set like in an assignment (`CopyFieldTemplate`, `CopyComplexFieldTemplate`, templates.cpp:125-128). -/
def copyStart : List Field → Obj → Obj
  | f :: fs, g :: gs =>
    (match f.ty, g with
      | .scalar .float, .sc (.w32 b) => .sc (.w32 b)
      | .scalar .double, .sc (.w64 b) => .sc (.w64 b)
      | .scalar .bool, .sc (.bool b) => .sc (.bool b)
      | .scalar .uint32, .sc (.w32 b) => .sc (.w32 b)
      | .scalar .uint64, .sc (.w64 b) => .sc (.w64 b)
      | .scalar .sint32, .sc (.w32 b) => .sc (.w32 b)
      | .scalar .sint64, .sc (.w64 b) => .sc (.w64 b)
      | .enum, .enum e => .enum e
      | ty, _ => defaultVal ty) :: copyStart fs gs
  | f :: fs, [] => defaultVal f.ty :: copyStart fs []
  | [], _ => []

/-- Copy construction from `src`, see `copyStart`. -/
def copyConstruct (env : Env) (n m : Nat) (garbage src : Obj) : Res Obj :=
  assign env n m (copyStart (env.sch m) garbage) src

/-! ### Public entry points -/

/-- What the caller of `T::deserialize` sees: the outcome and the new contents of the target object. -/
structure Outcome where
  status : Res Unit
  target : Res Obj

/-- `QAbstractProtobufSerializer::deserialize<T>` (qabstractprotobufserializer.h:97-111): decode into
a new object, then copy assign it to the target; on an exception the partially filled object is
assigned as well and the exception rethrown. `k` bounds the steps of the assignment. -/
def deserialize (env : Env) (n k m : Nat) (data : Bytes) (old : Obj) : Outcome :=
  let r := deserializeMessage env n m data
  ⟨r.1, assign env k m old r.2⟩

end QtPb
