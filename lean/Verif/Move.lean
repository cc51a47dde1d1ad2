import Verif.Setters
/-
Model of the generated move constructor and move assignment.
-/
namespace QtPb

/-- What the model leaves open about Qt's containers: `left a b` is what `a = std::move(b)` leaves in `b` (`a` and `b` are the
values before; depending on the type Qt swaps the two or empties `b`), and `samePtrs a b` tells whether two lists or maps of shared
pointers compare equal, which depends on the addresses. -/
structure Containers where
  left : FieldTy → Val → Val → Val
  samePtrs : Val → Val → Bool

/-- Types that are moved with `std::move`: strings, bytes, repeated fields and maps
(messagedefinitionprinter.cpp:267-270, 291-294; messages are treated separately). -/
def movedWhole : FieldTy → Bool
  | .scalar .string | .scalar .bytes | .list _ | .enumList | .msgList _ | .map _ _ => true
  | _ => false

/-- C++ `==` on the types of `movedWhole`. -/
def wholeEq (q : Containers) (ty : FieldTy) (a b : Val) : Bool :=
  match ty with
  | .msgList _ | .map _ (.msg _) => q.samePtrs a b
  | _ => plainEq ty a b

/-- A field after a move: its value in the target and in the source, and whether the target and the source have emitted the change
signal of the field. -/
structure Moved where
  target : Val
  source : Val
  targetSignal : Bool
  sourceSignal : Bool

section
variable (env : Env) (q : Containers) (neq : Nat → Val → Val → Res Bool) (rec : Nat → Obj → Obj → Res (List Moved))

/-- One field of the generated move assignment (messagedefinitionprinter.cpp:290-308): messages with
`MoveAssignMessageFieldTemplate` (templates.cpp:136-140), the types of `movedWhole` with `MoveComplexFieldTemplate` (141-145),
enumerations with `EnumMoveFieldTemplate` (152), other scalars with `MoveFieldTemplate` (150-151): the member of the source is
set to 0 before the setter of the target gets its old value. -/
def moveVal (ty : FieldTy) (cur src : Val) : Res Moved :=
  match ty with
  | .msg m => do
    let differ ← neq m cur src
    if differ then
      let r ← rec m (deref env m cur) (deref env m src)
      .ok ⟨.msg (r.map Moved.target), .msg (r.map Moved.source), true, true⟩
    else .ok ⟨cur, src, false, false⟩
  | .enum => .ok ⟨src, src, false, false⟩
  | _ =>
    if movedWhole ty then
      if wholeEq q ty cur src then .ok ⟨cur, src, false, false⟩ else .ok ⟨src, q.left ty cur src, true, true⟩
    else .ok ⟨writeVal ty cur src, defaultVal ty, !plainEq ty cur src, true⟩

/-- All fields in declaration order. -/
def moveFields : List Field → Obj → Obj → Res (List Moved)
  | f :: fs, a :: as, b :: bs => do
    let v ← moveVal env q neq rec f.ty a b
    let r ← moveFields fs as bs
    .ok (v :: r)
  | _, _, _ => .ok []

/-- One field of the generated move constructor (messagedefinitionprinter.cpp:266-284): as in the assignment, but messages without
signals (`MoveMessageFieldTemplate`, templates.cpp:133-135) and the types of `movedWhole` without a comparison
(`MoveComplexFieldConstructorTemplate`, 147-148). -/
def moveInitVal (ty : FieldTy) (cur src : Val) : Res Moved :=
  match ty with
  | .msg m => do
    let differ ← neq m cur src
    if differ then
      let r ← rec m (deref env m cur) (deref env m src)
      .ok ⟨.msg (r.map Moved.target), .msg (r.map Moved.source), false, false⟩
    else .ok ⟨cur, src, false, false⟩
  | .enum => .ok ⟨src, src, false, false⟩
  | _ =>
    if movedWhole ty then .ok ⟨src, q.left ty cur src, false, true⟩
    else .ok ⟨writeVal ty cur src, defaultVal ty, !plainEq ty cur src, true⟩

/-- All fields of a move construction in declaration order. -/
def moveInitFields : List Field → Obj → Obj → Res (List Moved)
  | f :: fs, a :: as, b :: bs => do
    let v ← moveInitVal env q neq rec f.ty a b
    let r ← moveInitFields fs as bs
    .ok (v :: r)
  | _, _, _ => .ok []

end

/-- Generated move assignment `cur = std::move(src)` of two different objects (messagedefinitionprinter.cpp:288-311). -/
def moveAssign (env : Env) (q : Containers) : Nat → Nat → Obj → Obj → Res (List Moved)
  | 0, _, _, _ => .fuel
  | n + 1, m, cur, src => moveFields env q (lazyNe env n) (moveAssign env q n) (env.sch m) cur src

/-- Generated move constructor (messagedefinitionprinter.cpp:256-286). Sub-messages start as null pointers, other members are
default initialised, see `copyStart`. -/
def moveConstruct (env : Env) (q : Containers) (n m : Nat) (garbage src : Obj) : Res (List Moved) :=
  moveInitFields env q (lazyNe env n) (moveAssign env q n) (env.sch m) (copyStart (env.sch m) garbage) src

section
variable (env : Env) (neq : Nat → Val → Val → Res Bool) (rec : Nat → Obj → Res Obj)

/-- One field of the generated move assignment of an object to itself. Strings, bytes, lists and maps of Qt keep their value when
they are moved to themselves; `std::exchange` sets a number to 0 before the setter sets it again. -/
def selfMoveVal (ty : FieldTy) (cur : Val) : Res Val :=
  match ty with
  | .msg m => do
    let differ ← neq m cur cur
    if differ then
      let r ← rec m (deref env m cur)
      .ok (.msg r)
    else .ok cur
  | .enum => .ok cur
  | _ => if movedWhole ty then .ok cur else .ok (writeVal ty (defaultVal ty) cur)

/-- All fields in declaration order. -/
def selfMoveFields : List Field → Obj → Res Obj
  | f :: fs, a :: as => do
    let v ← selfMoveVal env neq rec f.ty a
    let r ← selfMoveFields fs as
    .ok (v :: r)
  | _, _ => .ok []

end

/-- Generated move assignment of an object to itself (messagedefinitionprinter.cpp:288-311). -/
def selfMove (env : Env) : Nat → Nat → Obj → Res Obj
  | 0, _, _ => .fuel
  | n + 1, m, cur => selfMoveFields env (lazyNe env n) (selfMove env n) (env.sch m) cur

end QtPb
