import Verif.QtNestedObjects
import Verif.Move
/-
Model of the generated move constructor and move assignment of the classes of `Verif/QtNested.lean`. Extends `Verif/Move.lean`, where there are no fields
of Qt's types.
-/
namespace QtPb.Qt
open QtPb

/-- What the model leaves open: as in `Containers` for fields of other types; `leftQt a b` and `leftSubs a b` are what `a = std::move(b)` leaves in `b` for a
value of a Qt type and for a list of pointers; `sameSubs a b` tells whether two lists of pointers compare equal, which depends on the addresses. -/
structure Movers where
  plain : Containers
  leftQt : QtVal → QtVal → QtVal
  leftSubs : List Deep → List Deep → List Deep
  sameSubs : List Deep → List Deep → Bool

/-- A field after a move: its value in the target and in the source, and whether the target and the source have emitted the change signal of the field. -/
structure DeepMoved where
  target : Deep
  source : Deep
  targetSignal : Bool
  sourceSignal : Bool

/-- A field without Qt values after a move. -/
def DeepMoved.ofPlain (v : Moved) : DeepMoved := ⟨.val v.target, .val v.source, v.targetSignal, v.sourceSignal⟩

section
variable (q : Movers) (eq : QtVal → QtVal → Bool) (env : Env) (cls : Classes) (rec : Nat → List Deep → List Deep → Res (List DeepMoved)) (n : Nat)

/-- One field of the generated move assignment (messagedefinitionprinter.cpp:290-308): a class with `MoveAssignMessageFieldTemplate` (templates.cpp:136-140),
Qt's types, which are messages but not "pure" ones (generatorcommon.cpp:275-278), and lists with `MoveComplexFieldTemplate` (141-145). -/
def moveDeepVal (ty : DeepTy) (cur src : Deep) : Res DeepMoved :=
  match ty, cur, src with
  | .plain ty, .val c, .val s => do
    let v ← moveVal env q.plain (lazyNe env n) (moveAssign env q.plain n) ty c s
    .ok (.ofPlain v)
  | .qt _, .qt c, .qt s => if eq c s then .ok ⟨.qt c, .qt s, false, false⟩ else .ok ⟨.qt s, .qt (q.leftQt c s), true, true⟩
  | .sub c, cur, src => do
    let same ← lazyEqDeep cls (eqDeep eq env cls n) c cur src
    if same then .ok ⟨cur, src, false, false⟩
    else do
      let r ← rec c (lazyGet cls c cur) (lazyGet cls c src)
      .ok ⟨.sub (r.map DeepMoved.target), .sub (r.map DeepMoved.source), true, true⟩
  | .subs _, .subs c, .subs s => if q.sameSubs c s then .ok ⟨.subs c, .subs s, false, false⟩ else .ok ⟨.subs s, .subs (q.leftSubs c s), true, true⟩
  | _, _, _ => .ub

/-- All fields in declaration order. -/
def moveDeepFields : List DeepField → List Deep → List Deep → Res (List DeepMoved)
  | f :: fs, a :: as, b :: bs => do
    let v ← moveDeepVal q eq env cls rec n f.ty a b
    let r ← moveDeepFields fs as bs
    .ok (v :: r)
  | _, _, _ => .ok []

/-- One field of the generated move constructor (messagedefinitionprinter.cpp:266-284): a class without signals (`MoveMessageFieldTemplate`,
templates.cpp:133-135), Qt's types and lists without a comparison (`MoveComplexFieldConstructorTemplate`, 147-148). -/
def moveInitDeepVal (ty : DeepTy) (cur src : Deep) : Res DeepMoved :=
  match ty, cur, src with
  | .plain ty, .val c, .val s => do
    let v ← moveInitVal env q.plain (lazyNe env n) (moveAssign env q.plain n) ty c s
    .ok (.ofPlain v)
  | .qt _, .qt c, .qt s => .ok ⟨.qt s, .qt (q.leftQt c s), false, true⟩
  | .sub c, cur, src => do
    let same ← lazyEqDeep cls (eqDeep eq env cls n) c cur src
    if same then .ok ⟨cur, src, false, false⟩
    else do
      let r ← rec c (lazyGet cls c cur) (lazyGet cls c src)
      .ok ⟨.sub (r.map DeepMoved.target), .sub (r.map DeepMoved.source), false, false⟩
  | .subs _, .subs c, .subs s => .ok ⟨.subs s, .subs (q.leftSubs c s), false, true⟩
  | _, _, _ => .ub

/-- All fields of a move construction in declaration order. -/
def moveInitDeepFields : List DeepField → List Deep → List Deep → Res (List DeepMoved)
  | f :: fs, a :: as, b :: bs => do
    let v ← moveInitDeepVal q eq env cls rec n f.ty a b
    let r ← moveInitDeepFields fs as bs
    .ok (v :: r)
  | _, _, _ => .ok []

end

/-- Generated move assignment `cur = std::move(src)` of two different objects of class `c` (messagedefinitionprinter.cpp:288-311). -/
def moveDeep (q : Movers) (eq : QtVal → QtVal → Bool) (env : Env) (cls : Classes) : Nat → Nat → List Deep → List Deep → Res (List DeepMoved)
  | 0, _, _, _ => .fuel
  | n + 1, c, cur, src => moveDeepFields q eq env cls (moveDeep q eq env cls n) n (cls.tab c) cur src

/-- Generated move constructor of class `c` (messagedefinitionprinter.cpp:256-286). The members start as for the copy constructor. -/
def moveConstructDeep (q : Movers) (eq : QtVal → QtVal → Bool) (env : Env) (cls : Classes) (n c : Nat) (garbage src : List Deep) : Res (List DeepMoved) :=
  moveInitDeepFields q eq env cls (moveDeep q eq env cls n) n (cls.tab c) ((cls.tab c).zipWith startDeep garbage) src

section
variable (eq : QtVal → QtVal → Bool) (env : Env) (cls : Classes) (rec : Nat → List Deep → Res (List Deep)) (n : Nat)

/-- One field of the generated move assignment of an object to itself: values of Qt's types and lists keep their value when they are moved to themselves. -/
def selfMoveDeepVal (ty : DeepTy) (cur : Deep) : Res Deep :=
  match ty, cur with
  | .plain ty, .val c => do
    let v ← selfMoveVal env (lazyNe env n) (selfMove env n) ty c
    .ok (.val v)
  | .qt _, .qt c => .ok (.qt c)
  | .sub c, cur => do
    let same ← lazyEqDeep cls (eqDeep eq env cls n) c cur cur
    if same then .ok cur
    else do
      let r ← rec c (lazyGet cls c cur)
      .ok (.sub r)
  | .subs _, .subs c => .ok (.subs c)
  | _, _ => .ub

/-- All fields in declaration order. -/
def selfMoveDeepFields : List DeepField → List Deep → Res (List Deep)
  | f :: fs, a :: as => do
    let v ← selfMoveDeepVal eq env cls rec n f.ty a
    let r ← selfMoveDeepFields fs as
    .ok (v :: r)
  | _, _ => .ok []

end

/-- Generated move assignment of an object to itself (messagedefinitionprinter.cpp:288-311). -/
def selfMoveDeep (eq : QtVal → QtVal → Bool) (env : Env) (cls : Classes) : Nat → Nat → List Deep → Res (List Deep)
  | 0, _, _ => .fuel
  | n + 1, c, cur => selfMoveDeepFields eq env cls (selfMoveDeep eq env cls n) n (cls.tab c) cur

end QtPb.Qt
