import Verif.SpecCppProgram
import Verif.SpecEq
/-
Constructors of classes read from the text: what the members hold when the list of initialisers is done, and what they hold when the
constructor returns.
-/
set_option linter.unusedVariables false

namespace QtPb.SpecCpp

/-- Built-in types of numbers: a member without initialiser holds what its memory held. (`int32`, `int64` and the numbers of fixed size are
classes of the library, they begin as 0.) -/
def builtin : Kind → Bool
  | .float | .double | .bool | .uint32 | .uint64 | .sint32 | .sint64 => true
  | _ => false

/-- A member without initialiser; `memory` is what was there. -/
def unwritten (ty : FieldTy) (memory : Val) : Val :=
  match ty with
  | .scalar k => if builtin k then memory else defaultVal (.scalar k)
  | .enum => memory
  | ty => defaultVal ty

/-- The type and the value of a parameter. -/
def argument (params : List (List Lexeme × Text)) (args : List Rt) (x : Text) : Option (List Lexeme × Rt) :=
  ((params.zip args).find? fun p => p.1.2 == x).map fun p => (p.1.1, p.2)

/-- A member that is not a pointer, made of a parameter: it is a copy. -/
def copied (ty : FieldTy) : Option (List Lexeme × Rt) → Res Val
  | some (_, .data ty' v) => if ty = ty' then .ok v else .ub
  | _ => .ub

/-- `new T(x)`: a new message, made by the copy constructor of `T`; `x` is a parameter `const T &`. The lexemes behind `new` in reverse. -/
def newMessage (copy : Nat → Obj → Res Obj) (params : List (List Lexeme × Text)) (args : List Rt) (m : Nat) : List Lexeme → Res Val
  | .punct ')' :: .word x :: .punct '(' :: rest =>
    let T := rest.reverse
    match argument params args x with
    | some (P, .message m' o) => if m = m' ∧ P = cpp! "const @T@ &" then (copy m o).bind fun o' => .ok (.msg o') else .ub
    | _ => .ub
  | _ => .ub

/-- A member made by an initialiser: pointers to messages are null or get a new message; numbers begin with a literal; enumerations with one of
their constants; all can be copies of parameters. `constants`: the numbers of the constants of enumerations. -/
def initValue (constants : List Lexeme → Option (BitVec 32)) (copy : Nat → Obj → Res Obj) (params : List (List Lexeme × Text)) (args : List Rt)
    (ty : FieldTy) (e : List Lexeme) : Res Val :=
  match ty with
  | .msg m =>
    match e with
    | .word w :: rest =>
      if w = text! "nullptr" ∧ rest = [] then .ok .msgNull
      else if w = text! "new" then newMessage copy params args m rest.reverse
      else .ub
    | _ => .ub
  | .scalar k =>
    match e with
    | [.word x] =>
      if x = text! "0" then (match zeroOf k with | some z => .ok (.sc z) | none => .ub)
      else if x = text! "false" then (if k = .bool then .ok (.sc (.bool false)) else .ub)
      else copied (.scalar k) (argument params args x)
    | _ => if e = cpp! "0.0" ∧ (k = .float ∨ k = .double) then (match zeroOf k with | some z => .ok (.sc z) | none => .ub) else .ub
  | .enum =>
    match e with
    | [.word x] => copied .enum (argument params args x)
    | _ => match constants e with | some v => .ok (.enum v) | none => .ub
  | ty =>
    match e with
    | [.word x] => copied ty (argument params args x)
    | _ => .ub

/-- The members one after the other. -/
def initMembers (value : FieldTy → List Lexeme → Res Val) (inits : List (Text × List Lexeme)) : List (Text × FieldTy) → Obj → Res Obj
  | (x, ty) :: ms, v :: vs => do
    let a ← (match inits.lookup x with | some e => value ty e | none => .ok (unwritten ty v))
    let r ← initMembers value inits ms vs
    .ok (a :: r)
  | [], [] => .ok []
  | _, _ => .ub

/-- Lists in which nothing is missing. -/
def complete {α : Type} : List (Option α) → Option (List α)
  | [] => some []
  | some a :: l => (complete l).map (a :: ·)
  | none :: _ => none

/-- The members after the list of initialisers: the base class comes first; every other name is one of a member, none comes twice; the
parameters have different names. -/
def ClassText.start (p : ClassText) (constants : List Lexeme → Option (BitVec 32)) (copy : Nat → Obj → Res Obj) (f : Fn) (args : List Rt)
    (memory : Obj) : Res Obj :=
  match complete f.inits with
  | some ((base, _) :: inits) =>
    if base = text! "QObject" ∧ (inits.map (·.1)).Nodup ∧ (∀ i ∈ inits, i.1 ∈ p.names) ∧ (f.params.map (·.2)).Nodup then
      initMembers (initValue constants copy f.params args) inits p.members memory
    else .ub
  | _ => .ub

/-- A constructor that takes values of fields (the parent is null): it has no statements. -/
def ClassText.construct (p : ClassText) (constants : List Lexeme → Option (BitVec 32)) (copy : Nat → Obj → Res Obj) (f : Fn) (args : List Rt)
    (memory : Obj) : Res Obj :=
  if f.body = [] ∧ f.params.length = args.length + 1 then p.start constants copy f (args ++ [.pointer .null]) memory else .ub

/-- A constructor that takes another object: its initialisers, then its statements. -/
def ClassText.constructFrom (p : ClassText) (lib : Lib) (f : Fn) (memory other : Obj) : Res (Obj × Obj × List (Who × Text)) :=
  match f.params with
  | [x] => (p.start (fun _ => none) (fun _ _ => .ub) f [.object .other] memory).bind fun this => p.seen (p.run lib (x.2, f.body) this other)
  | _ => .ub

/-- The constructor of a class with parameters of these types. -/
def ctorOf (source : Text) (cls : List Text) (types : List (List Lexeme)) : Option Fn :=
  match items source with
  | some is => (fnsIn is).find? fun f => f.isCtor && f.cls == cls && f.params.map (·.1) == types
  | none => none

end QtPb.SpecCpp

namespace QtPb.Gen.Text.Spec
open QtPb.Gen QtPb.SpecCpp

/-- What a field holds when it was given something: a copy of it. -/
inductive Given (copy : Nat → Obj → Res Obj) : FieldTy → Rt → Val → Prop
  | data {ty : FieldTy} {v : Val} (h : ∀ m, ty ≠ .msg m) : Given copy ty (.data ty v) v
  | message {m : Nat} {o o' : Obj} (h : copy m o = .ok o') : Given copy (.msg m) (.message m o) (.msg o')

/-- The types of the parameters of the constructor that takes the first `n` fields. -/
def paramTypes (o : Options) (c : Ctx) (b : Printed × List FieldD) (n : Nat) : List (List Lexeme) :=
  (b.2.take n).map (paramType o c b.1.msg) ++ [cpp! "QObject *"]

/-- No parameter has the name of the one for the parent or is a literal. -/
def Parameters (fields : List FieldD) : Prop := ∀ f ∈ fields, f.prop ∉ [text! "parent", text! "0", text! "false"]

/-- The first value of every enumeration that fields have has the number 0. -/
def FirstZero (o : Options) (c : Ctx) (b : Printed × List FieldD) (constants : List Lexeme → Option (BitVec 32)) : Prop :=
  ∀ f ∈ b.2, f.type = .enum → let T := valueType o c b.1.msg f false; let v := c.firstValue (f.enumType.getD [])
    constants (cpp! "@T@::$v$") = some 0

/-- The class of the message `k` and its copy constructor were read from the header and the source that were generated for a file with this
message. -/
def GeneratedCopy (env : Env) (prog : Nat → ClassText) (copies : Nat → Fn) : Prop :=
  ∀ k, ∃ (u : Sources) (b : Printed × List FieldD) (header source : Text), u.Plain ∧ b ∈ u.bodies ∧ Represents u.c b.2 (env.sch k) ∧
    u.headerText = some header ∧ u.sourceText = some source ∧
    classOf header source b.1.cpp ((env.sch k).map (·.ty)) = some (prog k) ∧
    let K := b.1.cpp.getLastD []
    ctorOf source b.1.cpp [cpp! "const $K$ &"] = some (copies k)

/-- Copying a message by the copy constructor of its class; what it emits is not seen. -/
def copyBy (prog : Nat → ClassText) (copies : Nat → Fn) (lib : Lib) (memory : Nat → Obj) (m : Nat) (o : Obj) : Res Obj :=
  ((prog m).constructFrom lib (copies m) (memory m) o).bind fun r => .ok r.1

/-- A field of a new object: a copy of what was given, or the default value if nothing was given. -/
def Begins (env : Env) (ty : FieldTy) (given : Option Rt) (v : Val) : Prop :=
  match given with
  | none => v = defaultVal ty
  | some (.data ty' x) => ty' = ty ∧ v = x
  | some (.message m o) => ty = .msg m ∧ ∃ o', v = .msg o' ∧ QtPb.Spec.Mirrors env (.msg m) (.msg o') (.msg o)
  | some _ => False

/-- What can be given for a field: a message that is a proper one, or a value. -/
inductive Fits (env : Env) : FieldTy → Rt → Prop
  | data {ty : FieldTy} {v : Val} (h : ∀ m, ty ≠ .msg m) : Fits env ty (.data ty v)
  | message {m : Nat} {o : Obj} (h : QtPb.Spec.Safe env (.msg m) (.msg o)) : Fits env (.msg m) (.message m o)

end QtPb.Gen.Text.Spec
