import Verif.SpecCppInline
import Verif.SpecCppObj
/-
Classes read from the text of a header and of a source: the members and signals the header declares, the functions both define. The classes
of a program are those of files that were generated.
-/
set_option linter.unusedVariables false

namespace QtPb.SpecCpp

/-- A function of a class that is defined in the header or in the source: its name, its parameters (type and name), its body. -/
structure Function where
  name : Text
  params : List (List Lexeme × Text)
  body : List Lexeme
deriving DecidableEq, Repr

/-- The name of a function as one text: `operator ==` is "operator==", `operator QDateTime` is "operator QDateTime". -/
def flatName : List Lexeme → Text
  | [] => []
  | .word w :: .word w' :: r => w ++ ' ' :: flatName (.word w' :: r)
  | .word w :: r => w ++ flatName r
  | .punct x :: r => x :: flatName r
  | .str s :: r => s ++ flatName r

def Fn.function (f : Fn) : Function := ⟨flatName f.name, f.params, f.body⟩

def Declared.cls : Declared → List Text
  | .fn c _ _ _ => c
  | .member c _ _ => c

def Declared.function : Declared → Option Function
  | .fn _ n ps b => some ⟨n, ps, b⟩
  | .member _ _ _ => none

def Declared.memberName : Declared → Option Text
  | .fn _ _ _ _ => none
  | .member _ _ n => some n

/-- The functions of a class, from the source (`is`) and the header (`ds`). -/
def functionsOf (is : List Item) (ds : List Declared) (cls : List Text) : List Function :=
  ((fnsIn is).filter (·.cls == cls)).map Fn.function ++ (ds.filter (·.cls == cls)).filterMap Declared.function

/-- The data members of a class. -/
def memberNames (ds : List Declared) (cls : List Text) : List Text := (ds.filter (·.cls == cls)).filterMap Declared.memberName

/-- The signals of a class. -/
def signalsOf (evs : List Event) (cls : List Text) : List Text :=
  ((membersIn evs).filter fun x => x.1 == cls && x.2.1 == kwSignals).map (·.2.2)

/-- A function that takes one argument. -/
def Function.unary (f : Function) : Option (Text × Text × List Lexeme) :=
  match f.params with
  | [p] => some (f.name, p.2, f.body)
  | _ => none

/-- The parameter and the body, if the function has this name and one parameter of this type. -/
def Function.taking (name : Text) (type : List Lexeme) (f : Function) : Option (Text × List Lexeme) :=
  match f.params with
  | [p] => if f.name = name ∧ p.1 = type then some (p.2, f.body) else none
  | _ => none

/-- The only function with this name and parameter. -/
def theFunction (fs : List Function) (name : Text) (type : List Lexeme) : Option (Text × List Lexeme) :=
  match fs.filterMap (Function.taking name type) with
  | [x] => some x
  | _ => none

/-- A class, from a header and a source; `types` are the types of the members. The constructors and assignments are told apart by their
parameter: `const K &` or `K &&`. -/
def classOf (header source : Text) (cls : List Text) (types : List FieldTy) : Option ClassText :=
  match read header, declared header, items source with
  | some evs, some ds, some is =>
    let fs := functionsOf is ds cls
    let K := cls.getLastD []
    match theFunction fs (text! "operator=") (cpp! "const $K$ &"), theFunction fs (text! "operator=") (cpp! "$K$ &&"),
      theFunction fs K (cpp! "const $K$ &"), theFunction fs K (cpp! "$K$ &&") with
    | some a, some ma, some c, some mc =>
      if (memberNames ds cls).length = types.length then
        some ⟨(memberNames ds cls).zip types, signalsOf evs cls, fs.filterMap Function.unary, a, ma, c, mc⟩
      else none
    | _, _, _, _ => none
  | _, _, _ => none

/-- The bodies of the functions of a class with this name and without parameters (there can be one for `const` objects and one for others). -/
def nullaryOf (header source : Text) (cls : List Text) (name : Text) : Option (List (List Lexeme)) :=
  match declared header, items source with
  | some ds, some is => some (((functionsOf is ds cls).filter fun f => f.name == name && f.params.isEmpty).map (·.body))
  | _, _ => none

/-- The signals of the members of a class: of `m_x` it is `xChanged`. -/
def ClassText.changed (p : ClassText) : List Text := p.names.map fun x => x.drop 2 ++ text! "Changed"

/-- The signals an object has emitted, in the order of its members, when `flags` tells which. -/
def emitted (names : List Text) (flags : List Bool) : List (Who × Text) :=
  (names.zip flags).flatMap fun p => if p.2 then [(.this, p.1)] else []

/-- Calls a setter of an object: the values afterwards and the signals. -/
def ClassText.callSetter (p : ClassText) (lib : Lib) (name : Text) (arg : Rt) (this : Obj) : Res (Obj × List (Who × Text)) :=
  (callFn lib p.cls (callDepth + 1) name arg (p.objects this [])).bind fun x => .ok (valuesOf x.2.this p.names, x.2.log)

/-- Calls a function without parameters of an object: the value it returns, the values of the object afterwards and the signals. -/
def ClassText.callGetter (p : ClassText) (lib : Lib) (body : List Lexeme) (this : Obj) :
    Res ((FieldTy × Val ⊕ Nat × Obj) × Obj × List (Who × Text)) :=
  (runNullary lib p.cls body (p.objects this [])).bind fun x =>
    (readValue lib p.cls x.2 x.1).bind fun v => .ok (v, valuesOf x.2.this p.names, x.2.log)

/-- Calls a function without parameters that returns a pointer to a message. -/
def ClassText.callPointer (p : ClassText) (lib : Lib) (body : List Lexeme) (this : Obj) : Res (Pointer × Obj × List (Who × Text)) :=
  (runNullary lib p.cls body (p.objects this [])).bind fun x =>
    match x.1 with
    | .pointer r => .ok (r, valuesOf x.2.this p.names, x.2.log)
    | _ => .ub

end QtPb.SpecCpp

namespace QtPb.Gen.Text.Spec
open QtPb.Gen QtPb.SpecCpp

/-- What a header and a source are generated for. -/
structure Sources where
  o : Options
  c : Ctx
  external : List Str
  internal : List Str
  header : Str
  enums : List EnumD
  msgs : List Msg

/-- The messages of the file with their classes. -/
def Sources.bodies (u : Sources) : List (Printed × List FieldD) := u.msgs.flatMap (Spec.bodies (around u.o u.c) u.c.package)

/-- Plain names and types everywhere, and classes with different names. -/
structure Sources.Plain (u : Sources) : Prop where
  file : PlainFile u.o u.c
  external : ∀ i ∈ u.external, Name i
  internal : ∀ i ∈ u.internal, Includable i
  header : Includable u.header
  enums : ∀ e ∈ u.enums, PlainEnum e
  msgs : PlainMsgs u.msgs
  distinct : (u.enums.map (gadgetClass u.o u.c) ++ u.bodies.map (·.1.cpp)).Nodup

/-- The texts that are printed. -/
def Sources.headerText (u : Sources) : Option Text := printed (messageHeader u.o u.c u.external u.internal u.enums u.msgs)
def Sources.sourceText (u : Sources) : Option Text := printed (messageSource u.o u.c u.header u.enums u.msgs)

/-- The fields of a message of a .proto file are these: in the same order, of the same types; no message of Qt types; their setters have
different names. -/
structure Represents (c : Ctx) (fields : List FieldD) (fs : List QtPb.Field) : Prop where
  length : fields.length = fs.length
  types : ∀ x ∈ fields.zip fs, fits x.1 x.2.ty = true
  noQt : ∀ f ∈ fields, isQtType c.package f = false
  setters : (fields.flatMap fun f => [f.setter, f.setter ++ text! "_p"]).Nodup

/-- No getter has the name of another function without parameters: of the registration or of a list for QML. -/
structure Getters (fields : List FieldD) : Prop where
  fixed : ∀ f ∈ fields, f.prop ≠ text! "registerTypes"
  lists : ∀ f ∈ fields, ∀ g ∈ fields, f.prop ≠ g.prop ++ text! "_l"

/-- A program: the class of every message was read from the header and the source that were generated for a file with this message. -/
def Generated (env : Env) (prog : Nat → ClassText) : Prop :=
  ∀ k, ∃ (u : Sources) (b : Printed × List FieldD) (header source : Text), u.Plain ∧ b ∈ u.bodies ∧ Represents u.c b.2 (env.sch k) ∧
    u.headerText = some header ∧ u.sourceText = some source ∧
    classOf header source b.1.cpp ((env.sch k).map (·.ty)) = some (prog k)

end QtPb.Gen.Text.Spec
