import Verif.SpecCppRun
import Verif.SpecText
import Verif.Move
/-
What is expected of the functions of generated classes when they are run: the classes as they are read from the text, the objects they work
with, and what is observed afterwards.
-/
set_option linter.unusedVariables false

namespace QtPb.SpecCpp
open QtPb.Gen

/-! ### Members -/

/-- The type of proto of a kind of scalar. -/
def protoType : Kind → FType
  | .float => .float | .double => .double | .int32 => .int32 | .int64 => .int64 | .uint32 => .uint32 | .uint64 => .uint64
  | .sint32 => .sint32 | .sint64 => .sint64 | .fixed32 => .fixed32 | .fixed64 => .fixed64 | .sfixed32 => .sfixed32 | .sfixed64 => .sfixed64
  | .bool => .bool | .string => .string | .bytes => .bytes

/-- A field of a .proto file has this type. (Which message it is, and the types of keys and values of maps, does not matter here. Maps are
repeated fields of entry messages.) -/
def fits (f : FieldD) : FieldTy → Bool
  | .scalar k => !f.isMap && !f.repeated && f.type == protoType k
  | .list k => !f.isMap && f.repeated && f.type == protoType k
  | .enum => !f.isMap && !f.repeated && f.type == .enum
  | .enumList => !f.isMap && f.repeated && f.type == .enum
  | .msg _ => !f.isMap && !f.repeated && f.type == .message
  | .msgList _ => !f.isMap && f.repeated && f.type == .message
  | .map _ _ => f.isMap && f.repeated && f.type == .message

def memberName (f : FieldD) : Text := text! "m_" ++ f.prop

/-- The values of members, in the order of the fields. -/
def valuesOf (members : Text → Val) (names : List Text) : Obj := names.map members

/-- Members with these values. -/
def membersWith (names : List Text) (o : Obj) (x : Text) : Val := ((names.zip o).lookup x).getD .msgNull

/-! ### Classes -/

/-- A class as far as it is run: the types of its members in the order of the fields, its signals, functions with one parameter that can be
called (the name, the name of the parameter, the body), and the bodies of the assignment, the move assignment, the copy constructor and the
move constructor, with the names of their parameters. -/
structure ClassText where
  members : List (Text × FieldTy)
  signals : List Text
  functions : List (Text × Text × List Lexeme)
  assign : Text × List Lexeme
  moveAssign : Text × List Lexeme
  copy : Text × List Lexeme
  move : Text × List Lexeme

def ClassText.names (p : ClassText) : List Text := p.members.map (·.1)

def ClassText.cls (p : ClassText) : Cls := ⟨fun x => p.members.lookup x, p.signals, p.functions⟩

/-- Two objects of the class. -/
def ClassText.objects (p : ClassText) (this other : Obj) : Objects := ⟨membersWith p.names this, membersWith p.names other, []⟩

/-- Calls in functions of the class go at most two functions deep. -/
def callDepth : Nat := 2

/-- Runs a function with the other object as its argument. -/
def ClassText.run (p : ClassText) (lib : Lib) (fn : Text × List Lexeme) (this other : Obj) : Res (Rt × Objects) :=
  runBody lib p.cls (callFn lib p.cls callDepth) fn.1 fn.2 (.object .other) (p.objects this other)

/-- What is seen afterwards: the values of both objects and the signals they have emitted. -/
def ClassText.seen (p : ClassText) (r : Res (Rt × Objects)) : Res (Obj × Obj × List (Who × Text)) :=
  r.bind fun x => .ok (valuesOf x.2.this p.names, valuesOf x.2.other p.names, x.2.log)

/-- A comparison: `a == b`. -/
def ClassText.callBool (p : ClassText) (lib : Lib) (name : Text) (this other : Obj) : Res Bool :=
  (callFn lib p.cls (callDepth + 1) name (.object .other) (p.objects this other)).bind fun
    | (.bool b, _) => .ok b
    | _ => .ub

/-! ### Programs -/

/-- What the library does with members of Qt types (`same`: `==`; `left`: what a move leaves), lazy pointers and lists of messages, when
comparing, copying and moving messages is given. -/
def libFrom (env : Env) (q : Containers) (equal : Nat → Obj → Obj → Res Bool) (assign : Nat → Obj → Obj → Res Obj)
    (move : Nat → Obj → Obj → Res (Obj × Obj)) : Lib where
  same := wholeEq q
  lazy := lazyEq env equal
  repeated := eqVal env equal
  equal := equal
  assign := assign
  move := move
  left := q.left
  fresh := defaultObj env

/-- The messages of a program, running the text of their classes; `n` bounds how deep calls are nested. -/
def libAt (env : Env) (q : Containers) (prog : Nat → ClassText) : Nat → Lib
  | 0 => libFrom env q (fun _ _ _ => .fuel) (fun _ _ _ => .fuel) (fun _ _ _ => .fuel)
  | n + 1 =>
    let lib := libAt env q prog n
    libFrom env q (fun m a b => (prog m).callBool lib (text! "operator==") a b)
      (fun m a b => ((prog m).seen ((prog m).run lib (prog m).assign a b)).bind fun r => .ok r.1)
      (fun m a b => ((prog m).seen ((prog m).run lib (prog m).moveAssign a b)).bind fun r => .ok (r.1, r.2.1))

/-- The signals that both objects emit when members are moved, field by field. -/
def moveSignals (names : List Text) (rs : List Moved) : List (Who × Text) :=
  (names.zip rs).flatMap fun p =>
    (if p.2.targetSignal then [(.this, p.1)] else []) ++ (if p.2.sourceSignal then [(.other, p.1)] else [])

/-- Whether the members of a field differ, as `!=` of their types tells. -/
def differs (env : Env) (q : Containers) (equal : Nat → Obj → Obj → Res Bool) (ty : FieldTy) (a b : Val) : Res Bool :=
  match ty with
  | .msg m => (lazyEq env equal m a b).bind fun r => .ok (!r)
  | _ => .ok (!wholeEq q ty a b)

def isMessage : FieldTy → Bool
  | .msg _ => true
  | _ => false

/-- The signals of an assignment: those of the members that differ (of messages only if `all`). -/
def changeSignals (env : Env) (q : Containers) (equal : Nat → Obj → Obj → Res Bool) (all : Bool) :
    List (Text × FieldTy) → Obj → Obj → Res (List (Who × Text))
  | (s, ty) :: fs, a :: as, b :: bs => do
    let d ← differs env q equal ty a b
    let r ← changeSignals env q equal all fs as bs
    .ok ((if d && (all || !isMessage ty) then [(.this, s)] else []) ++ r)
  | _, _, _ => .ok []

end QtPb.SpecCpp
