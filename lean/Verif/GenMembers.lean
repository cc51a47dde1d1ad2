import Verif.GenNames
/-
Model of more of the class that is generated for a message (src/generator/messagedeclarationprinter.cpp,
messagedefinitionprinter.cpp, enumdeclarationprinter.cpp, templates.cpp): constructors, methods that are defined outside of the
class, and the names of types and constants declared in it.
-/
namespace QtPb.Gen

/-! ### Types of fields -/

/-- The C++ type that "scope_type" of a field names. The types are told apart by what they stand for, not by their text (for the text
see GenNames). -/
inductive CType
  | scalar (t : FType)
  | enum (q : Path)
  | msg (q : Path)
  | qt (q : Path)
  | map (q : Path)
  | list (of : CType)
deriving DecidableEq, Repr

/-- "scope_type" of `produceTypeMap` (generatorcommon.cpp:280-306). -/
def scopeType (package : List Str) (f : FieldD) : CType :=
  match f.type with
  | .message =>
    let q := f.msgType.getD []
    if isQtType package f then .qt q else if f.isMap then .map q else .msg q
  | .enum => .enum (f.enumType.getD [])
  | t => .scalar t

/-- The type of the data member (messagedeclarationprinter.cpp:426-439); none is `QProtobufLazyMessagePointer`. -/
def memberType (package : List Str) (f : FieldD) : Option CType :=
  if isPureMessage package f then none
  else if f.repeated && !f.isMap then some (.list (scopeType package f))
  else some (scopeType package f)

/-- "list_type", "full_list_type" and "scope_list_type" of `common::produceQtTypeMap` (generatorcommon.cpp:74-76); `type` is the name of the
message. -/
def qtListType (_type : Str) : Str := ['Q', 'L', 'i', 's', 't', '<'] ++ kRepeated ++ ['>']

/-! ### Constructors -/

/-- A parameter of a constructor: its type, whether it is a reference, and its name. -/
structure CtorParam where
  type : CType
  byRef : Bool
  name : Str
deriving DecidableEq, Repr

/-- One parameter: `printConstructor` (messagedeclarationprinter.cpp:136-149, messagedefinitionprinter.cpp:133-146; templates.cpp:96-98). -/
def ctorParam (package : List Str) (f : FieldD) : CtorParam :=
  if f.repeated && !f.isMap then ⟨.list (scopeType package f), true, f.prop⟩
  else if f.type == .bytes || f.type == .string || f.type == .message || f.isMap then ⟨scopeType package f, true, f.prop⟩
  else ⟨scopeType package f, false, f.prop⟩

/-- What initializes a data member: the parameter, a new message copied from the parameter, a literal, the null pointer. -/
inductive Init
  | param (name : Str)
  | fresh (type : CType) (name : Str)
  | zero
  | false
  | constant (enum : Path) (name : Str)
  | null
deriving DecidableEq, Repr

/-- `propertyMap["initializer"]` (messagedefinitionprinter.cpp:154-180); none is the empty text. `firstValue`: the name of the first value
of an enumeration. -/
def defaultInit (firstValue : Path → Str) (f : FieldD) : Option Init :=
  if !f.repeated && !f.isMap then
    match f.type with
    | .double | .float => some .zero
    | .fixed32 | .fixed64 | .int32 | .int64 | .sint32 | .sint64 | .uint32 | .uint64 => some .zero
    | .bool => some .false
    | .enum => some (.constant (f.enumType.getD []) (firstValue (f.enumType.getD [])))
    | _ => none
  else none

/-- The loop of `printInitializationList` (messagedefinitionprinter.cpp:149-198) from index `i`; templates.cpp:255-258. -/
def initFrom (package : List Str) (firstValue : Path → Str) (fieldCount : Nat) (i : Nat) : List FieldD → List (Str × Init)
  | [] => []
  | f :: fs =>
    (if isPureMessage package f then
      if i < fieldCount then [(f.member, .fresh (scopeType package f) f.prop)] else [(f.member, .null)]
     else if i < fieldCount then [(f.member, .param f.prop)]
     else match defaultInit firstValue f with
      | some d => [(f.member, d)]
      | none => []) ++ initFrom package firstValue fieldCount (i + 1) fs

/-- A constructor: the parameters, whether `QObject *parent = nullptr` follows, and the initializers after `QObject(…)`. -/
structure Ctor where
  params : List CtorParam
  parent : Bool
  inits : List (Str × Init)
deriving DecidableEq, Repr

/-- The constructors from fields: `printConstructors` (messagedeclarationprinter.cpp:120-130, messagedefinitionprinter.cpp:110-129). (The one
of `google.protobuf.Timestamp` from a `QDateTime` is left out.) -/
def fieldCtors (package : List Str) (firstValue : Path → Str) (fields : List FieldD) : List Ctor :=
  (List.range (fields.length + 1)).map fun k =>
    ⟨(fields.take k).map (ctorParam package), true, initFrom package firstValue k 0 fields⟩

def kOther : Str := ['o', 't', 'h', 'e', 'r']
def kParent : Str := ['p', 'a', 'r', 'e', 'n', 't']

/-- The copy constructor (messagedeclarationprinter.cpp:92-100, messagedefinitionprinter.cpp:204-218; templates.cpp:117, 119). -/
def copyCtor (package : List Str) (own : Path) (fields : List FieldD) : Ctor :=
  ⟨[⟨.msg own, true, kOther⟩], false, (fields.filter (isPureMessage package)).map fun f => (f.member, .null)⟩

/-! ### Methods defined outside of the class -/

/-- The methods of a field that are declared without a body: getters and setters of messages, setters of texts, the list for QML
(messagedeclarationprinter.cpp:254-321; templates.cpp:176-236). By name and number of parameters. -/
def declaredOnly (qml : Bool) (package : List Str) (f : FieldD) : List (Str × Nat) :=
  (if isPureMessage package f then [(f.prop, 0)] else []) ++
  (if f.repeated && f.type == .message && !f.isMap && qml then [(f.prop ++ kL, 0)] else []) ++
  (if f.type == .message || f.type == .string || f.type == .bytes then [(f.setter, 1)] else []) ++
  (if isPureMessage package f then [(f.prop ++ kP, 0), (f.setter ++ kP, 1)] else [])

/-- The methods of a field that are defined outside of the class: `MessageDefinitionPrinter::printGetters`
(messagedefinitionprinter.cpp:355-388). -/
def definedOutside (qml : Bool) (package : List Str) (f : FieldD) : List (Str × Nat) :=
  (if isPureMessage package f then [(f.prop ++ kP, 0), (f.prop, 0)] else []) ++
  (if f.repeated && f.type == .message && !f.isMap && !isQtType package f && qml then [(f.prop ++ kL, 0)] else []) ++
  (if f.type == .message then
    if !f.isMap && !f.repeated && !isQtType package f then [(f.setter ++ kP, 1), (f.setter, 1)] else [(f.setter, 1)]
   else if f.type == .string || f.type == .bytes then [(f.setter, 1)] else [])

/-! ### Names of types and constants -/

/-- An enumeration: its name and its values with their numbers. -/
structure EnumD where
  name : Str
  values : List (Str × Int)
deriving DecidableEq, Repr

/-- The constants printed for an enumeration (enumdeclarationprinter.cpp:59-63, messagedeclarationprinter.cpp:365-369). -/
def enumConstants (e : EnumD) : List (Str × Int) := e.values.map fun v => (upperCaseName v.1, v.2)

def kFieldEnumType : Str := kQtProtobuf ++ ['F', 'i', 'e', 'l', 'd', 'E', 'n', 'u', 'm']
def kFieldNumber : Str := ['P', 'r', 'o', 't', 'o', 'F', 'i', 'e', 'l', 'd', 'N', 'u', 'm', 'b', 'e', 'r']

example : kFieldEnumType = "QtProtobufFieldEnum".toList := by simp [kFieldEnumType, kQtProtobuf]
example : kFieldNumber = "ProtoFieldNumber".toList := by simp [kFieldNumber]

/-- The constants of the enumeration of field numbers: `printFieldEnum` (messagedeclarationprinter.cpp:446-457, templates.cpp:429-430). -/
def fieldConstants (fields : List FieldD) : List (Str × Nat) := fields.map fun f => (upperCaseName f.prop ++ kFieldNumber, f.number)

/-- The names of types and constants declared in a class, in the order they are printed: `printQEnums`
(messagedeclarationprinter.cpp:345-381), `printNested` (168-175), `printMaps` (154-166). -/
def classNames (fieldEnum : Bool) (path : Path) (fields : List FieldD) (enums : List EnumD) (nested : List Msg) : List Str :=
  (if fieldEnum then kFieldEnumType :: (fieldConstants fields).map (·.1) else []) ++
  (enums.flatMap fun e => upperCaseName e.name :: (enumConstants e).map (·.1)) ++
  (enums.map fun e => upperCaseName e.name ++ kRepeated) ++
  ((nested.filter fun n => visits fields (path ++ [n.name])).flatMap fun n => [upperCaseName n.name, upperCaseName n.name ++ kRepeated]) ++
  (fields.filter (·.isMap)).map fun f => upperCaseName ((f.msgType.getD []).getLastD [])

end QtPb.Gen
