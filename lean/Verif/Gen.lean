import Verif.GenText
/-
Model of the message part of the generator: message descriptors as protoc hands them over, the traversals of nested messages
(src/generator/generatorcommon.cpp) and what the printers of messages print (src/generator/messagedeclarationprinter.cpp,
messagedefinitionprinter.cpp, templates.cpp). The printed text is modelled by its structure: a class is a list of properties,
methods and members, a file is a list of classes with the namespaces they are printed in.
-/
namespace QtPb.Gen

/-- `google::protobuf::FieldDescriptor::Type`. -/
inductive FType
  | double | float | int64 | uint64 | int32 | fixed64 | fixed32 | bool | string | group | message | bytes | uint32 | enum
  | sfixed32 | sfixed64 | sint32 | sint64
deriving DecidableEq, Repr

/-- The full name of a message, by components. Descriptors are compared by address in the code; in one pool of descriptors
the address and the full name determine each other. -/
abbrev Path := List Str

/-- `google::protobuf::FieldDescriptor`: camelcase_name(), json_name(), number(), type(), is_repeated(), is_map() and
message_type(), enum_type() (none for a null pointer). -/
structure FieldD where
  camel : Str
  json : Str
  number : Nat
  type : FType
  repeated : Bool := false
  isMap : Bool := false
  msgType : Option Path := none
  enumType : Option Path := none
deriving DecidableEq, Repr

/-- `google::protobuf::Descriptor`: name(), field(i), nested_type(i) and options().map_entry(). -/
inductive Msg where
  | mk (name : Str) (fields : List FieldD) (nested : List Msg) (entry : Bool)

namespace Msg
def name : Msg → Str | .mk n _ _ _ => n
def fields : Msg → List FieldD | .mk _ f _ _ => f
def nested : Msg → List Msg | .mk _ _ n _ => n
def entry : Msg → Bool | .mk _ _ _ e => e
end Msg

/-- `google::protobuf::FileDescriptor`: package(), by components, and message_type(i). -/
structure File where
  package : List Str
  messages : List Msg

/-- `Templates::QtProtobufNestedNamespace` (templates.cpp:426). -/
def kNested : Str := ['_', 'Q', 't', 'P', 'r', 'o', 't', 'o', 'b', 'u', 'f', 'N', 'e', 's', 't', 'e', 'd']

example : kNested = "_QtProtobufNested".toList := by simp [kNested]

/-! ### Traversals -/

/-- The test of the inner loops of `iterateNestedMessages` and `hasNestedMessages` (generatorcommon.cpp:443-449, 461-466):
some field that is not a map has the nested message as its type. -/
def refers (fields : List FieldD) (q : Path) : Bool := fields.any fun f => !f.isMap && f.msgType == some q

/-- `common::iterateNestedMessages` (generatorcommon.cpp:435-451): is the callback called for this nested message? -/
def visits (fields : List FieldD) (q : Path) : Bool := fields.isEmpty || refers fields q

/-- `common::hasNestedMessages` (generatorcommon.cpp:453-470). -/
def hasNested (path : Path) (fields : List FieldD) (nested : List Msg) : Bool :=
  (!nested.isEmpty && fields.isEmpty) || nested.any fun n => refers fields (path ++ [n.name])

/-- A class that is printed: the message it is for, and the namespaces that are open with the name of the class. -/
structure Printed where
  msg : Path
  cpp : List Str
deriving DecidableEq, Repr

/-- The namespace printed around the nested messages (messagedeclarationprinter.cpp:49, 78; messagedefinitionprinter.cpp:43):
"classname" of the type map is the name with a capital (generatorcommon.cpp:110, 119). -/
def nestedNs (name : Str) : Str := upperCaseName name ++ kNested

mutual
/-- `MessageDeclarationPrinter::printClassDeclarationPrivate` (messagedeclarationprinter.cpp:76-90). `path` are the components
of the full name of what the message is in, `ns` the open namespaces. -/
def declare (ns : List Str) (path : Path) : Msg → List Printed
  | .mk name fields nested _ =>
    declareList (ns ++ [nestedNs name]) (path ++ [name]) fields nested ++ [⟨path ++ [name], ns ++ [upperCaseName name]⟩]
/-- `iterateNestedMessages` with `printClassDeclarationPrivate` as callback (messagedeclarationprinter.cpp:79-82). -/
def declareList (ns : List Str) (path : Path) (fields : List FieldD) : List Msg → List Printed
  | [] => []
  | n :: rest => (if visits fields (path ++ [n.name]) then declare ns path n else []) ++ declareList ns path fields rest
end

mutual
/-- `MessageDeclarationPrinter::printClassForwardDeclarationPrivate` (messagedeclarationprinter.cpp:46-59). -/
def forward (ns : List Str) (path : Path) : Msg → List Printed
  | .mk name fields nested _ =>
    (if hasNested (path ++ [name]) fields nested then forwardList (ns ++ [nestedNs name]) (path ++ [name]) fields nested else []) ++
      [⟨path ++ [name], ns ++ [upperCaseName name]⟩]
/-- `iterateNestedMessages` with `printClassForwardDeclarationPrivate` as callback (messagedeclarationprinter.cpp:50-53). -/
def forwardList (ns : List Str) (path : Path) (fields : List FieldD) : List Msg → List Printed
  | [] => []
  | n :: rest => (if visits fields (path ++ [n.name]) then forward ns path n else []) ++ forwardList ns path fields rest
end

mutual
/-- `MessageDefinitionPrinter::printClassDefinitionPrivate` (messagedefinitionprinter.cpp:40-59). -/
def define (ns : List Str) (path : Path) : Msg → List Printed
  | .mk name fields nested _ =>
    (if hasNested (path ++ [name]) fields nested then defineList (ns ++ [nestedNs name]) (path ++ [name]) fields nested else []) ++
      [⟨path ++ [name], ns ++ [upperCaseName name]⟩]
/-- `iterateNestedMessages` with `printClassDefinitionPrivate` as callback (messagedefinitionprinter.cpp:44-47). -/
def defineList (ns : List Str) (path : Path) (fields : List FieldD) : List Msg → List Printed
  | [] => []
  | n :: rest => (if visits fields (path ++ [n.name]) then define ns path n else []) ++ defineList ns path fields rest
end

mutual
/-- `MessageDeclarationPrinter::printMetaTypesDeclaration` (messagedeclarationprinter.cpp:182-213): the messages for which
Q_DECLARE_METATYPE is printed. -/
def metaTypes (path : Path) : Msg → List Path
  | .mk name fields nested _ => (path ++ [name]) :: metaTypesList (path ++ [name]) fields nested
/-- `iterateNestedMessages` with `printMetaTypesDeclaration` as callback (messagedeclarationprinter.cpp:209-212). -/
def metaTypesList (path : Path) (fields : List FieldD) : List Msg → List Path
  | [] => []
  | n :: rest => (if visits fields (path ++ [n.name]) then metaTypes path n else []) ++ metaTypesList path fields rest
end

/-- `DescriptorPrinterBase::printNamespaces` (descriptorprinterbase.h:62-71) for a top-level message: the components of the
package, after the extra namespace if there is one. -/
def fileNs (extra : Str) (package : List Str) : List Str := (if extra = [] then [] else [extra]) ++ package

/-- The forward declarations of a file: `printClassForwardDeclaration` for all messages (singlefilegenerator.cpp:152-155). -/
def File.forwards (extra : Str) (f : File) : List Printed := f.messages.flatMap (forward (fileNs extra f.package) f.package)
/-- The classes of a file: `printClassDeclaration` (singlefilegenerator.cpp:157-159, multifilegenerator.cpp:137). -/
def File.classes (extra : Str) (f : File) : List Printed := f.messages.flatMap (declare (fileNs extra f.package) f.package)
/-- The class definitions of a file: `printClassDefinition` (singlefilegenerator.cpp:162-163, multifilegenerator.cpp:147-148). -/
def File.definitions (extra : Str) (f : File) : List Printed := f.messages.flatMap (define (fileNs extra f.package) f.package)
/-- The meta types of a file (messagedeclarationprinter.cpp:68-74). -/
def File.metas (f : File) : List Path := f.messages.flatMap (metaTypes f.package)

/-! ### The class of a message -/

/-- What a generated method does to the data members of its object. -/
inductive Act
  | get (member : Str)
  | set (member : Str)
  | signal
deriving DecidableEq, Repr

/-- A method of a generated class: its name, the number of its parameters and what it does. -/
structure Method where
  name : Str
  arity : Nat
  act : Act
deriving DecidableEq, Repr

/-- A Q_PROPERTY: its name and the methods it names after READ and WRITE. -/
structure Property where
  name : Str
  read : Str
  write : Option Str
deriving DecidableEq, Repr

def kQtProtobuf : Str := ['Q', 't', 'P', 'r', 'o', 't', 'o', 'b', 'u', 'f']
def kData : Str := ['D', 'a', 't', 'a']
def kP : Str := ['_', 'p']
def kL : Str := ['_', 'l']
def kSet : Str := ['s', 'e', 't']
def kM : Str := ['m', '_']
def kChanged : Str := ['C', 'h', 'a', 'n', 'g', 'e', 'd']

example : kQtProtobuf = "QtProtobuf".toList := by simp [kQtProtobuf]
example : kChanged = "Changed".toList := by simp [kChanged]

/-- `common::isQtType` (generatorcommon.cpp:268-273); the field is of message type. -/
def isQtType (package : List Str) (f : FieldD) : Bool :=
  (match f.msgType with | some q => q.dropLast == [kQtProtobuf] | none => false) && package != [kQtProtobuf]

/-- `common::isPureMessage` (generatorcommon.cpp:275-278). -/
def isPureMessage (package : List Str) (f : FieldD) : Bool :=
  f.type == .message && !f.isMap && !f.repeated && !isQtType package f

/-- `common::hasQmlAlias` (generatorcommon.cpp:400-407). -/
def hasQmlAlias (qml : Bool) (f : FieldD) : Bool :=
  !f.isMap && !f.repeated && (f.type == .int32 || f.type == .sfixed32 || f.type == .fixed32) && qml

/-- "property_name" of `producePropertyMap` (generatorcommon.cpp:322, 325). -/
def FieldD.prop (f : FieldD) : Str := qualifiedName (lowerCaseName f.camel)

/-- "set$property_name_cap$" (generatorcommon.cpp:323, 326; templates.cpp:88-93). -/
def FieldD.setter (f : FieldD) : Str := kSet ++ upperCaseName f.prop

/-- "m_$property_name$", the data member (templates.cpp:102-104). -/
def FieldD.member (f : FieldD) : Str := kM ++ f.prop

/-- The first loop of `printProperties` (messagedeclarationprinter.cpp:221-238) with the templates (templates.cpp:88-93). -/
def fieldProperty (qml : Bool) (package : List Str) (f : FieldD) : Property :=
  if isPureMessage package f then ⟨f.prop, f.prop ++ kP, some (f.setter ++ kP)⟩
  else if hasQmlAlias qml f then ⟨f.prop ++ kP, f.prop, some f.setter⟩
  else if f.repeated && !f.isMap then
    if f.type == .message then ⟨f.prop ++ kData, f.prop, some f.setter⟩ else ⟨f.prop, f.prop, some f.setter⟩
  else ⟨f.prop, f.prop, some f.setter⟩

/-- The second loop of `printProperties` (messagedeclarationprinter.cpp:241-249) with the templates (templates.cpp:92, 94). -/
def extraProperty (qml : Bool) (f : FieldD) : List Property :=
  if f.type == .message && f.repeated && !f.isMap && qml then [⟨f.prop, f.prop ++ kL, none⟩]
  else if hasQmlAlias qml f then [⟨f.prop, f.prop ++ kP, some (f.setter ++ kP)⟩]
  else []

/-- `MessageDeclarationPrinter::printProperties` (messagedeclarationprinter.cpp:215-252). -/
def properties (qml : Bool) (package : List Str) (fields : List FieldD) : List Property :=
  fields.map (fieldProperty qml package) ++ fields.flatMap (extraProperty qml)

/-- The methods printed for one field: `printGetters` (messagedeclarationprinter.cpp:254-275), `printSetters` (277-299),
`printPrivateGetters` (301-310), `printPrivateSetters` (312-321), `printSignals` (323-330) and `printPrivateMethods` (333-343),
with the templates (templates.cpp:176-236). Constructors, operators and `registerTypes` are left out: their names cannot be the
name of a getter or setter. -/
def fieldMethods (qml : Bool) (package : List Str) (f : FieldD) : List Method :=
  [⟨f.prop, 0, .get f.member⟩] ++
  (if f.repeated then
    [⟨f.prop, 0, .get f.member⟩] ++ (if f.type == .message && !f.isMap && qml then [⟨f.prop ++ kL, 0, .get f.member⟩] else [])
   else []) ++
  [⟨f.setter, 1, .set f.member⟩] ++
  [⟨f.prop ++ kChanged, 0, .signal⟩] ++
  (if isPureMessage package f then [⟨f.prop ++ kP, 0, .get f.member⟩, ⟨f.setter ++ kP, 1, .set f.member⟩] else []) ++
  (if hasQmlAlias qml f then [⟨f.prop ++ kP, 0, .get f.member⟩, ⟨f.setter ++ kP, 1, .set f.member⟩] else [])

/-- All these methods of a class. (The printers print them by kind, here they are listed by field.) -/
def methods (qml : Bool) (package : List Str) (fields : List FieldD) : List Method := fields.flatMap (fieldMethods qml package)

/-- `MessageDeclarationPrinter::printClassMembers` (messagedeclarationprinter.cpp:426-439). -/
def members (fields : List FieldD) : List Str := fields.map FieldD.member

/-- The loop of `MessageDefinitionPrinter::printFieldsOrdering` (messagedefinitionprinter.cpp:94-104), from index `i`. -/
def orderingFrom (i : Nat) : List FieldD → List (Nat × Nat × Str)
  | [] => []
  | f :: fs => (f.number, i + 1, f.json) :: orderingFrom (i + 1) fs

/-- `MessageDefinitionPrinter::printFieldsOrdering` (messagedefinitionprinter.cpp:91-108): field number, property index, JSON name. -/
def ordering (fields : List FieldD) : List (Nat × Nat × Str) := orderingFrom 0 fields

/-- A look-up in the ordering, a `std::unordered_map` made from an initializer list (qtprotobuftypes.h): the first entry of a key
stays. -/
def lookup (table : List (Nat × Nat × Str)) (n : Nat) : Option (Nat × Str) := (table.find? (·.1 == n)).map (·.2)

end QtPb.Gen
