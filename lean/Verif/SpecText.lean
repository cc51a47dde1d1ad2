import Verif.SpecCpp
import Verif.GenPrint
import Verif.SpecComments
/-
What schemas must be like for the theorems about generated text: names are made of letters, digits and underscores and are none of the
words the reader of `SpecCpp` looks for; JSON names have no quotes, backslashes and line breaks; comments stay comments.
-/
namespace QtPb.Gen.Text.Spec
open QtPb.SpecCpp

/-- A name that stays one when its first letter is capitalised. -/
def Named (s : Str) : Prop := Name s ∧ Name (upperCaseName s)

/-- The full name of a type. -/
def NamedPath (q : Option Path) : Prop := q.getD [] ≠ [] ∧ ∀ s ∈ q.getD [], Named s

/-- A field: its name in C++, its JSON name, the names of its types. -/
structure PlainField (f : FieldD) : Prop where
  prop : Named f.prop
  json : ∀ c ∈ f.json, c ≠ '"' ∧ c ≠ '\\' ∧ c ≠ '\n'
  message : f.type = .message → NamedPath f.msgType
  enum : f.type = .enum → NamedPath f.enumType
  map : f.isMap = true → f.type = .message
  noGroup : f.type ≠ .group

/-- The types of the keys of maps. -/
def keyTypes : List FType :=
  [.int32, .int64, .uint32, .uint64, .sint32, .sint64, .fixed32, .fixed64, .sfixed32, .sfixed64, .bool, .string]

/-- An enumeration. -/
def PlainEnum (e : EnumD) : Prop := Named e.name ∧ ∀ v ∈ e.values, Name (upperCaseName v.1)

/-- A comment without dollar signs that does not end the comment of C++ it is printed in. -/
def PlainComment (s : Str) : Prop := '$' ∉ s ∧ ∃ t, Comments.Trimmed s t ∧ Comments.Harmless t

/-- What is known of other types and of the file. -/
structure PlainFile (o : Options) (c : Ctx) : Prop where
  extra : o.extra = [] ∨ Name o.extra
  package : ∀ s ∈ c.package, Named s
  first : ∀ q, Name (c.firstValue q)
  keys : ∀ q, (c.entry q).1.type ∈ keyTypes
  values : ∀ q, PlainField (c.entry q).2
  enums : ∀ q, ∀ e ∈ c.enums q, PlainEnum e
  comments : o.comments = true → ∀ q, PlainComment (c.comment q) ∧ ∀ n, PlainComment (c.fieldComment q n)

mutual
/-- A message, with the messages in it. -/
def PlainMsg : Msg → Prop
  | .mk name fields nested _ => Named name ∧ (∀ f ∈ fields, PlainField f) ∧ PlainMsgs nested
def PlainMsgs : List Msg → Prop
  | [] => True
  | n :: rest => PlainMsg n ∧ PlainMsgs rest
end

mutual
/-- The classes expected for a message, those of nested messages first: the full name of the message, the namespaces and the name of its
class, and its fields. -/
def bodies (ns : List Str) (path : Path) : Msg → List (Printed × List FieldD)
  | .mk name fields nested _ =>
    bodiesList (ns ++ [nestedNs name]) (path ++ [name]) fields nested ++ [(⟨path ++ [name], ns ++ [upperCaseName name]⟩, fields)]
def bodiesList (ns : List Str) (path : Path) (fields : List FieldD) : List Msg → List (Printed × List FieldD)
  | [] => []
  | n :: rest => (if visits fields (path ++ [n.name]) then bodies ns path n else []) ++ bodiesList ns path fields rest
end

mutual
/-- A message and the messages in it that classes are generated for, with their full names and fields, outer ones first. -/
def messagesOf (path : Path) : Msg → List (Path × List FieldD)
  | .mk name fields nested _ => (path ++ [name], fields) :: messagesOfList (path ++ [name]) fields nested
def messagesOfList (path : Path) (fields : List FieldD) : List Msg → List (Path × List FieldD)
  | [] => []
  | n :: rest => (if visits fields (path ++ [n.name]) then messagesOf path n else []) ++ messagesOfList path fields rest
end

/-! ### The types of properties -/

/-- The C++ types of the scalars of protobuf. -/
def scalarName : FType → List Str
  | .double => [text! "double"] | .float => [text! "float"] | .bool => [text! "bool"]
  | .string => [text! "QString"] | .bytes => [text! "QByteArray"]
  | .int32 => [kQtProtobuf, text! "int32"] | .int64 => [kQtProtobuf, text! "int64"]
  | .uint32 => [kQtProtobuf, text! "uint32"] | .uint64 => [kQtProtobuf, text! "uint64"]
  | .sint32 => [kQtProtobuf, text! "sint32"] | .sint64 => [kQtProtobuf, text! "sint64"]
  | .fixed32 => [kQtProtobuf, text! "fixed32"] | .fixed64 => [kQtProtobuf, text! "fixed64"]
  | .sfixed32 => [kQtProtobuf, text! "sfixed32"] | .sfixed64 => [kQtProtobuf, text! "sfixed64"]
  | .message => [] | .enum => [] | .group => []

/-- The types of lists of them. -/
def scalarListName : FType → List Str
  | .double => [kQtProtobuf, text! "DoubleList"] | .float => [kQtProtobuf, text! "FloatList"] | .bool => [kQtProtobuf, text! "BoolList"]
  | .string => [text! "QStringList"] | .bytes => [text! "QByteArrayList"]
  | .int32 => [kQtProtobuf, text! "int32List"] | .int64 => [kQtProtobuf, text! "int64List"]
  | .uint32 => [kQtProtobuf, text! "uint32List"] | .uint64 => [kQtProtobuf, text! "uint64List"]
  | .sint32 => [kQtProtobuf, text! "sint32List"] | .sint64 => [kQtProtobuf, text! "sint64List"]
  | .fixed32 => [kQtProtobuf, text! "fixed32List"] | .fixed64 => [kQtProtobuf, text! "fixed64List"]
  | .sfixed32 => [kQtProtobuf, text! "sfixed32List"] | .sfixed64 => [kQtProtobuf, text! "sfixed64List"]
  | .message => [] | .enum => [] | .group => []

def extraNs (o : Options) : List Str := if o.extra = [] then [] else [o.extra]

/-- The class of a message, or of a list of them with the suffix: its full name in protobuf with a capital, in the extra namespace. -/
def typeName (o : Options) (q : Path) (suffix : Str) : List Str := extraNs o ++ q.dropLast ++ [upperCaseName (q.getLastD []) ++ suffix]

/-- An enumeration: inside of its message it is not qualified; a top-level one is in its class. -/
def enumName (o : Options) (q : Path) : EnumVisibility → List Str
  | .local => [upperCaseName (q.getLastD [])]
  | .neighbor => typeName o q []
  | .global => extraNs o ++ q.dropLast ++ [upperCaseName (q.getLastD []) ++ kGadget, upperCaseName (q.getLastD [])]

/-- A list of an enumeration. -/
def enumListName (o : Options) (q : Path) : EnumVisibility → List Str
  | .global => extraNs o ++ q.dropLast ++ [upperCaseName (q.getLastD []) ++ kGadget, upperCaseName (q.getLastD []) ++ kRepeated]
  | _ => typeName o q kRepeated

/-- The type of one message. -/
def messageType (o : Options) (c : Ctx) (f : FieldD) : List Lexeme :=
  let q := f.msgType.getD []
  if isQtType c.package f then [.word (q.getLastD [])] else qualified (typeName o q [])

/-- The type of the property of a field in the class of the message `scope`. -/
def propertyType (o : Options) (c : Ctx) (scope : Path) (f : FieldD) : List Lexeme :=
  let list := f.repeated && !f.isMap
  match f.type with
  | .message =>
    if list then
      (if isQtType c.package f then [.word (text! "QList"), .punct '<', .word kRepeated, .punct '>']
       else qualified (typeName o (f.msgType.getD []) kRepeated))
    else messageType o c f ++ (if isPureMessage c.package f then [.punct '*'] else [])
  | .enum =>
    let q := f.enumType.getD []
    qualified (if list then enumListName o q (c.visibility scope q) else enumName o q (c.visibility scope q))
  | t => qualified (if list then scalarListName t else scalarName t)

/-- The type of the second property of a field. -/
def extraType (o : Options) (c : Ctx) (f : FieldD) : List Lexeme :=
  match f.type with
  | .message => [.word (text! "QQmlListProperty"), .punct '<'] ++ messageType o c f ++ [.punct '>']
  | .fixed32 => [.word (text! "unsigned"), .word (text! "int")]
  | _ => [.word (text! "int")]

/-- The signal of the properties of a field. -/
def signalName (f : FieldD) : Str := f.prop ++ text! "Changed"

/-- Whether QML sees the property of a field: it does not know signed integers of 64 bits; for some types there is a second property in
its place; nothing is said for one message. -/
def scriptable (o : Options) (c : Ctx) (f : FieldD) : Option Str :=
  if isPureMessage c.package f then none
  else if hasQmlAlias o.qml f then some (text! "false")
  else if f.isMap || f.repeated then some (text! "true")
  else some (if [FType.int64, .sint64, .fixed64, .sfixed64].contains f.type then text! "false" else text! "true")

/-- And its second property. -/
def extraScriptable (f : FieldD) : Option Str := if f.type = .message then none else some (text! "true")

/-- The properties expected in the class of a message: names and methods are those of `Gen.properties`. -/
def expected (o : Options) (c : Ctx) (scope : Path) (fields : List FieldD) : List Prop' :=
  (fields.map fun f =>
    let p := fieldProperty o.qml c.package f
    ⟨propertyType o c scope f, p.name, p.read, p.write, some (signalName f), scriptable o c f⟩) ++
  fields.flatMap fun f => (extraProperty o.qml f).map fun p =>
    ⟨extraType o c f, p.name, p.read, p.write, some (signalName f), extraScriptable f⟩

/-! ### Functions -/

/-- The getters of a field. -/
def gettersOf (o : Options) (f : FieldD) : List Str :=
  if f.repeated then
    (if f.type == .message && !f.isMap && o.qml then [f.prop, f.prop, f.prop ++ text! "_l"] else [f.prop, f.prop])
  else [f.prop]

/-- The public functions of the class of a message: a constructor for every number of fields given (in front of the rest), for Timestamp a
constructor and an operator for QDateTime, the destructor (the reader does not see the tilde), the constructors that copy and move,
getters, setters, the registration. -/
def publicOf (o : Options) (b : Printed × List FieldD) : List Str :=
  let name := b.1.cpp.getLastD []
  List.replicate (b.2.length + 1) name ++
  (if b.1.msg = [text! "google", text! "protobuf", text! "Timestamp"] then [text! "Timestamp", text! "QDateTime"] else []) ++
  [name, name, name] ++ b.2.flatMap (gettersOf o) ++ b.2.map (·.setter) ++ [text! "registerTypes"]

/-- The private ones: those of the properties of single messages, of which the public functions take values, and those of the second
properties for QML. -/
def privateOf (o : Options) (c : Ctx) (fields : List FieldD) : List Str :=
  (fields.filter (isPureMessage c.package)).map (fun f => f.prop ++ text! "_p") ++
  (fields.filter (isPureMessage c.package)).map (fun f => f.setter ++ text! "_p") ++
  (fields.filter (hasQmlAlias o.qml)).flatMap fun f => [f.prop ++ text! "_p", f.setter ++ text! "_p"]

/-- The functions of the class of a message with their sections; the macro in front is a function for the reader. -/
def membersOf (o : Options) (c : Ctx) (b : Printed × List FieldD) : List (Str × Str) :=
  [(kwPrivate, text! "Q_DECLARE_PROTOBUF_SERIALIZERS")] ++ (publicOf o b).map (kwPublic, ·) ++
  (b.2.map signalName).map (kwSignals, ·) ++ (privateOf o c b.2).map (kwPrivate, ·)

/-- Those of the class of a top-level enumeration: it cannot be made. -/
def gadgetMembers (e : EnumD) : List (Str × Str) :=
  (kwPublic, text! "registerTypes") :: List.replicate 3 (kwPrivate, upperCaseName e.name ++ text! "Gadget")

/-- Those of a client: the constructor; for a method three functions of its name (and two for QML), for a stream two, of its name with
`stream` (and a private one for QML). -/
def clientMembers (o : Options) (s : ServiceText) : List (Str × Str) :=
  [(kwPublic, upperCaseName s.name ++ text! "Client")] ++
  (s.methods.flatMap fun d =>
    if d.streaming then List.replicate 2 (kwPublic, text! "stream" ++ upperCaseName d.name)
    else List.replicate (if o.qml then 5 else 3) (kwPublic, d.name)) ++
  (s.methods.filter fun d => d.streaming && o.qml).map fun d => (kwPrivate, text! "qmlStream" ++ upperCaseName d.name ++ text! "_p")

/-! ### Meta types and enumerations -/

/-- The types declared to the meta-type system for a message: its class, the list of it (and the list for QML), enumerations of the
message that are used in it, types of maps. -/
def declared (o : Options) (c : Ctx) (b : Path × List FieldD) : List (List Lexeme) :=
  [qualified (typeName o b.1 []), qualified (typeName o b.1 kRepeated)] ++
  (if o.qml then [[.word (text! "QQmlListProperty"), .punct '<'] ++ qualified (typeName o b.1 []) ++ [.punct '>']] else []) ++
  b.2.flatMap fun f =>
    let q := f.enumType.getD []
    if f.type == .enum && c.visibility b.1 q == .local then [qualified (typeName o q []), qualified (typeName o q kRepeated)]
    else if f.isMap then [messageType o c f]
    else []

/-- The enumerations of a class: the numbers of the fields if that is asked for, the enumerations of the message. -/
def enumsOf (o : Options) (c : Ctx) (path : Path) : List Str :=
  (if o.fieldEnum then [text! "QtProtobufFieldEnum"] else []) ++ (c.enums path).map fun e => upperCaseName e.name

/-- The namespaces around what is generated for a file. -/
def around (o : Options) (c : Ctx) : List Str := extraNs o ++ c.package

/-- The class of a top-level enumeration. -/
def gadgetClass (o : Options) (c : Ctx) (e : EnumD) : List Str := around o c ++ [upperCaseName e.name ++ kGadget]

/-- What may stand between quotes. -/
def Includable (s : Str) : Prop := ∀ x ∈ s, x ≠ '"' ∧ x ≠ '\\' ∧ x ≠ '\n'

/-- A method of a service. -/
structure PlainMethod (d : MethodD) : Prop where
  name : Named d.name
  input : d.input ≠ [] ∧ ∀ s ∈ d.input, Named s
  output : d.output ≠ [] ∧ ∀ s ∈ d.output, Named s

/-- A service whose names are plain. -/
def PlainService (s : ServiceText) : Prop := Named s.name ∧ ∀ d ∈ s.methods, PlainMethod d

end QtPb.Gen.Text.Spec
