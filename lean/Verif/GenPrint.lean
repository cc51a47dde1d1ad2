import Verif.GenTemplates
import Verif.GenComments
import Verif.GenNames
import Verif.GenMembers
import Verif.GenQml
/-
Model of the text that the generator prints for messages, enumerations and clients: what the printers of src/generator pass to
`google::protobuf::io::Printer`, call by call, and what the Printer makes of it.
-/
namespace QtPb.Gen.Text
open QtPb.Gen

/-! ### google::protobuf::io::Printer -/

/-- The variables of a call of `Print`: a `std::map<std::string, std::string>`; of two entries with one name the first counts. -/
abbrev Vars := List (Str × Str)

def Vars.get (vars : Vars) (x : Str) : Option Str := (vars.find? (·.1 == x)).map (·.2)

/-- A piece of a template: a character or the name of a variable. -/
inductive Tok
  | ch (c : Char)
  | var (x : Str)
deriving DecidableEq, Repr

/-- `Printer::Print` cuts the template at `$` signs: between two of them is the name of a variable, `$$` stands for `$`. Without
the second one ("Unclosed variable name") there is none. The first argument is the name that is being read. -/
def tokens : Option Str → Str → Option (List Tok)
  | none, [] => some []
  | some _, [] => none
  | none, c :: s => if c = '$' then tokens (some []) s else (tokens none s).map (.ch c :: ·)
  | some n, c :: s =>
    if c = '$' then (tokens none s).map ((if n = [] then .ch '$' else .var n) :: ·)
    else tokens (some (n ++ [c])) s

/-- The indentation in front of the first character of a line. -/
def margin (indent : Nat) (start : Bool) : Str := if start then List.replicate indent ' ' else []

/-- What one piece puts out, and whether a line begins after it (`Printer::WriteRaw`: a value is written in one go; indentation is
put in front of what begins a line, unless that is empty or begins with a newline). None: "Undefined variable". -/
def emitTok (vars : Vars) (indent : Nat) (start : Bool) : Tok → Option (Str × Bool)
  | .ch c => if c = '\n' then some ([c], true) else some (margin indent start ++ [c], false)
  | .var x =>
    match vars.get x with
    | none => none
    | some [] => some ([], start)
    | some (c :: v) => if start ∧ c = '\n' then some (c :: v, true) else some (margin indent start ++ c :: v, false)

def emitToks (vars : Vars) (indent : Nat) : Bool → List Tok → Option (Str × Bool)
  | start, [] => some ([], start)
  | start, t :: ts =>
    match emitTok vars indent start t with
    | none => none
    | some (a, start') =>
      match emitToks vars indent start' ts with
      | none => none
      | some (b, start'') => some (a ++ b, start'')

/-- A call of the Printer: `Print(vars, text)`, `Indent()`, `Outdent()`. -/
inductive Op
  | print (vars : Vars) (text : Str)
  | indent
  | outdent

/-- The calls one after the other: the text that is put out, the indentation and whether a line begins. `Indent` adds two blanks;
`Outdent` without `Indent` is reported with GOOGLE_LOG(DFATAL), here none. -/
def run : Nat → Bool → List Op → Option (Str × Nat × Bool)
  | n, start, [] => some ([], n, start)
  | n, start, .print vars text :: ops =>
    match tokens none text with
    | none => none
    | some ts =>
      match emitToks vars n start ts with
      | none => none
      | some (a, start') =>
        match run n start' ops with
        | none => none
        | some (b, n', start'') => some (a ++ b, n', start'')
  | n, start, .indent :: ops => run (n + 2) start ops
  | n, start, .outdent :: ops => if n < 2 then none else run (n - 2) start ops

/-- The text of a file: a new Printer, and these calls. -/
def printed (ops : List Op) : Option Str := (run 0 true ops).map (·.1)

/-- `BasePrinter::Indent` (baseprinter.h:95-98) and `Outdent` (100-103) around some calls. -/
def indented (ops : List Op) : List Op := [.indent, .indent] ++ ops ++ [.outdent, .outdent]

/-! ### The maps of variables -/

/-- What the generator asks of descriptors other than the message it prints. -/
structure Ctx where
  /-- The package of the file that is printed, by components. -/
  package : List Str
  /-- `file()->package()` of a message or enumeration type. -/
  packageOf : Path → Str
  /-- `common::isNested` of a message type (generatorcommon.cpp:472-490). -/
  nestedType : Path → Bool
  /-- `common::enumVisibility` of an enumeration, from a message (generatorcommon.cpp:378-398). -/
  visibility : Path → Path → EnumVisibility
  /-- The name of the first value of an enumeration. -/
  firstValue : Path → Str
  /-- The fields of the entry type of a map. -/
  entry : Path → FieldD × FieldD
  /-- The enumerations declared in a message. -/
  enums : Path → List EnumD
  /-- The leading comments of a message, and of a field by its number. -/
  comment : Path → Str
  fieldComment : Path → Nat → Str

/-- A name in the text form of protobuf: components separated by dots. -/
def dots (p : Path) : Str := getNamespacesString ['.'] p

/-- `full_name()`, `name()` and `file()->package()` of a type. -/
def typeD (c : Ctx) (p : Path) : TypeD := ⟨dots p, p.getLastD [], c.packageOf p⟩

/-- `common::produceMessageTypeMap` (generatorcommon.cpp:95-134) as variables. -/
def messageVars (o : Options) (c : Ctx) (p : Path) (scope : Option Path) : Vars :=
  let m := messageTypeMap o.extra (typeD c p) (c.nestedType p) (scope.map (typeD c))
  [(text! "classname", m.type), (text! "type", m.type), (text! "full_type", m.full_type), (text! "scope_type", m.scope_type),
   (text! "list_type", m.list_type), (text! "full_list_type", m.full_list_type), (text! "scope_list_type", m.scope_list_type),
   (text! "namespaces", m.namespaces), (text! "scope_namespaces", m.scope_namespaces),
   (text! "qml_package", qmlPackage o.extra (typeD c p)),
   (text! "property_type", m.full_type), (text! "property_list_type", m.full_list_type), (text! "getter_type", m.scope_type),
   (text! "setter_type", m.scope_type)]

/-- "enum_gadget" (generatorcommon.cpp:156-183): the class of the enumeration, or the message it is used in. -/
def gadgetName (name : Str) (vis : EnumVisibility) (scope : Option Path) : Str :=
  if vis = .global then name ++ kGadget else upperCaseName ((scope.getD []).getLastD [])

/-- `common::produceEnumTypeMap` (generatorcommon.cpp:136-186) as variables. -/
def enumVars (o : Options) (c : Ctx) (p : Path) (scope : Option Path) (vis : EnumVisibility) : Vars :=
  let m := enumTypeMap o.extra (typeD c p) vis (scope.map (typeD c))
  let gadget := gadgetName m.type vis scope
  [(text! "classname", gadget), (text! "type", m.type), (text! "full_type", m.full_type), (text! "scope_type", m.scope_type),
   (text! "list_type", m.list_type), (text! "full_list_type", m.full_list_type), (text! "scope_list_type", m.scope_list_type),
   (text! "namespaces", m.namespaces), (text! "scope_namespaces", m.scope_namespaces),
   (text! "qml_package", qmlPackage o.extra (typeD c p)),
   (text! "property_type", if vis = .local then m.type else m.full_type), (text! "property_list_type", m.full_list_type),
   (text! "getter_type", m.scope_type), (text! "setter_type", m.scope_type), (text! "enum_gadget", gadget)]

/-- `common::produceQtTypeMap` (generatorcommon.cpp:63-93) as variables; the scope is always null (284). -/
def qtVars (c : Ctx) (p : Path) : Vars :=
  let t := typeD c p
  let list := text! "QList<" ++ kRepeated ++ text! ">"
  let ns := getNamespacesString kScope (getNamespaces (some t))
  [(text! "type", t.name), (text! "full_type", t.name), (text! "scope_type", t.name),
   (text! "list_type", list), (text! "full_list_type", list), (text! "scope_list_type", list),
   (text! "namespaces", ns), (text! "scope_namespaces", ns), (text! "qml_package", qmlPackage [] t),
   (text! "property_type", t.name), (text! "property_list_type", list), (text! "getter_type", t.name),
   (text! "setter_type", t.name)]

/-- `Templates::TypeReflection` (templates.cpp:402-418). -/
def reflection : FType → Str
  | .double => text! "double" | .float => text! "float" | .int64 => text! "int64" | .uint64 => text! "uint64" | .int32 => text! "int32"
  | .fixed64 => text! "fixed64" | .fixed32 => text! "fixed32" | .bool => text! "bool" | .string => text! "QString"
  | .bytes => text! "QByteArray" | .uint32 => text! "uint32" | .sfixed32 => text! "sfixed32" | .sfixed64 => text! "sfixed64"
  | .sint32 => text! "sint32" | .sint64 => text! "sint64" | .group => [] | .message => [] | .enum => []

/-- `common::produceSimpleTypeMap` (generatorcommon.cpp:188-266) as variables. -/
def simpleVars (t : FType) : Vars :=
  let own := t == .string || t == .bytes
  let plain := own || t == .bool || t == .float || t == .double
  let ns := if plain then [] else kQtProtobuf
  let name := reflection t
  let full := qualify ns name
  let list := (if t == .float || t == .double || t == .bool then upperCaseName name else name) ++ text! "List"
  let fullList := if own then list else kQtProtobuf ++ kScope ++ list
  let alias := if t == .int32 || t == .sfixed32 then text! "int" else if t == .fixed32 then text! "unsigned int" else full
  let getter :=
    if t == .int32 || t == .fixed32 || t == .sfixed32 || t == .int64 || t == .fixed64 || t == .sfixed64 then text! "const " ++ full
    else full
  [(text! "type", name), (text! "full_type", full), (text! "scope_type", full), (text! "list_type", list),
   (text! "full_list_type", fullList), (text! "scope_list_type", fullList), (text! "namespaces", ns), (text! "scope_namespaces", ns),
   (text! "qml_package", kQtProtobuf), (text! "property_type", full), (text! "qml_alias_type", alias),
   (text! "property_list_type", fullList), (text! "getter_type", getter), (text! "setter_type", full)]

/-- `common::produceTypeMap` (generatorcommon.cpp:280-305) as variables. -/
def typeVars (o : Options) (c : Ctx) (scope : Path) (f : FieldD) : Vars :=
  match f.type with
  | .message =>
    if isQtType c.package f then qtVars c (f.msgType.getD []) else messageVars o c (f.msgType.getD []) (some scope)
  | .enum => enumVars o c (f.enumType.getD []) (some scope) (c.visibility scope (f.enumType.getD []))
  | t => simpleVars t

/-- A value of a map of variables ("" if there is none, as `operator []` has it). -/
def Vars.val (vars : Vars) (x : Str) : Str := (vars.get x).getD []

/-- `common::producePropertyMap` (generatorcommon.cpp:307-348). What is assigned later stands in front. -/
def propertyVars (o : Options) (c : Ctx) (scope : Path) (f : FieldD) : Vars :=
  let typeMap := typeVars o c scope f
  let scriptable :=
    if !f.isMap && !f.repeated && (f.type == .int64 || f.type == .sint64 || f.type == .fixed64 || f.type == .sfixed64) then text! "false"
    else text! "true"
  let base : Vars :=
    [(text! "property_name", f.prop), (text! "property_name_cap", upperCaseName f.prop), (text! "scriptable", scriptable),
     (text! "classname", (messageVars o c scope none).val (text! "classname")), (text! "number", (toString f.number).toList)]
  if f.isMap then
    let e := c.entry (f.msgType.getD [])
    let key := typeVars o c scope e.1
    let value := typeVars o c scope e.2
    [(text! "key_type", key.val (text! "scope_type")), (text! "value_type", value.val (text! "scope_type")),
     (text! "value_list_type", value.val (text! "scope_list_type"))] ++ base ++ typeMap
  else if f.repeated then
    [(text! "getter_type", typeMap.val (text! "scope_list_type")), (text! "setter_type", typeMap.val (text! "scope_list_type")),
     (text! "key_type", []), (text! "value_type", [])] ++ base ++ typeMap
  else [(text! "key_type", []), (text! "value_type", [])] ++ base ++ typeMap

/-! ### DescriptorPrinterBase, BasePrinter -/

/-- `DescriptorPrinterBase::printNamespaces` (descriptorprinterbase.h:62-71). -/
def printNamespaces (namespaces : List Str) : List Op :=
  .print [] (text! "\n") :: namespaces.map fun ns => .print [(text! "namespace", ns)] tNamespaceTemplate

/-- `DescriptorPrinterBase::encloseNamespaces` (descriptorprinterbase.h:73-83). -/
def encloseNamespaces (namespaces : List Str) : List Op :=
  [.print [] (text! "\n")] ++ namespaces.map (fun _ => .print [] tSimpleBlockEnclosureTemplate) ++ [.print [] (text! "\n")]

/-- `DescriptorPrinterBase::encloseClass` (descriptorprinterbase.h:57-60). -/
def encloseClass : List Op := [.print [] tSemicolonBlockEnclosureTemplate, .print [] (text! "\n")]

/-- `BasePrinter::printComments` (baseprinter.h:63-93); the calls are those of `Comments.printCalls`. -/
def printComments (o : Options) (comment : Str) : List Op := (Comments.printCalls o.comments comment).map (.print [])

/-! ### MessageDeclarationPrinter -/

/-- The namespaces around a top-level message (descriptorprinterbase.h:62-66). -/
def outerNs (o : Options) (c : Ctx) : List Str := fileNs o.extra c.package

/-- The message that is printed: its full name, `field(i)` and `nested_type(i)`, as `Msg` has them. -/
structure Cur where
  path : Path
  fields : List FieldD

/-- `MessageDeclarationPrinter::printConstructor` (messagedeclarationprinter.cpp:132-152), the template of a parameter. -/
def parameterTemplate (f : FieldD) : Str :=
  if f.repeated && !f.isMap then tConstructorRepeatedParameterTemplate
  else if f.type == .bytes || f.type == .string || f.type == .message || f.isMap then tConstructorMessageParameterTemplate
  else tConstructorParameterTemplate

section
variable (o : Options) (c : Ctx) (m : Cur)

/-- The map of the message itself (messagedeclarationprinter.cpp:43, messagedefinitionprinter.cpp:37). -/
def own : Vars := messageVars o c m.path none

def pv (f : FieldD) : Vars := propertyVars o c m.path f

/-- `printConstructor` (messagedeclarationprinter.cpp:132-152). -/
def declConstructor (n : Nat) : List Op :=
  [.print (own o c m) tProtoConstructorBeginTemplate] ++
  (m.fields.take n).map (fun f => .print (pv o c m f) (parameterTemplate f)) ++
  [.print (own o c m) tProtoConstructorEndTemplate]

/-- `full_name() == "google.protobuf.Timestamp"` (messagedeclarationprinter.cpp:127, messagedefinitionprinter.cpp:119). -/
def isTimestamp : Bool := m.path == [text! "google", text! "protobuf", text! "Timestamp"]

/-- The text printed for google.protobuf.Timestamp (messagedeclarationprinter.cpp:128-129). -/
def kTimestampDecl : Str := text! "Timestamp(const QDateTime &datetime, QObject *parent = nullptr);\noperator QDateTime() const;\n"

/-- `printConstructors` (messagedeclarationprinter.cpp:121-131). -/
def declConstructors : List Op :=
  ((List.range (m.fields.length + 1)).flatMap (declConstructor o c m)) ++
  (if isTimestamp m then [.print [] kTimestampDecl] else [])

/-- `printMaps` (messagedeclarationprinter.cpp:154-166). -/
def printMaps : List Op :=
  indented (m.fields.flatMap fun f =>
    if f.isMap then
      [.print (pv o c m f)
        (if (c.entry (f.msgType.getD [])).2.type == .message then tMessageMapTypeUsingTemplate else tMapTypeUsingTemplate)]
    else [])

/-- `printNested` (messagedeclarationprinter.cpp:168-175). -/
def printNested (nested : List Msg) : List Op :=
  indented (nested.flatMap fun n =>
    if visits m.fields (m.path ++ [n.name]) then
      [.print (messageVars o c (m.path ++ [n.name]) (some m.path)) tNestedMessageUsingTemplate]
    else [])

/-- The template of the first loop of `printProperties` (messagedeclarationprinter.cpp:221-238). -/
def propertyTemplate (f : FieldD) : Str :=
  if isPureMessage c.package f then tMessagePropertyTemplate
  else if hasQmlAlias o.qml f then tNonScriptablePropertyTemplate
  else if f.repeated && !f.isMap then
    (if f.type == .message then tRepeatedMessagePropertyTemplate else tRepeatedPropertyTemplate)
  else tPropertyTemplate

/-- The second loop of `printProperties` (messagedeclarationprinter.cpp:241-249). -/
def extraPropertyOps (f : FieldD) : List Op :=
  if f.type == .message && f.repeated && !f.isMap && o.qml then [.print (pv o c m f) tQmlListPropertyTemplate]
  else if hasQmlAlias o.qml f then [.print (pv o c m f) tNonScriptableAliasPropertyTemplate]
  else []

/-- `printProperties` (messagedeclarationprinter.cpp:215-252). -/
def printProperties : List Op :=
  indented ((m.fields.map fun f => .print (pv o c m f) (propertyTemplate o c f)) ++ m.fields.flatMap (extraPropertyOps o c m))

/-- The body of the loop of `printGetters` (messagedeclarationprinter.cpp:257-273). -/
def getterOps (f : FieldD) : List Op :=
  printComments o (c.fieldComment m.path f.number) ++ [.print [] (text! "\n")] ++
  [.print (pv o c m f) (if isPureMessage c.package f then tGetterMessageDeclarationTemplate else tGetterTemplate)] ++
  (if f.repeated then
    [.print (pv o c m f) tGetterContainerExtraTemplate] ++
    (if f.type == .message && !f.isMap && o.qml then [.print (pv o c m f) tGetterQmlListDeclarationTemplate] else [])
   else [])

/-- `printGetters` (messagedeclarationprinter.cpp:254-275). -/
def declGetters : List Op := indented (m.fields.flatMap (getterOps o c m))

/-- The template of `printSetters` (messagedeclarationprinter.cpp:280-296). -/
def setterTemplate (f : FieldD) : Str :=
  match f.type with
  | .message =>
    if !f.isMap && !f.repeated && !isQtType c.package f then tSetterTemplateDeclarationMessageType
    else tSetterTemplateDeclarationComplexType
  | .string => tSetterTemplateDeclarationComplexType
  | .bytes => tSetterTemplateDeclarationComplexType
  | _ => tSetterTemplate

/-- `printSetters` (messagedeclarationprinter.cpp:277-299). -/
def declSetters : List Op := indented (m.fields.map fun f => .print (pv o c m f) (setterTemplate c f))

/-- `printPrivateGetters` (messagedeclarationprinter.cpp:301-310). -/
def printPrivateGetters : List Op :=
  indented (m.fields.flatMap fun f =>
    if isPureMessage c.package f then [.print (pv o c m f) tGetterPrivateMessageDeclarationTemplate] else [])

/-- `printPrivateSetters` (messagedeclarationprinter.cpp:312-321). -/
def printPrivateSetters : List Op :=
  indented (m.fields.flatMap fun f =>
    if isPureMessage c.package f then [.print (pv o c m f) tSetterPrivateTemplateDeclarationMessageType] else [])

/-- `printSignals` (messagedeclarationprinter.cpp:323-330). -/
def printSignals : List Op := indented (m.fields.map fun f => .print (pv o c m f) tSignalTemplate)

/-- `printPrivateMethods` (messagedeclarationprinter.cpp:333-343). -/
def printPrivateMethods : List Op :=
  indented (m.fields.flatMap fun f =>
    if hasQmlAlias o.qml f then
      [.print (pv o c m f) tNonScriptableGetterTemplate, .print (pv o c m f) tNonScriptableSetterTemplate]
    else [])

/-- `printFieldEnum` (messagedeclarationprinter.cpp:446-458). -/
def printFieldEnum : List Op :=
  indented ([.print [] tFieldEnumTemplate] ++ indented (m.fields.map fun f => .print (pv o c m f) tFieldNumberTemplate) ++
    [.print [] tSemicolonBlockEnclosureTemplate])

/-- The values of an enumeration (messagedeclarationprinter.cpp:365-369, enumdeclarationprinter.cpp:59-63). -/
def enumValueOps (values : List (Str × Int)) : List Op :=
  values.map fun v =>
    .print [(text! "enumvalue", upperCaseName v.1), (text! "value", (toString v.2).toList)] tEnumFieldTemplate

/-- The map of an enumeration declared in the message (messagedeclarationprinter.cpp:361, 377): it is local (generatorcommon.cpp:362-376). -/
def localEnumVars (e : EnumD) : Vars := enumVars o c (m.path ++ [e.name]) (some m.path) .local

/-- The first loop of `printQEnums` (messagedeclarationprinter.cpp:359-373). -/
def qenumOps (e : EnumD) : List Op :=
  [.print (localEnumVars o c m e) tEnumDefinitionTemplate] ++ indented (enumValueOps e.values) ++
  [.print [] tSemicolonBlockEnclosureTemplate, .print (localEnumVars o c m e) tQEnumTemplate]

/-- `printQEnums` (messagedeclarationprinter.cpp:345-381). -/
def printQEnums : List Op :=
  (if o.fieldEnum then
    printFieldEnum o c m ++ indented [.print [(text! "type", kFieldEnumType)] tQEnumTemplate] ++ [.print [] (text! "\n")]
   else []) ++
  (if (c.enums m.path).isEmpty then []
   else indented ((c.enums m.path).flatMap (qenumOps o c m) ++
      (c.enums m.path).map fun e => .print (localEnumVars o c m e) tEnumTypeRepeatedTemplate))

/-- `printDestructor` (messagedeclarationprinter.cpp:441-444), `printCopyFunctionality` (92-100), `printMoveSemantic` (102-110) and
`printComparisonOperators` (112-119). -/
def declSpecial : List Op :=
  [.print (own o c m) (text! "virtual ~$classname$();\n"),
   .print (own o c m) tCopyConstructorDeclarationTemplate, .print (own o c m) tAssignmentOperatorDeclarationTemplate,
   .print (own o c m) tMoveConstructorDeclarationTemplate, .print (own o c m) tMoveAssignmentOperatorDeclarationTemplate,
   .print (own o c m) tEqualOperatorDeclarationTemplate, .print (own o c m) tNotEqualOperatorDeclarationTemplate]

/-- `printClassMembers` (messagedeclarationprinter.cpp:426-439). -/
def printClassMembers : List Op :=
  indented (m.fields.map fun f =>
    .print (pv o c m f)
      (if isPureMessage c.package f then tComplexMemberTemplate
       else if f.repeated && !f.isMap then tListMemberTemplate else tMemberTemplate))

/-- `printClassBody` (messagedeclarationprinter.cpp:383-419). -/
def printClassBody (nested : List Msg) : List Op :=
  printProperties o c m ++ [.print [] tPublicBlockTemplate] ++ printQEnums o c m ++ printNested o c m nested ++ printMaps o c m ++
  indented (declConstructors o c m ++ declSpecial o c m) ++
  declGetters o c m ++ declSetters o c m ++
  indented [.print (own o c m) tManualRegistrationDeclaration] ++
  [.print [] tSignalsBlockTemplate] ++ printSignals o c m ++
  [.print [] tPrivateBlockTemplate] ++ printPrivateGetters o c m ++ printPrivateSetters o c m ++ printPrivateMethods o c m ++
  [.print [] tPrivateBlockTemplate] ++ printClassMembers o c m

/-- `printClassDeclarationPrivate` after the nested messages (messagedeclarationprinter.cpp:85-89). -/
def declClass (nested : List Msg) : List Op :=
  printComments o (c.comment m.path) ++ [.print (own o c m) tProtoClassDeclarationBeginTemplate] ++ printClassBody o c m nested ++
  encloseClass ++ [.print (own o c m) tComplexListTypeUsingTemplate]

/-- `utils::replace(…, "::", "_")` (utils.h:70-76). -/
def underscore (s : Str) : Str := Comments.replace kScope ['_'] s

/-- The body of the loop over fields of `printMetaTypesDeclaration` (messagedeclarationprinter.cpp:193-207). -/
def metaTypeOps (f : FieldD) : List Op :=
  if f.type == .enum && c.visibility m.path (f.enumType.getD []) == .local then
    [.print (pv o c m f) tDeclareMetaTypeTemplate, .print (pv o c m f) tDeclareMetaTypeListTemplate]
  else if f.isMap then
    let vars := pv o c m f
    let key := underscore (vars.val (text! "key_type"))
    [.print ([(text! "key_type_underscore", key), (text! "value_type_underscore", key)] ++ vars) tDeclareMetaTypeMapTemplate]
  else []

/-- `printMetaTypesDeclaration` without the nested messages (messagedeclarationprinter.cpp:184-207). -/
def ownMetaTypes : List Op :=
  [.print (own o c m) tDeclareMetaTypeTemplate, .print (own o c m) tDeclareComplexListTypeTemplate] ++
  (if o.qml then [.print (own o c m) tDeclareComplexQmlListTypeTemplate] else []) ++
  m.fields.flatMap (metaTypeOps o c m)

/-- The namespace around nested messages (messagedeclarationprinter.cpp:49, 78; messagedefinitionprinter.cpp:43). -/
def openNested : Op := .print [(text! "namespace", (own o c m).val (text! "classname") ++ kNested)] tNamespaceTemplate

end

mutual
/-- `printClassDeclarationPrivate` (messagedeclarationprinter.cpp:76-90). -/
def declareOps (o : Options) (c : Ctx) (path : Path) : Msg → List Op
  | .mk name fields nested _ =>
    let m : Cur := ⟨path ++ [name], fields⟩
    [openNested o c m] ++ declareOpsList o c m nested ++ [.print [] tSimpleBlockEnclosureTemplate] ++ declClass o c m nested
/-- `iterateNestedMessages` with `printClassDeclarationPrivate` (messagedeclarationprinter.cpp:79-82). -/
def declareOpsList (o : Options) (c : Ctx) (m : Cur) : List Msg → List Op
  | [] => []
  | n :: rest => (if visits m.fields (m.path ++ [n.name]) then declareOps o c m.path n else []) ++ declareOpsList o c m rest
end

mutual
/-- `printMetaTypesDeclaration` (messagedeclarationprinter.cpp:182-213). -/
def metaOps (o : Options) (c : Ctx) (path : Path) : Msg → List Op
  | .mk name fields nested _ =>
    let m : Cur := ⟨path ++ [name], fields⟩
    ownMetaTypes o c m ++ metaOpsList o c m nested
/-- `iterateNestedMessages` with `printMetaTypesDeclaration` (messagedeclarationprinter.cpp:209-212). -/
def metaOpsList (o : Options) (c : Ctx) (m : Cur) : List Msg → List Op
  | [] => []
  | n :: rest => (if visits m.fields (m.path ++ [n.name]) then metaOps o c m.path n else []) ++ metaOpsList o c m rest
end

mutual
/-- `printClassForwardDeclarationPrivate` (messagedeclarationprinter.cpp:46-59). -/
def forwardOps (o : Options) (c : Ctx) (path : Path) : Msg → List Op
  | .mk name fields nested _ =>
    let m : Cur := ⟨path ++ [name], fields⟩
    (if hasNested m.path fields nested then
      [openNested o c m] ++ forwardOpsList o c m nested ++ [.print [] tSimpleBlockEnclosureTemplate]
     else []) ++
    [.print (own o c m) tProtoClassForwardDeclarationTemplate, .print (own o c m) tComplexListTypeUsingTemplate]
/-- `iterateNestedMessages` with `printClassForwardDeclarationPrivate` (messagedeclarationprinter.cpp:50-53). -/
def forwardOpsList (o : Options) (c : Ctx) (m : Cur) : List Msg → List Op
  | [] => []
  | n :: rest => (if visits m.fields (m.path ++ [n.name]) then forwardOps o c m.path n else []) ++ forwardOpsList o c m rest
end

/-- `printClassForwardDeclaration` (messagedeclarationprinter.cpp:61-66). -/
def forwardDeclaration (o : Options) (c : Ctx) (msg : Msg) : List Op :=
  printNamespaces (outerNs o c) ++ forwardOps o c c.package msg ++ encloseNamespaces (outerNs o c)

/-- `printClassDeclaration` (messagedeclarationprinter.cpp:68-74). -/
def classDeclaration (o : Options) (c : Ctx) (msg : Msg) : List Op :=
  printNamespaces (outerNs o c) ++ declareOps o c c.package msg ++ encloseNamespaces (outerNs o c) ++ metaOps o c c.package msg

/-! ### MessageDefinitionPrinter -/

/-- The text printed for google.protobuf.Timestamp (messagedefinitionprinter.cpp:120-127). -/
def kTimestampDef : Str :=
  text! "Timestamp::Timestamp(const QDateTime &datetime, QObject *parent) : QObject(parent)\n, m_seconds(datetime.toMSecsSinceEpoch() / 1000)\n, m_nanos((datetime.toMSecsSinceEpoch() % 1000) * 1000)\n{}\nTimestamp::operator QDateTime() const\n{\n    return QDateTime::fromMSecsSinceEpoch(m_seconds * 1000 + m_nanos / 1000);\n}\n"

section
variable (o : Options) (c : Ctx) (m : Cur)

/-- `printDestructor` (messagedefinitionprinter.cpp:390-395). -/
def defDestructor : List Op :=
  [.print (own o c m) tRegistrarTemplate, .print (own o c m) (text! "$classname$::~$classname$()\n{}\n\n")]

/-- The loop of `printFieldsOrdering` (messagedefinitionprinter.cpp:94-104), from index `i`. -/
def orderingOps (i : Nat) : List FieldD → List Op
  | [] => []
  | f :: fs =>
    (if i = 0 then [] else [.print [] (text! "\n,")]) ++
    [.print [(text! "field_number", (toString f.number).toList), (text! "property_number", (toString (i + 1)).toList),
      (text! "json_name", f.json)] tFieldOrderTemplate] ++ orderingOps (i + 1) fs

/-- `printFieldsOrdering` (messagedefinitionprinter.cpp:91-108). -/
def printFieldsOrdering : List Op :=
  [.print [(text! "type", (own o c m).val (text! "classname"))] tFieldsOrderingContainerTemplate] ++
  indented (orderingOps 0 m.fields) ++ [.print [] tSemicolonBlockEnclosureTemplate, .print [] (text! "\n")]

/-- The body of the loop over fields of `printRegisterBody` (messagedefinitionprinter.cpp:78-85). -/
def registerOps (f : FieldD) : List Op :=
  if f.type == .enum && c.visibility m.path (f.enumType.getD []) == .local then [.print (pv o c m f) tRegisterLocalEnumTemplate]
  else if f.isMap then [.print (pv o c m f) tRegisterMapTemplate]
  else []

/-- `printRegisterBody` (messagedefinitionprinter.cpp:68-89). -/
def printRegisterBody : List Op :=
  [.print (own o c m) tManualRegistrationComplexTypeDefinition] ++
  indented ((if o.qml then
      [.print (own o c m) tRegisterQmlListPropertyMetaTypeTemplate, .print (own o c m) tQmlRegisterTypeTemplate] else []) ++
    m.fields.flatMap (registerOps o c m)) ++
  [.print [] tSimpleBlockEnclosureTemplate]

/-- "initializer" of `printInitializationList` (messagedefinitionprinter.cpp:154-180). -/
def initializer (f : FieldD) : Str :=
  if !f.repeated && !f.isMap then
    match f.type with
    | .double => text! "0.0"
    | .float => text! "0.0"
    | .fixed32 => text! "0"
    | .fixed64 => text! "0"
    | .int32 => text! "0"
    | .int64 => text! "0"
    | .sint32 => text! "0"
    | .sint64 => text! "0"
    | .uint32 => text! "0"
    | .uint64 => text! "0"
    | .bool => text! "false"
    | .enum => (pv o c m f).val (text! "scope_type") ++ kScope ++ c.firstValue (f.enumType.getD [])
    | _ => []
  else []

/-- The body of the loop of `printInitializationList` (messagedefinitionprinter.cpp:151-197); `given` says that the constructor has a
parameter for the field. -/
def initOps (given : Bool) (f : FieldD) : List Op :=
  let vars : Vars := (text! "initializer", initializer o c m f) :: pv o c m f
  if isPureMessage c.package f then
    (if given then [.print vars tMessagePropertyInitializerTemplate] else [.print vars tMessagePropertyDefaultInitializerTemplate])
  else if given then [.print vars tPropertyInitializerTemplate]
  else if initializer o c m f = [] then []
  else [.print vars tPropertyDefaultInitializerTemplate]

/-- `printInitializationList` (messagedefinitionprinter.cpp:149-198). -/
def initList (n : Nat) : List Op :=
  (m.fields.take n).flatMap (initOps o c m true) ++ (m.fields.drop n).flatMap (initOps o c m false)

/-- One turn of the loop of `printConstructors` (messagedefinitionprinter.cpp:111-117) with `printConstructor` (131-147). -/
def defConstructor (n : Nat) : List Op :=
  [.print (own o c m) tProtoConstructorDefinitionBeginTemplate] ++
  (m.fields.take n).map (fun f => .print (pv o c m f) (parameterTemplate f)) ++
  [.print (own o c m) tProtoConstructorDefinitionEndTemplate] ++ initList o c m n ++ [.print [] tConstructorContentTemplate]

/-- `printConstructors` (messagedefinitionprinter.cpp:110-129). -/
def defConstructors : List Op :=
  (List.range (m.fields.length + 1)).flatMap (defConstructor o c m) ++ (if isTimestamp m then [.print [] kTimestampDef] else [])

/-- The members set to null before a copy or move (messagedefinitionprinter.cpp:213-217, 258-262). -/
def nullOps (f : FieldD) : List Op :=
  if isPureMessage c.package f then [.print (pv o c m f) tMessagePropertyDefaultInitializerTemplate] else []

/-- A function body: `{`, indented statements, `}`. -/
def block (ops : List Op) : List Op := indented ops ++ [.print [] tSimpleBlockEnclosureTemplate]

/-- `printCopyFunctionality` (messagedefinitionprinter.cpp:200-243). -/
def defCopy : List Op :=
  [.print (own o c m)
    (if m.fields.isEmpty then tEmptyCopyConstructorDefinitionTemplate else tCopyConstructorDefinitionTemplate)] ++
  m.fields.flatMap (nullOps o c m) ++ [.print [] (text! "\n{\n")] ++
  block (m.fields.map fun f =>
    .print (pv o c m f) (if isPureMessage c.package f then tCopyComplexFieldTemplate else tCopyFieldTemplate)) ++
  [.print (own o c m)
    (if m.fields.isEmpty then tEmptyAssignmentOperatorDefinitionTemplate else tAssignmentOperatorDefinitionTemplate)] ++
  block ((m.fields.map fun f =>
    .print (pv o c m f) (if isPureMessage c.package f then tAssignComplexFieldTemplate else tCopyFieldTemplate)) ++
    [.print [] tAssignmentOperatorReturnTemplate])

/-- The template for a field in the move constructor and move assignment (messagedefinitionprinter.cpp:266-284, 290-308). -/
def moveTemplate (pure other : Str) (f : FieldD) : Str :=
  if f.type == .message || f.type == .string || f.type == .bytes || f.repeated then
    (if isPureMessage c.package f then pure else other)
  else if f.type != .enum then tMoveFieldTemplate else tEnumMoveFieldTemplate

/-- `printMoveSemantic` (messagedefinitionprinter.cpp:245-312). -/
def defMove : List Op :=
  [.print (own o c m)
    (if m.fields.isEmpty then tEmptyMoveConstructorDefinitionTemplate else tMoveConstructorDefinitionTemplate)] ++
  m.fields.flatMap (nullOps o c m) ++ [.print [] (text! "\n{\n")] ++
  block (m.fields.map fun f =>
    .print (pv o c m f) (moveTemplate c tMoveMessageFieldTemplate tMoveComplexFieldConstructorTemplate f)) ++
  [.print (own o c m)
    (if m.fields.isEmpty then tEmptyMoveAssignmentOperatorDefinitionTemplate else tMoveAssignmentOperatorDefinitionTemplate)] ++
  block ((m.fields.map fun f =>
    .print (pv o c m f) (moveTemplate c tMoveAssignMessageFieldTemplate tMoveComplexFieldTemplate f)) ++
    [.print [] tAssignmentOperatorReturnTemplate])

/-- The template of the comparison of a field (messagedefinitionprinter.cpp:334-340). -/
def equalTemplate (f : FieldD) : Str :=
  if isPureMessage c.package f then tEqualOperatorMessagePropertyTemplate
  else if f.type == .message && f.repeated then tEqualOperatorRepeatedPropertyTemplate
  else tEqualOperatorPropertyTemplate

/-- `printComparisonOperators` (messagedefinitionprinter.cpp:314-353). -/
def defCompare : List Op :=
  match m.fields with
  | [] => [.print (own o c m) tEmptyEqualOperatorDefinitionTemplate, .print (own o c m) tNotEqualOperatorDefinitionTemplate]
  | f :: fs =>
    [.print (own o c m) tEqualOperatorDefinitionTemplate] ++
    [.indent, .indent, .indent, .indent] ++
    ([.print (pv o c m f) (equalTemplate c f)] ++
      fs.flatMap fun g => [.print [] (text! "\n&& "), .print (pv o c m g) (equalTemplate c g)]) ++
    [.outdent, .outdent, .outdent, .outdent] ++
    [.print [] (text! ";\n"), .print [] tSimpleBlockEnclosureTemplate, .print (own o c m) tNotEqualOperatorDefinitionTemplate]

/-- The body of the first loop of `printGetters` (messagedefinitionprinter.cpp:357-368). -/
def defGetterOps (f : FieldD) : List Op :=
  (if isPureMessage c.package f then
    [.print (pv o c m f) tGetterPrivateMessageDefinitionTemplate, .print (pv o c m f) tGetterMessageDefinitionTemplate] else []) ++
  (if f.repeated && (f.type == .message && !f.isMap && !isQtType c.package f && o.qml) then
    [.print (pv o c m f) tGetterQmlListDefinitionTemplate] else [])

/-- The body of the second loop of `printGetters` (messagedefinitionprinter.cpp:370-387). -/
def defSetterOps (f : FieldD) : List Op :=
  match f.type with
  | .message =>
    if !f.isMap && !f.repeated && !isQtType c.package f then
      [.print (pv o c m f) tSetterPrivateTemplateDefinitionMessageType, .print (pv o c m f) tSetterTemplateDefinitionMessageType]
    else [.print (pv o c m f) tSetterTemplateDefinitionComplexType]
  | .string => [.print (pv o c m f) tSetterTemplateDefinitionComplexType]
  | .bytes => [.print (pv o c m f) tSetterTemplateDefinitionComplexType]
  | _ => []

/-- `printClassDefinitionPrivate` after the nested messages (messagedefinitionprinter.cpp:51-58). -/
def defClass : List Op :=
  defDestructor o c m ++ printFieldsOrdering o c m ++ printRegisterBody o c m ++ defConstructors o c m ++ defCopy o c m ++
  defMove o c m ++ defCompare o c m ++ m.fields.flatMap (defGetterOps o c m) ++ m.fields.flatMap (defSetterOps o c m)

end

mutual
/-- `printClassDefinitionPrivate` (messagedefinitionprinter.cpp:40-59). -/
def defineOps (o : Options) (c : Ctx) (path : Path) : Msg → List Op
  | .mk name fields nested _ =>
    let m : Cur := ⟨path ++ [name], fields⟩
    (if hasNested m.path fields nested then
      [openNested o c m] ++ defineOpsList o c m nested ++ [.print [] tSimpleBlockEnclosureTemplate]
     else []) ++ defClass o c m
/-- `iterateNestedMessages` with `printClassDefinitionPrivate` (messagedefinitionprinter.cpp:44-47). -/
def defineOpsList (o : Options) (c : Ctx) (m : Cur) : List Msg → List Op
  | [] => []
  | n :: rest => (if visits m.fields (m.path ++ [n.name]) then defineOps o c m.path n else []) ++ defineOpsList o c m rest
end

/-- `printClassDefinition` (messagedefinitionprinter.cpp:61-66). -/
def classDefinition (o : Options) (c : Ctx) (msg : Msg) : List Op :=
  printNamespaces (outerNs o c) ++ defineOps o c c.package msg ++ encloseNamespaces (outerNs o c)

/-! ### EnumDeclarationPrinter, EnumDefinitionPrinter -/

section
variable (o : Options) (c : Ctx) (e : EnumD)

/-- The map of a top-level enumeration (enumdeclarationprinter.cpp:34, enumdefinitionprinter.cpp:38): without a scope it is global
(generatorcommon.cpp:378-398). -/
def globalEnumVars : Vars := enumVars o c (c.package ++ [e.name]) none .global

/-- `EnumDeclarationPrinter::run` (enumdeclarationprinter.h:44-49, enumdeclarationprinter.cpp:37-96). -/
def enumDeclaration : List Op :=
  let v := globalEnumVars o c e
  printNamespaces (outerNs o c) ++ [.print v tClassDeclarationTemplate] ++
  [.print [] tPublicBlockTemplate] ++ indented [.print v tManualRegistrationDeclaration] ++ [.print [] tPrivateBlockTemplate] ++
  indented [.print v tConstructorHeaderTemplate, .print v tDeletedCopyConstructorTemplate, .print v tDeletedMoveConstructorTemplate] ++
  [.print [] tPublicBlockTemplate] ++
  indented ([.print v tEnumDefinitionTemplate] ++ indented (enumValueOps e.values) ++
    [.print [] tSemicolonBlockEnclosureTemplate, .print v tQEnumTemplate, .print v tEnumTypeRepeatedTemplate]) ++
  encloseClass ++ encloseNamespaces (outerNs o c) ++ [.print v tDeclareMetaTypeListTemplate]

/-- `EnumDefinitionPrinter::run` (enumdefinitionprinter.cpp:41-63). -/
def enumDefinition : List Op :=
  let v := globalEnumVars o c e
  printNamespaces (outerNs o c) ++ [.print v tEnumRegistrarTemplate, .print v tManualRegistrationGlobalEnumDefinition] ++
  indented ((if o.qml then [.print v tQmlRegisterEnumTypeTemplate] else []) ++
    [.print v tComplexGlobalEnumFieldRegistrationTemplate, .print v tRegisterGlobalEnumMetaTypeTemplate,
     .print v tRegisterEnumSerializersTemplate]) ++
  [.print [] tSimpleBlockEnclosureTemplate] ++ encloseNamespaces (outerNs o c)

end

/-! ### ClientDeclarationPrinter, ClientDefinitionPrinter -/

/-- `google::protobuf::MethodDescriptor`: name(), input_type() and output_type() by full name, server_streaming(). -/
structure MethodD where
  name : Str
  input : Path
  output : Path
  streaming : Bool
deriving DecidableEq, Repr

/-- `google::protobuf::ServiceDescriptor`: name() and method(i). -/
structure ServiceText where
  name : Str
  methods : List MethodD

/-- `utils::replace(…, ".", "::")` of a full name (generatorcommon.cpp:417-418). -/
def colons (p : Path) : Str := Comments.replace ['.'] kScope (dots p)

/-- `common::produceMethodMap` (generatorcommon.cpp:409-427). -/
def methodVars (scope : Str) (d : MethodD) : Vars :=
  [(text! "classname", scope), (text! "return_type", colons d.output), (text! "method_name", d.name),
   (text! "method_name_upper", upperCaseName d.name), (text! "param_type", colons d.input), (text! "param_name", text! "arg"),
   (text! "return_name", text! "ret")]

section
variable (o : Options) (c : Ctx) (s : ServiceText)

/-- `mName` (descriptorprinterbase.h:52, clientdeclarationprinter.cpp:44, clientdefinitionprinter.cpp:41). -/
def clientName : Str := upperCaseName s.name ++ text! "Client"

/-- The body of the first loop of `printClientMethodsDeclaration` (clientdeclarationprinter.cpp:78-94). -/
def clientMethodOps (d : MethodD) : List Op :=
  let v := methodVars (clientName s) d
  (if d.streaming then
    [.print v tClientMethodServerStreamDeclarationTemplate, .print v tClientMethodServerStream2DeclarationTemplate]
   else
    [.print v tClientMethodDeclarationSyncTemplate, .print v tClientMethodDeclarationAsyncTemplate,
     .print v tClientMethodDeclarationAsync2Template] ++
    (if o.qml then [.print v tClientMethodDeclarationQmlTemplate, .print v tClientMethodDeclarationQml2Template] else [])) ++
  [.print [] (text! "\n")]

/-- The body of the second loop (clientdeclarationprinter.cpp:99-107). -/
def clientPrivateOps (d : MethodD) : List Op :=
  if d.streaming && o.qml then [.print (methodVars (clientName s) d) tClientMethodServerStreamQmlDeclarationTemplate] else []

/-- `ClientDeclarationPrinter::run` (clientdeclarationprinter.h:53-61). -/
def clientDeclaration : List Op :=
  printNamespaces (outerNs o c) ++
  [.print [(text! "classname", clientName s), (text! "parent_class", text! "QtProtobuf::QAbstractGrpcClient")] tClassDefinitionTemplate] ++
  indented [.print [] tQObjectMacro, .print [] (text! "\n")] ++ [.print [] tPublicBlockTemplate] ++
  indented [.print [(text! "classname", clientName s)] tQObjectConstructorTemplate] ++
  indented (s.methods.flatMap (clientMethodOps o s)) ++ [.print [] tPrivateBlockTemplate] ++
  indented (s.methods.flatMap (clientPrivateOps o s)) ++ [.print [] (text! "\n")] ++
  encloseClass ++ encloseNamespaces (outerNs o c)

/-- The body of the loop of `ClientDefinitionPrinter::printMethods` (clientdefinitionprinter.cpp:46-64). -/
def clientDefOps (d : MethodD) : List Op :=
  let v := methodVars (clientName s) d
  if d.streaming then
    [.print v tClientMethodServerStreamDefinitionTemplate, .print v tClientMethodServerStream2DefinitionTemplate] ++
    (if o.qml then [.print v tClientMethodServerStreamQmlDefinitionTemplate] else [])
  else
    [.print v tClientMethodDefinitionSyncTemplate, .print v tClientMethodDefinitionAsyncTemplate,
     .print v tClientMethodDefinitionAsync2Template] ++
    (if o.qml then [.print v tClientMethodDefinitionQmlTemplate, .print v tClientMethodDefinitionQml2Template] else [])

/-- `ClientDefinitionPrinter::run` (clientdefinitionprinter.h:42-47, clientdefinitionprinter.cpp:44-74). -/
def clientDefinition : List Op :=
  printNamespaces (outerNs o c) ++
  [.print [(text! "classname", clientName s), (text! "parent_class", text! "QAbstractGrpcClient"),
    (text! "service_name", dots (c.package ++ [s.name]))] tClientConstructorDefinitionTemplate] ++
  s.methods.flatMap (clientDefOps o s) ++ encloseNamespaces (outerNs o c)

end

/-! ### Files -/

/-- What is printed into the header of a proto file in single-file mode before the declarations (singlefilegenerator.cpp:87-93,
124-130); the names of the included files are given. -/
def headerTop (o : Options) (external internal : List Str) : List Op :=
  [.print [] tDisclaimerTemplate, .print [] tPreambleTemplate, .print [] tDefaultProtobufIncludesTemplate] ++
  (if o.qml then [.print [] tQmlProtobufIncludesTemplate] else []) ++
  external.map (fun i => .print [(text! "include", i)] tExternalIncludeTemplate) ++
  internal.map (fun i => .print [(text! "include", i)] tInternalIncludeTemplate)

/-- What is printed into the source before the definitions (singlefilegenerator.cpp:95-96, 132-136). -/
def sourceTop (header : Str) (external : List Str) : List Op :=
  [.print [] tDisclaimerTemplate, .print [(text! "include", header)] tInternalIncludeTemplate] ++
  external.map (fun i => .print [(text! "include", i)] tExternalIncludeTemplate) ++
  [.print [(text! "namespace", kQtProtobuf)] tUsingNamespaceTemplate]

/-- The header of the messages of a file in single-file mode (singlefilegenerator.cpp:69-167). -/
def messageHeader (o : Options) (c : Ctx) (external internal : List Str) (enums : List EnumD) (msgs : List Msg) : List Op :=
  headerTop o external internal ++ enums.flatMap (enumDeclaration o c) ++ msgs.flatMap (forwardDeclaration o c) ++
  msgs.flatMap (classDeclaration o c)

/-- The source of the messages of a file in single-file mode (singlefilegenerator.cpp:69-167). -/
def messageSource (o : Options) (c : Ctx) (header : Str) (enums : List EnumD) (msgs : List Msg) : List Op :=
  sourceTop header (if o.qml then [text! "QQmlEngine"] else []) ++ enums.flatMap (enumDefinition o c) ++
  msgs.flatMap (classDefinition o c)

/-- The header of the clients of a file in single-file mode (singlefilegenerator.cpp:170-258). -/
def clientHeaderText (o : Options) (c : Ctx) (external internal : List Str) (services : List ServiceText) : List Op :=
  headerTop o external internal ++ services.flatMap (clientDeclaration o c)

/-- The source of the clients of a file in single-file mode (singlefilegenerator.cpp:170-258). -/
def clientSourceText (o : Options) (c : Ctx) (header : Str) (services : List ServiceText) : List Op :=
  sourceTop header (if o.qml then [text! "QQmlEngine", text! "QJSEngine", text! "QJSValue"] else []) ++
  services.flatMap (clientDefinition o c)

end QtPb.Gen.Text
