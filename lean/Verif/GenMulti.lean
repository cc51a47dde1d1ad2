import Verif.GenPrint
import Verif.GenOrder
/-
Model of the text that the generator prints in multi-file mode (src/generator/multifilegenerator.cpp): one header and one source for every top-level
message and for every service, and one pair of files for the enumerations that are in no message. The classes are printed by the printers of
GenPrint.lean; which headers are included is GenFiles.lean.
-/
namespace QtPb.Gen.Text

/-- `Templates::GlobalEnumIncludeTemplate` (templates.cpp:56). -/
def tGlobalEnumIncludeTemplate : Str := text! "#include <globalenums.h>\n"

/-- The call at the end of `GeneratorBase::printInclude` (generatorbase.cpp:160-163), and of the loop over dependencies
(multifilegenerator.cpp:114-118). -/
def includeOp : Inc → Op
  | .internal t => .print [(text! "include", t)] tInternalIncludeTemplate
  | .external t => .print [(text! "include", t)] tExternalIncludeTemplate
  | .globalEnums => .print [(text! "include", [])] tGlobalEnumIncludeTemplate

/-- The namespaces around the forward declaration of a dependency (multifilegenerator.cpp:123-126). -/
def depNamespaces (pkgOf : Path → List Str) (q : Path) : List Str := pkgOf q ++ (q.drop (pkgOf q).length).dropLast.map (· ++ kNested)

/-- The forward declaration of a dependency (multifilegenerator.cpp:121-135), with `GeneratorBase::printNamespaces` (generatorbase.cpp:171-176). -/
def forwardDepOps (pkgOf : Path → List Str) (message q : Path) : List Op :=
  if q.dropLast = message then []
  else
    .print [] (text! "\n") :: (depNamespaces pkgOf q).map (fun ns => .print [(text! "namespace", ns)] tNamespaceTemplate) ++
    [.print [(text! "classname", upperCaseName (q.getLastD []))] tProtoClassForwardDeclarationTemplate] ++
    [.print [] (text! "\n")] ++ (depNamespaces pkgOf q).map (fun _ => .print [] tSimpleBlockEnclosureTemplate) ++ [.print [] (text! "\n")]

/-- The dependencies of a message (multifilegenerator.cpp:91-99). -/
def dependencies (package : List Str) (m : Msg) : List Path := nestedDeps package package m ++ pureTypes package m.fields

/-- What is printed into the header of a message before its class (multifilegenerator.cpp:80-135). -/
def multiTop (o : Options) (c : Ctx) (pkgOf : Path → List Str) (m : Msg) : List Op :=
  [.print [] tDisclaimerTemplate, .print [] tPreambleTemplate, .print [] tDefaultProtobufIncludesTemplate] ++
  (if o.qml then [.print [] tQmlProtobufIncludesTemplate] else []) ++
  (multiIncludes pkgOf c.package m).map includeOp ++
  (dependencies c.package m).flatMap (forwardDepOps pkgOf (c.package ++ [m.name]))

/-- The header of a message (multifilegenerator.cpp:78-137). -/
def multiHeader (o : Options) (c : Ctx) (pkgOf : Path → List Str) (m : Msg) : List Op := multiTop o c pkgOf m ++ classDeclaration o c m

/-- What is printed into the source of a message before the definitions (multifilegenerator.cpp:139-145). There is no using directive. -/
def multiSourceTop (o : Options) (m : Msg) : List Op :=
  [.print [] tDisclaimerTemplate, .print [(text! "include", toLower m.name)] tInternalIncludeTemplate] ++
  (if o.qml then [.print [(text! "include", text! "QQmlEngine")] tExternalIncludeTemplate] else [])

/-- The source of a message (multifilegenerator.cpp:139-148). -/
def multiSource (o : Options) (c : Ctx) (m : Msg) : List Op := multiSourceTop o m ++ classDefinition o c m

/-- globalenums.h (multifilegenerator.cpp:213-215, 223-230): the enumerations of all files, with what is known of each file. -/
def enumsHeader (o : Options) (files : List (Ctx × List EnumD)) : List Op :=
  [.print [] tDisclaimerTemplate, .print [] tPreambleTemplate, .print [] tDefaultProtobufIncludesTemplate] ++
  files.flatMap fun f => f.2.flatMap (enumDeclaration o f.1)

/-- globalenums.cpp (multifilegenerator.cpp:217-232). -/
def enumsSource (o : Options) (files : List (Ctx × List EnumD)) : List Op :=
  [.print [] tDisclaimerTemplate, .print [(text! "include", kGlobalEnums)] tInternalIncludeTemplate] ++
  (if o.qml then [.print [(text! "include", text! "QQmlEngine")] tExternalIncludeTemplate] else []) ++
  files.flatMap fun f => f.2.flatMap (enumDefinition o f.1)

/-- The header of a client (multifilegenerator.cpp:162-167). `internal` and `external` are the elements of the hash tables of `printIncludes`
(servicedeclarationprinterbase.cpp:48-66) and `printClientIncludes` (clientdeclarationprinter.cpp:63-72), in the order of these. -/
def multiClientHeader (o : Options) (c : Ctx) (internal external : List Str) (s : ServiceText) : List Op :=
  [.print [] tDisclaimerTemplate, .print [] tPreambleTemplate] ++
  internal.map (fun i => .print [(text! "include", i)] tInternalIncludeTemplate) ++
  external.map (fun i => .print [(text! "include", i)] tExternalIncludeTemplate) ++ clientDeclaration o c s

/-- The source of a client (multifilegenerator.cpp:169-182). -/
def multiClientSource (o : Options) (c : Ctx) (s : ServiceText) : List Op :=
  sourceTop (toLower s.name) (if o.qml then [text! "QQmlEngine", text! "QJSEngine", text! "QJSValue"] else []) ++ clientDefinition o c s

end QtPb.Gen.Text
