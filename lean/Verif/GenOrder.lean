import Verif.SpecOrder
import Verif.GenFiles
/-
Model of the order of declarations in the headers of messages (src/generator/messagedeclarationprinter.cpp, singlefilegenerator.cpp,
multifilegenerator.cpp). Left out is what stands in the classes except for the types of fields.
-/
namespace QtPb.Gen
open Spec (Decl Line)

/-- The fields whose types are named in the class of a message: the fields that are not maps (messagedeclarationprinter.cpp:254-299, 426-439),
and the key and value of the entries of maps (156-168). -/
def typesOf (path : Path) (fields : List FieldD) (nested : List Msg) : List FieldD :=
  fields.flatMap fun f =>
    if f.isMap then ((nested.find? fun n => some (path ++ [n.name]) == f.msgType).map Msg.fields).getD [] else [f]

mutual
/-- `MessageDeclarationPrinter::printClassDeclarationPrivate` (messagedeclarationprinter.cpp:76-90): the classes of nested messages, the
class, and its list type (421-424). -/
def declareDecls (ns : List Str) (path : Path) : Msg → List Decl
  | .mk name fields nested _ =>
    declareDeclsList (ns ++ [nestedNs name]) (path ++ [name]) fields nested ++
      [.cls (ns ++ [upperCaseName name]) (path ++ [name]) (typesOf (path ++ [name]) fields nested), .list (ns ++ [upperCaseName name])]
/-- `iterateNestedMessages` with `printClassDeclarationPrivate` as callback (messagedeclarationprinter.cpp:79-82). -/
def declareDeclsList (ns : List Str) (path : Path) (fields : List FieldD) : List Msg → List Decl
  | [] => []
  | n :: rest => (if visits fields (path ++ [n.name]) then declareDecls ns path n else []) ++ declareDeclsList ns path fields rest
end

mutual
/-- `MessageDeclarationPrinter::printClassForwardDeclarationPrivate` (messagedeclarationprinter.cpp:46-59). -/
def forwardDecls (ns : List Str) (path : Path) : Msg → List Decl
  | .mk name fields nested _ =>
    (if hasNested (path ++ [name]) fields nested then forwardDeclsList (ns ++ [nestedNs name]) (path ++ [name]) fields nested else []) ++
      [.fwd (ns ++ [upperCaseName name]), .list (ns ++ [upperCaseName name])]
/-- `iterateNestedMessages` with `printClassForwardDeclarationPrivate` as callback (messagedeclarationprinter.cpp:50-53). -/
def forwardDeclsList (ns : List Str) (path : Path) (fields : List FieldD) : List Msg → List Decl
  | [] => []
  | n :: rest => (if visits fields (path ++ [n.name]) then forwardDecls ns path n else []) ++ forwardDeclsList ns path fields rest
end

/-- The class of an enumeration that is in no message (enumdeclarationprinter.cpp:37-71). -/
def gadgetDecl (extra : Str) (package : List Str) (e : Str) : Decl := .gadget (fileNs extra package ++ [upperCaseName e ++ kGadget])

/-- The header for the messages of a file in single-file mode (singlefilegenerator.cpp:85-167). The include directives are given by the names of
the imported files: that they open the headers of these is C59. -/
def singleLines (extra : Str) (f : ProtoFile) : List (Line Str) :=
  (f.deps.filter fun d => d ≠ kQtCore ∧ d ≠ kQtGui).map .incl ++
  (f.enums.map (gadgetDecl extra f.package) ++ f.messages.flatMap (forwardDecls (fileNs extra f.package) f.package) ++
    f.messages.flatMap (declareDecls (fileNs extra f.package) f.package)).map .decl

/-- The headers of the files of a project in single-file mode, by the names of the files. -/
def singleHeader (extra : Str) (files : List ProtoFile) (name : Str) : List (Line Str) :=
  match files.find? (·.name = name) with
  | some f => singleLines extra f
  | none => []

/-! ### Multi-file mode -/

/-- The header that an include directive with quotes in a file in the directory `dir` opens: the compiler looks next to the including file
first, then in the output directory. -/
def opened (headers : List Str) (dir : Str) : Inc → Option Str
  | .internal t =>
    if dir ++ t ++ kH ∈ headers then some (dir ++ t ++ kH) else if t ++ kH ∈ headers then some (t ++ kH) else none
  | .external _ => none
  | .globalEnums => some (kGlobalEnums ++ kH)

/-- The forward declaration of a dependency (multifilegenerator.cpp:121-135), with `getNamespaces`, and `getNestedNamespaces` if it is nested; the
extra namespace is not printed. `isNestedOf` (generatorcommon.h:107-109) asks whether `message` is what the dependency is in. Simplification:
`isNested` is "has a containing type", which it is for every message that is not a map entry. -/
def forwardDep (pkgOf : Path → List Str) (message q : Path) : List Decl :=
  if q.dropLast = message then []
  else [.fwd ((pkgOf q) ++ ((q.drop (pkgOf q).length).dropLast.map (· ++ kNested)) ++ [upperCaseName (q.getLastD [])])]

/-- The header of a top-level message in multi-file mode (multifilegenerator.cpp:78-137). `headers` are the headers of the project. -/
def multiLines (extra : Str) (pkgOf : Path → List Str) (headers : List Str) (package : List Str) (m : Msg) : List (Line Str) :=
  ((multiIncludes pkgOf package m).filterMap (opened headers (concat ['/'] package))).map .incl ++
  ((nestedDeps package package m ++ pureTypes package m.fields).flatMap (forwardDep pkgOf (package ++ [m.name])) ++
    declareDecls (fileNs extra package) package m).map .decl

/-- The header of the enumerations that are in no message in multi-file mode: `MultiFileGenerator::GenerateAll` (multifilegenerator.cpp:204-232). -/
def globalEnumLines (extra : Str) (files : List ProtoFile) : List (Line Str) :=
  (files.flatMap fun f => f.enums.map (gadgetDecl extra f.package)).map .decl

/-- The headers of the messages of a project in multi-file mode with FOLDER. -/
def multiHeader (extra : Str) (pkgOf : Path → List Str) (files : List ProtoFile) (h : Str) : List (Line Str) :=
  if h = kGlobalEnums ++ kH then globalEnumLines extra files
  else
    match (files.flatMap fun f => f.messages.map fun m => (f, m)).find? (fun p => messageHeader true p.1.package p.2.name = h) with
    | some (f, m) => multiLines extra pkgOf (multiRun true files) f.package m
    | none => []

end QtPb.Gen
