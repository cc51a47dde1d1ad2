import Verif.GenNames
/-
Model of the files the generator writes and of the include directives it prints into them (src/generator/generatorbase.cpp,
multifilegenerator.cpp, singlefilegenerator.cpp, servicedeclarationprinterbase.cpp). Only the names of files and the targets of the
include directives are modelled. Left out: the includes of library headers that are the same in all files, and the `.cpp` files,
which have the names of their headers.
-/
namespace QtPb.Gen

def kClient : Str := ['c', 'l', 'i', 'e', 'n', 't']
def kGlobalEnums : Str := ['g', 'l', 'o', 'b', 'a', 'l', 'e', 'n', 'u', 'm', 's']
def kQpb : Str := ['.', 'q', 'p', 'b']
def kGrpc : Str := ['_', 'g', 'r', 'p', 'c']
def kH : Str := ['.', 'h']
def kQMap : Str := ['Q', 'M', 'a', 'p']
def kQByteArray : Str := ['Q', 'B', 'y', 't', 'e', 'A', 'r', 'r', 'a', 'y']
def kQString : Str := ['Q', 'S', 't', 'r', 'i', 'n', 'g']

example : kGlobalEnums = "globalenums".toList := by simp [kGlobalEnums]
example : kQpb = ".qpb".toList := by simp [kQpb]
example : kGrpc = "_grpc".toList := by simp [kGrpc]
example : kQByteArray = "QByteArray".toList := by simp [kQByteArray]

/-! ### Names of files -/

/-- `utils::tolower` (utils.h:78-80), in the "C" locale. -/
def toLower (s : Str) : Str := s.map Char.toLower

/-- What is before the last `c`; none without a `c`. -/
def beforeLast (c : Char) : Str → Option Str
  | [] => none
  | x :: s =>
    match beforeLast c s with
    | some t => some (x :: t)
    | none => if x = c then some [] else none

/-- What is after the last `c`; none without a `c`. -/
def afterLast (c : Char) : Str → Option Str
  | [] => none
  | x :: s =>
    match afterLast c s with
    | some t => some t
    | none => if x = c then some s else none

/-- `utils::removeFileSuffix` (utils.h:82-86). Without a dot `resize` throws; here none. -/
def removeFileSuffix (name : Str) : Option Str := beforeLast '.' name

/-- `utils::extractFileBasename` (utils.h:88-96). Without a dot `resize` throws; here none. -/
def extractFileBasename (name : Str) : Option Str :=
  (beforeLast '.' name).map fun s => (afterLast '/' s).getD s

/-- `GeneratorBase::generateBaseName` (generatorbase.cpp:53-67). -/
def generateBaseName (folder : Bool) (package : List Str) (name : Str) : Str :=
  if folder then concat ['/'] package ++ name else name

/-- The header of a top-level message in multi-file mode (multifilegenerator.cpp:66-71). -/
def messageHeader (folder : Bool) (package : List Str) (name : Str) : Str :=
  generateBaseName folder package (toLower name) ++ kH

/-- The header of the client of a service in multi-file mode (multifilegenerator.cpp:153-158). -/
def clientHeader (folder : Bool) (package : List Str) (service : Str) : Str :=
  generateBaseName folder package (toLower service) ++ kClient ++ kH

/-- `google::protobuf::MethodDescriptor`: name(), input_type(), output_type() by full name, server_streaming(),
client_streaming(). -/
structure MethodD where
  name : Str
  input : Path
  output : Path
  serverStreaming : Bool := false
  clientStreaming : Bool := false
deriving DecidableEq, Repr

/-- `google::protobuf::ServiceDescriptor`: name(), method(i). -/
structure ServiceD where
  name : Str
  methods : List MethodD
deriving DecidableEq, Repr

/-- `google::protobuf::FileDescriptor`: name(), package(), message_type(i), enum_type(i) by name, service(i), and the names of
dependency(i). -/
structure ProtoFile where
  name : Str
  package : List Str
  messages : List Msg
  enums : List Str
  services : List ServiceD
  deps : List Str

/-- The headers `MultiFileGenerator::Generate` writes for a file (multifilegenerator.cpp:55-184). -/
def multiHeaders (folder : Bool) (f : ProtoFile) : List Str :=
  f.messages.map (fun m => messageHeader folder f.package m.name) ++ f.services.map (fun s => clientHeader folder f.package s.name)

/-- The headers of a run of the generator in multi-file mode: `MultiFileGenerator::GenerateAll` (multifilegenerator.cpp:204-235). -/
def multiRun (folder : Bool) (files : List ProtoFile) : List Str := (kGlobalEnums ++ kH) :: files.flatMap (multiHeaders folder)

/-- The headers `SingleFileGenerator::Generate` writes for a file (singlefilegenerator.cpp:54-81, 170-184); none if the name
of the file has no dot. -/
def singleHeaders (folder : Bool) (f : ProtoFile) : Option (List Str) :=
  if f.messages = [] ∧ f.enums = [] ∧ f.services = [] then some []
  else (extractFileBasename f.name).map fun b =>
    (if f.messages = [] ∧ f.enums = [] then [] else [generateBaseName folder f.package b ++ kQpb ++ kH]) ++
    (if f.services = [] then [] else [generateBaseName folder f.package b ++ kGrpc ++ kQpb ++ kH])

/-! ### Include directives -/

/-- An include directive: with quotes (`InternalIncludeTemplate`, which adds ".h"), with angle brackets (`ExternalIncludeTemplate`),
and `GlobalEnumIncludeTemplate` (templates.cpp:54-56). -/
inductive Inc
  | internal (target : Str)
  | external (target : Str)
  | globalEnums
deriving DecidableEq, Repr

section
/- `pkgOf q`: `file()->package()` of the message or enumeration with the full name `q`. -/
variable (pkgOf : Path → List Str)

/-- The path printed before the name of a type of another package (generatorbase.cpp:99-106, 115-122; multifilegenerator.cpp:102-109). -/
def packageDir (package other : List Str) : Str := if other ≠ package then concat ['/'] other else []

/-- `common::findHighestMessage` (generatorcommon.cpp:492-499): the top-level message that the message `q` is in. -/
def highest (q : Path) : Path := q.take ((pkgOf q).length + 1)

/-- `common::enumVisibility` (generatorcommon.cpp:378-398) by paths: an enumeration belongs to the message whose full name it has
before its own. -/
def enumPlace (message e : Path) : EnumVisibility :=
  if e.dropLast = message then .local else if e.length = (pkgOf e).length + 2 then .neighbor else .global

/-- The switch of `GeneratorBase::printInclude` (generatorbase.cpp:85-158) for a field that is not a map, printed in the header of the
top-level message `message`: `newInclude` and what is printed with it. None: the function returns. Simplification: `isNested`
is "has a containing type", which it is for every message that is not a map entry. -/
def newInclude (package : List Str) (message : Path) (f : FieldD) : Option (Str × Option Inc) :=
  match f.type with
  | .message =>
    match f.msgType with
    | none => none
    | some q =>
      if isQtType package f then some (q.getLastD [], some (.external (q.getLastD [])))
      else if q.length ≤ (pkgOf q).length + 1 then
        let n := packageDir package (pkgOf q) ++ toLower (q.getLastD [])
        some (n, some (.internal n))
      else if q.dropLast ≠ message ∧ highest pkgOf q ≠ message then
        let n := packageDir package (pkgOf q) ++ toLower ((highest pkgOf q).getLastD [])
        some (n, some (.internal n))
      else some ([], none)
  | .bytes => some (kQByteArray, some (.external kQByteArray))
  | .string => some (kQString, some (.external kQString))
  | .enum =>
    match f.enumType with
    | none => none
    | some e =>
      match enumPlace pkgOf message e with
      | .global => some ([], some .globalEnums)
      | .neighbor => some (toLower (e.dropLast.getLastD []), some (.internal (toLower (e.dropLast.getLastD []))))
      | .local => none
  | _ => none

/-- The end of `printInclude` (generatorbase.cpp:160-163): the set of existing includes and what has been printed. -/
def emit (st : List Str × List Inc) (n : Str) (inc : Option Inc) : List Str × List Inc :=
  if st.1.contains n then st else (n :: st.1, st.2 ++ inc.toList)

/-- `printInclude` for a field that is not a map. -/
def includeFlat (package : List Str) (message : Path) (st : List Str × List Inc) (f : FieldD) : List Str × List Inc :=
  match newInclude pkgOf package message f with
  | none => st
  | some (n, inc) => emit st n inc

/-- `GeneratorBase::printInclude` (generatorbase.cpp:80-164): for a map the types of key and value come first. `nested` are the nested
messages of the message, among them the entries of its maps. -/
def printInclude (package : List Str) (message : Path) (nested : List Msg) (st : List Str × List Inc) (f : FieldD) : List Str × List Inc :=
  if f.type = .message ∧ f.isMap then
    let entry := ((nested.find? fun n => some (message ++ [n.name]) == f.msgType).map Msg.fields).getD []
    emit (entry.foldl (includeFlat pkgOf package message) st) kQMap (some (.external kQMap))
  else includeFlat pkgOf package message st f

/-- The types of the singular message fields (`common::isPureMessage`). -/
def pureTypes (package : List Str) (fields : List FieldD) : List Path :=
  (fields.filter (isPureMessage package)).filterMap (·.msgType)

mutual
/-- `MultiFileGenerator::findNestedDependency` (multifilegenerator.cpp:186-201) -/
def nestedDeps (package : List Str) (path : Path) : Msg → List Path
  | .mk name fields nested _ => nestedDepsList package (path ++ [name]) fields nested
/-- and its loop over the nested messages. -/
def nestedDepsList (package : List Str) (path : Path) (fields : List FieldD) : List Msg → List Path
  | [] => []
  | n :: rest =>
    (if visits fields (path ++ [n.name]) then pureTypes package n.fields ++ nestedDeps package path n else []) ++
      nestedDepsList package path fields rest
end

/-- The include of a dependency (multifilegenerator.cpp:101-119). -/
def includeDep (package : List Str) (st : List Str × List Inc) (q : Path) : List Str × List Inc :=
  let n := packageDir package (pkgOf q) ++ toLower ((highest pkgOf q).getLastD [])
  emit st n (some (.internal n))

/-- The include directives in the header of a top-level message in multi-file mode (multifilegenerator.cpp:86-119). -/
def multiIncludes (package : List Str) (m : Msg) : List Inc :=
  let st := m.fields.foldl (printInclude pkgOf package (package ++ [m.name]) m.nested) ([], [])
  let deps := nestedDeps package package m ++ pureTypes package m.fields
  (deps.foldl (includeDep pkgOf package) st).2

end

/-- The include directive for its own header in the source file of a message in multi-file mode (multifilegenerator.cpp:140-142). -/
def messageSourceInclude (m : Msg) : Inc := .internal (toLower m.name)

/-- The include directives for messages in the header of a client in multi-file mode: `ServiceDeclarationPrinterBase::printIncludes`
(servicedeclarationprinterbase.cpp:49-66). The code prints them in the order of a hash table. -/
def clientIncludes (s : ServiceD) : List Inc :=
  (s.methods.flatMap fun m => [.internal (toLower (m.input.getLastD [])), .internal (toLower (m.output.getLastD []))]).eraseDups

/-- The include directive for its own header in the source file of a client in multi-file mode (multifilegenerator.cpp:170-172). -/
def clientSourceInclude (s : ServiceD) : Inc := .internal (toLower s.name)

def kQtCore : Str := ['Q', 't', 'P', 'r', 'o', 't', 'o', 'b', 'u', 'f', '/', 'Q', 't', 'C', 'o', 'r', 'e', '.', 'p', 'r', 'o', 't', 'o']
def kQtGui : Str := ['Q', 't', 'P', 'r', 'o', 't', 'o', 'b', 'u', 'f', '/', 'Q', 't', 'G', 'u', 'i', '.', 'p', 'r', 'o', 't', 'o']

example : kQtCore = "QtProtobuf/QtCore.proto".toList := by simp [kQtCore]
example : kQtGui = "QtProtobuf/QtGui.proto".toList := by simp [kQtGui]

/-- The quoted include directives in the header for the messages of a file in single-file mode (singlefilegenerator.cpp:120-134); none
if the name of a dependency has no dot. -/
def singleIncludes (f : ProtoFile) : Option (List Inc) :=
  (f.deps.filter fun d => d ≠ kQtCore ∧ d ≠ kQtGui).mapM fun d => (removeFileSuffix d).map fun b => .internal (b ++ kQpb)

/-- The include directive for its own header in the source file of the messages in single-file mode (singlefilegenerator.cpp:79, 95). -/
def singleSourceInclude (folder : Bool) (f : ProtoFile) : Option Inc :=
  (extractFileBasename f.name).map fun b => .internal (generateBaseName folder f.package b ++ kQpb)

/-- The include directive for its own header in the source file of the clients in single-file mode (singlefilegenerator.cpp:182, 196). -/
def grpcSourceInclude (folder : Bool) (f : ProtoFile) : Option Inc :=
  (extractFileBasename f.name).map fun b => .internal (generateBaseName folder f.package b ++ kGrpc ++ kQpb)

/-- The quoted include directives in the header for the clients of a file in single-file mode (singlefilegenerator.cpp:198-225);
`fileOf q` is the name of the file of a message. -/
def grpcIncludes (fileOf : Path → Str) (folder : Bool) (f : ProtoFile) : Option (List Inc) := do
  let types := f.services.flatMap fun s => s.methods.flatMap fun m => [m.input, m.output]
  let others ← (types.filter fun q => fileOf q ≠ f.name).mapM fun q => (removeFileSuffix (fileOf q)).map fun b => Inc.internal (b ++ kQpb)
  let b ← extractFileBasename f.name
  some (others ++ (if f.messages = [] then [] else [.internal (generateBaseName folder f.package b ++ kQpb)]))

end QtPb.Gen
