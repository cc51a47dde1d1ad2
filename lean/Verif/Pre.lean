import Verif.GenFiles
/-
Model of the build integration: `cmake/QtPreParseProtoFile.cmake`, which guesses from the text of a proto file which files the generator
will write, and `qtprotobuf_generate` of `cmake/QtProtobufGen.cmake`, which hands that list to the build system and the options to the
generator.

The commands of CMake (lists, regular expressions, truth of variables) are modelled as CMake 3.16 executes them. Simplification: texts
are lists of characters; the directory of generated files is left out.
-/
namespace QtPb.Pre
open Gen

/-! ### CMake -/

/-- `STRING(REPLACE ";" "\\\;" …)` (QtPreParseProtoFile.cmake:18): a semicolon gets two backslashes. -/
def escapeSemicolons : Str → Str
  | [] => []
  | c :: s => if c = ';' then '\\' :: '\\' :: ';' :: escapeSemicolons s else c :: escapeSemicolons s

/-- `STRING(REPLACE "\n" ";" …)` (QtPreParseProtoFile.cmake:19). -/
def newlinesToSemicolons (s : Str) : Str := s.map fun c => if c = '\n' then ';' else c

/-- The elements of a CMake list, as `foreach(item IN LISTS …)` (QtPreParseProtoFile.cmake:25) takes them: a semicolon separates
elements unless a backslash is before it, or square brackets have been opened and not closed (or closed and not opened) before it.
`nesting` counts the brackets, `cur` is the element so far. -/
def expandList (nesting : Int) (cur : Str) : Str → List Str
  | [] => [cur]
  | '\\' :: ';' :: s => expandList nesting (cur ++ [';']) s
  | ';' :: s => if nesting = 0 then cur :: expandList 0 [] s else expandList nesting (cur ++ [';']) s
  | '[' :: s => expandList (nesting + 1) (cur ++ ['[']) s
  | ']' :: s => expandList (nesting - 1) (cur ++ [']']) s
  | c :: s => expandList nesting (cur ++ [c]) s

/-- What `foreach` sees of the text of a file (QtPreParseProtoFile.cmake:13-25). -/
def items (content : Str) : List Str := expandList 0 [] (newlinesToSemicolons (escapeSemicolons content))

/-- `[\t ]` -/
def isBlank (c : Char) : Bool := c = ' ' || c = '\t'
/-- `[a-zA-Z0-9_]` -/
def isNameChar (c : Char) : Bool := c.isAlphanum || c = '_'
/-- `[a-zA-Z0-9_\.\-]` -/
def isPackageChar (c : Char) : Bool := isNameChar c || c = '.' || c = '-'

/-- `item MATCHES "^[\t ]*key[\t ]+([ok]+)"` (QtPreParseProtoFile.cmake:21, 26-38): `CMAKE_MATCH_1`. -/
def matchKey (key : Str) (ok : Char → Bool) (item : Str) : Option Str :=
  let s := item.dropWhile isBlank
  if key.isPrefixOf s then
    match s.drop key.length with
    | c :: rest =>
      if isBlank c then
        let name := (rest.dropWhile isBlank).takeWhile ok
        if name = [] then none else some name
      else none
    | [] => none
  else none

/-- The constants that `if(<variable>)` takes for false (cmIsOff): in any case of letters, `NOTFOUND` in capitals. -/
def isOff (v : Str) : Bool :=
  v = [] ||
  [['0'], ['n'], ['n', 'o'], ['o', 'f', 'f'], ['f', 'a', 'l', 's', 'e'], ['i', 'g', 'n', 'o', 'r', 'e']].contains (toLower v) ||
  v = ['N', 'O', 'T', 'F', 'O', 'U', 'N', 'D'] || ['-', 'N', 'O', 'T', 'F', 'O', 'U', 'N', 'D'].isSuffixOf v

/-- The text of a list variable. -/
def listText : List Str → Str
  | [] => []
  | [a] => a
  | a :: b :: l => a ++ ';' :: listText (b :: l)

/-! ### QtPreParseProtoFile.cmake -/

def kwPackage : Str := ['p', 'a', 'c', 'k', 'a', 'g', 'e']
def kwMessage : Str := ['m', 'e', 's', 's', 'a', 'g', 'e']
def kwService : Str := ['s', 'e', 'r', 'v', 'i', 'c', 'e']
def kwEnum : Str := ['e', 'n', 'u', 'm']

/-- The variables of the loop. -/
structure Scan where
  package : Str := []
  messages : List Str := []
  services : List Str := []
  enums : List Str := []
  /-- `unclosed_braces` -/
  braces : Int := 0
  /-- `in_message_scope` -/
  inScope : Bool := false
  deriving DecidableEq, Repr

/-- The first `if` of the loop (QtPreParseProtoFile.cmake:26-40). -/
def findKey (s : Scan) (item : Str) : Scan :=
  match matchKey kwPackage isPackageChar item with
  | some p => { s with package := p }
  | none =>
    match matchKey kwMessage isNameChar item with
    | some m => if s.braces = 0 then { s with messages := s.messages ++ [m], inScope := true } else s
    | none =>
      match matchKey kwService isNameChar item with
      | some v => { s with services := s.services ++ [v] }
      | none =>
        match matchKey kwEnum isNameChar item with
        | some e => { s with enums := s.enums ++ [e] }
        | none => s

/-- The second `if` of the loop (QtPreParseProtoFile.cmake:41-51): at most one opening and one closing brace of a line are counted,
and only after a message was found. `[^/]*\{` matches every text with a brace. -/
def countBraces (s : Scan) (item : Str) : Scan :=
  if s.inScope then
    let s := if item.contains '{' then { s with braces := s.braces + 1 } else s
    if item.contains '}' then
      let s := { s with braces := s.braces - 1 }
      if s.braces = 0 then { s with inScope := false } else s
    else s
  else s

/-- The loop (QtPreParseProtoFile.cmake:23-52). -/
def scan (its : List Str) : Scan := its.foldl (fun s item => countBraces (findKey s item) item) {}

/-- `string(REPLACE "." "/" …)` (QtPreParseProtoFile.cmake:55). -/
def packagePath (p : Str) : Str := p.map fun c => if c = '.' then '/' else c

/-- `get_filename_component(… NAME_WLE)` (QtPreParseProtoFile.cmake:76): the name without directory and last extension. -/
def nameWle (path : Str) : Str :=
  let n := (afterLast '/' path).getD path
  (beforeLast '.' n).getD n

def kCpp : Str := ['.', 'c', 'p', 'p']

/-- The two files `base.h` and `base.cpp`. -/
def pair (base : Str) : List Str := [base ++ kH, base ++ kCpp]

/-- `output_files` (QtPreParseProtoFile.cmake:54-95). -/
def outputFiles (multi folder : Bool) (protoFile : Str) (s : Scan) : List Str :=
  let dir := packagePath s.package
  if multi then
    s.messages.flatMap (fun m => pair (dir ++ '/' :: toLower m)) ++ s.services.flatMap (fun v => pair (dir ++ '/' :: toLower v ++ kClient))
  else
    let folderPath := if folder then dir ++ ['/'] else []
    (if isOff (listText s.messages) && isOff (listText s.enums) then [] else pair (folderPath ++ nameWle protoFile ++ kQpb)) ++
    (if isOff (listText s.services) then [] else pair (folderPath ++ nameWle protoFile ++ kGrpc ++ kQpb))

/-- The script for one file: path and text. A text that is a false constant, for example the empty one, is refused
(QtPreParseProtoFile.cmake:13-16): none. -/
def preParse (multi folder : Bool) (file : Str × Str) : Option (List Str) :=
  if isOff file.2 then none else some (outputFiles multi folder file.1 (scan (items file.2)))

/-! ### qtprotobuf_generate -/

/-- The arguments of `qtprotobuf_generate` that concern the generator (QtProtobufGen.cmake:11-14). -/
structure Args where
  multi : Bool := false
  qml : Bool := false
  comments : Bool := false
  folder : Bool := false
  fieldEnum : Bool := false
  extra : Str := []
  deriving DecidableEq, Repr

/-- `generated_files` (QtProtobufGen.cmake:88-118) without `EXCLUDE_HEADERS`; none: the configuration of the build stops with an error.
With `MULTI` the option for the script is the one argument `-DMULTI=TRUE;-DFOLDER=TRUE`: the script looks at `MULTI` only. Duplicates
are removed, which the model leaves out: it is about which files are in the list. -/
def generatedFiles (a : Args) (files : List (Str × Str)) : Option (List Str) := do
  let outputs ← files.mapM (preParse a.multi a.folder)
  if outputs.flatten = [] then none else some (outputs.flatten ++ (if a.multi then [kGlobalEnums ++ kH] else []))

def kSingle : Str := ['S', 'I', 'G', 'N', 'L', 'E']

/-- `generation_options` (QtProtobufGen.cmake:28-68). -/
def generationOptions (a : Args) : List Str :=
  [if a.multi then kMulti else kSingle] ++ (if a.qml then [kQml] else []) ++ (if a.comments then [kComments] else []) ++
    (if a.folder || a.multi then [kFolder] else []) ++ (if a.fieldEnum then [kFieldEnum] else [])

/-- `list(JOIN … ":")` -/
def joinColon : List Str → Str
  | [] => []
  | [a] => a
  | a :: b :: l => a ++ ':' :: joinColon (b :: l)

/-- `generation_options_string`, the value of `QT_PROTOBUF_OPTIONS` for the generator (QtProtobufGen.cmake:70-79). -/
def optionsString (a : Args) : Str :=
  joinColon (generationOptions a) ++ (if isOff a.extra then [] else ':' :: kExtra ++ '=' :: '"' :: a.extra ++ ['"'])

/-! ### The files of the generator -/

/-- Header and source of a header name without ending. -/
def sources (headers : List Str) : List Str := headers.flatMap fun h => pair (h.take (h.length - 2))

/-- What a run of the generator writes: `main` (main.cpp:56-67) with the files of both modes (`Gen.multiRun`, `Gen.singleHeaders`), each
header with its source (multifilegenerator.cpp:71-72, 158-159, 208-209, singlefilegenerator.cpp:80-81, 183-184). None: the name of a file has no
dot. -/
def written (o : Options) (files : List ProtoFile) : Option (List Str) :=
  if o.multi then some (sources (multiRun o.folder files))
  else (files.mapM (singleHeaders o.folder)).map fun l => sources l.flatten

end QtPb.Pre
