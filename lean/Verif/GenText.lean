/-
Model of the text helpers of the generator (src/generator/utils.h, generatorcommon.h/.cpp) and of its options
(src/generator/generatoroptions.cpp).

Text is a list of characters; `std::string` holds bytes, and all names that protoc hands over are ASCII.
-/
namespace QtPb.Gen

abbrev Str := List Char

/-! The texts of the code, character by character (the kernel computes with these; the examples show what they are). -/

def kScope : Str := [':', ':']
def kId : Str := ['i', 'd']
def kProperty : Str := ['p', 'r', 'o', 'p', 'e', 'r', 't', 'y']
def kImport : Str := ['i', 'm', 'p', 'o', 'r', 't']
def kProto : Str := ['_', 'p', 'r', 'o', 't', 'o']
def kMulti : Str := ['M', 'U', 'L', 'T', 'I']
def kQml : Str := ['Q', 'M', 'L']
def kComments : Str := ['C', 'O', 'M', 'M', 'E', 'N', 'T', 'S']
def kFolder : Str := ['F', 'O', 'L', 'D', 'E', 'R']
def kFieldEnum : Str := ['F', 'I', 'E', 'L', 'D', 'E', 'N', 'U', 'M']
def kExtra : Str := ['E', 'X', 'T', 'R', 'A', '_', 'N', 'A', 'M', 'E', 'S', 'P', 'A', 'C', 'E']

example : kScope = "::".toList := by simp [kScope]
example : kId = "id".toList := by simp [kId]
example : kProperty = "property".toList := by simp [kProperty]
example : kImport = "import".toList := by simp [kImport]
example : kProto = "_proto".toList := by simp [kProto]
example : kMulti = "MULTI".toList := by simp [kMulti]
example : kQml = "QML".toList := by simp [kQml]
example : kComments = "COMMENTS".toList := by simp [kComments]
example : kFolder = "FOLDER".toList := by simp [kFolder]
example : kFieldEnum = "FIELDENUM".toList := by simp [kFieldEnum]
example : kExtra = "EXTRA_NAMESPACE".toList := by simp [kExtra]

/-- `utils::split` (utils.h:55-68), `std::getline` until it fails: an empty text has no parts, a separator at the end is not
followed by an empty part. -/
def split (d : Char) : Str → List Str
  | [] => []
  | c :: s =>
    if c = d then [] :: split d s
    else match split d s with
      | [] => [[c]]
      | t :: ts => (c :: t) :: ts

/-- The loop of `common::getNamespacesString` (generatorcommon.cpp:36-39). -/
def concat (sep : Str) : List Str → Str
  | [] => []
  | p :: ps => p ++ sep ++ concat sep ps

/-- `common::getNamespacesString` (generatorcommon.cpp:34-45): every part is followed by the separator and the last separator
is cut off. -/
def getNamespacesString (sep : Str) (l : List Str) : Str :=
  let namespaces := concat sep l
  if namespaces = [] then [] else namespaces.take (namespaces.length - sep.length)

/-- `common::getScopeNamespacesString` (generatorcommon.cpp:47-61). -/
def getScopeNamespacesString (original scope : Str) : Str :=
  if scope = [] then original
  else if original = scope then []
  else if (scope ++ kScope).isPrefixOf original then original.drop (scope.length + 2)
  else original

/-- `utils::upperCaseName` (utils.h:99-104); `toupper` in the "C" locale. (For an empty name the code writes to the
terminating null; protoc has no empty names.) -/
def upperCaseName : Str → Str
  | [] => []
  | c :: s => c.toUpper :: s

/-- `utils::lowerCaseName` (utils.h:106-111). -/
def lowerCaseName : Str → Str
  | [] => []
  | c :: s => c.toLower :: s

/-- `common::qualifiedName` (generatorcommon.cpp:350-360, templates.cpp:30-32). -/
def qualifiedName (name : Str) : Str :=
  if [kId, kProperty, kImport].contains name then name ++ kProto else name

/-! ### Options -/

/-- `GeneratorOptions` (generatoroptions.h:55-64). -/
structure Options where
  multi : Bool := false
  qml : Bool := false
  comments : Bool := false
  folder : Bool := false
  fieldEnum : Bool := false
  extra : Str := []
deriving DecidableEq, Repr

/-- The part of `parseFromEnv` that looks at the value of EXTRA_NAMESPACE (generatoroptions.cpp:70-77). The text that is split
is the whole text of options. -/
def parseExtra (options : Str) (o : Options) : Options :=
  let composite := split '=' options
  match composite with
  | [_, v] =>
    if v.length > 1 ∧ v[0]? = some '"' ∧ v[v.length - 1]? = some '"' then { o with extra := (v.drop 1).take (v.length - 2) }
    else { o with extra := v }
  | _ => o

/-- One turn of the loop of `parseFromEnv` (generatoroptions.cpp:52-79). -/
def parseOption (options : Str) (o : Options) (option : Str) : Options :=
  if option = kMulti then { o with multi := true }
  else if option = kQml then { o with qml := true }
  else if option = kComments then { o with comments := true }
  else if option = kFolder then { o with folder := true }
  else if option = kFieldEnum then { o with fieldEnum := true }
  else if kExtra.isPrefixOf option then parseExtra options o
  else o

/-- `GeneratorOptions::parseFromEnv` (generatoroptions.cpp:49-81) on a new object. -/
def parseFromEnv (options : Str) : Options := (split ':' options).foldl (parseOption options) {}

end QtPb.Gen
