import Verif.SpecFiles
/-
How a proto file has to be laid out for the build scripts, and what they have to do with it. Nothing here refers to the scripts.
-/
namespace QtPb.Pre.Spec
open Gen

/-! ### Lines -/

/-- Spaces and tabs. -/
def Blank (s : Str) : Prop := ∀ c ∈ s, c = ' ' ∨ c = '\t'

/-- The characters of identifiers. -/
def NameChar (c : Char) : Prop := ('a' ≤ c ∧ c ≤ 'z') ∨ ('A' ≤ c ∧ c ≤ 'Z') ∨ ('0' ≤ c ∧ c ≤ '9') ∨ c = '_'

/-- The characters of names of packages. -/
def PackageChar (c : Char) : Prop := NameChar c ∨ c = '.' ∨ c = '-'

/-- The line begins with the keyword, space and the name, which is as long as possible. -/
def Declares (key : Str) (ok : Char → Prop) (name line : Str) : Prop :=
  ∃ b1 b2 rest, line = b1 ++ (key ++ (b2 ++ (name ++ rest))) ∧ Blank b1 ∧ Blank b2 ∧ b2 ≠ [] ∧ name ≠ [] ∧ (∀ c ∈ name, ok c) ∧
    ∀ c, rest.head? = some c → ¬ ok c

def package : Str := ['p', 'a', 'c', 'k', 'a', 'g', 'e']
def message : Str := ['m', 'e', 's', 's', 'a', 'g', 'e']
def service : Str := ['s', 'e', 'r', 'v', 'i', 'c', 'e']
def enum : Str := ['e', 'n', 'u', 'm']

/-- A line that looks like no declaration: everything else at the top of a file, and what is inside of services and enumerations. -/
def Quiet (line : Str) : Prop :=
  ∀ name, ¬ Declares package PackageChar name line ∧ ¬ Declares message NameChar name line ∧ ¬ Declares service NameChar name line ∧
    ¬ Declares enum NameChar name line

/-- A line inside of a message: it may also begin a nested message or enumeration. -/
def Inner (line : Str) : Prop := ∀ name, ¬ Declares package PackageChar name line ∧ ¬ Declares service NameChar name line

/-- At most one opening and one closing brace. -/
def FewBraces (line : Str) : Prop := line.count '{' ≤ 1 ∧ line.count '}' ≤ 1

/-- Lines in which braces are `depth` deep at first and all closed at the end of the last line, but not before. -/
inductive Body : Nat → List Str → Prop
  | last {depth : Nat} {line : Str} : FewBraces line → line.count '}' = 1 → depth + line.count '{' = line.count '}' → Body depth [line]
  | more {depth rest : Nat} {line : Str} {lines : List Str} : FewBraces line → depth + line.count '{' = rest + line.count '}' → rest ≠ 0 →
      (∀ l ∈ lines, Inner l) → Body rest lines → Body depth (line :: lines)

/-- What follows a line without braces that declares a message. -/
inductive Rest : List Str → Prop
  | gap {line : Str} {lines : List Str} : Quiet line → '{' ∉ line → '}' ∉ line → Rest lines → Rest (line :: lines)
  | opens {line : Str} {lines : List Str} : Quiet line → Body 0 (line :: lines) → Rest (line :: lines)

/-- The lines of a message. -/
inductive Message (name : Str) : List Str → Prop
  | block {line : Str} {lines : List Str} : Declares message NameChar name line → Body 0 (line :: lines) → Message name (line :: lines)
  | header {line : Str} {lines : List Str} : Declares message NameChar name line → '{' ∉ line → '}' ∉ line → Rest lines →
      Message name (line :: lines)

/-- What a file declares outside of messages. -/
structure Decls where
  package : Str := []
  messages : List Str := []
  services : List Str := []
  enums : List Str := []

/-- The lines of a file in which every declaration begins its own line. -/
inductive Layout : List Str → Decls → Prop
  | nil : Layout [] {}
  | quiet {line : Str} {lines : List Str} {d : Decls} : Quiet line → Layout lines d → Layout (line :: lines) d
  | package {line name : Str} {lines : List Str} {d : Decls} : Declares package PackageChar name line → d.package = [] →
      Layout lines d → Layout (line :: lines) { d with package := name }
  | enum {line name : Str} {lines : List Str} {d : Decls} : Declares enum NameChar name line → Layout lines d →
      Layout (line :: lines) { d with enums := name :: d.enums }
  | service {line name : Str} {lines : List Str} {d : Decls} : Declares service NameChar name line → Layout lines d →
      Layout (line :: lines) { d with services := name :: d.services }
  | message {block lines : List Str} {name : Str} {d : Decls} : Message name block → Layout lines d →
      Layout (block ++ lines) { d with messages := name :: d.messages }

/-- A line as the scripts can read it: as many opening as closing square brackets, and no backslash at the end. -/
def Readable (line : Str) : Prop := '\n' ∉ line ∧ line.count '[' = line.count ']' ∧ line.getLast? ≠ some '\\'

/-- The parts with the separator between them. -/
def join (sep : Char) : List Str → Str
  | [] => []
  | [a] => a
  | a :: b :: l => a ++ sep :: join sep (b :: l)

/-! ### Sources -/

/-- The words that the build system takes for "false". -/
def FalseWord (s : Str) : Prop :=
  s = [] ∨
  s.map Char.toLower ∈ [['0'], ['n'], ['n', 'o'], ['o', 'f', 'f'], ['f', 'a', 'l', 's', 'e'], ['i', 'g', 'n', 'o', 'r', 'e']] ∨
  s = ['N', 'O', 'T', 'F', 'O', 'U', 'N', 'D'] ∨ ['-', 'N', 'O', 'T', 'F', 'O', 'U', 'N', 'D'] <:+ s

/-- A proto file of a project: its path and text, and what protoc reads from it. -/
structure Source where
  path : Str
  text : Str
  file : ProtoFile

/-- The text is laid out as above and declares what protoc read, and protoc knows the file by the same name, perhaps in other
directories. -/
structure Source.Ok (s : Source) : Prop where
  layout : ∃ lines d, s.text = join '\n' lines ∧ (∀ l ∈ lines, Readable l) ∧ Layout lines d ∧
    d.package = join '.' s.file.package ∧ d.messages = s.file.messages.map Msg.name ∧ d.services = s.file.services.map ServiceD.name ∧
    d.enums = s.file.enums
  package : ∀ p ∈ s.file.package, p ≠ [] ∧ ∀ c ∈ p, NameChar c
  named : ∃ d1 d2 b ext, Gen.Spec.IsNamed s.path d1 b ext ∧ Gen.Spec.IsNamed s.file.name d2 b ext
  text : ¬ FalseWord s.text
  nonempty : s.file.messages ≠ [] ∨ s.file.enums ≠ [] ∨ s.file.services ≠ []

/-- A path under the output directory: a slash at its beginning means nothing. -/
def under (path : Str) : Str := if path.head? = some '/' then path.tail else path

/-- The path is in the list. -/
def Listed (l : List Str) (path : Str) : Prop := ∃ x ∈ l, under x = path

/-! ### Options -/

/-- The words that are options of the generator. -/
def optionWords : List Str :=
  [['M', 'U', 'L', 'T', 'I'], ['Q', 'M', 'L'], ['C', 'O', 'M', 'M', 'E', 'N', 'T', 'S'], ['F', 'O', 'L', 'D', 'E', 'R'],
   ['F', 'I', 'E', 'L', 'D', 'E', 'N', 'U', 'M']]

/-- A namespace that can be given to the generator: none, or one that is no false word and has no option word between colons. -/
def Namespace (ns : Str) : Prop :=
  ns = [] ∨ (¬ FalseWord ns ∧ '=' ∉ ns ∧ ∀ w ∈ optionWords, ¬ (':' :: (w ++ [':'])) <:+: ns)

end QtPb.Pre.Spec
