import Verif.SpecGen
import Verif.GenFiles
/-
Where generated headers have to be and what an include directive opens.
-/
namespace QtPb.Gen.Spec

/-- A name of a package component, message or service: it has no slash. -/
def NoSlash (s : Str) : Prop := '/' ∉ s

/-- The directory of a package: every component is a directory. -/
def dirOf : List Str → Str
  | [] => []
  | p :: ps => p ++ '/' :: dirOf ps

/-- The header of the top-level message `name` of a package, under the output directory. -/
def headerOf (package : List Str) (name : Str) : Str := dirOf package ++ name.map Char.toLower ++ ['.', 'h']

/-- `#include "inc.h"` in a file in the directory `dir` opens `file`: the compiler looks next to the including file first, then
in the output directory. -/
def Opens (files : List Str) (dir inc file : Str) : Prop :=
  file ∈ files ∧ (file = dir ++ inc ++ ['.', 'h'] ∨ (file = inc ++ ['.', 'h'] ∧ dir ++ inc ++ ['.', 'h'] ∉ files))

/-- One of the include directives with quotes in a file in the directory `dir` opens `file`. -/
def Includes (incs : List Inc) (files : List Str) (dir file : Str) : Prop := ∃ t, .internal t ∈ incs ∧ Opens files dir t file

/-- `fd` is a field of the message `x` with the full name `q` that is not a map, or the key or value of a map of `x`, whose entry
is a message nested in `x`. -/
def UsesType (q : Path) (x : Msg) (fd : FieldD) : Prop :=
  (fd ∈ x.fields ∧ fd.isMap = false) ∨
  ∃ mf ∈ x.fields, mf.isMap = true ∧ mf.type = .message ∧ ∃ n ∈ x.nested, mf.msgType = some (q ++ [n.name]) ∧ fd ∈ n.fields

/-- The message with the full name `q` is the top-level message `top` of a generated file of the package `p`, or nested in it. -/
def IsIn (files : List ProtoFile) (p : List Str) (top : Str) (q : Path) : Prop :=
  (∃ g ∈ files, g.package = p ∧ ∃ t ∈ g.messages, t.name = top) ∧ ∃ r, q = p ++ top :: r

/-- A type of the library QtProtobufQtTypes, which stands for a Qt class. -/
def IsQt (package : List Str) (q : Path) : Prop :=
  q.dropLast = [['Q', 't', 'P', 'r', 'o', 't', 'o', 'b', 'u', 'f']] ∧ package ≠ [['Q', 't', 'P', 'r', 'o', 't', 'o', 'b', 'u', 'f']]

/-- The Qt types among the types of fields have names with a capital letter and no slash, as `QUrl`. -/
def QtNamed (package : List Str) (m : Msg) (q : Path) : Prop :=
  ∀ fd, UsesType q m fd → ∀ t, fd.msgType = some t → IsQt package t →
    (t.getLastD []).map Char.toLower ≠ t.getLastD [] ∧ NoSlash (t.getLastD [])

/-- The Qt class that the code generated for a field of this type uses: of bytes, of texts, or of a type of QtProtobufQtTypes. -/
inductive UsesClass (package : List Str) (fd : FieldD) : Str → Prop
  | bytes : fd.type = .bytes → UsesClass package fd ['Q', 'B', 'y', 't', 'e', 'A', 'r', 'r', 'a', 'y']
  | string : fd.type = .string → UsesClass package fd ['Q', 'S', 't', 'r', 'i', 'n', 'g']
  | qt {p : Path} {name : Str} : fd.type = .message → fd.msgType = some (p ++ [name]) → IsQt package (p ++ [name]) → UsesClass package fd name

/-- `fd` is a singular field with the message type `q` that stands for no Qt class. -/
def Singular (package : List Str) (fd : FieldD) (q : Path) : Prop :=
  fd.type = .message ∧ fd.isMap = false ∧ fd.repeated = false ∧ fd.msgType = some q ∧ ¬ IsQt package q

/-- No part of the names of the types of the field is empty, and its message type, if it has one and it is no Qt class, is in
another top-level message than `message`. -/
def Outside (pkgOf : Path → List Str) (package : List Str) (message : Path) (fd : FieldD) : Prop :=
  (∀ q, fd.msgType = some q → q ≠ [] ∧ (∀ a ∈ q, a ≠ []) ∧
    (IsQt package q ∨ ∃ top r, q = pkgOf q ++ top :: r ∧ pkgOf q ++ [top] ≠ message ∧ q.dropLast ≠ message)) ∧
  ∀ e, fd.enumType = some e → ∀ a ∈ e, a ≠ []

/-- What the outputs of a run in multi-file mode are to be told apart by: the package, if there are folders, and the name in lower
case, with "client" after it for services; and one header for the enumerations outside of messages. -/
def outputs (folder : Bool) (files : List ProtoFile) : List (List Str × Str) :=
  ([], ['g', 'l', 'o', 'b', 'a', 'l', 'e', 'n', 'u', 'm', 's']) :: files.flatMap fun f =>
    f.messages.map (fun m => (if folder then f.package else [], m.name.map Char.toLower)) ++
    f.services.map (fun s => (if folder then f.package else [], s.name.map Char.toLower ++ ['c', 'l', 'i', 'e', 'n', 't']))

/-- The names in the files have no slashes. -/
def NoSlashes (files : List ProtoFile) : Prop :=
  ∀ f ∈ files, (∀ p ∈ f.package, NoSlash p) ∧ (∀ m ∈ f.messages, NoSlash m.name) ∧ ∀ s ∈ f.services, NoSlash s.name

/-! ### Single-file mode -/

/-- The name of a file: the directories `d`, the name `b` and the extension `ext` after the last dot. -/
def IsNamed (name : Str) (d : List Str) (b ext : Str) : Prop :=
  name = dirOf d ++ b ++ '.' :: ext ∧ (∀ a ∈ d, NoSlash a) ∧ NoSlash b ∧ '.' ∉ ext ∧ NoSlash ext

/-- The directory the files of a package are written to. -/
def outDir (folder : Bool) (package : List Str) : List Str := if folder then package else []

/-- The header for the messages and enumerations of a file with the name `b`, and the header for its services. -/
def messagesHeader (folder : Bool) (package : List Str) (b : Str) : Str := dirOf (outDir folder package) ++ b ++ ['.', 'q', 'p', 'b', '.', 'h']
def servicesHeader (folder : Bool) (package : List Str) (b : Str) : Str :=
  dirOf (outDir folder package) ++ b ++ ['_', 'g', 'r', 'p', 'c', '.', 'q', 'p', 'b', '.', 'h']

end QtPb.Gen.Spec
