import Verif.SpecPre
/-
How a proto file has to be laid out for the program that lists headers. Nothing here refers to the program.
-/
namespace QtPb.GoList.Spec
open Gen Pre.Spec

/-- The spaces of Go's regular expressions. -/
def Space (c : Char) : Prop := c ∈ [' ', '\t', '\n', '\x0c', '\r']

/-- The line begins, in its first column, with the keyword, space and the name, which is as long as possible. -/
def Begins (key name line : Str) : Prop :=
  ∃ ws rest, line = key ++ (ws ++ (name ++ rest)) ∧ (∀ c ∈ ws, Space c) ∧ ws ≠ [] ∧ name ≠ [] ∧ (∀ c ∈ name, NameChar c) ∧ ∀ c, rest.head? = some c → ¬ NameChar c

/-- The line is the declaration of a package: there is no second semicolon, not even in a comment. -/
def DeclaresPackage (name line : Str) : Prop :=
  ∃ ws rest, line = package ++ (ws ++ (name ++ ';' :: rest)) ∧ (∀ c ∈ ws, Space c) ∧ ws ≠ [] ∧ name ≠ [] ∧ (∀ c ∈ name, PackageChar c) ∧ ';' ∉ rest

/-- A line that looks like no declaration in its first column: nested messages and enumerations are indented. -/
def Quiet (line : Str) : Prop := ∀ name, ¬ Begins message name line ∧ ¬ Begins service name line ∧ ¬ Begins enum name line

/-- The line does not begin with the word `package`. -/
def NoPackage (line : Str) : Prop := ¬ package <+: line

/-- The lines of a file in which every declaration begins its own line, and nothing else looks so. -/
inductive Layout : List Str → Decls → Prop
  | nil : Layout [] {}
  | quiet {line : Str} {lines : List Str} {d : Decls} : Quiet line → NoPackage line → Layout lines d → Layout (line :: lines) d
  | package {line name : Str} {lines : List Str} {d : Decls} : DeclaresPackage name line → d.package = [] → Layout lines d → Layout (line :: lines) { d with package := name }
  | enum {line name : Str} {lines : List Str} {d : Decls} : Begins enum name line → Layout lines d → Layout (line :: lines) { d with enums := name :: d.enums }
  | service {line name : Str} {lines : List Str} {d : Decls} : Begins service name line → Layout lines d → Layout (line :: lines) { d with services := name :: d.services }
  | message {line name : Str} {lines : List Str} {d : Decls} : Begins message name line → Layout lines d → Layout (line :: lines) { d with messages := name :: d.messages }

/-- A line of less than 64 kB, without the characters that end lines. -/
def Line (line : Str) : Prop := '\n' ∉ line ∧ line.getLast? ≠ some '\r' ∧ (line.map Char.utf8Size).sum < 65535

/-- The lines of a text, which end with LF or CR LF, but for perhaps the last. -/
inductive LinesOf : Str → List Str → Prop
  | nil : LinesOf [] []
  | last {line : Str} : line ≠ [] → Line line → LinesOf line [line]
  | lf {line text : Str} {lines : List Str} : Line line → LinesOf text lines → LinesOf (line ++ '\n' :: text) (line :: lines)
  | crlf {line text : Str} {lines : List Str} : Line line → LinesOf text lines → LinesOf (line ++ '\r' :: '\n' :: text) (line :: lines)

/-- The text is laid out as above and declares what protoc reads from the file, and protoc knows the file by the same name, perhaps in other directories. -/
structure Ok (s : Source) : Prop where
  layout : ∃ lines d, LinesOf s.text lines ∧ Layout lines d ∧ d.package = join '.' s.file.package ∧ d.messages = s.file.messages.map Msg.name ∧
    d.services = s.file.services.map ServiceD.name ∧ d.enums = s.file.enums
  package : ∀ p ∈ s.file.package, p ≠ [] ∧ ∀ c ∈ p, NameChar c
  named : ∃ d1 d2 b ext, Gen.Spec.IsNamed s.path d1 b ext ∧ Gen.Spec.IsNamed s.file.name d2 b ext

/-- A text has a line of 64 kB or more, counted with a carriage return at its end. -/
def HasLongLine (text : Str) : Prop :=
  ∃ before line after, text = before ++ line ++ after ∧ '\n' ∉ line ∧ (before = [] ∨ before.getLast? = some '\n') ∧ (after = [] ∨ after.head? = some '\n') ∧
    65536 ≤ (line.map Char.utf8Size).sum

end QtPb.GoList.Spec
