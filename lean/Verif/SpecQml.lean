import Verif.GenQml
import Verif.SpecNames
/-
What can be used in QML: the rules of QML for modules and types.
-/
namespace QtPb.Gen.Spec

/-- Letters, digits and `_`, not beginning with a digit. -/
def QmlWord (s : Str) : Prop :=
  s ≠ [] ∧ (∀ c ∈ s, c.isAlphanum = true ∨ c = '_') ∧ ∀ c r, s = c :: r → c.isDigit = false

/-- The words that QML reserves (those of ECMAScript). -/
def qmlReserved : List Str :=
  ["break", "case", "catch", "class", "const", "continue", "debugger", "default", "delete", "do", "else", "enum", "export", "extends",
   "false", "finally", "for", "function", "if", "import", "in", "instanceof", "let", "new", "null", "return", "super", "switch", "this",
   "throw", "true", "try", "typeof", "var", "void", "while", "with", "yield"].map String.toList

/-- `import uri 1.0` is possible: words with dots between them, none reserved. -/
def Importable (uri : Str) : Prop := ∃ parts, parts ≠ [] ∧ uri = joined ['.'] parts ∧ ∀ p ∈ parts, QmlWord p ∧ p ∉ qmlReserved

/-- The name of a type in QML: it begins with a capital letter. -/
def QmlTypeName (s : Str) : Prop := QmlWord s ∧ ∀ c r, s = c :: r → c.isUpper = true

/-- QML code can import the module and use the type. -/
def QmlUsable (e : QmlEntry) : Prop := Importable e.uri ∧ QmlTypeName e.name

/-- QML code cannot tell one type from the other. -/
def QmlSame (e e' : QmlEntry) : Prop := e.uri = e'.uri ∧ e.name = e'.name

/-- The names begin alike, up to the case of the first letter, and are alike in all that follows. -/
def SameButFirstCase (a b : Str) : Prop := ∃ c d r, a = c :: r ∧ b = d :: r ∧ (c = d ∨ (c.isAlpha = true ∧ d.isAlpha = true ∧ c.toLower = d.toLower))

end QtPb.Gen.Spec
