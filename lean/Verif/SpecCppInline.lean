import Verif.SpecDefs
/-
A third small reader of C++, for headers: it lists the functions that are defined in classes and the data members of classes, with the
namespaces and classes around them. It is made for this specification and independent of the generator.
-/
namespace QtPb.SpecCpp

/-- What is found in classes: a function with its body (the class with its namespaces, the name, the parameters, the body), or a data member
(the class, the type, the name). -/
inductive Declared
  | fn (cls : List Text) (name : Text) (params : List (List Lexeme × Text)) (body : List Lexeme)
  | member (cls : List Text) (type : List Lexeme) (name : Text)
deriving DecidableEq, Repr

/-- The state of the reader: the names of the open namespaces and classes, what was read since the last declaration, the body that is being
read with the number of braces open in it, what was found. -/
structure InReader where
  scope : List Text := []
  head : List Lexeme := []
  body : Option (List Lexeme × Nat) := none
  found : List Declared := []
deriving DecidableEq, Repr

/-- What a brace after these lexemes opens, if it opens a namespace or a class: `namespace n`, `class K : public B`. (What stands before, as
`#include` lines, does not matter.) -/
def opened (head : List Lexeme) : Option Text :=
  match head.reverse with
  | .word n :: .word k :: rest =>
    if k = kwNamespace then some n
    else if k = kwPublic then
      (match rest with
        | .punct ':' :: .word c :: .word k' :: _ => if k' = kwClass then some c else none
        | _ => none)
    else none
  | _ => none

/-- The name and the parameters of a function, from the lexemes in front of its body: `… name(params)` or `… name(params) const`. -/
def inlineHead (head : List Lexeme) : Option (Text × List (List Lexeme × Text)) :=
  let r := head.reverse
  let r := if r.head? = some (.word (text! "const")) then r.drop 1 else r
  match r with
  | .punct ')' :: r =>
    (match r.dropWhile (· ≠ .punct '(') with
      | .punct '(' :: .word n :: _ => some (n, (parts (r.takeWhile (· ≠ .punct '(')).reverse).map paramOf)
      | _ => none)
  | _ => none

/-- A lexeme that does not occur in the declaration of a data member. -/
def notInMember (x : Lexeme) : Bool :=
  x == .punct '=' || x == .punct '(' || x == .punct ')' || x == .word kwClass

/-- The type and the name of a data member, from the lexemes in front of the semicolon. -/
def memberOf (head : List Lexeme) : Option (List Lexeme × Text) :=
  if head.any notInMember then none
  else match head.getLast? with
    | some (.word n) => some (head.dropLast, n)
    | _ => none

/-- The word of a section, as `private`, is the last one. -/
def atLabel (head : List Lexeme) : Bool :=
  match head.getLast? with
  | some (.word w) => sections.contains w
  | _ => false

/-- A lexeme. A section of a class begins with `private:` or the like. -/
def onIn (r : InReader) (x : Lexeme) : Option InReader :=
  match r.body with
  | none =>
    if x = .punct '{' then
      match opened r.head with
      | some n => some { r with scope := r.scope ++ [n], head := [] }
      | none => some { r with body := some ([], 0) }
    else if x = .punct '}' then (if r.scope = [] then none else some { r with scope := r.scope.dropLast, head := [] })
    else if x = .punct ';' then
      some { r with
        head := []
        found := r.found ++ (match memberOf r.head with | some (t, n) => [.member r.scope t n] | none => []) }
    else if x = .punct ':' ∧ atLabel r.head then some { r with head := [] }
    else some { r with head := r.head ++ [x] }
  | some (b, n) =>
    if x = .punct '{' then some { r with body := some (b ++ [x], n + 1) }
    else if x = .punct '}' then
      match n with
      | 0 =>
        some { r with
          head := []
          body := none
          found := r.found ++ (match inlineHead r.head with | some (f, ps) => [.fn r.scope f ps b] | none => []) }
      | n + 1 => some { r with body := some (b ++ [x], n) }
    else some { r with body := some (b ++ [x], n) }

def inAll : InReader → List Lexeme → Option InReader
  | r, [] => some r
  | r, x :: xs =>
    match onIn r x with
    | none => none
    | some r' => inAll r' xs

/-- What is found in a text: none if it cannot be cut into lexemes or if a brace is missing. -/
def declared (t : Text) : Option (List Declared) :=
  match lex t with
  | none => none
  | some ls =>
    match inAll {} ls with
    | some r => if r.scope = [] ∧ r.body = none then some r.found else none
    | none => none

/-! An example. -/

set_option maxRecDepth 100000 in
example : declared ("#include <a>\nnamespace n {\nclass B;\nclass K : public QObject\n{\n Q_OBJECT\npublic:\n enum E { A = 1 };\n " ++
    "using L = QList<K>;\n K(int a = 1);\n int f() const { return m_a; }\n void s(const int &a, B *b) {\n if (m_a != a) { m_a = a; } }\n" ++
    "private:\n int m_a;\n n::P<B> m_b;\n};\n}\n").toList = some
    [.fn [text! "n", text! "K"] (text! "f") [] (cpp! "return m_a;"),
     .fn [text! "n", text! "K"] (text! "s") [(cpp! "const int &", text! "a"), (cpp! "B *", text! "b")] (cpp! "if (m_a != a) { m_a = a; }"),
     .member [text! "n", text! "K"] (cpp! "int") (text! "m_a"),
     .member [text! "n", text! "K"] (cpp! "n::P<B>") (text! "m_b")] := by decide +kernel

end QtPb.SpecCpp
