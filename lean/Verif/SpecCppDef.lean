import Verif.SpecCpp
/-
A second small reader of C++, for sources: it lists the blocks (function definitions and initialised tables) and the statements outside of
functions, with the namespaces around them; and it takes apart heads of functions, lists of initialisers of constructors, tables and calls
with a string. It is made for this specification and independent of the generator.
-/
namespace QtPb.SpecCpp

/-! ### Blocks and statements -/

/-- What stands in namespaces: something with a body in braces (its head, the lexemes between the braces), or a statement. -/
inductive Item
  | block (scope : List Text) (head body : List Lexeme)
  | statement (scope : List Text) (lexemes : List Lexeme)
deriving DecidableEq, Repr

/-- The state of the reader: the names of the open namespaces, what was read since the last item, the body that is being read with the
number of braces open in it, what was found. -/
structure DefReader where
  scope : List Text := []
  head : List Lexeme := []
  body : Option (List Lexeme × Nat) := none
  found : List Item := []
deriving DecidableEq, Repr

/-- A lexeme outside of bodies. -/
def onTop (r : DefReader) (x : Lexeme) : Option DefReader :=
  if x = .punct '{' then
    match r.head with
    | [.word k, .word n] =>
      if k = kwNamespace then some { r with scope := r.scope ++ [n], head := [] } else some { r with body := some ([], 0) }
    | _ => some { r with body := some ([], 0) }
  else if x = .punct '}' then
    (if r.head = [] ∧ r.scope ≠ [] then some { r with scope := r.scope.dropLast } else none)
  else if x = .punct ';' then
    some { r with head := [], found := r.found ++ (if r.head = [] then [] else [.statement r.scope r.head]) }
  else some { r with head := r.head ++ [x] }

/-- A lexeme. -/
def onDef (r : DefReader) (x : Lexeme) : Option DefReader :=
  match r.body with
  | none => onTop r x
  | some (b, n) =>
    if x = .punct '{' then some { r with body := some (b ++ [x], n + 1) }
    else if x = .punct '}' then
      match n with
      | 0 => some { r with head := [], body := none, found := r.found ++ [.block r.scope r.head b] }
      | n + 1 => some { r with body := some (b ++ [x], n) }
    else some { r with body := some (b ++ [x], n) }

def defAll : DefReader → List Lexeme → Option DefReader
  | r, [] => some r
  | r, x :: xs =>
    match onDef r x with
    | none => none
    | some r' => defAll r' xs

/-- The items of a text; none if it cannot be cut into lexemes or if a brace is missing or a statement is not finished. -/
def items (t : Text) : Option (List Item) :=
  match lex t with
  | none => none
  | some ls =>
    match defAll {} ls with
    | some r => if r.scope = [] ∧ r.head = [] ∧ r.body = none then some r.found else none
    | none => none

/-! ### Heads -/

/-- The name in a qualified head: the name of the class and what stands after the last `::` (in front of the first parenthesis). -/
def qualifiedName (head : List Lexeme) : Option (Text × List Lexeme) :=
  let r := (head.takeWhile (· ≠ .punct '(')).reverse
  match r.dropWhile (· ≠ .punct ':') with
  | .punct ':' :: .punct ':' :: .word c :: _ => some (c, (r.takeWhile (· ≠ .punct ':')).reverse)
  | _ => none

def isCall (head : List Lexeme) : Bool := head.contains (.punct '(')

/-- The functions defined: the class they belong to, with the namespaces around, and the name. -/
def functionsIn (is : List Item) : List (List Text × List Lexeme) :=
  is.filterMap fun
    | .block s head _ => if isCall head then (qualifiedName head).map fun q => (s ++ [q.1], q.2) else none
    | _ => none

/-- The body of the functions with some name. -/
def bodiesIn (cls : List Text) (name : List Lexeme) (is : List Item) : List (List Lexeme) :=
  is.filterMap fun
    | .block s head b => if isCall head ∧ (qualifiedName head).map (fun q => (s ++ [q.1], q.2)) = some (cls, name) then some b else none
    | _ => none

/-! ### Tables -/

/-- The entries `{a, {b, "c"}}` of a table, separated by commas. -/
def entries : List Lexeme → Option (List (Text × Text × Text))
  | [] => some []
  | .punct '{' :: .word a :: .punct ',' :: .punct '{' :: .word b :: .punct ',' :: .str s :: .punct '}' :: .punct '}' :: rest =>
    match rest with
    | [] => some [(a, b, s)]
    | .punct ',' :: rest' => (entries rest').map ((a, b, s) :: ·)
    | _ => none
  | _ => none

/-- The tables with some name: the class they belong to and their entries. -/
def tablesIn (name : Text) (is : List Item) : List (List Text × Option (List (Text × Text × Text))) :=
  is.filterMap fun
    | .block s head b =>
      if isCall head then none
      else match qualifiedName head with
        | some (c, n) => if n = [.word name, .punct '='] then some (s ++ [c], entries b) else none
        | none => none
    | _ => none

/-! ### C++ in quotation marks -/

/-- A piece of the text between quotation marks: characters, the name of a text, the name of a list of lexemes. -/
private inductive Piece
  | chars (s : List Char)
  | name (s : List Char)

open Lean in
private def pieceTerm : Piece → MacroM (TSyntax `term)
  | .chars s => do
    let cs := s.map fun c => (Syntax.mkCharLit c : TSyntax `term)
    `([$(cs.toArray),*])
  | .name s => pure (mkIdent (String.toName (String.ofList s)))

open Lean in
private def pieceTerms : List Piece → MacroM (TSyntax `term)
  | [] => `([])
  | [p] => pieceTerm p
  | p :: ps => do
    let a ← pieceTerm p
    let b ← pieceTerms ps
    `($a ++ $b)

private def addChar (c : Char) : List Piece → List Piece
  | .chars s :: ps => .chars (s ++ [c]) :: ps
  | ps => .chars [c] :: ps

open Lean in
/-- The pieces of a word or string (in reverse) come first, then the text that follows; `mode` is 0 between words, 1 in a word, 2 in a
string. -/
private partial def cppTerm (mode : Nat) (acc : List Piece) (s : List Char) : MacroM (TSyntax `term) := do
  let endHere (k : MacroM (TSyntax `term)) : MacroM (TSyntax `term) := do
    let rest ← k
    if mode == 0 then return rest
    let w ← pieceTerms acc.reverse
    if mode == 1 then `(Lexeme.word $w :: $rest) else `(Lexeme.str $w :: $rest)
  match s with
  | [] => endHere `([])
  | c :: s =>
    if c == '$' then
      let n := s.takeWhile (· != '$')
      cppTerm (if mode == 2 then 2 else 1) (.name n :: acc) (s.drop (n.length + 1))
    else if mode == 2 then
      (if c == '"' then endHere (cppTerm 0 [] s) else cppTerm 2 (addChar c acc) s)
    else if c.isAlphanum || c == '_' then cppTerm 1 (addChar c acc) s
    else if c == '@' then
      let n := s.takeWhile (· != '@')
      endHere do
        let rest ← cppTerm 0 [] (s.drop (n.length + 1))
        `($(mkIdent (String.toName (String.ofList n))) ++ $rest)
    else if c == '"' then endHere (cppTerm 2 [] s)
    else if c == ' ' || c == '\n' then endHere (cppTerm 0 [] s)
    else endHere do
      let rest ← cppTerm 0 [] s
      `(Lexeme.punct $(Syntax.mkCharLit c) :: $rest)

/-- `cpp! "m_$x$ = @e@;"` is a list of lexemes written as C++: in place of `$x$` the text `x` stands (in a word or a string), in place of
`@e@` the lexemes `e`. -/
macro "cpp! " s:str : term => cppTerm 0 [] s.getString.toList

example (x : Text) (e : List Lexeme) : cpp! "m_$x$ = @e@;" =
    .word (['m', '_'] ++ x) :: .punct '=' :: (e ++ [.punct ';']) := rfl
example : some (cpp! "if (a == \"b c\") { f(); }") = lex ("if (a == \"b c\") { f(); }").toList := by decide +kernel

/-! ### Statements -/

/-- Objects made outside of functions, `static … name(args);`, by the words of the statement. -/
def statementsIn (is : List Item) : List (List Text × List Lexeme) :=
  is.filterMap fun
    | .statement s ls => some (s, ls)
    | _ => none

end QtPb.SpecCpp
