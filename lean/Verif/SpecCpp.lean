/-
A small reader of C++ headers and sources, made for this specification and independent of the generator: it cuts a text into words,
punctuation marks and string literals (comments and blanks are dropped), checks that brackets match, and lists the classes with their
bases, forward declarations, uses of three Qt macros, and the labels and functions in classes, with the namespaces and classes around
them. What it does not know (character literals, line breaks in string literals, brackets that do not match, a class without a semicolon
after it) it refuses: none.
-/
namespace QtPb.SpecCpp

abbrev Text := List Char

/-! ### Words and punctuation -/

/-- A lexeme of C++ as far as needed: a word (identifier, keyword or number), a punctuation mark, a string literal. -/
inductive Lexeme
  | word (w : Text)
  | punct (c : Char)
  | str (s : Text)
deriving DecidableEq, Repr

/-- Letters, digits and the underscore (ASCII). -/
def isWord (c : Char) : Bool :=
  ('a' ≤ c && c ≤ 'z') || ('A' ≤ c && c ≤ 'Z') || ('0' ≤ c && c ≤ '9') || c == '_'

def isBlank (c : Char) : Bool := c == ' ' || c == '\n' || c == '\t' || c == '\r'

/-- Where the lexer is: in code after the letters of a word (or none), after a slash, in a string literal, after a backslash in one,
in a comment to the end of the line, in a comment, after a star in one. -/
inductive Lex
  | code (w : Text)
  | slash
  | str (s : Text)
  | esc (s : Text)
  | line
  | block
  | star
deriving DecidableEq, Repr

/-- The word that ends here, if there is one. -/
def endWord (w : Text) : List Lexeme := if w = [] then [] else [.word w]

/-- A character that is not part of a word, in code. -/
def mark (c : Char) : Option (List Lexeme × Lex) :=
  if c = '"' then some ([], .str [])
  else if c = '\'' then none
  else if c = '\\' then none
  else if c = '/' then some ([], .slash)
  else if isBlank c then some ([], .code [])
  else some ([.punct c], .code [])

/-- A character in code, after the letters of `w`. -/
def codeStep (w : Text) (c : Char) : Option (List Lexeme × Lex) :=
  if isWord c then some ([], .code (w ++ [c]))
  else (mark c).map fun r => (endWord w ++ r.1, r.2)

def step : Lex → Char → Option (List Lexeme × Lex)
  | .code w, c => codeStep w c
  | .slash, c =>
    if c = '*' then some ([], .block)
    else if c = '/' then some ([], .line)
    else (codeStep [] c).map fun r => (.punct '/' :: r.1, r.2)
  | .str s, c =>
    if c = '"' then some ([.str s], .code [])
    else if c = '\\' then some ([], .esc s)
    else if c = '\n' then none
    else some ([], .str (s ++ [c]))
  | .esc s, c => if c = '\n' then none else some ([], .str (s ++ ['\\', c]))
  | .line, c => if c = '\n' then some ([], .code []) else some ([], .line)
  | .block, c => if c = '*' then some ([], .star) else some ([], .block)
  | .star, c =>
    if c = '/' then some ([], .code [])
    else if c = '*' then some ([], .star)
    else some ([], .block)

def lexFrom : Lex → Text → Option (List Lexeme × Lex)
  | l, [] => some ([], l)
  | l, c :: t =>
    match step l c with
    | none => none
    | some (a, l') =>
      match lexFrom l' t with
      | none => none
      | some (b, l'') => some (a ++ b, l'')

/-- The lexemes of a text; a text that ends in a comment or a string literal has none. -/
def lex (t : Text) : Option (List Lexeme) :=
  match lexFrom (.code []) t with
  | some (a, .code w) => some (a ++ endWord w)
  | _ => none

/-! ### Brackets, namespaces, classes and macros -/

/-- What an open bracket belongs to. -/
inductive Frame
  | space (name : Text)
  | cls (name : Text)
  | brace
  | paren
  | square
deriving DecidableEq, Repr

/-- What the reader finds: a class without body, the head of a class with body (and what stands between its name and the body), a use
of a macro, a label in a class (`public` and the like, `Q_OBJECT`), a name in a class before a parenthesis, that is, a function or
another macro; with the names of the namespaces and classes around it. -/
inductive Event
  | forward (scope : List Text) (name : Text)
  | cls (scope : List Text) (name : Text) (bases : List Lexeme)
  | call (scope : List Text) (macroName : Text) (args : List Lexeme)
  | label (scope : List Text) (name : Text)
  | func (scope : List Text) (name : Text)
deriving DecidableEq, Repr

/-- What was begun and not finished: `namespace`, a name after it, `class`, a name after it, the body of a class before the semicolon,
the name of a macro, its arguments. -/
inductive Pending
  | none
  | space
  | spaceName (name : Text)
  | cls
  | clsName (name : Text) (rest : List Lexeme)
  | ended
  | call (macroName : Text)
  | args (macroName : Text) (args : List Lexeme)
deriving DecidableEq, Repr

/-- The state of the reader: open brackets, what was begun, what was found, the word just before. -/
structure Reader where
  stack : List Frame := []
  pending : Pending := .none
  found : List Event := []
  last : Option Text := none
deriving DecidableEq, Repr

/-- The names of the namespaces and classes around, from the outermost. -/
def scopeOf : List Frame → List Text
  | [] => []
  | .space n :: fs => scopeOf fs ++ [n]
  | .cls n :: fs => scopeOf fs ++ [n]
  | _ :: fs => scopeOf fs

/-- Directly in the body of a class. -/
def inClass : List Frame → Bool
  | .cls _ :: _ => true
  | _ => false

def kwNamespace : Text := ['n', 'a', 'm', 'e', 's', 'p', 'a', 'c', 'e']
def kwClass : Text := ['c', 'l', 'a', 's', 's']
def kwProperty : Text := ['Q', '_', 'P', 'R', 'O', 'P', 'E', 'R', 'T', 'Y']
def kwEnum : Text := ['Q', '_', 'E', 'N', 'U', 'M']
def kwMetaType : Text :=
  ['Q', '_', 'D', 'E', 'C', 'L', 'A', 'R', 'E', '_', 'M', 'E', 'T', 'A', 'T', 'Y', 'P', 'E']

example : kwNamespace = "namespace".toList ∧ kwClass = "class".toList ∧ kwProperty = "Q_PROPERTY".toList ∧ kwEnum = "Q_ENUM".toList ∧
    kwMetaType = "Q_DECLARE_METATYPE".toList := by
  simp [kwNamespace, kwClass, kwProperty, kwEnum, kwMetaType]

/-- The macros the reader lists. -/
def macros : List Text := [kwProperty, kwEnum, kwMetaType]

def kwPublic : Text := ['p', 'u', 'b', 'l', 'i', 'c']
def kwProtected : Text := ['p', 'r', 'o', 't', 'e', 'c', 't', 'e', 'd']
def kwPrivate : Text := ['p', 'r', 'i', 'v', 'a', 't', 'e']
def kwSignals : Text := ['s', 'i', 'g', 'n', 'a', 'l', 's']
def kwObject : Text := ['Q', '_', 'O', 'B', 'J', 'E', 'C', 'T']

example : kwPublic = "public".toList ∧ kwProtected = "protected".toList ∧ kwPrivate = "private".toList ∧ kwSignals = "signals".toList ∧
    kwObject = "Q_OBJECT".toList := by
  simp [kwPublic, kwProtected, kwPrivate, kwSignals, kwObject]

/-- The words that begin a section of a class. -/
def sections : List Text := [kwPublic, kwProtected, kwPrivate, kwSignals]

/-- The labels the reader lists. -/
def labels : List Text := kwObject :: sections

/-- A word. -/
def onWord (r : Reader) (w : Text) : Reader :=
  match r.pending with
  | .none =>
    if w = kwNamespace then { r with pending := .space, last := none }
    else if w = kwClass then { r with pending := .cls, last := none }
    else if macros.contains w then { r with pending := .call w, last := none }
    else if labels.contains w then
      { r with found := r.found ++ (if inClass r.stack then [.label (scopeOf r.stack) w] else []), last := none }
    else { r with last := some w }
  | .space => { r with pending := .spaceName w }
  | .cls => { r with pending := .clsName w [] }
  | .clsName n as => { r with pending := .clsName n (as ++ [.word w]) }
  | .args m as => { r with pending := .args m (as ++ [.word w]) }
  | .call _ => { r with pending := .none }
  | _ => r

/-- A punctuation mark. -/
def onPunct (r : Reader) (c : Char) : Option Reader :=
  match r.pending with
  | .args m as =>
    if c = ')' then
      match r.stack with
      | .paren :: st => some { stack := st, pending := .none, found := r.found ++ [.call (scopeOf st) m as], last := none }
      | _ => none
    else if c = '(' ∨ c = '{' ∨ c = '}' ∨ c = '[' ∨ c = ']' then none
    else some { r with pending := .args m (as ++ [.punct c]) }
  | .call m =>
    if c = '(' then some { r with stack := .paren :: r.stack, pending := .args m [] } else none
  | .space => none
  | .spaceName n =>
    if c = '{' then some { r with stack := .space n :: r.stack, pending := .none, last := none }
    else if c = ';' then some { r with pending := .none, last := none }
    else none
  | .cls => none
  | .clsName n as =>
    if c = '{' then
      some { stack := .cls n :: r.stack, pending := .none, found := r.found ++ [.cls (scopeOf r.stack) n as], last := none }
    else if c = ';' then
      (if as = [] then some { r with pending := .none, found := r.found ++ [.forward (scopeOf r.stack) n], last := none } else none)
    else if c = '(' ∨ c = ')' ∨ c = '}' ∨ c = '[' ∨ c = ']' then none
    else some { r with pending := .clsName n (as ++ [.punct c]) }
  | .ended => if c = ';' then some { r with pending := .none, last := none } else none
  | .none =>
    if c = '{' then some { r with stack := .brace :: r.stack, last := none }
    else if c = '(' then
      some { r with
        stack := .paren :: r.stack
        found := r.found ++ (match r.last with | some w => if inClass r.stack then [.func (scopeOf r.stack) w] else [] | none => [])
        last := none }
    else if c = '[' then some { r with stack := .square :: r.stack, last := none }
    else if c = '}' then
      match r.stack with
      | .brace :: st => some { r with stack := st, last := none }
      | .space _ :: st => some { r with stack := st, last := none }
      | .cls _ :: st => some { r with stack := st, pending := .ended, last := none }
      | _ => none
    else if c = ')' then
      match r.stack with
      | .paren :: st => some { r with stack := st, last := none }
      | _ => none
    else if c = ']' then
      match r.stack with
      | .square :: st => some { r with stack := st, last := none }
      | _ => none
    else some { r with last := none }

def onLexeme (r : Reader) : Lexeme → Option Reader
  | .word w => some (onWord r w)
  | .punct c => onPunct r c
  | .str s =>
    match r.pending with
    | .args m as => some { r with pending := .args m (as ++ [.str s]) }
    | .none => some { r with last := none }
    | _ => none

def readAll : Reader → List Lexeme → Option Reader
  | r, [] => some r
  | r, x :: xs =>
    match onLexeme r x with
    | none => none
    | some r' => readAll r' xs

/-- What is found in a text: none if it cannot be cut into lexemes, if brackets do not match, or if a declaration is not finished. -/
def read (t : Text) : Option (List Event) :=
  match lex t with
  | none => none
  | some ls =>
    match readAll {} ls with
    | some r => if r.stack = [] ∧ r.pending = .none then some r.found else none
    | none => none

/-- The classes with their bodies, with the names around them. -/
def classesIn (es : List Event) : List (List Text) :=
  es.filterMap fun
    | .cls s n _ => some (s ++ [n])
    | _ => none

/-- What stands after the names of classes, in front of their bodies. -/
def basesIn (es : List Event) : List (List Lexeme) :=
  es.filterMap fun
    | .cls _ _ as => some as
    | _ => none

/-- The places where a label stands. -/
def labelsIn (l : Text) (es : List Event) : List (List Text) :=
  es.filterMap fun
    | .label s l' => if l' = l then some s else none
    | _ => none

/-- The functions (and macros with arguments other than those above) in classes: the class, the section of the class (private at the
beginning), the name. -/
def membersFrom : Text → List Event → List (List Text × Text × Text)
  | _, [] => []
  | _, .cls _ _ _ :: es => membersFrom kwPrivate es
  | a, .label _ l :: es => membersFrom (if sections.contains l then l else a) es
  | a, .func s n :: es => (s, a, n) :: membersFrom a es
  | a, _ :: es => membersFrom a es

def membersIn (es : List Event) : List (List Text × Text × Text) := membersFrom kwPrivate es

/-- The classes declared without body. -/
def forwardsIn (es : List Event) : List (List Text) :=
  es.filterMap fun
    | .forward s n => some (s ++ [n])
    | _ => none

/-- The arguments of a macro, in order, with the place where it is used. -/
def callsIn (m : Text) (es : List Event) : List (List Text × List Lexeme) :=
  es.filterMap fun
    | .call s m' as => if m' = m then some (s, as) else none
    | _ => none

/-- A property as moc reads it: its type, its name, the methods after READ and WRITE, the signal after NOTIFY, the word after
SCRIPTABLE. -/
structure Prop' where
  type : List Lexeme
  name : Text
  read : Text
  write : Option Text
  notify : Option Text
  scriptable : Option Text
deriving DecidableEq, Repr

def kwRead : Text := ['R', 'E', 'A', 'D']
def kwWrite : Text := ['W', 'R', 'I', 'T', 'E']
def kwNotify : Text := ['N', 'O', 'T', 'I', 'F', 'Y']
def kwScriptable : Text := ['S', 'C', 'R', 'I', 'P', 'T', 'A', 'B', 'L', 'E']

/-- The words the reader looks for. -/
def keywords : List Text := [kwNamespace, kwClass, kwProperty, kwEnum, kwMetaType, kwRead] ++ labels

/-- A name: letters, digits and underscores, and none of these words. -/
def Name (s : Text) : Prop := s ≠ [] ∧ (∀ c ∈ s, isWord c = true) ∧ s ∉ keywords

/-- The word after a keyword, in a list of keywords each with one word. -/
def wordAfter (kw : Text) : List Lexeme → Option Text
  | .word k :: .word w :: rest => if k = kw then some w else wordAfter kw rest
  | _ => none

/-- The arguments of Q_PROPERTY, after some lexemes of the type: the name is the word before READ. -/
def propertyFrom (type : List Lexeme) : List Lexeme → Option Prop'
  | .word n :: .word k :: .word r :: rest =>
    if k = kwRead then some ⟨type, n, r, wordAfter kwWrite rest, wordAfter kwNotify rest, wordAfter kwScriptable rest⟩
    else propertyFrom (type ++ [.word n]) (.word k :: .word r :: rest)
  | x :: rest => propertyFrom (type ++ [x]) rest
  | [] => none

def propertyOf (args : List Lexeme) : Option Prop' := propertyFrom [] args

/-- The properties, with the namespaces and classes around them. -/
def propertiesIn (es : List Event) : List (List Text × Option Prop') := (callsIn kwProperty es).map fun c => (c.1, propertyOf c.2)

/-- A qualified name, `a::b::c`. -/
def qualified : List Text → List Lexeme
  | [] => []
  | [n] => [.word n]
  | n :: ns => .word n :: .punct ':' :: .punct ':' :: qualified ns

end QtPb.SpecCpp
