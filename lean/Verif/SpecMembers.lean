import Verif.GenMembers
import Verif.PropsGenClass
/-
What a generated class has to do when it is constructed, and which names it may declare.
-/
namespace QtPb.Gen.Spec

/-! ### Values after construction -/

/-- The value of a data member after construction: a copy of an argument, a number (0 for false), an empty text, list, map or Qt value,
no sub-message; `garbage`: the member is not initialized; `error`: the initializer means nothing. -/
inductive Start (α : Type)
  | copy (a : α)
  | number (n : Int)
  | empty
  | unset
  | garbage
  | error

/-- A member without initializer. Texts, lists, maps and Qt values are empty. The types int32, int64, fixed32, fixed64, sfixed32 and
sfixed64 of QtProtobuf are classes that start with 0 (qtprotobuftypes.h:85-97, 105-181), the others are built into C++. -/
def uninitialized {α : Type} : Option CType → Start α
  | none => .unset
  | some (.scalar .string) | some (.scalar .bytes) => .empty
  | some (.scalar t) => if t ∈ [.int32, .int64, .fixed32, .fixed64, .sfixed32, .sfixed64] then .number 0 else .garbage
  | some (.enum _) => .garbage
  | some (.list _) | some (.map _) | some (.qt _) => .empty
  | some (.msg _) => .empty

/-- A member of the type `type` (none: a pointer to a message) after a constructor was called with the arguments `args`. `constants`: the
constants that enumerations have. A member is a copy of a parameter of its own type; a pointer gets a new message of the class of the
parameter, copied from it. -/
def after {α : Type} (constants : Path → List (Str × Int)) (c : Ctor) (args : List α) (member : Str) (type : Option CType) : Start α :=
  match c.inits.find? (·.1 == member) with
  | none => uninitialized type
  | some (_, i) =>
    match i with
    | .param x =>
      match (c.params.zip args).find? (·.1.name == x) with
      | some (p, a) => if some p.type = type then .copy a else .error
      | none => .error
    | .fresh t x =>
      match (c.params.zip args).find? (·.1.name == x) with
      | some (p, a) => if p.type = t ∧ type = none then .copy a else .error
      | none => .error
    | .zero | .false => .number 0
    | .constant e x =>
      match (constants e).find? (·.1 == x) with
      | some (_, n) => .number n
      | none => .error
    | .null => .unset

/-- The default of protobuf: 0, false, the empty text, the empty list or map, no sub-message. (A Qt value is the default one.) -/
def defaultOf {α : Type} (package : List Str) (f : FieldD) : Start α :=
  if f.repeated || f.isMap then .empty
  else if f.type = .string ∨ f.type = .bytes then .empty
  else if f.type = .message then (if isQtType package f then .empty else .unset)
  else .number 0

/-! ### Overload resolution -/

/-- A constructor can be called with arguments of exactly these types, and with a parent if `parent`. -/
def Takes (c : Ctor) (types : List CType) (parent : Bool) : Prop := c.params.map (·.type) = types ∧ (parent = true → c.parent = true)

/-- The names of the parameters are distinct. -/
def DistinctParams (c : Ctor) : Prop := (c.params.map (·.name) ++ if c.parent then [['p', 'a', 'r', 'e', 'n', 't']] else []).Nodup

/-! ### Words of C++ -/

/-- The keywords of C++17, the words that stand for operators, and the macros of Qt in small letters (unless QT_NO_KEYWORDS is defined). -/
def keywords : List Str := [
  ['a', 'l', 'i', 'g', 'n', 'a', 's'], ['a', 'l', 'i', 'g', 'n', 'o', 'f'], ['a', 'n', 'd'], ['a', 'n', 'd', '_', 'e', 'q'],
  ['a', 's', 'm'], ['a', 'u', 't', 'o'], ['b', 'i', 't', 'a', 'n', 'd'], ['b', 'i', 't', 'o', 'r'], ['b', 'o', 'o', 'l'],
  ['b', 'r', 'e', 'a', 'k'], ['c', 'a', 's', 'e'], ['c', 'a', 't', 'c', 'h'], ['c', 'h', 'a', 'r'],
  ['c', 'h', 'a', 'r', '1', '6', '_', 't'], ['c', 'h', 'a', 'r', '3', '2', '_', 't'], ['c', 'l', 'a', 's', 's'], ['c', 'o', 'm', 'p', 'l'],
  ['c', 'o', 'n', 's', 't'], ['c', 'o', 'n', 's', 't', 'e', 'x', 'p', 'r'], ['c', 'o', 'n', 's', 't', '_', 'c', 'a', 's', 't'],
  ['c', 'o', 'n', 't', 'i', 'n', 'u', 'e'], ['d', 'e', 'c', 'l', 't', 'y', 'p', 'e'], ['d', 'e', 'f', 'a', 'u', 'l', 't'],
  ['d', 'e', 'l', 'e', 't', 'e'], ['d', 'o'], ['d', 'o', 'u', 'b', 'l', 'e'], ['d', 'y', 'n', 'a', 'm', 'i', 'c', '_', 'c', 'a', 's', 't'],
  ['e', 'l', 's', 'e'], ['e', 'n', 'u', 'm'], ['e', 'x', 'p', 'l', 'i', 'c', 'i', 't'], ['e', 'x', 'p', 'o', 'r', 't'],
  ['e', 'x', 't', 'e', 'r', 'n'], ['f', 'a', 'l', 's', 'e'], ['f', 'l', 'o', 'a', 't'], ['f', 'o', 'r'], ['f', 'r', 'i', 'e', 'n', 'd'],
  ['g', 'o', 't', 'o'], ['i', 'f'], ['i', 'n', 'l', 'i', 'n', 'e'], ['i', 'n', 't'], ['l', 'o', 'n', 'g'],
  ['m', 'u', 't', 'a', 'b', 'l', 'e'], ['n', 'a', 'm', 'e', 's', 'p', 'a', 'c', 'e'], ['n', 'e', 'w'],
  ['n', 'o', 'e', 'x', 'c', 'e', 'p', 't'], ['n', 'o', 't'], ['n', 'o', 't', '_', 'e', 'q'], ['n', 'u', 'l', 'l', 'p', 't', 'r'],
  ['o', 'p', 'e', 'r', 'a', 't', 'o', 'r'], ['o', 'r'], ['o', 'r', '_', 'e', 'q'], ['p', 'r', 'i', 'v', 'a', 't', 'e'],
  ['p', 'r', 'o', 't', 'e', 'c', 't', 'e', 'd'], ['p', 'u', 'b', 'l', 'i', 'c'], ['r', 'e', 'g', 'i', 's', 't', 'e', 'r'],
  ['r', 'e', 'i', 'n', 't', 'e', 'r', 'p', 'r', 'e', 't', '_', 'c', 'a', 's', 't'], ['r', 'e', 't', 'u', 'r', 'n'],
  ['s', 'h', 'o', 'r', 't'], ['s', 'i', 'g', 'n', 'e', 'd'], ['s', 'i', 'z', 'e', 'o', 'f'], ['s', 't', 'a', 't', 'i', 'c'],
  ['s', 't', 'a', 't', 'i', 'c', '_', 'a', 's', 's', 'e', 'r', 't'], ['s', 't', 'a', 't', 'i', 'c', '_', 'c', 'a', 's', 't'],
  ['s', 't', 'r', 'u', 'c', 't'], ['s', 'w', 'i', 't', 'c', 'h'], ['t', 'e', 'm', 'p', 'l', 'a', 't', 'e'], ['t', 'h', 'i', 's'],
  ['t', 'h', 'r', 'e', 'a', 'd', '_', 'l', 'o', 'c', 'a', 'l'], ['t', 'h', 'r', 'o', 'w'], ['t', 'r', 'u', 'e'], ['t', 'r', 'y'],
  ['t', 'y', 'p', 'e', 'd', 'e', 'f'], ['t', 'y', 'p', 'e', 'i', 'd'], ['t', 'y', 'p', 'e', 'n', 'a', 'm', 'e'], ['u', 'n', 'i', 'o', 'n'],
  ['u', 'n', 's', 'i', 'g', 'n', 'e', 'd'], ['u', 's', 'i', 'n', 'g'], ['v', 'i', 'r', 't', 'u', 'a', 'l'], ['v', 'o', 'i', 'd'],
  ['v', 'o', 'l', 'a', 't', 'i', 'l', 'e'], ['w', 'c', 'h', 'a', 'r', '_', 't'], ['w', 'h', 'i', 'l', 'e'], ['x', 'o', 'r'],
  ['x', 'o', 'r', '_', 'e', 'q'],
  ['s', 'i', 'g', 'n', 'a', 'l', 's'], ['s', 'l', 'o', 't', 's'], ['e', 'm', 'i', 't'], ['f', 'o', 'r', 'e', 'a', 'c', 'h'], ['f', 'o', 'r', 'e', 'v', 'e', 'r']]

/-- The form of names in C++ and in schemas: letters, digits and underscores, without a digit at the start. -/
def Identifier (s : Str) : Prop := s ≠ [] ∧ (∀ c ∈ s, c.isAlphanum = true ∨ c = '_') ∧ ∀ c, s.head? = some c → c.isDigit = false

end QtPb.Gen.Spec
