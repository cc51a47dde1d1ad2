import Verif.SpecJsonMsg
import Verif.JsonRead
/-
Specification for C64, C65: which message a JSON document stands for, by the JSON mapping of proto3, and what is assumed of
microjson and Qt. Uses from `Verif/JsonRead.lean` only `REnv` and `JType`.
-/
namespace QtPb.Spec
open Json (JEnv REnv JType)

/-! ### What is assumed of microjson and Qt -/

/-- Type and text that stand for a JSON value: strings without their quotes, arrays and objects as documents; `null` counts
as an object. -/
def Content : JVal → JType → Bytes → Prop
  | .null, t, c => t = .object ∧ c = [110, 117, 108, 108]
  | .bool b, t, c => t = .bool ∧ c = if b then [116, 114, 117, 101] else [102, 97, 108, 115, 101]
  | .num x, t, c => t = .number ∧ c = x
  | .str raw, t, c => t = .string ∧ c = raw
  | .arr js, t, c => t = .array ∧ readJson c = some (.arr js)
  | .obj ms, t, c => t = .object ∧ readJson c = some (.obj ms)

/-- The library microjson reads JSON documents: the members of an object (in any order, if no name occurs twice), the elements
of an array, and both one after the other. -/
structure ReadsJson (env : REnv) : Prop where
  object : ∀ t ms, readJson t = some (.obj ms) → (ms.map (·.1)).Nodup → ∃ ps ps', env.objectOf t = .ok ps ∧ ps.Perm ps' ∧
    Elementwise (fun p q => p.1 = q.1 ∧ Content q.2 p.2.1 p.2.2) ps' ms
  array : ∀ t js, readJson t = some (.arr js) → ∃ es, env.arrayOf t = .ok es ∧ Elementwise (fun e j => Content j e.1 e.2) es js
  entries : ∀ t ms, readJson t = some (.obj ms) → ∃ ps, env.entriesOf t = .ok ps ∧
    Elementwise (fun p q => p.1 = q.1 ∧ Content q.2 p.2.1 p.2.2) ps ms
  elements : ∀ t js, readJson t = some (.arr js) → ∃ es, env.elementsOf t = .ok es ∧
    Elementwise (fun e j => Content j e.1 e.2) es js

/-- Decoding of UTF-8 leaves ASCII characters as they are; `g` decodes from the start of a text, `dec` behind one. (The byte
order mark is removed at the start only.) -/
structure Decodes (g dec : Bytes → List Char) : Prop where
  append : ∀ a x r, x < 0x80 → g (a ++ x :: r) = g a ++ Char.ofNat x.toNat :: dec r
  quote : ∀ a, 0x22 ∉ a → '"' ∉ g a
  backslash : ∀ a, 0x5c ∉ a → '\\' ∉ g a

/-- Qt reads decimal integers that are in the range of the type, and nothing else that is a JSON number; it decodes UTF-8. -/
structure QtReads (env : REnv) : Prop where
  integer : ∀ lo hi t x, IntegerText t x → lo ≤ x → x ≤ hi → env.toInteger lo hi t = some x
  range : ∀ lo hi t x, IntegerText t x → (x < lo ∨ hi < x) → env.toInteger lo hi t = none
  fraction : ∀ lo hi t, isNumber t = true → decimalValue t = none → env.toInteger lo hi t = none
  text : ∃ dec, dec [] = [] ∧ Decodes env.fromUtf8 dec ∧ Decodes dec dec

/-- For every input the JSON library returns or throws, and the parts it returns are shorter than the input. -/
structure LibraryReturns (env : REnv) : Prop where
  object : ∀ t, (∃ ps, env.objectOf t = .ok ps ∧ ∀ p ∈ ps, p.2.2.length < t.length) ∨ ∃ e, env.objectOf t = .throw e
  array : ∀ t, (∃ es, env.arrayOf t = .ok es ∧ ∀ e ∈ es, e.2.length < t.length) ∨ ∃ e, env.arrayOf t = .throw e
  entries : ∀ t, (∃ ps, env.entriesOf t = .ok ps ∧ ∀ p ∈ ps, p.2.2.length < t.length) ∨ ∃ e, env.entriesOf t = .throw e
  elements : ∀ t, (∃ es, env.elementsOf t = .ok es ∧ ∀ e ∈ es, e.2.length < t.length) ∨ ∃ e, env.elementsOf t = .throw e

/-- The JSON library throws `e` for some input. -/
def LibraryThrows (env : REnv) (e : Exn) : Prop :=
  ∃ t, env.objectOf t = .throw e ∨ env.arrayOf t = .throw e ∨ env.entriesOf t = .throw e ∨ env.elementsOf t = .throw e

/-! ### The message a document stands for -/

/-- The characters behind a backslash and what they stand for (RFC 8259; `\u` followed by four digits is left out). -/
def jsonEscapes (b : UInt8) : Option UInt8 :=
  if b = 0x22 then some 0x22 else if b = 0x5c then some 0x5c else if b = 0x2f then some 0x2f
  else if b = 0x62 then some 0x08 else if b = 0x66 then some 0x0c else if b = 0x6e then some 0x0a
  else if b = 0x72 then some 0x0d else if b = 0x74 then some 0x09 else none

/-- Only quotes behind a backslash. -/
def quoteEscape (b : UInt8) : Option UInt8 := if b = 0x22 then some 0x22 else none

/-- `raw`, between the quotes of a JSON string, is a text with escape sequences. `esc`: the escape sequences that are allowed. -/
inductive Unescape (esc : UInt8 → Option UInt8) : Bytes → Bytes → Prop
  | nil : Unescape esc [] []
  | plain {b : UInt8} {raw s : Bytes} : 0x20 ≤ b → b ≠ 0x22 → b ≠ 0x5c → Unescape esc raw s → Unescape esc (b :: raw) (b :: s)
  | escape {b c : UInt8} {raw s : Bytes} : esc b = some c → Unescape esc raw s → Unescape esc (0x5c :: b :: raw) (c :: s)

/-- `raw` stands for the text `s`. -/
def TextOf (env : REnv) (esc : UInt8 → Option UInt8) (raw : Bytes) (s : List Char) : Prop :=
  ∃ b, Unescape esc raw b ∧ s = env.fromUtf8 b

/-- A number, as such or as a string. -/
def isNumberText (j : JVal) (t : Bytes) : Prop := j = .num t ∨ j = .str t

/-- The JSON value `j` stands for the scalar: integers and floating point numbers as numbers or strings (floating point
numbers as Qt reads them), byte arrays as base64. -/
def MeansScalar (env : REnv) (esc : UInt8 → Option UInt8) : Kind → JVal → Scalar → Prop
  | .int32, j, .w32 b | .sint32, j, .w32 b | .sfixed32, j, .w32 b => ∃ t, isNumberText j t ∧ IntegerText t b.toInt
  | .int64, j, .w64 b | .sint64, j, .w64 b | .sfixed64, j, .w64 b => ∃ t, isNumberText j t ∧ IntegerText t b.toInt
  | .uint32, j, .w32 b | .fixed32, j, .w32 b => ∃ t, isNumberText j t ∧ IntegerText t b.toNat
  | .uint64, j, .w64 b | .fixed64, j, .w64 b => ∃ t, isNumberText j t ∧ IntegerText t b.toNat
  | .float, j, .w32 b => ∃ t, isNumberText j t ∧ isNumber t = true ∧ env.toFloat t = (b, true)
  | .double, j, .w64 b => ∃ t, isNumberText j t ∧ isNumber t = true ∧ env.toDouble t = (b, true)
  | .bool, j, .bool b => j = .bool b
  | .string, j, .str s => ∃ raw text, j = .str raw ∧ s = some text ∧ TextOf env esc raw text
  | .bytes, j, .bytes s => ∃ raw b, j = .str raw ∧ s = some b ∧ base64Decode raw = some b
  | _, _, _ => False

/-- The member name `name` stands for a map key. -/
def MeansKey (env : REnv) (esc : UInt8 → Option UInt8) : Kind → Bytes → Scalar → Prop
  | .bool, name, .bool b => name = if b then [116, 114, 117, 101] else [102, 97, 108, 115, 101]
  | .float, _, _ | .double, _, _ | .bytes, _, _ => False
  | k, name, s => MeansScalar env esc k (.str name) s

/-- `j` stands for value `v` of field `i` of message type `m`.
* an enumeration value by its name
* a message: an object with members named by the JSON names of fields, in any order and none twice; other members mean
  nothing; a field without member, or with `null`, has its default value
* a map: an object with one member per key -/
inductive Means (env : REnv) (esc : UInt8 → Option UInt8) : Nat → Nat → FieldTy → JVal → Val → Prop
  | sc {m i : Nat} {k : Kind} {j : JVal} {s : Scalar} : MeansScalar env esc k j s → Means env esc m i (.scalar k) j (.sc s)
  | scList {m i : Nat} {k : Kind} {js : List JVal} {l : List Scalar} : Elementwise (MeansScalar env esc k) js l →
      Means env esc m i (.list k) (.arr js) (.scList l)
  | enum {m i : Nat} {name : Bytes} {e : BitVec 32} : name ≠ [] → env.enumValue m i name = some e →
      Means env esc m i .enum (.str name) (.enum e)
  | enumList {m i : Nat} {js : List JVal} {l : List (BitVec 32)} :
      Elementwise (fun j e => ∃ name, j = .str name ∧ env.enumValue m i name = some e) js l →
      Means env esc m i .enumList (.arr js) (.enumList l)
  | msg {m i m' : Nat} {ms : List (Bytes × JVal)} {o : Obj} (vs : Nat → Val) :
      ms.Pairwise (fun a b => env.fromUtf8 a.1 ≠ env.fromUtf8 b.1) → (∀ q ∈ ms, NoEscapes q.1) →
      o.length = (env.sch m').length →
      (∀ (i' : Nat) (f : Field), (env.sch m')[i']? = some f → (∀ q ∈ ms, env.fromUtf8 q.1 ≠ env.jsonName m' i') →
        o[i']? = some (defaultVal f.ty)) →
      (∀ (i' : Nat) (f : Field) (name : Bytes), (env.sch m')[i']? = some f → (name, JVal.null) ∈ ms →
        env.fromUtf8 name = env.jsonName m' i' → o[i']? = some (defaultVal f.ty)) →
      (∀ (i' : Nat) (f : Field) (name : Bytes) (j : JVal), (env.sch m')[i']? = some f → (name, j) ∈ ms →
        env.fromUtf8 name = env.jsonName m' i' → j ≠ .null → Means env esc m' i' f.ty j (vs i')) →
      (∀ (i' : Nat) (f : Field) (name : Bytes) (j : JVal), (env.sch m')[i']? = some f → (name, j) ∈ ms →
        env.fromUtf8 name = env.jsonName m' i' → j ≠ .null → o[i']? = some (store f.ty (defaultVal f.ty) (vs i'))) →
      Means env esc m i (.msg m') (.obj ms) (.msg o)
  | msgList {m i m' : Nat} {js : List JVal} {l : List Val} : js.length = l.length →
      (∀ (p : Nat) (j : JVal) (v : Val), js[p]? = some j → l[p]? = some v → Means env esc m' 0 (.msg m') j v) →
      Means env esc m i (.msgList m') (.arr js) (.msgList l)
  | map {m i : Nat} {kk : Kind} {vt : MapVal} {ms : List (Bytes × JVal)} {es r : List (Scalar × Val)} :
      ms.length = es.length →
      (∀ (p : Nat) (q : Bytes × JVal) (e : Scalar × Val), ms[p]? = some q → es[p]? = some e → MeansKey env esc kk q.1 e.1) →
      (∀ (p : Nat) (q : Bytes × JVal) (e : Scalar × Val), ms[p]? = some q → es[p]? = some e →
        Means env esc m i (MapVal.toTy vt) q.2 e.2) →
      es.Pairwise (fun a b => keyLt kk a.1 b.1 ∨ keyLt kk b.1 a.1) → r.Perm es → r.Pairwise (fun a b => keyLt kk a.1 b.1) →
      Means env esc m i (.map kk vt) (.obj ms) (.map r)

/-- The document `t` stands for the message `o` of type `m`. -/
def Document (env : REnv) (esc : UInt8 → Option UInt8) (m : Nat) (t : Bytes) (o : Obj) : Prop :=
  ∃ j, readJson t = some j ∧ Means env esc 0 0 (.msg m) j (.msg o)

/-- Fields of one message have different JSON names. -/
def DistinctNames (env : JEnv) : Prop :=
  ∀ m a b, a < (env.sch m).length → b < (env.sch m).length → env.jsonName m a = env.jsonName m b → a = b

/-- No map has keys of type bool. -/
def NoBoolKeys (env : Env) : Prop := ∀ m, ∀ f ∈ env.sch m, ∀ vt, f.ty ≠ .map .bool vt

/-- No enumeration value has the name "null". -/
def NoNullName (env : REnv) : Prop := ∀ m i, env.enumValue m i [110, 117, 108, 108] = none

/-! ### Messages for which C65 is proved -/

/-- Qt reads the text it prints for a finite number as that number; text without special characters that survives a conversion to
UTF-8 and back. -/
def ExactScalar (env : REnv) : Kind → Scalar → Prop
  | .float, .w32 b => finite32 b ∧ ∃ c, env.toFloat (env.float32g b) = (c, true) ∧ scalarEq .float (.w32 b) (.w32 c)
  | .double, .w64 b => finite64 b ∧ ∃ c, env.toDouble (env.float64s b) = (c, true) ∧ scalarEq .double (.w64 b) (.w64 c)
  | .string, .str s => NoEscapes (env.toUtf8 (s.getD [])) ∧ env.fromUtf8 (env.toUtf8 (s.getD [])) = s.getD []
  | _, _ => True

/-- The same for list elements, where a `double` is printed with 6 digits. -/
def ExactElement (env : REnv) : Kind → Scalar → Prop
  | .double, .w64 b => finite64 b ∧ ∃ c, env.toDouble (env.float64g b) = (c, true) ∧ scalarEq .double (.w64 b) (.w64 c)
  | k, s => ExactScalar env k s

/-- Values that C65 is proved for: scalars as above, named enumeration values, no null pointers in lists and maps, message types
with at least one field, no unset message of a recursive type. -/
inductive Exact (env : REnv) : Nat → Nat → FieldTy → Val → Prop
  | sc {m i : Nat} {k : Kind} {s : Scalar} : k.holds s → ExactScalar env k s → Exact env m i (.scalar k) (.sc s)
  | scList {m i : Nat} {k : Kind} {l : List Scalar} : k ≠ .bool → (∀ s ∈ l, k.holds s ∧ ExactElement env k s) →
      Exact env m i (.list k) (.scList l)
  | enum {m i : Nat} {e : BitVec 32} {name : Bytes} : env.enumKey m i e = some name → NoEscapes name → Exact env m i .enum (.enum e)
  | enumList {m i : Nat} {l : List (BitVec 32)} :
      (∀ e ∈ l, ∃ name, env.enumKey m i e = some name ∧ NoEscapes name) → Exact env m i .enumList (.enumList l)
  | null {m i m' : Nat} : Exact env m i (.msg m') (.msg (defaultObj env.toEnv m')) → Exact env m i (.msg m') .msgNull
  | msg {m i m' : Nat} {o : Obj} : env.sch m' ≠ [] → o.length = (env.sch m').length →
      (∀ (i' : Nat) (f : Field) (v : Val), (env.sch m')[i']? = some f → o[i']? = some v → Exact env m' i' f.ty v) →
      Exact env m i (.msg m') (.msg o)
  | msgList {m i m' : Nat} {l : List Val} : (∀ v ∈ l, ∃ o, v = .msg o) → (∀ v ∈ l, Exact env m' 0 (.msg m') v) →
      Exact env m i (.msgList m') (.msgList l)
  | map {m i : Nat} {kk : Kind} {vt : MapVal} {es : List (Scalar × Val)} : isKeyKind kk = true → kk ≠ .bool →
      (∀ e ∈ es, kk.holds e.1 ∧ ExactScalar env kk e.1) → (∀ e ∈ es, e.2 ≠ .msgNull) →
      (∀ e ∈ es, Exact env m i (MapVal.toTy vt) e.2) → es.Pairwise (fun a b => keyLt kk a.1 b.1) → Exact env m i (.map kk vt) (.map es)

/-- JSON names need no escaping and survive a conversion to UTF-8 and back; names of enumeration values are not empty and found. -/
structure ExactNames (env : REnv) : Prop where
  plain : ∀ m i, i < (env.sch m).length → NoEscapes (env.toUtf8 (env.jsonName m i))
  exact : ∀ m i, i < (env.sch m).length → env.fromUtf8 (env.toUtf8 (env.jsonName m i)) = env.jsonName m i
  enums : ∀ m i e name, env.enumKey m i e = some name → name ≠ [] ∧ env.enumValue m i name = some e

end QtPb.Spec
