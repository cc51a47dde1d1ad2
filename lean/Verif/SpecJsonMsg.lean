import Verif.SpecJson
import Verif.Json
/-
Specification for C47: the JSON value a message is to be written as. Uses from `Verif/Json.lean` only `JEnv`, the
JSON names of fields and enumeration values and Qt's conversions of numbers to text.
-/
namespace QtPb.Spec
open Json (JEnv)

/-- Value of a text of decimal digits. -/
def natValue (t : Bytes) : Option Nat :=
  if t ≠ [] ∧ t.all isDigit then some (t.foldl (fun a d => a * 10 + (d.toNat - 48)) 0) else none

/-- Value of a decimal number with optional minus sign. -/
def decimalValue : Bytes → Option Int
  | 45 :: r => (natValue r).map fun (n : Nat) => -(n : Int)
  | r => (natValue r).map fun (n : Nat) => (n : Int)

/-- The text of an integer in decimal digits; zero has no minus sign. -/
def IntegerText (t : Bytes) (x : Int) : Prop := decimalValue t = some x ∧ (t.head? = some 45 → x ≠ 0)

/-- `j` is the JSON value of a scalar: numbers by value (floating point numbers as Qt prints them), text as
UTF-8, byte arrays as base64. -/
def ShowsScalar (env : JEnv) : Kind → Scalar → JVal → Prop
  | .int32, .w32 b, .num t | .sint32, .w32 b, .num t | .sfixed32, .w32 b, .num t => IntegerText t b.toInt
  | .int64, .w64 b, .num t | .sint64, .w64 b, .num t | .sfixed64, .w64 b, .num t => IntegerText t b.toInt
  | .uint32, .w32 b, .num t | .fixed32, .w32 b, .num t => IntegerText t b.toNat
  | .uint64, .w64 b, .num t | .fixed64, .w64 b, .num t => IntegerText t b.toNat
  | .float, .w32 b, .num t => t = env.float32g b
  | .double, .w64 b, .num t => t = env.float64s b
  | .bool, .bool b, .bool c => b = c
  | .string, .str s, .str raw => raw = env.toUtf8 (s.getD [])
  | .bytes, .bytes b, .str raw => base64Decode raw = some (b.getD [])
  | _, _, _ => False

/-- The same for list elements, where a `double` is printed with 6 digits. -/
def ShowsElement (env : JEnv) : Kind → Scalar → JVal → Prop
  | .double, .w64 b, .num t => t = env.float64g b
  | .double, _, _ => False
  | k, s, j => ShowsScalar env k s j

/-- `name` is the member name for a map key. -/
def ShowsKey (env : JEnv) : Kind → Scalar → Bytes → Prop
  | .int32, .w32 b, t | .sint32, .w32 b, t | .sfixed32, .w32 b, t => IntegerText t b.toInt
  | .int64, .w64 b, t | .sint64, .w64 b, t | .sfixed64, .w64 b, t => IntegerText t b.toInt
  | .uint32, .w32 b, t | .fixed32, .w32 b, t => IntegerText t b.toNat
  | .uint64, .w64 b, t | .fixed64, .w64 b, t => IntegerText t b.toNat
  | .bool, .bool b, t => t = if b then "true".toUTF8.toList else "false".toUTF8.toList
  | .string, .str s, t => t = env.toUtf8 (s.getD [])
  | _, _, _ => False

/-- Lists of equal length whose elements are related. -/
inductive Elementwise {α β : Type} (R : α → β → Prop) : List α → List β → Prop
  | nil : Elementwise R [] []
  | cons {a : α} {b : β} {as : List α} {bs : List β} : R a b → Elementwise R as bs → Elementwise R (a :: as) (b :: bs)

mutual
/-- `j` is the JSON value of value `v` of field `i` of message type `m`.
* an enumeration value is its name
* a message is an object with one member per field, in iteration order, named by the field's JSON name; an unset
  message is shown as a default constructed one
* null pointers in lists and maps are left out -/
inductive Shows (env : JEnv) : Nat → Nat → FieldTy → Val → JVal → Prop
  | sc {m i : Nat} {k : Kind} {s : Scalar} {j : JVal} : ShowsScalar env k s j → Shows env m i (.scalar k) (.sc s) j
  | scList {m i : Nat} {k : Kind} {l : List Scalar} {js : List JVal} : Elementwise (ShowsElement env k) l js →
      Shows env m i (.list k) (.scList l) (.arr js)
  | enum {m i : Nat} {e : BitVec 32} {name : Bytes} : env.enumKey m i e = some name →
      Shows env m i .enum (.enum e) (.str name)
  | enumList {m i : Nat} {l : List (BitVec 32)} {js : List JVal} :
      Elementwise (fun e j => ∃ name, env.enumKey m i e = some name ∧ j = .str name) l js →
      Shows env m i .enumList (.enumList l) (.arr js)
  | unset {m i m' : Nat} {j : JVal} : Shows env m i (.msg m') (.msg (defaultObj env.toEnv m')) j →
      Shows env m i (.msg m') .msgNull j
  | msg {m i m' : Nat} {o : Obj} {ms : List (Bytes × JVal)} :
      ms.map (·.1) = (env.ord m').map (fun i' => env.toUtf8 (env.jsonName m' i')) →
      (∀ (p i' : Nat) (f : Field) (v : Val) (name : Bytes) (j : JVal), (env.ord m')[p]? = some i' →
        (env.sch m')[i']? = some f → o[i']? = some v → ms[p]? = some (name, j) → Shows env m' i' f.ty v j) →
      Shows env m i (.msg m') (.msg o) (.obj ms)
  | msgList {m i m' : Nat} {l : List Val} {js : List JVal} : ShowsList env m' l js →
      Shows env m i (.msgList m') (.msgList l) (.arr js)
  | map {m i : Nat} {kk : Kind} {vt : MapVal} {es : List (Scalar × Val)} {ms : List (Bytes × JVal)} :
      ShowsEntries env m i kk vt es ms → Shows env m i (.map kk vt) (.map es) (.obj ms)
/-- Elements of a repeated message field. -/
inductive ShowsList (env : JEnv) : Nat → List Val → List JVal → Prop
  | nil (m : Nat) : ShowsList env m [] []
  | null {m : Nat} {l : List Val} {js : List JVal} : ShowsList env m l js → ShowsList env m (.msgNull :: l) js
  | cons {m : Nat} {o : Obj} {j : JVal} {l : List Val} {js : List JVal} : Shows env m 0 (.msg m) (.msg o) j →
      ShowsList env m l js → ShowsList env m (.msg o :: l) (j :: js)
/-- Entries of a map field. -/
inductive ShowsEntries (env : JEnv) : Nat → Nat → Kind → MapVal → List (Scalar × Val) → List (Bytes × JVal) → Prop
  | nil {m i : Nat} {kk : Kind} {vt : MapVal} : ShowsEntries env m i kk vt [] []
  | null {m i : Nat} {kk : Kind} {vt : MapVal} {key : Scalar} {es : List (Scalar × Val)} {ms : List (Bytes × JVal)} :
      ShowsEntries env m i kk vt es ms → ShowsEntries env m i kk vt ((key, .msgNull) :: es) ms
  | cons {m i : Nat} {kk : Kind} {vt : MapVal} {key : Scalar} {v : Val} {es : List (Scalar × Val)} {name : Bytes} {j : JVal}
      {ms : List (Bytes × JVal)} : v ≠ .msgNull → ShowsKey env kk key name → Shows env m i (MapVal.toTy vt) v j →
      ShowsEntries env m i kk vt es ms → ShowsEntries env m i kk vt ((key, v) :: es) ((name, j) :: ms)
end

/-! ### Messages for which C47 is proved -/

/-- A text that needs no escaping: no control characters, quotes or backslashes. -/
def NoEscapes (t : Bytes) : Prop := ∀ b ∈ t, 0x20 ≤ b ∧ b ≠ 0x22 ∧ b ≠ 0x5c

/-- Neither infinite nor NaN. -/
def finite32 (b : BitVec 32) : Prop := b.toNat % 2 ^ 31 < 0x7f800000
def finite64 (b : BitVec 64) : Prop := b.toNat % 2 ^ 63 < 0x7ff0000000000000

/-- Qt prints finite floating point numbers in the form of JSON numbers. -/
structure QtNumbers (env : JEnv) : Prop where
  float32g : ∀ b, finite32 b → isNumber (env.float32g b) = true
  float64g : ∀ b, finite64 b → isNumber (env.float64g b) = true
  float64s : ∀ b, finite64 b → isNumber (env.float64s b) = true

/-- Text without special characters, finite numbers. -/
def PlainScalar (env : JEnv) : Kind → Scalar → Prop
  | .float, .w32 b => finite32 b
  | .double, .w64 b => finite64 b
  | .string, .str s => NoEscapes (env.toUtf8 (s.getD []))
  | _, _ => True

/-- Key types of protobuf maps: integers, bool and string. -/
def isKeyKind : Kind → Bool
  | .float | .double | .bytes => false
  | _ => true

/-- Values that C47 is proved for: named enumeration values, no repeated bool, message types with at least one field
and names without special characters, no unset message of a recursive type (the `null` case would not be
well-founded). -/
inductive Printable (env : JEnv) : Nat → Nat → FieldTy → Val → Prop
  | sc {m i : Nat} {k : Kind} {s : Scalar} : k.holds s → PlainScalar env k s → Printable env m i (.scalar k) (.sc s)
  | scList {m i : Nat} {k : Kind} {l : List Scalar} : k ≠ .bool → (∀ s ∈ l, k.holds s ∧ PlainScalar env k s) →
      Printable env m i (.list k) (.scList l)
  | enum {m i : Nat} {e : BitVec 32} {name : Bytes} : env.enumKey m i e = some name → NoEscapes name →
      Printable env m i .enum (.enum e)
  | enumList {m i : Nat} {l : List (BitVec 32)} :
      (∀ e ∈ l, ∃ name, env.enumKey m i e = some name ∧ NoEscapes name) → Printable env m i .enumList (.enumList l)
  | null {m i m' : Nat} : Printable env m i (.msg m') (.msg (defaultObj env.toEnv m')) → Printable env m i (.msg m') .msgNull
  | msg {m i m' : Nat} {o : Obj} : env.sch m' ≠ [] → o.length = (env.sch m').length →
      (∀ i', i' < (env.sch m').length → NoEscapes (env.toUtf8 (env.jsonName m' i'))) →
      (∀ (i' : Nat) (f : Field) (v : Val), (env.sch m')[i']? = some f → o[i']? = some v → Printable env m' i' f.ty v) →
      Printable env m i (.msg m') (.msg o)
  | msgList {m i m' : Nat} {l : List Val} : (∀ v ∈ l, v = .msgNull ∨ ∃ o, v = .msg o) →
      (∀ o, .msg o ∈ l → Printable env m' 0 (.msg m') (.msg o)) → Printable env m i (.msgList m') (.msgList l)
  | map {m i : Nat} {kk : Kind} {vt : MapVal} {es : List (Scalar × Val)} : isKeyKind kk = true →
      (∀ e ∈ es, kk.holds e.1 ∧ PlainScalar env kk e.1) →
      (∀ e ∈ es, e.2 ≠ .msgNull → Printable env m i (MapVal.toTy vt) e.2) → Printable env m i (.map kk vt) (.map es)

end QtPb.Spec
