import Verif.Codec
/-
Model of the serializing half of the JSON serializer (src/protobuf/qprotobufjsonserializer.cpp) with the generic
handlers (src/protobuf/qabstractprotobufserializer_p.h). The deserializing half is in `Verif/JsonRead.lean`.
-/
namespace QtPb.Json

open QtPb

/-- What the JSON serializer needs besides `Env`: the JSON names of fields (second component of
`propertyOrdering`, qtprotobuftypes.h:57-74; by message type and field index), the names of enumeration values
(`QMetaEnum::key`, by message type, field index and number; `none` is a null pointer), and Qt's conversions of
floating point numbers to text, which stay arbitrary functions: `QString::number(x, 'g')` of a `float` and of a
`double`, and `QVariant(double).toString()`. -/
structure JEnv extends Env where
  jsonName : Nat → Nat → List Char
  enumKey : Nat → Nat → BitVec 32 → Option Bytes
  float32g : BitVec 32 → Bytes
  float64g : BitVec 64 → Bytes
  float64s : BitVec 64 → Bytes

/-- Decimal digits of a natural number, at most `fuel` of them (`QString::number`). -/
def digits : Nat → Nat → Bytes
  | 0, _ => []
  | fuel + 1, n => if n < 10 then [UInt8.ofNat (48 + n)] else digits fuel (n / 10) ++ [UInt8.ofNat (48 + n % 10)]

/-- `QString::number` of an integer. 64 bit numbers have at most 20 digits. -/
def decimal (i : Int) : Bytes := if i < 0 then 45 :: digits 20 i.natAbs else digits 20 i.natAbs

/-- Value of an integer of kind `k`. -/
def intOf : Kind → Scalar → Int
  | .uint32, .w32 b | .fixed32, .w32 b => b.toNat
  | .uint64, .w64 b | .fixed64, .w64 b => b.toNat
  | _, .w32 b => b.toInt
  | _, .w64 b => b.toInt
  | _, _ => 0

/-- A text between quotes. -/
def quote (b : Bytes) : Bytes := 34 :: b ++ [34]

/-- Characters `A-Z a-z 0-9 + /` of `QByteArray::toBase64`. -/
def base64Char (n : Nat) : UInt8 :=
  if n < 26 then UInt8.ofNat (65 + n) else if n < 52 then UInt8.ofNat (97 + (n - 26))
  else if n < 62 then UInt8.ofNat (48 + (n - 52)) else if n = 62 then 43 else 47

/-- `QByteArray::toBase64` (Qt). -/
def toBase64 : Bytes → Bytes
  | [] => []
  | [a] => [base64Char (a.toNat / 4), base64Char (a.toNat % 4 * 16), 61, 61]
  | [a, b] => [base64Char (a.toNat / 4), base64Char (a.toNat % 4 * 16 + b.toNat / 16), base64Char (b.toNat % 16 * 4), 61]
  | a :: b :: c :: r =>
    base64Char (a.toNat / 4) :: base64Char (a.toNat % 4 * 16 + b.toNat / 16) ::
      base64Char (b.toNat % 16 * 4 + c.toNat / 64) :: base64Char (c.toNat % 64) :: toBase64 r

/-- `QVariant(bool).toString()`. -/
def boolText (b : Bool) : Bytes := if b then [116, 114, 117, 101] else [102, 97, 108, 115, 101]

variable (env : JEnv)

/-- `serializeValue` of a scalar (qprotobufjsonserializer.cpp:159-174) with `serializeFloat` (54-61),
`serializeString` (63-65), `serializeBytes` (67-69), or `toString()` for the rest. -/
def serializeScalar : Kind → Scalar → Bytes
  | .float, .w32 b => env.float32g b
  | .double, .w64 b => env.float64s b
  | .bool, .bool b => boolText b
  | .string, .str s => quote (env.toUtf8 (s.getD []))
  | .bytes, .bytes b => quote (toBase64 (b.getD []))
  | k, s => decimal (intOf k s)

/-- An element of a list: `QString::number` for numbers (qprotobufjsonserializer.cpp:76; for `double` with 'g', 89), quoted text
(102) and quoted base64 (115). -/
def listElement : Kind → Scalar → Bytes
  | .double, .w64 b => env.float64g b
  | k, s => serializeScalar env k s

/-- Elements, each followed by a comma. -/
def withCommas : List Bytes → Bytes
  | [] => []
  | e :: es => e ++ 44 :: withCommas es

/-- `serializeList<L>`, `serializeDoubleList`, `serializeStringList`, `serializeBytesList`
(qprotobufjsonserializer.cpp:71-122): the last comma is cut off if there are elements. -/
def listText (es : List Bytes) : Bytes :=
  let result := 91 :: withCommas es
  (if es.length > 0 then result.dropLast else result) ++ [93]

/-- A property that is a list of scalars. There is no handler for `QList<bool>`, and `toString()` of it is empty. -/
def serializeScalarList (k : Kind) (l : List Scalar) : Bytes :=
  if k = .bool then [] else listText (l.map (listElement env k))

/-- `serializeEnum` (qprotobufjsonserializer.cpp:479-482): a number without name gives an empty text, since
appending a null pointer appends nothing. -/
def serializeEnum (m i : Nat) (e : BitVec 32) : Bytes := quote ((env.enumKey m i e).getD [])

/-- `serializeEnumList` (qprotobufjsonserializer.cpp:484-497). -/
def serializeEnumList (m i : Nat) (l : List (BitVec 32)) : Bytes := listText (l.map (serializeEnum env m i))

/-- `key.toString()` (qprotobufjsonserializer.cpp:441). -/
def keyText : Kind → Scalar → Bytes
  | _, .str s => env.toUtf8 (s.getD [])
  | _, .bool b => boolText b
  | k, s => decimal (intOf k s)

section
variable (rec : Nat → Obj → Res Bytes)

/-- `serializeList<V>` (qabstractprotobufserializer_p.h:89-106) with `serializeListObject`
(qprotobufjsonserializer.cpp:403-406): the elements and their commas. Null pointers are skipped. -/
def listObjects (m : Nat) : List Val → Res Bytes
  | [] => .ok []
  | .msg o :: vs => do
    let t ← rec m o
    let r ← listObjects m vs
    .ok (t ++ 44 :: r)
  | _ :: vs => listObjects m vs

/-- `serializeListEnd` and `serializeMapEnd` (qprotobufjsonserializer.cpp:408-414, 444-450): cut off a comma at the end
of the buffer, then append the closing bracket. -/
def closeWith (c : UInt8) (buffer : Bytes) : Bytes :=
  (if buffer.getLast? = some 44 then buffer.dropLast else buffer) ++ [c]

/-- The value of a map entry: `serializeValue` (qprotobufjsonserializer.cpp:441). `m`, `i`: the message type and
field the map belongs to. -/
def mapValue (m i : Nat) : MapVal → Val → Res Bytes
  | .scalar k, .sc s => .ok (serializeScalar env k s)
  | .enum, .enum e => .ok (serializeEnum env m i e)
  | .msg m', .msg o => rec m' o
  | _, _ => .ok []

/-- `serializeMap<K, V>` (qabstractprotobufserializer_p.h:112-142) with `serializeMapPair`
(qprotobufjsonserializer.cpp:439-442): the pairs and their commas. Null message values are skipped. -/
def mapPairs (m i : Nat) (kk : Kind) (vt : MapVal) : List (Scalar × Val) → Res Bytes
  | [] => .ok []
  | (_, .msgNull) :: es => mapPairs m i kk vt es
  | (key, v) :: es => do
    let t ← mapValue env rec m i vt v
    let r ← mapPairs m i kk vt es
    .ok (quote (keyText env kk key) ++ 58 :: t ++ 44 :: r)

/-- `serializeValue` (qprotobufjsonserializer.cpp:159-174) of field `i` of message type `m`. Combinations of field type
and value of another type cannot occur in the program. -/
def serializeValue (m i : Nat) (ty : FieldTy) (v : Val) : Res Bytes :=
  match ty, v with
  | .scalar k, .sc s => .ok (serializeScalar env k s)
  | .list k, .scList l => .ok (serializeScalarList env k l)
  | .enum, .enum e => .ok (serializeEnum env m i e)
  | .enumList, .enumList l => .ok (serializeEnumList env m i l)
  | .msg m', v => rec m' (materialize env.toEnv m' v)
  | .msgList m', .msgList l => do
    let t ← listObjects rec m' l
    .ok (closeWith 93 (91 :: t))
  | .map kk vt, .map es => do
    let t ← mapPairs env rec m i kk vt es
    .ok (closeWith 125 (123 :: t))
  | _, _ => .ok []

/-- `serializeProperty` (qprotobufjsonserializer.cpp:176-178). -/
def serializeProperty (m i : Nat) (ty : FieldTy) (v : Val) : Res Bytes := do
  let t ← serializeValue env rec m i ty v
  .ok (quote (env.toUtf8 (env.jsonName m i)) ++ 58 :: t)

/-- The loop over the fields (qprotobufjsonserializer.cpp:182-193): the members and their commas, in the iteration
order of `propertyOrdering`. -/
def members (m : Nat) (obj : Obj) : List Nat → Res Bytes
  | [] => .ok []
  | i :: is =>
    match (env.sch m)[i]?, obj[i]? with
    | some f, some v => do
      let t ← serializeProperty env rec m i f.ty v
      let r ← members m obj is
      .ok (t ++ 44 :: r)
    | _, _ => members m obj is

end

/-- `serializeObject` (qprotobufjsonserializer.cpp:180-197) of message type `m`; the last character is always cut off
before the closing brace. The first argument bounds the nesting of calls. -/
def serializeObject : Nat → Nat → Obj → Res Bytes
  | 0, _, _ => .fuel
  | n + 1, m, obj => do
    let t ← members env (serializeObject n) m obj (env.ord m)
    .ok ((123 :: t).dropLast ++ [125])

end QtPb.Json
