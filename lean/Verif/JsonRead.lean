import Verif.Json
import Verif.Objects
/-
Model of the deserializing half of the JSON serializer (src/protobuf/qprotobufjsonserializer.cpp:199-362, 382-396, 416-432,
452-476, 499-518) with the generic handlers (src/protobuf/qabstractprotobufserializer_p.h:174-274). The microjson library
(3rdparty/microjson, a git submodule that is not part of the repository's files) is a parameter.
-/
namespace QtPb.Json

open QtPb

/-- `microjson::JsonType`, the types the serializer knows (qprotobufjsonserializer.cpp:201, 245, 276, 356). -/
inductive JType
  | object | array | string | number | bool
  deriving DecidableEq, Repr

/-- What reading needs besides `JEnv`. All of it stays arbitrary.
* microjson: `parseJsonObject` (names, types and texts of the members, in the iteration order of the result) and
  `parseJsonArray`; `entriesOf` and `elementsOf` are the members and elements that the repeated calls of
  `extractProperty` and `extractValue` find, in the order of the text. Any of them may throw.
* Qt: `QByteArray::toInt`, `toUInt`, `toLongLong`, `toULongLong` (by the range of the result; `none` is "not ok", and the
  result is 0 then), `toFloat` and `toDouble` (result and "ok"); `QMetaEnum::keyToValue` (`none` is -1) and
  `QMetaEnum::value(0)` of the enumeration of a field. -/
structure REnv extends JEnv where
  objectOf : Bytes → Res (List (Bytes × JType × Bytes))
  arrayOf : Bytes → Res (List (JType × Bytes))
  entriesOf : Bytes → Res (List (Bytes × JType × Bytes))
  elementsOf : Bytes → Res (List (JType × Bytes))
  toInteger : Int → Int → Bytes → Option Int
  toFloat : Bytes → BitVec 32 × Bool
  toDouble : Bytes → BitVec 64 × Bool
  enumValue : Nat → Nat → Bytes → Option (BitVec 32)
  enumFirst : Nat → Nat → BitVec 32

/-- `QString::replace("\\\"", "\"")` (Qt), from left to right. -/
def replaceQuotes : List Char → List Char
  | '\\' :: '"' :: r => '"' :: replaceQuotes r
  | c :: r => c :: replaceQuotes r
  | [] => []

/-- Number of a character for `QByteArray::fromBase64` (Qt), `none` for a character that is skipped. -/
def base64Digit (b : UInt8) : Option Nat :=
  if 65 ≤ b ∧ b ≤ 90 then some (b.toNat - 65)
  else if 97 ≤ b ∧ b ≤ 122 then some (b.toNat - 97 + 26)
  else if 48 ≤ b ∧ b ≤ 57 then some (b.toNat - 48 + 52)
  else if b = 43 then some 62
  else if b = 47 then some 63
  else none

/-- Loop of `QByteArray::fromBase64` (Qt): `buf` holds `nbits` bits. -/
def fromBase64Loop (buf nbits : Nat) : Bytes → Bytes
  | [] => []
  | b :: r =>
    match base64Digit b with
    | none => fromBase64Loop buf nbits r
    | some d =>
      if nbits + 6 ≥ 8 then
        UInt8.ofNat ((buf * 64 + d) / 2 ^ (nbits + 6 - 8)) ::
          fromBase64Loop ((buf * 64 + d) % 2 ^ (nbits + 6 - 8)) (nbits + 6 - 8) r
      else fromBase64Loop (buf * 64 + d) (nbits + 6) r

/-- `QByteArray::fromBase64` (Qt). -/
def fromBase64 (data : Bytes) : Bytes := fromBase64Loop 0 0 data

variable (env : REnv)

/-- `deserializeInt32`, `deserializeUInt32`, `deserializeInt64`, `deserializeUInt64`
(qprotobufjsonserializer.cpp:199-221): the number, or 0, and `ok`. -/
def deserializeInteger (lo hi : Int) (t : JType) (data : Bytes) : Int × Bool :=
  let val := env.toInteger lo hi data
  (val.getD 0, val.isSome || t == .number)

/-- "NaN", "Infinity", "-Infinity" (qprotobufjsonserializer.cpp:224, 234). -/
def notFinite : List Bytes :=
  [[78, 97, 78], [73, 110, 102, 105, 110, 105, 116, 121], [45, 73, 110, 102, 105, 110, 105, 116, 121]]

/-- The deserializers of scalar types (qprotobufjsonserializer.cpp:199-271, registered in 126-140): a value, `none` for
`QVariant()`, and `ok`. -/
def deserializeScalar (k : Kind) (t : JType) (data : Bytes) : Option Scalar × Bool :=
  match k with
  | .int32 | .sint32 | .sfixed32 =>
    let r := deserializeInteger env (-2 ^ 31) (2 ^ 31 - 1) t data
    (some (.w32 (BitVec.ofInt 32 r.1)), r.2)
  | .uint32 | .fixed32 =>
    let r := deserializeInteger env 0 (2 ^ 32 - 1) t data
    (some (.w32 (BitVec.ofInt 32 r.1)), r.2)
  | .int64 | .sint64 | .sfixed64 =>
    let r := deserializeInteger env (-2 ^ 63) (2 ^ 63 - 1) t data
    (some (.w64 (BitVec.ofInt 64 r.1)), r.2)
  | .uint64 | .fixed64 =>
    let r := deserializeInteger env 0 (2 ^ 64 - 1) t data
    (some (.w64 (BitVec.ofInt 64 r.1)), r.2)
  | .float =>
    if data ∈ notFinite then (none, true)
    else (some (.w32 (env.toFloat data).1), (env.toFloat data).2 || t == .number)
  | .double =>
    if data ∈ notFinite then (none, true)
    else (some (.w64 (env.toDouble data).1), (env.toDouble data).2 || t == .number)
  | .bool => if t = .bool then (some (.bool (data == [116, 114, 117, 101])), true) else (none, false)
  | .string => if t = .string then (some (.str (some (replaceQuotes (env.fromUtf8 data)))), true) else (none, false)
  | .bytes => if t = .string then (some (.bytes (some (fromBase64 data))), true) else (none, false)

/-- `newValue.value<T>()` of a scalar: the default value for `QVariant()`. -/
def scalarOf (k : Kind) (r : Option Scalar × Bool) : Scalar := r.1.getD (defaultScalar k)

/-- "null" -/
def kNull : Bytes := [110, 117, 108, 108]

/-- `deserializeEnum` (qprotobufjsonserializer.cpp:499-503): `keyToValue` gives -1 for an unknown name. `m`, `i`: message
type and field. -/
def enumOfKey (m i : Nat) (key : Bytes) : BitVec 32 := (env.enumValue m i key).getD (BitVec.allOnes 32)

/-- Element of `deserializeEnumList` (qprotobufjsonserializer.cpp:509-515). -/
def enumOfElement (m i : Nat) (e : JType × Bytes) : BitVec 32 :=
  if e.2 = kNull then env.enumFirst m i else enumOfKey env m i e.2

section
variable (rec : Nat → Bytes → MsgResult)

/-- Handler `deserializeObject<T>` (qabstractprotobufserializer_p.h:174-181) with
`QProtobufJsonSerializer::deserializeObject` (qprotobufjsonserializer.cpp:392-396). -/
def readMessage (m : Nat) (data : Bytes) : Res Obj :=
  match rec m data with
  | (.ok (), o) => .ok o
  | (.throw e, _) => .throw e
  | (.ub, _) => .ub
  | (.fuel, _) => .fuel

/-- The calls of `deserializeList<V>` (qabstractprotobufserializer_p.h:187-201) with `deserializeListObject`
(qprotobufjsonserializer.cpp:416-432): each element is read into a new message. -/
def readMessages (m : Nat) : List (JType × Bytes) → Res (List Val)
  | [] => .ok []
  | e :: es => do
    let o ← readMessage rec m e.2
    let r ← readMessages m es
    .ok (.msg o :: r)

/-- `deserializeValue` (qprotobufjsonserializer.cpp:314-333) of the value of a map entry (465-468): one that is not ok, or
`QVariant()`, is the default value (`value.value<V>()`, a null pointer for messages). -/
def mapValueOf (m i : Nat) (vt : MapVal) (t : JType) (data : Bytes) : Res Val :=
  match vt with
  | .scalar k =>
    let r := deserializeScalar env k t data
    .ok (.sc (if r.2 then scalarOf k r else defaultScalar k))
  | .enum => .ok (.enum (if data = [] then 0 else enumOfKey env m i data))
  | .msg m' => if data = [] then .ok .msgNull else do
      let o ← readMessage rec m' data
      .ok (.msg o)

/-- The calls of `deserializeMap<K, V>` (qabstractprotobufserializer_p.h:207-246) with `deserializeMapPair`
(qprotobufjsonserializer.cpp:452-476). The key is read as a JSON string. -/
def readEntries (m i : Nat) (kk : Kind) (vt : MapVal) :
    List (Bytes × JType × Bytes) → List (Scalar × Val) → Res (List (Scalar × Val))
  | [], out => .ok out
  | e :: es, out => do
    let k := deserializeScalar env kk .string e.1
    let v ← mapValueOf env rec m i vt e.2.1 e.2.2
    readEntries m i kk vt es (mapInsert kk (if k.2 then scalarOf kk k else defaultScalar kk) v out)

/-- `deserializeValue` (qprotobufjsonserializer.cpp:314-333) for a property of type `ty`: the value and `ok`. The loop
over the text of lists of messages and maps (320-325) is `elementsOf` and `entriesOf`; it does not run for an empty text,
and `ok` stays false. There is no handler for lists of bool. -/
def deserializeValue (m i : Nat) (ty : FieldTy) (t : JType) (data : Bytes) : Res (Val × Bool) :=
  match ty with
  | .scalar k =>
    let r := deserializeScalar env k t data
    .ok (.sc (scalarOf k r), r.2)
  | .list k =>
    if k = .bool ∨ t ≠ .array then .ok (.scList [], false)
    else do
      let es ← env.arrayOf data
      .ok (.scList (es.map fun e => scalarOf k (deserializeScalar env k e.1 e.2)), true)
  | .enum => if data = [] then .ok (.enum 0, false) else .ok (.enum (enumOfKey env m i data), true)
  | .enumList =>
    if data = [] then .ok (.enumList [], false)
    else do
      let es ← env.arrayOf data
      .ok (.enumList (es.map (enumOfElement env m i)), true)
  | .msg m' =>
    if data = [] then .ok (.msgNull, false)
    else do
      let o ← readMessage rec m' data
      .ok (.msg o, true)
  | .msgList m' =>
    if data = [] then .ok (.msgList [], false)
    else do
      let es ← env.elementsOf data
      let l ← readMessages rec m' es
      .ok (.msgList l, true)
  | .map kk vt =>
    if data = [] then .ok (.map [], false)
    else do
      let es ← env.entriesOf data
      let r ← readEntries env rec m i kk vt es []
      .ok (.map r, true)

/-- Index of the field with a JSON name: `std::find_if` over `propertyOrdering` (qprotobufjsonserializer.cpp:340-344). -/
def findName (m : Nat) (name : Bytes) : Option Nat := (env.ord m).find? fun i => env.jsonName m i == env.fromUtf8 name

/-- `write(object, QVariant())` (qprotobufjsonserializer.cpp:349-352): the property gets the default value of its type, but an enumeration is left as it is, since
`QMetaProperty::write` (Qt) refuses a variant without a value for it. -/
def nulled (ty : FieldTy) (cur : Val) : Val :=
  match ty with
  | .enum => cur
  | _ => writeVal ty cur (defaultVal ty)

/-- Loop of `deserializeObject` (qprotobufjsonserializer.cpp:338-361). -/
def readMembers (m : Nat) : List (Bytes × JType × Bytes) → Obj → MsgResult
  | [], obj => (.ok (), obj)
  | e :: es, obj =>
    match findName env m e.1 with
    | none => readMembers m es obj
    | some i =>
      match (env.sch m)[i]?, obj[i]? with
      | some f, some cur =>
        if e.2.2 = kNull ∧ e.2.1 = .object then readMembers m es (obj.set i (nulled f.ty cur))
        else match deserializeValue env rec m i f.ty e.2.1 e.2.2 with
          | .ok (v, true) => readMembers m es (obj.set i (writeVal f.ty cur v))
          | .ok (_, false) => readMembers m es obj
          | .throw e => (.throw e, obj)
          | .ub => (.ub, obj)
          | .fuel => (.fuel, obj)
      | _, _ => (.ub, obj)

end

/-- `deserializeMessage` and `deserializeObject` (qprotobufjsonserializer.cpp:335-362, 382-385) into a default constructed
object of type `m`. The first argument bounds the nesting of calls. -/
def deserializeMessage : Nat → Nat → Bytes → MsgResult
  | 0, m, _ => (.fuel, defaultObj env.toEnv m)
  | n + 1, m, data =>
    match env.objectOf data with
    | .ok es => readMembers env (deserializeMessage n) m es (defaultObj env.toEnv m)
    | .throw e => (.throw e, defaultObj env.toEnv m)
    | .ub => (.ub, defaultObj env.toEnv m)
    | .fuel => (.fuel, defaultObj env.toEnv m)

/-- `QAbstractProtobufSerializer::deserialize<T>` (qabstractprotobufserializer.h:97-111) with the JSON serializer: read into a
new object, then copy assign it to the target. `k` bounds the steps of the assignment. -/
def deserialize (n k m : Nat) (data : Bytes) (old : Obj) : Outcome :=
  let r := deserializeMessage env n m data
  ⟨r.1, assign env.toEnv k m old r.2⟩

end QtPb.Json
