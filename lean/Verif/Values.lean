import Verif.Wire
/-
Values of message fields, schemas, and the scalar handlers of the binary serializer.
-/
namespace QtPb

/-! ### Types and values -/

/-- Scalar protobuf types the serializer has handlers for
(qprotobufserializer.cpp:185-199, qtprotobuftypes.h:105-181). -/
inductive Kind
  | float | double | int32 | int64 | uint32 | uint64 | sint32 | sint64
  | fixed32 | fixed64 | sfixed32 | sfixed64 | bool | string | bytes
  deriving DecidableEq, Repr

/-- A value of a scalar property. 32 and 64 bit numbers are bit patterns (floats included).
Strings are lists of Unicode scalar values; `none` is a null `QString`/`QByteArray`. -/
inductive Scalar
  | w32 (b : BitVec 32)
  | w64 (b : BitVec 64)
  | bool (b : Bool)
  | str (s : Option (List Char))
  | bytes (b : Option Bytes)
  deriving DecidableEq, Repr

/-- The C++ type of a property of kind `k` can hold `s`. -/
def Kind.holds : Kind → Scalar → Bool
  | .float, .w32 _ | .int32, .w32 _ | .uint32, .w32 _ | .sint32, .w32 _
  | .fixed32, .w32 _ | .sfixed32, .w32 _ => true
  | .double, .w64 _ | .int64, .w64 _ | .uint64, .w64 _ | .sint64, .w64 _
  | .fixed64, .w64 _ | .sfixed64, .w64 _ => true
  | .bool, .bool _ => true
  | .string, .str _ => true
  | .bytes, .bytes _ => true
  | _, _ => false

/-- Value type of a map field. -/
inductive MapVal
  | scalar (k : Kind)
  | enum
  | msg (m : Nat)
  deriving DecidableEq, Repr

/-- Type of a message field. Message types are numbered. -/
inductive FieldTy
  | scalar (k : Kind)
  | list (k : Kind)
  | enum
  | enumList
  | msg (m : Nat)
  | msgList (m : Nat)
  | map (key : Kind) (val : MapVal)
  deriving DecidableEq, Repr

/-- A field of a message: its number in the .proto file and its type. -/
structure Field where
  num : Nat
  ty : FieldTy
  deriving DecidableEq, Repr

/-- Value held by a generated property.
* `sc`: scalar; `scList`: `QList` of scalars, `QStringList`, `QByteArrayList`
* `enum`/`enumList`: 32 bit enumeration numbers
* `msgNull`: an unset `QProtobufLazyMessagePointer`, or a null shared pointer inside a list or map
* `msg`: a message object, one value per declared field, in declaration order
* `msgList`: `QList<QSharedPointer<T>>`
* `map`: `QMap`, entries in key order -/
inductive Val
  | sc (s : Scalar)
  | scList (l : List Scalar)
  | enum (e : BitVec 32)
  | enumList (l : List (BitVec 32))
  | msgNull
  | msg (fields : List Val)
  | msgList (items : List Val)
  | map (entries : List (Scalar × Val))
  deriving Repr

/-- Contents of a message object. -/
abbrev Obj := List Val

/-- The world the serializer runs in: the registered message types, the iteration order of each
type's `propertyOrdering` (`std::unordered_map`, qtprotobuftypes.h:78: indices of declared fields in
iteration order), and Qt's UTF-8 conversions `QString::toUtf8` / `QString::fromUtf8`, which are not
part of the repository and stay arbitrary functions here. -/
structure Env where
  sch : Nat → List Field
  ord : Nat → List Nat
  toUtf8 : List Char → Bytes
  fromUtf8 : Bytes → List Char

/-- Value of a default constructed scalar property
(member initializers, messagedefinitionprinter.cpp:149-198). -/
def defaultScalar : Kind → Scalar
  | .float | .int32 | .uint32 | .sint32 | .fixed32 | .sfixed32 => .w32 0
  | .double | .int64 | .uint64 | .sint64 | .fixed64 | .sfixed64 => .w64 0
  | .bool => .bool false
  | .string => .str none
  | .bytes => .bytes none

/-- Value of a default constructed property (messagedefinitionprinter.cpp:149-198; sub-messages are
null lazy pointers, templates.cpp:258 `MessagePropertyDefaultInitializerTemplate`). -/
def defaultVal : FieldTy → Val
  | .scalar k => .sc (defaultScalar k)
  | .list _ => .scList []
  | .enum => .enum 0
  | .enumList => .enumList []
  | .msg _ => .msgNull
  | .msgList _ => .msgList []
  | .map _ _ => .map []

/-- `new T` / `T newValue;` for message type `m`. -/
def defaultObj (env : Env) (m : Nat) : Obj := (env.sch m).map fun f => defaultVal f.ty

/-! ### Scalar handlers -/

/-- Wire type registered for a scalar kind (qprotobufserializer.cpp:185-199). -/
def Kind.wireType : Kind → Nat
  | .float | .fixed32 | .sfixed32 => wtFixed32
  | .double | .fixed64 | .sfixed64 => wtFixed64
  | .int32 | .int64 | .uint32 | .uint64 | .sint32 | .sint64 | .bool => wtVarint
  | .string | .bytes => wtLengthDelimited

/-- `serializeBasic` overloads (qprotobufserializer_p.h:108-224). `idx` is `outFieldIndex`.
`bool` uses the `uint32` handler (qprotobufserializer.cpp:197).
The last case (value of another C++ type) cannot occur in the program. -/
def serializeBasic (env : Env) (k : Kind) (s : Scalar) (idx : Int) : Bytes × Int :=
  match k, s with
  | .float, .w32 b | .fixed32, .w32 b | .sfixed32, .w32 b => (leBytes 4 b.toNat, idx)
  | .double, .w64 b | .fixed64, .w64 b | .sfixed64, .w64 b => (leBytes 8 b.toNat, idx)
  | .int32, .w32 b | .uint32, .w32 b => serializeUnsigned 32 b.toNat idx
  | .int64, .w64 b | .uint64, .w64 b => serializeUnsigned 64 b.toNat idx
  | .sint32, .w32 b => serializeUnsigned 32 (zigzag b).toNat idx
  | .sint64, .w64 b => serializeUnsigned 64 (zigzag b).toNat idx
  | .bool, .bool b => serializeUnsigned 32 (if b then 1 else 0) idx
  | .string, .str s => (prependLengthDelimitedSize (env.toUtf8 (s.getD [])), idx)
  | .bytes, .bytes b => (prependLengthDelimitedSize (b.getD []), idx)
  | _, _ => ([], idx)

/-- `QVariant::isNull` for the scalar types. -/
def Scalar.isNull : Scalar → Bool
  | .str none | .bytes none => true
  | _ => false

/-- `serializeWrapper` (qprotobufserializer_p.h:406-415). -/
def serializeWrapper (env : Env) (k : Kind) (s : Scalar) (idx : Int) : Bytes × Int :=
  if s.isNull then ([], notUsed) else serializeBasic env k s idx

/-- `deserializeBasic` overloads (qprotobufserializer_p.h:297-352). For `bool` the handler yields a
`uint32` which Qt converts when the property is written. -/
def deserializeBasic (env : Env) (k : Kind) (it : It) : Res (Scalar × It) :=
  match k with
  | .float | .fixed32 | .sfixed32 => do
    let (v, it) ← deserializeFixed 4 it
    .ok (.w32 (BitVec.ofNat 32 v), it)
  | .double | .fixed64 | .sfixed64 => do
    let (v, it) ← deserializeFixed 8 it
    .ok (.w64 (BitVec.ofNat 64 v), it)
  | .int32 | .uint32 => do
    let (v, it) ← deserializeVarint 32 it
    .ok (.w32 (BitVec.ofNat 32 v), it)
  | .int64 | .uint64 => do
    let (v, it) ← deserializeVarint 64 it
    .ok (.w64 (BitVec.ofNat 64 v), it)
  | .sint32 => do
    let (v, it) ← deserializeVarint 32 it
    .ok (.w32 (unzigzag (BitVec.ofNat 32 v)), it)
  | .sint64 => do
    let (v, it) ← deserializeVarint 64 it
    .ok (.w64 (unzigzag (BitVec.ofNat 64 v)), it)
  | .bool => do
    let (v, it) ← deserializeVarint 32 it
    .ok (.bool (v != 0), it)
  | .string => do
    let (b, it) ← deserializeLengthDelimited it
    .ok (.str (some (env.fromUtf8 b)), it)
  | .bytes => do
    let (b, it) ← deserializeLengthDelimited it
    .ok (.bytes (some b), it)

/-! ### C++ equality of property values -/

/-- NaN test on the bit pattern of a `float`. -/
def isNaN32 (b : BitVec 32) : Bool := (b.toNat % 2 ^ 31) > 0x7f800000
/-- NaN test on the bit pattern of a `double`. -/
def isNaN64 (b : BitVec 64) : Bool := (b.toNat % 2 ^ 63) > 0x7ff0000000000000

/-- IEEE `==` on `float` bit patterns. -/
def f32Eq (a b : BitVec 32) : Bool :=
  !isNaN32 a && !isNaN32 b && (a == b || (a.toNat % 2 ^ 31 == 0 && b.toNat % 2 ^ 31 == 0))
/-- IEEE `==` on `double` bit patterns. -/
def f64Eq (a b : BitVec 64) : Bool :=
  !isNaN64 a && !isNaN64 b && (a == b || (a.toNat % 2 ^ 63 == 0 && b.toNat % 2 ^ 63 == 0))

/-- C++ `==` on values of a scalar property type; null and empty strings are equal in Qt. -/
def scalarEq : Kind → Scalar → Scalar → Bool
  | .float, .w32 a, .w32 b => f32Eq a b
  | .double, .w64 a, .w64 b => f64Eq a b
  | _, .str a, .str b => a.getD [] == b.getD []
  | _, .bytes a, .bytes b => a.getD [] == b.getD []
  | _, a, b => a == b

/-- `QList<T>::operator==` for scalar elements. -/
def scalarListEq (k : Kind) : List Scalar → List Scalar → Bool
  | [], [] => true
  | a :: as, b :: bs => scalarEq k a b && scalarListEq k as bs
  | _, _ => false

/-! ### Map keys -/

/-- UTF-16 code units of a character (`QString` stores UTF-16). -/
def utf16 (c : Char) : List Nat :=
  if c.toNat < 0x10000 then [c.toNat]
  else [0xd800 + (c.toNat - 0x10000) / 0x400, 0xdc00 + (c.toNat - 0x10000) % 0x400]

/-- Lexicographic `<` on lists of numbers. -/
def lexLt : List Nat → List Nat → Bool
  | [], [] => false
  | [], _ :: _ => true
  | _ :: _, [] => false
  | a :: as, b :: bs => a < b || (a == b && lexLt as bs)

/-- `operator<` of the C++ key type, as used by `QMap` (`qMapLessThanKey`). Signed kinds compare as
signed numbers. Simplification: kinds that protobuf does not allow as map keys (floats, bytes)
compare like unsigned numbers / not at all. -/
def keyLt : Kind → Scalar → Scalar → Bool
  | .int32, .w32 a, .w32 b | .sint32, .w32 a, .w32 b | .sfixed32, .w32 a, .w32 b => a.toInt < b.toInt
  | .int64, .w64 a, .w64 b | .sint64, .w64 a, .w64 b | .sfixed64, .w64 a, .w64 b => a.toInt < b.toInt
  | _, .w32 a, .w32 b => a.toNat < b.toNat
  | _, .w64 a, .w64 b => a.toNat < b.toNat
  | _, .bool a, .bool b => !a && b
  | _, .str a, .str b => lexLt ((a.getD []).flatMap utf16) ((b.getD []).flatMap utf16)
  | _, _, _ => false

/-- `QMap::operator[](key) = value`: replace the value of an equal key (the stored key stays) or
insert in key order. -/
def mapInsert (k : Kind) (key : Scalar) (v : Val) : List (Scalar × Val) → List (Scalar × Val)
  | [] => [(key, v)]
  | (key', v') :: l =>
    if keyLt k key' key then (key', v') :: mapInsert k key v l
    else if keyLt k key key' then (key, v) :: (key', v') :: l
    else (key', v) :: l

/-- `QMap<K, V>::operator==` for scalar values: same size, pairwise equivalent keys and equal
values. -/
def mapScalarEq (kk vk : Kind) : List (Scalar × Val) → List (Scalar × Val) → Bool
  | [], [] => true
  | (ka, .sc va) :: as, (kb, .sc vb) :: bs =>
    !keyLt kk ka kb && !keyLt kk kb ka && scalarEq vk va vb && mapScalarEq kk vk as bs
  | _, _ => false

/-- `QMap<K, V>::operator==` for enumeration values. -/
def mapEnumEq (kk : Kind) : List (Scalar × Val) → List (Scalar × Val) → Bool
  | [], [] => true
  | (ka, .enum va) :: as, (kb, .enum vb) :: bs =>
    !keyLt kk ka kb && !keyLt kk kb ka && va == vb && mapEnumEq kk as bs
  | _, _ => false

/-! ### Property writes -/

/-- `metaProperty.write(object, value)`, i.e. the generated setter (templates.cpp:206-235): the
member is assigned only if it compares different. Sub-message pointers, lists of shared pointers and
maps of shared pointers compare by address, and the new value always holds a new address, so it is
stored. Enumerations compare exactly, so storing an equal value is no change; the keys of a map of them need not. -/
def writeVal (ty : FieldTy) (cur new : Val) : Val :=
  match ty, cur, new with
  | .scalar k, .sc a, .sc b => if scalarEq k a b then cur else new
  | .list k, .scList a, .scList b => if scalarListEq k a b then cur else new
  | .map kk (.scalar vk), .map a, .map b => if mapScalarEq kk vk a b then cur else new
  | .map kk .enum, .map a, .map b => if mapEnumEq kk a b then cur else new
  | _, _, _ => new

end QtPb
