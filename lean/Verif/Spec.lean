import Verif.Values
/-
Specification of the protobuf wire format and of the effect of a record on a message, written from
https://developers.google.com/protocol-buffers/docs/encoding and independent of the model in
`Verif/Wire.lean` and `Verif/Codec.lean`. It uses only the vocabulary of `Verif/Values.lean`
(field types, values, C++ equality of values, order of map keys).
-/
namespace QtPb.Spec

/-- `bs` is a base 128 varint of `n`: groups of 7 bits, least significant first, the top bit set in
all bytes but the last. Redundant zero groups are allowed. -/
inductive IsVarint : Bytes → Nat → Prop
  | last (b : UInt8) : b.toNat < 128 → IsVarint [b] b.toNat
  | more (b : UInt8) (bs : Bytes) (n : Nat) :
      128 ≤ b.toNat → IsVarint bs n → IsVarint (b :: bs) (b.toNat - 128 + 128 * n)

/-- A varint of at most 10 bytes, the limit of the protobuf format. -/
def Varint (bs : Bytes) (n : Nat) : Prop := IsVarint bs n ∧ bs.length ≤ 10

/-- The tag of a record: field number times 8 plus wire type. -/
def Tag (bs : Bytes) (num wt : Nat) : Prop :=
  Varint bs (num * 8 + wt) ∧ 1 ≤ num ∧ num < 2 ^ 29

/-- ZigZag: 0, -1, 1, -2, 2, ... -/
def zigzagInt (n : Nat) : Int := if n % 2 = 0 then (n / 2 : Nat) else -((n / 2 : Nat) : Int) - 1

/-- Wire type of a scalar type: 0 varint, 1 64 bit, 2 length delimited, 5 32 bit. -/
def wireType : Kind → Nat
  | .int32 | .int64 | .uint32 | .uint64 | .sint32 | .sint64 | .bool => 0
  | .double | .fixed64 | .sfixed64 => 1
  | .string | .bytes => 2
  | .float | .fixed32 | .sfixed32 => 5

/-- `bs` is an encoding of the value `s` of a scalar type. -/
inductive Reads (env : Env) : Kind → Bytes → Scalar → Prop
  | fixed32 {k : Kind} (hk : k = .float ∨ k = .fixed32 ∨ k = .sfixed32) (b0 b1 b2 b3 : UInt8) :
      Reads env k [b0, b1, b2, b3]
        (.w32 (.ofNat 32 (b0.toNat + 2 ^ 8 * b1.toNat + 2 ^ 16 * b2.toNat + 2 ^ 24 * b3.toNat)))
  | fixed64 {k : Kind} (hk : k = .double ∨ k = .fixed64 ∨ k = .sfixed64)
      (b0 b1 b2 b3 b4 b5 b6 b7 : UInt8) :
      Reads env k [b0, b1, b2, b3, b4, b5, b6, b7]
        (.w64 (.ofNat 64 (b0.toNat + 2 ^ 8 * b1.toNat + 2 ^ 16 * b2.toNat + 2 ^ 24 * b3.toNat
          + 2 ^ 32 * b4.toNat + 2 ^ 40 * b5.toNat + 2 ^ 48 * b6.toNat + 2 ^ 56 * b7.toNat)))
  | int32 {bs : Bytes} {n : Nat} : Varint bs n → Reads env .int32 bs (.w32 (.ofNat 32 n))
  | uint32 {bs : Bytes} {n : Nat} : Varint bs n → Reads env .uint32 bs (.w32 (.ofNat 32 n))
  | int64 {bs : Bytes} {n : Nat} : Varint bs n → Reads env .int64 bs (.w64 (.ofNat 64 n))
  | uint64 {bs : Bytes} {n : Nat} : Varint bs n → Reads env .uint64 bs (.w64 (.ofNat 64 n))
  | sint32 {bs : Bytes} {n : Nat} : Varint bs n → n < 2 ^ 32 →
      Reads env .sint32 bs (.w32 (.ofInt 32 (zigzagInt n)))
  | sint64 {bs : Bytes} {n : Nat} : Varint bs n → n < 2 ^ 64 →
      Reads env .sint64 bs (.w64 (.ofInt 64 (zigzagInt n)))
  | bool {bs : Bytes} {n : Nat} : Varint bs n → n < 2 ^ 32 → Reads env .bool bs (.bool (n ≠ 0))
  | string {l body : Bytes} : Varint l body.length →
      Reads env .string (l ++ body) (.str (some (env.fromUtf8 body)))
  | bytes {l body : Bytes} : Varint l body.length →
      Reads env .bytes (l ++ body) (.bytes (some body))

/-- `bs` is an encoding of an enumeration number: a varint of which the low 32 bits count. -/
def ReadsEnum (bs : Bytes) (e : BitVec 32) : Prop := ∃ n, Varint bs n ∧ e = .ofNat 32 n

/-- `bs` is the concatenation of encodings of the elements of a packed list. -/
inductive ReadsAll (env : Env) (k : Kind) : Bytes → List Scalar → Prop
  | nil : ReadsAll env k [] []
  | cons {b bs : Bytes} {s : Scalar} {l : List Scalar} :
      Reads env k b s → ReadsAll env k bs l → ReadsAll env k (b ++ bs) (s :: l)

/-- `bs` is the concatenation of encodings of enumeration numbers. -/
inductive ReadsEnums : Bytes → List (BitVec 32) → Prop
  | nil : ReadsEnums [] []
  | cons {b bs : Bytes} {e : BitVec 32} {l : List (BitVec 32)} :
      ReadsEnum b e → ReadsEnums bs l → ReadsEnums (b ++ bs) (e :: l)

/-- Writing a property: like the value to be written, but when the current value already compares
equal (C++ `==`) the current one stays. The two differ only in signs of zero and null/empty strings. -/
def store : FieldTy → Val → Val → Val
  | .scalar k, .sc a, .sc b => if scalarEq k a b then .sc a else .sc b
  | .list k, .scList a, .scList b => if scalarListEq k a b then .scList a else .scList b
  | .map kk (.scalar vk), .map a, .map b => if mapScalarEq kk vk a b then .map a else .map b
  | .map kk .enum, .map a, .map b => if mapEnumEq kk a b then .map a else .map b
  | _, _, new => new

/-- Kinds that can be packed. -/
def packable : Kind → Prop
  | .string | .bytes | .bool => False
  | _ => True

/-- `bs` is the payload of a record of wire type `wt` that a receiver can skip. -/
inductive Skippable : Nat → Bytes → Prop
  | varint {bs : Bytes} {n : Nat} : IsVarint bs n → Skippable 0 bs
  | fixed32 {bs : Bytes} : bs.length = 4 → Skippable 5 bs
  | fixed64 {bs : Bytes} : bs.length = 8 → Skippable 1 bs
  | delimited {l body : Bytes} : Varint l body.length → Skippable 2 (l ++ body)

section
/- `Sub m body o`: the body of a nested message of type `m` decodes to `o`. -/
variable (env : Env) (Sub : Nat → Bytes → Obj → Prop)

/-- `bs` (wire type `wt`) is an encoding of the value of a map entry. -/
inductive ReadsMapVal : MapVal → Nat → Bytes → Val → Prop
  | scalar {k : Kind} {bs : Bytes} {s : Scalar} : Reads env k bs s →
      ReadsMapVal (.scalar k) (wireType k) bs (.sc s)
  | enum {bs : Bytes} {e : BitVec 32} : ReadsEnum bs e → ReadsMapVal .enum 0 bs (.enum e)
  | msg {m : Nat} {l body : Bytes} {o : Obj} : Varint l body.length → Sub m body o →
      ReadsMapVal (.msg m) 2 (l ++ body) (.msg o)

/-- A map entry is a message with the key as field 1 and the value as field 2: the key and value
before and after the records in the given bytes. -/
inductive Entry (kk : Kind) (vt : MapVal) : Bytes → Scalar × Val → Scalar × Val → Prop
  | nil (kv : Scalar × Val) : Entry kk vt [] kv kv
  | key {hdr b bs : Bytes} {s : Scalar} {kv kv' : Scalar × Val} :
      Tag hdr 1 (wireType kk) → Reads env kk b s → Entry kk vt bs (s, kv.2) kv' →
      Entry kk vt (hdr ++ b ++ bs) kv kv'
  | val {hdr b bs : Bytes} {wt : Nat} {v : Val} {kv kv' : Scalar × Val} :
      Tag hdr 2 wt → ReadsMapVal env Sub vt wt b v → Entry kk vt bs (kv.1, v) kv' →
      Entry kk vt (hdr ++ b ++ bs) kv kv'

/-- Key and value of an empty map entry. -/
def emptyEntry (kk : Kind) : MapVal → Scalar × Val
  | .scalar k => (defaultScalar kk, .sc (defaultScalar k))
  | .enum => (defaultScalar kk, .enum 0)
  | .msg _ => (defaultScalar kk, .msgNull)

/-- Effect of the payload of a record on the value of the field it belongs to. -/
inductive FieldEffect : FieldTy → Nat → Bytes → Val → Val → Prop
  /-- scalars: the last record wins -/
  | scalar {k : Kind} {bs : Bytes} {s : Scalar} (old : Val) : Reads env k bs s →
      FieldEffect (.scalar k) (wireType k) bs old (.sc s)
  /-- enumerations: the last record wins -/
  | enum {bs : Bytes} {e : BitVec 32} (old : Val) : ReadsEnum bs e →
      FieldEffect .enum 0 bs old (.enum e)
  /-- strings and byte arrays are appended one by one -/
  | append {k : Kind} {bs : Bytes} {s : Scalar} (old : List Scalar) : k = .string ∨ k = .bytes →
      Reads env k bs s → FieldEffect (.list k) 2 bs (.scList old) (.scList (old ++ [s]))
  /-- a packed record *replaces* the list (protobuf demands concatenation, see C11) -/
  | packed {k : Kind} {l body : Bytes} {vs : List Scalar} (old : Val) : packable k →
      Varint l body.length → ReadsAll env k body vs →
      FieldEffect (.list k) 2 (l ++ body) old (.scList vs)
  /-- packed enumerations are appended -/
  | enums {l body : Bytes} {es : List (BitVec 32)} (old : List (BitVec 32)) :
      Varint l body.length → ReadsEnums body es →
      FieldEffect .enumList 2 (l ++ body) (.enumList old) (.enumList (old ++ es))
  /-- a sub-message replaces the previous one -/
  | msg {m : Nat} {l body : Bytes} {o : Obj} (old : Val) : Varint l body.length → Sub m body o →
      FieldEffect (.msg m) 2 (l ++ body) old (.msg o)
  /-- repeated messages are appended -/
  | msgList {m : Nat} {l body : Bytes} {o : Obj} (old : List Val) : Varint l body.length →
      Sub m body o → FieldEffect (.msgList m) 2 (l ++ body) (.msgList old) (.msgList (old ++ [.msg o]))
  /-- map entries are inserted, the last value of a key wins -/
  | map {kk : Kind} {vt : MapVal} {l body : Bytes} {kv : Scalar × Val} (old : List (Scalar × Val)) :
      Varint l body.length → Entry env Sub kk vt body (emptyEntry kk vt) kv →
      FieldEffect (.map kk vt) 2 (l ++ body) (.map old) (.map (mapInsert kk kv.1 kv.2 old))

/-- Effect of a concatenation of records on a message object of type `m`. -/
inductive Stream (m : Nat) : Bytes → Obj → Obj → Prop
  | nil (o : Obj) : Stream m [] o o
  | known {hdr payload rest : Bytes} {wt i : Nat} {f : Field} {o o' : Obj} {old new : Val} :
      (env.sch m)[i]? = some f → Tag hdr f.num wt → o[i]? = some old →
      FieldEffect env Sub f.ty wt payload old new →
      Stream m rest (o.set i (store f.ty old new)) o' →
      Stream m (hdr ++ payload ++ rest) o o'
  | unknown {hdr payload rest : Bytes} {num wt : Nat} {o o' : Obj} :
      (∀ f ∈ env.sch m, f.num ≠ num) → Tag hdr num wt → Skippable wt payload →
      Stream m rest o o' → Stream m (hdr ++ payload ++ rest) o o'

end

/-- The bytes `bs` are an encoding of a message of type `m` with contents `o`, with messages nested
at most `d` deep. -/
def Message (env : Env) : Nat → Nat → Bytes → Obj → Prop
  | 0, _, _, _ => False
  | d + 1, m, bs, o => Stream env (Message env d) m bs (defaultObj env m) o

/-- Field numbers of every message type are distinct and in the legal range (guaranteed by protoc). -/
def ValidSchema (env : Env) : Prop :=
  ∀ m, ((env.sch m).map (·.num)).Nodup ∧ ∀ f ∈ env.sch m, 1 ≤ f.num ∧ f.num < 2 ^ 29

/-- The iteration order of each field table visits every field exactly once. -/
def ValidOrder (env : Env) : Prop :=
  ∀ m, (env.ord m).Perm (List.range (env.sch m).length)

end QtPb.Spec
