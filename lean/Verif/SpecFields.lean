import Verif.SpecEq
import Verif.SpecRecords
/-
Specification vocabulary for the properties of single fields: proto3 defaults, which values are not
written, list elements, and maps as functions from keys to values.
-/
namespace QtPb.Spec

/-- Lists of the same length whose elements are related position by position. -/
inductive Each {α β : Type} (R : α → β → Prop) : List α → List β → Prop
  | nil : Each R [] []
  | cons {a : α} {b : β} {l : List α} {l' : List β} : R a b → Each R l l' → Each R (a :: l) (b :: l')

/-- Proto3 default of a scalar: zero, false, the empty text or byte string. -/
def scalarDefault : Kind → Scalar → Prop
  | .string, .str s => s.getD [] = []
  | .bytes, .bytes b => b.getD [] = []
  | .bool, .bool b => b = false
  | .double, .w64 b | .int64, .w64 b | .uint64, .w64 b | .sint64, .w64 b | .fixed64, .w64 b
  | .sfixed64, .w64 b => b = 0#64
  | .float, .w32 b | .int32, .w32 b | .uint32, .w32 b | .sint32, .w32 b | .fixed32, .w32 b
  | .sfixed32, .w32 b => b = 0#32
  | _, _ => False

/-- Proto3 default of a field: scalar defaults, the enumeration number 0, no elements, no entries, an
unset sub-message. -/
def proto3Default : FieldTy → Val → Prop
  | .scalar k, .sc s => scalarDefault k s
  | .list _, .scList l => l = []
  | .enum, .enum e => e = 0#32
  | .enumList, .enumList l => l = []
  | .msg _, .msgNull => True
  | .msgList _, .msgList l => l = []
  | .map _ _, .map es => es = []
  | _, _ => False

/-- Scalars for which nothing is written: zero integers of the varint kinds, `false`, null text and
null byte arrays. Floating point and fixed width numbers are always written. -/
def scalarOmitted : Kind → Scalar → Prop
  | .int32, .w32 b | .uint32, .w32 b | .sint32, .w32 b => b = 0#32
  | .int64, .w64 b | .uint64, .w64 b | .sint64, .w64 b => b = 0#64
  | .bool, .bool b => b = false
  | .string, .str s => s = none
  | .bytes, .bytes b => b = none
  | _, _ => False

/-- Field values for which nothing is written. Sub-messages are always written. -/
def omitted : FieldTy → Val → Prop
  | .scalar k, .sc s => scalarOmitted k s
  | .list _, .scList l => l = []
  | .enum, .enum e => e = 0#32
  | .enumList, .enumList l => l = []
  | .msgList _, .msgList l => ∀ v ∈ l, v = .msgNull
  | .map _ _, .map es => ∀ e ∈ es, e.2 = .msgNull
  | _, _ => False

/-- A list element after transmission: numbers unchanged, bytes unchanged, text through UTF-8. -/
def elementArrives (env : Env) : Scalar → Scalar → Prop
  | .str a, .str b => b.getD [] = env.fromUtf8 (env.toUtf8 (a.getD []))
  | .bytes a, .bytes b => b.getD [] = a.getD []
  | a, b => b = a

/-- A repeated field after transmission: as many elements, in the same order, each of them arrived
(null message pointers are dropped). -/
def RepeatedArrives (env : Env) : FieldTy → Val → Val → Prop
  | .list _, .scList l, .scList l' => Each (elementArrives env) l l'
  | .enumList, .enumList l, .enumList l' => l' = l
  | .msgList m, .msgList l, .msgList l' =>
      Each (Arrives env (.msg m)) (l.filter fun v => match v with | .msg _ => true | _ => false) l'
  | _, _, _ => True

/-- Kinds that protobuf allows as map keys. -/
def mapKey : Kind → Prop
  | .float | .double | .bytes => False
  | _ => True

/-- The same map key: equal number, equal text. -/
def sameKey : Scalar → Scalar → Bool
  | .str a, .str b => a.getD [] == b.getD []
  | a, b => a == b

/-- The value a list of entries gives to a key (the first entry counts). -/
def valueOf (key : Scalar) (es : List (Scalar × Val)) : Option Val :=
  (es.find? fun e => sameKey e.1 key).map (·.2)

/-- The last value that a sequence of entries assigns to a key. -/
def lastValueOf (key : Scalar) (es : List (Scalar × Val)) : Option Val := valueOf key es.reverse

/-- Both absent, or both present and related. -/
def optRel {α : Type} (R : α → α → Prop) : Option α → Option α → Prop
  | some a, some b => R a b
  | none, none => True
  | _, _ => False

/-- Identical, or the same as a value of type `ty`. -/
def sameValue (env : Env) (ty : FieldTy) (a b : Val) : Prop := a = b ∨ Same env ty a b

/-- `bs` is a record of the map field `num` with key and value `kv`. -/
def EntryRecord (env : Env) (Sub : Nat → Bytes → Obj → Prop) (num : Nat) (kk : Kind) (vt : MapVal)
    (bs : Bytes) (kv : Scalar × Val) : Prop :=
  ∃ hdr l body, bs = hdr ++ (l ++ body) ∧ Tag hdr num 2 ∧ Varint l body.length ∧
    Entry env Sub kk vt body (emptyEntry kk vt) kv

/-- `bs` is a packed record of the field `num` with elements `vs`. -/
def PackedRecord (env : Env) (num : Nat) (k : Kind) (bs : Bytes) (vs : List Scalar) : Prop :=
  ∃ hdr l body, bs = hdr ++ (l ++ body) ∧ Tag hdr num 2 ∧ Varint l body.length ∧ ReadsAll env k body vs

/-- `bs` is a record of the repeated string or bytes field `num` with element `s`. -/
def ElementRecord (env : Env) (num : Nat) (k : Kind) (bs : Bytes) (s : Scalar) : Prop :=
  ∃ hdr payload, bs = hdr ++ payload ∧ Tag hdr num 2 ∧ Reads env k payload s

/-- `bs` is a packed record of the repeated enumeration field `num` with elements `es`. -/
def EnumsRecord (num : Nat) (bs : Bytes) (es : List (BitVec 32)) : Prop :=
  ∃ hdr l body, bs = hdr ++ (l ++ body) ∧ Tag hdr num 2 ∧ Varint l body.length ∧ ReadsEnums body es

/-- `bs` is a record of the repeated message field `num` with element `o`. -/
def MessageRecord (Sub : Nat → Bytes → Obj → Prop) (num m : Nat) (bs : Bytes) (o : Obj) : Prop :=
  ∃ hdr l body, bs = hdr ++ (l ++ body) ∧ Tag hdr num 2 ∧ Varint l body.length ∧ Sub m body o

end QtPb.Spec
