import Verif.SpecObj
/-
A reference decoder for protobuf messages, written from
https://developers.google.com/protocol-buffers/docs/encoding (and independent of the decoder of the
repository, modelled in `Verif/Wire.lean` and `Verif/Codec.lean`). It is the specification of C21: it
models no code of the repository.

A message is first cut into records, then the records are applied one after the other:
* varints have up to 10 bytes and are truncated to 64 bits;
* a record of an unknown field, or of a known field with an unexpected wire type, is ignored;
* repeated numbers are accepted packed and unpacked, several records are concatenated;
* several records of a singular sub-message are merged, of other singular fields the last one counts;
* a map entry is a message with the key as field 1 and the value as field 2.
-/
namespace QtPb.Ref

open QtPb.Spec

/-- A varint of at most `n` bytes and the bytes after it. -/
def varintOf : Nat → Bytes → Option (Nat × Bytes)
  | n + 1, b :: bs =>
    if b.toNat < 128 then some (b.toNat, bs)
    else match varintOf n bs with
      | some (v, rest) => some (b.toNat - 128 + 128 * v, rest)
      | none => none
  | _, _ => none

/-- A varint: at most 10 bytes, the low 64 bits count. -/
def varint (bs : Bytes) : Option (Nat × Bytes) :=
  (varintOf 10 bs).map fun (v, rest) => (v % 2 ^ 64, rest)

/-- Little endian number. -/
def littleEndian : Bytes → Nat
  | [] => 0
  | b :: bs => b.toNat + 2 ^ 8 * littleEndian bs

/-- Payload of a record. -/
inductive Payload
  | varint (n : Nat)
  | fixed64 (n : Nat)
  | delimited (body : Bytes)
  | fixed32 (n : Nat)

/-- The first `n` bytes, if there are as many. -/
def cut (n : Nat) (bs : Bytes) : Option (Bytes × Bytes) :=
  if n ≤ bs.length then some (bs.take n, bs.drop n) else none

/-- Payload of the given wire type and the bytes after it. -/
def payload : Nat → Bytes → Option (Payload × Bytes)
  | 0, bs => (varint bs).map fun (n, rest) => (.varint n, rest)
  | 1, bs => (cut 8 bs).map fun (b, rest) => (.fixed64 (littleEndian b), rest)
  | 2, bs => match varint bs with
    | some (n, rest) => (cut n rest).map fun (b, rest) => (.delimited b, rest)
    | none => none
  | 5, bs => (cut 4 bs).map fun (b, rest) => (.fixed32 (littleEndian b), rest)
  | _, _ => none

/-- One record, field number and payload, and the bytes after it. Field number 0 is illegal. -/
def record (bs : Bytes) : Option (Nat × Payload × Bytes) :=
  match varint bs with
  | some (tag, rest) =>
    if tag / 8 = 0 then none
    else (payload (tag % 8) rest).map fun (p, rest) => (tag / 8, p, rest)
  | none => none

/-- Value of a scalar, if the payload has the wire type of the scalar type. -/
def scalarOf (env : Env) : Kind → Payload → Option Scalar
  | .int32, .varint n | .uint32, .varint n => some (.w32 (.ofNat 32 n))
  | .int64, .varint n | .uint64, .varint n => some (.w64 (.ofNat 64 n))
  | .sint32, .varint n => some (.w32 (.ofInt 32 (zigzagInt (n % 2 ^ 32))))
  | .sint64, .varint n => some (.w64 (.ofInt 64 (zigzagInt n)))
  | .bool, .varint n => some (.bool (n ≠ 0))
  | .float, .fixed32 n | .fixed32, .fixed32 n | .sfixed32, .fixed32 n => some (.w32 (.ofNat 32 n))
  | .double, .fixed64 n | .fixed64, .fixed64 n | .sfixed64, .fixed64 n => some (.w64 (.ofNat 64 n))
  | .string, .delimited b => some (.str (some (env.fromUtf8 b)))
  | .bytes, .delimited b => some (.bytes (some b))
  | _, _ => none

/-- The elements of a packed list (at most `n` of them). -/
def scalars (env : Env) (k : Kind) : Nat → Bytes → Option (List Scalar)
  | _, [] => some []
  | 0, _ => none
  | n + 1, bs => match payload (wireType k) bs with
    | some (p, rest) => match scalarOf env k p, scalars env k n rest with
      | some s, some l => some (s :: l)
      | _, _ => none
    | none => none

/-- The elements of a packed list of enumeration numbers (at most `n` of them). -/
def enums : Nat → Bytes → Option (List (BitVec 32))
  | _, [] => some []
  | 0, _ => none
  | n + 1, bs => match varint bs with
    | some (v, rest) => (enums n rest).map fun l => .ofNat 32 v :: l
    | none => none

/-- Scalar types that can be packed: all numbers. -/
def numeric : Kind → Bool
  | .string | .bytes => false
  | _ => true

section
/- `sub m body o`: merge the encoded message `body` of type `m` into `o`. -/
variable (env : Env) (sub : Nat → Bytes → Obj → Option Obj)

/-- Contents of a sub-message field, the default message if unset. -/
def current (m : Nat) : Val → Obj
  | .msg o => o
  | _ => defaultObj env m

/-- Effect of a payload on the value of a map entry. -/
def entryValue : MapVal → Payload → Val → Option Val
  | .scalar k, p, old => match scalarOf env k p with
    | some s => some (.sc s)
    | none => some old
  | .enum, .varint n, _ => some (.enum (.ofNat 32 n))
  | .msg m, .delimited b, old => (sub m b (current env m old)).map .msg
  | _, _, old => some old

/-- Apply the records of a map entry (at most `n` of them) to a key and a value. -/
def entry (kk : Kind) (vt : MapVal) : Nat → Bytes → Scalar × Val → Option (Scalar × Val)
  | _, [], kv => some kv
  | 0, _, _ => none
  | n + 1, bs, kv => match record bs with
    | some (1, p, rest) => entry kk vt n rest ((scalarOf env kk p).getD kv.1, kv.2)
    | some (2, p, rest) => match entryValue env sub vt p kv.2 with
      | some v => entry kk vt n rest (kv.1, v)
      | none => none
    | some (_, _, rest) => entry kk vt n rest kv
    | none => none

/-- Key and value of an empty map entry. -/
def entryDefault (kk : Kind) : MapVal → Scalar × Val
  | .scalar k => (defaultScalar kk, .sc (defaultScalar k))
  | .enum => (defaultScalar kk, .enum 0)
  | .msg m => (defaultScalar kk, .msg (defaultObj env m))

/-- Effect of a payload on a field. -/
def fieldValue : FieldTy → Payload → Val → Option Val
  | .scalar k, p, old => match scalarOf env k p with
    | some s => some (.sc s)
    | none => some old
  | .list k, p, .scList old => match scalarOf env k p with
    | some s => some (.scList (old ++ [s]))
    | none => match numeric k, p with
      | true, .delimited b => (scalars env k b.length b).map fun l => .scList (old ++ l)
      | _, _ => some (.scList old)
  | .enum, .varint n, _ => some (.enum (.ofNat 32 n))
  | .enumList, .varint n, .enumList old => some (.enumList (old ++ [.ofNat 32 n]))
  | .enumList, .delimited b, .enumList old =>
    (enums b.length b).map fun l => .enumList (old ++ l)
  | .msg m, .delimited b, old => (sub m b (current env m old)).map .msg
  | .msgList m, .delimited b, .msgList old =>
    (sub m b (defaultObj env m)).map fun o => .msgList (old ++ [.msg o])
  | .map kk vt, .delimited b, .map old =>
    (entry env sub kk vt b.length b (entryDefault env kk vt)).map fun kv =>
      .map (mapInsert kk kv.1 kv.2 old)
  | _, _, old => some old

/-- Index of the field with the given number. -/
def fieldIndex (num : Nat) : List Field → Option Nat
  | [] => none
  | f :: fs => if f.num = num then some 0 else (fieldIndex num fs).map (· + 1)

/-- Apply one record to a message of type `m`. -/
def apply (m : Nat) (num : Nat) (p : Payload) (o : Obj) : Option Obj :=
  match fieldIndex num (env.sch m) with
  | none => some o
  | some i => match (env.sch m)[i]?, o[i]? with
    | some f, some old => (fieldValue env sub f.ty p old).map fun new => o.set i new
    | _, _ => none

/-- Apply all records (at most `n` of them) to a message of type `m`. -/
def records (m : Nat) : Nat → Bytes → Obj → Option Obj
  | _, [], o => some o
  | 0, _, _ => none
  | n + 1, bs, o => match record bs with
    | some (num, p, rest) => match apply env sub m num p o with
      | some o' => records m n rest o'
      | none => none
    | none => none

end

/-- Merge an encoded message of type `m`, with messages nested at most `d` deep, into `o`. -/
def merge (env : Env) : Nat → Nat → Bytes → Obj → Option Obj
  | 0, _, _, _ => none
  | d + 1, m, bs, o => records env (merge env d) m bs.length bs o

/-- The reference decoder. (A message nested deeper than the number of bytes does not exist.) -/
def decode (env : Env) (m : Nat) (bs : Bytes) : Option Obj :=
  merge env (bs.length + 1) m bs (defaultObj env m)

/-! ### The same message, bit for bit -/

/-- Insert map entries one after the other. -/
def insertEach (kk : Kind) (es acc : List (Scalar × Val)) : List (Scalar × Val) :=
  es.foldl (fun a e => mapInsert kk e.1 e.2 a) acc

mutual
/-- `Delivered ty v v'`: a property of type `ty` with value `v` is received as `v'`.
* scalars and enumerations bit for bit (text through UTF-8, a null string or byte array in a list
  arrives empty)
* an unset sub-message arrives as a default constructed one; sub-messages field by field
* null pointers in lists and maps are dropped -/
inductive Delivered (env : Env) : FieldTy → Val → Val → Prop
  | sc (k : Kind) (s : Scalar) : Delivered env (.scalar k) (.sc s) (.sc (entryScalar env s))
  | scList (k : Kind) (l : List Scalar) :
      Delivered env (.list k) (.scList l) (.scList (l.map (transmitted env)))
  | enum (e : BitVec 32) : Delivered env .enum (.enum e) (.enum e)
  | enumList (l : List (BitVec 32)) : Delivered env .enumList (.enumList l) (.enumList l)
  | unset {m : Nat} {v : Val} : Delivered env (.msg m) (.msg (defaultObj env m)) v →
      Delivered env (.msg m) .msgNull v
  | msg {m : Nat} {o o' : Obj} : o'.length = (env.sch m).length →
      (∀ (i : Nat) (f : Field) (v v' : Val), (env.sch m)[i]? = some f → o[i]? = some v →
        o'[i]? = some v' → Delivered env f.ty v v') →
      Delivered env (.msg m) (.msg o) (.msg o')
  | msgList {m : Nat} {l l' : List Val} : DeliveredList env m l l' →
      Delivered env (.msgList m) (.msgList l) (.msgList l')
  | map {kk : Kind} {vt : MapVal} {es es' : List (Scalar × Val)} : DeliveredEntries env vt es es' →
      Delivered env (.map kk vt) (.map es) (.map (insertEach kk es' []))
/-- Elements of a repeated message field: null pointers are dropped. -/
inductive DeliveredList (env : Env) : Nat → List Val → List Val → Prop
  | nil (m : Nat) : DeliveredList env m [] []
  | null {m : Nat} {l l' : List Val} : DeliveredList env m l l' →
      DeliveredList env m (.msgNull :: l) l'
  | cons {m : Nat} {o o' : Obj} {l l' : List Val} : Delivered env (.msg m) (.msg o) (.msg o') →
      DeliveredList env m l l' → DeliveredList env m (.msg o :: l) (.msg o' :: l')
/-- Entries of a map: null pointers are dropped. -/
inductive DeliveredEntries (env : Env) :
    MapVal → List (Scalar × Val) → List (Scalar × Val) → Prop
  | nil (vt : MapVal) : DeliveredEntries env vt [] []
  | null {vt : MapVal} {key : Scalar} {es es' : List (Scalar × Val)} :
      DeliveredEntries env vt es es' → DeliveredEntries env vt ((key, .msgNull) :: es) es'
  | cons {vt : MapVal} {key : Scalar} {v v' : Val} {es es' : List (Scalar × Val)} :
      v ≠ .msgNull → Delivered env (MapVal.toTy vt) v v' → DeliveredEntries env vt es es' →
      DeliveredEntries env vt ((key, v) :: es) ((entryScalar env key, v') :: es')
end

end QtPb.Ref
