import Verif.Reference
/-
Specification of C67: the encodings that encoders of other protobuf implementations produce, and when
two decoders agree about a message. It uses the vocabulary of `Verif/Spec.lean` (varints, tags) and
`Verif/Reference.lean` (payloads) and models no code of the repository.
-/
namespace QtPb.Spec

open Ref (Payload littleEndian)

/-- `bs` is the payload `p` of a record of wire type `wt`. -/
inductive PayloadIs : Nat → Bytes → Payload → Prop
  | varint {bs : Bytes} {n : Nat} : Varint bs n → n < 2 ^ 64 → PayloadIs 0 bs (.varint n)
  | fixed64 {bs : Bytes} : bs.length = 8 → PayloadIs 1 bs (.fixed64 (littleEndian bs))
  | delimited {l body : Bytes} : Varint l body.length → PayloadIs 2 (l ++ body) (.delimited body)
  | fixed32 {bs : Bytes} : bs.length = 4 → PayloadIs 5 bs (.fixed32 (littleEndian bs))

/-- `bs` is a sequence of records with these field numbers and payloads, in this order. -/
inductive Cut : Bytes → List (Nat × Payload) → Prop
  | nil : Cut [] []
  | cons {hdr b rest : Bytes} {num wt : Nat} {p : Payload} {rs : List (Nat × Payload)} :
      Tag hdr num wt → PayloadIs wt b p → Cut rest rs → Cut (hdr ++ b ++ rest) ((num, p) :: rs)

/-- A payload an encoder writes for a scalar type: the wire type is the one of the scalar type, and
the varint of an `sint32` or a `bool` has at most 32 bits. -/
def Fits : Kind → Payload → Prop
  | .int32, .varint _ | .uint32, .varint _ | .int64, .varint _ | .uint64, .varint _ => True
  | .sint64, .varint _ => True
  | .sint32, .varint n | .bool, .varint n => n < 2 ^ 32
  | .float, .fixed32 _ | .fixed32, .fixed32 _ | .sfixed32, .fixed32 _ => True
  | .double, .fixed64 _ | .fixed64, .fixed64 _ | .sfixed64, .fixed64 _ => True
  | .string, .delimited _ | .bytes, .delimited _ => True
  | _, _ => False

/-- `bs` consists of encoded elements of type `k`, one after the other. -/
inductive Packed (k : Kind) : Bytes → Prop
  | nil : Packed k []
  | cons {b bs : Bytes} {wt : Nat} {p : Payload} :
      PayloadIs wt b p → Fits k p → Packed k bs → Packed k (b ++ bs)

section
/- `Sub m body`: `body` is a usual encoding of a nested message of type `m`. -/
variable (Sub : Nat → Bytes → Prop)

/-- A payload an encoder writes for the value of a map entry. -/
def FitsValue : MapVal → Payload → Prop
  | .scalar k, p => Fits k p
  | .enum, .varint _ => True
  | .msg m, .delimited body => Sub m body
  | _, _ => False

/-- A map entry as encoders write it: only fields 1 (key) and 2 (value); a value that is a message is
present, once. -/
def UsualEntry (kk : Kind) (vt : MapVal) (body : Bytes) : Prop :=
  ∃ rs, Cut body rs ∧
    (∀ r ∈ rs, r.1 = 1 ∧ Fits kk r.2 ∨ r.1 = 2 ∧ FitsValue Sub vt r.2) ∧
    ∀ m, vt = .msg m → (rs.filter fun r => r.1 == 2).length = 1

/-- The payloads of all records of one field, as encoders write them:
* every record has the wire type of the field, repeated numbers are packed
* a packed list of numbers is one record (enumerations may be several)
* a singular sub-message is one record
* there are no repeated bools, for which the library has no handler -/
def UsualField : FieldTy → List Payload → Prop
  | .scalar k, ps => ∀ p ∈ ps, Fits k p
  | .list .bool, ps => ps = []
  | .list .string, ps => ∀ p ∈ ps, Fits .string p
  | .list .bytes, ps => ∀ p ∈ ps, Fits .bytes p
  | .list k, ps => ps.length ≤ 1 ∧ ∀ p ∈ ps, ∃ body, p = .delimited body ∧ Packed k body
  | .enum, ps => ∀ p ∈ ps, ∃ n, p = .varint n
  | .enumList, ps => ∀ p ∈ ps, ∃ body, p = .delimited body ∧ Packed .int32 body
  | .msg m, ps => ps.length ≤ 1 ∧ ∀ p ∈ ps, ∃ body, p = .delimited body ∧ Sub m body
  | .msgList m, ps => ∀ p ∈ ps, ∃ body, p = .delimited body ∧ Sub m body
  | .map kk vt, ps => ∀ p ∈ ps, ∃ body, p = .delimited body ∧ UsualEntry Sub kk vt body

end

/-- Payloads of the records with field number `num`. -/
def payloadsOf (num : Nat) (rs : List (Nat × Payload)) : List Payload :=
  (rs.filter fun r => r.1 == num).map (·.2)

/-- `bs` is a usual encoding of a message of type `m`, with messages nested at most `d` deep: a
sequence of records, in any order, of known and unknown fields, where the records of every known field
are as encoders write them. -/
def Usual (env : Env) : Nat → Nat → Bytes → Prop
  | 0, _, _ => False
  | d + 1, m, bs => ∃ rs, Cut bs rs ∧
      ∀ f ∈ env.sch m, UsualField (Usual env d) f.ty (payloadsOf f.num rs)

/-- `Agrees ty a b`: the same value. Numbers have the same bits, but floating point zeros may differ in
sign; text and bytes are the same, but one may be null and the other empty; enumerations, lists and
map keys are identical; sub-messages field by field. -/
inductive Agrees (env : Env) : FieldTy → Val → Val → Prop
  | sc {k : Kind} {a b : Scalar} : a = b ∨ scalarEq k a b → Agrees env (.scalar k) (.sc a) (.sc b)
  | scList (k : Kind) (l : List Scalar) : Agrees env (.list k) (.scList l) (.scList l)
  | enum (e : BitVec 32) : Agrees env .enum (.enum e) (.enum e)
  | enumList (l : List (BitVec 32)) : Agrees env .enumList (.enumList l) (.enumList l)
  | unset (m : Nat) : Agrees env (.msg m) .msgNull .msgNull
  | msg {m : Nat} {a b : Obj} : a.length = (env.sch m).length → b.length = (env.sch m).length →
      (∀ (i : Nat) (f : Field) (x y : Val), (env.sch m)[i]? = some f → a[i]? = some x →
        b[i]? = some y → Agrees env f.ty x y) →
      Agrees env (.msg m) (.msg a) (.msg b)
  | msgList {m : Nat} {a b : List Val} : a.length = b.length →
      (∀ (i : Nat) (x y : Val), a[i]? = some x → b[i]? = some y → Agrees env (.msg m) x y) →
      Agrees env (.msgList m) (.msgList a) (.msgList b)
  | map {kk : Kind} {vt : MapVal} {a b : List (Scalar × Val)} : a.map (·.1) = b.map (·.1) →
      (∀ (i : Nat) (x y : Scalar × Val), a[i]? = some x → b[i]? = some y →
        Agrees env (MapVal.toTy vt) x.2 y.2) →
      Agrees env (.map kk vt) (.map a) (.map b)

end QtPb.Spec
