import Verif.SpecRecords
/-
Specification vocabulary for arbitrary byte strings.
-/
namespace QtPb.Spec

/-- Field types whose records start with a length. -/
def hasLength : FieldTy → Prop
  | .scalar k => k = .string ∨ k = .bytes
  | .enum => False
  | _ => True

/-- A record with this tag starts with a length: because of its wire type, or because a field, a map key
or a map value with this number does (the decoder ignores the wire type of known fields, and takes every
number other than 1 in a map entry for the value). -/
def startsWithLength (env : Env) (num wt : Nat) : Prop :=
  wt = 2 ∨ (∃ m, ∃ f ∈ env.sch m, f.num = num ∧ hasLength f.ty) ∨
  (∃ m, ∃ f ∈ env.sch m, ∃ kk vt, f.ty = .map kk vt ∧
    ((num = 1 ∧ hasLength (.scalar kk)) ∨ (num ≠ 1 ∧ hasLength (MapVal.toTy vt))))

/-- Every length in `bs`, that is every varint behind a tag that announces a length, is below 2^31
(modulo 2^32), in other words not negative as a 32 bit `int`. -/
def NoNegativeLength (env : Env) (bs : Bytes) : Prop :=
  ∀ pre tag l rest t n, bs = pre ++ (tag ++ (l ++ rest)) → Varint tag t →
    startsWithLength env (t % 2 ^ 32 / 8) (t % 8) → Varint l n → n % 2 ^ 32 < 2 ^ 31

/-- The bytes of one complete scalar value. Lengths are taken modulo 2^32. -/
inductive WholeScalar (k : Kind) : Bytes → Prop
  | varint {c : Bytes} {n : Nat} : wireType k = 0 → Varint c n → WholeScalar k c
  | fixed32 {c : Bytes} : wireType k = 5 → c.length = 4 → WholeScalar k c
  | fixed64 {c : Bytes} : wireType k = 1 → c.length = 8 → WholeScalar k c
  | lengthDelimited {l body : Bytes} {n : Nat} : wireType k = 2 → Varint l n → body.length = n % 2 ^ 32 →
      WholeScalar k (l ++ body)

/-- `bs` is a concatenation of any number of `W`s, behind `done` bytes; none of them begins or ends at `stop`. -/
inductive Past (W : Bytes → Prop) (stop : Nat) : Nat → Bytes → Prop
  | nil {done : Nat} : done ≠ stop → Past W stop done []
  | cons {done : Nat} {c rest : Bytes} : done ≠ stop → W c → Past W stop (done + c.length) rest → Past W stop done (c ++ rest)

/-- Bytes that start with a varint which does not end within ten bytes. -/
def LongVarint (bs : Bytes) : Prop := 10 ≤ bs.length ∧ ∀ b ∈ bs.take 10, 128 ≤ b.toNat

/-- Bytes where a scalar should start, but which cannot be one because the varint is too long, or
because the input ends at least two bytes too early. -/
inductive CutScalar (k : Kind) : Bytes → Prop
  | varint {bs : Bytes} : wireType k = 0 ∨ wireType k = 2 → LongVarint bs → CutScalar k bs
  | fixed32 {bs : Bytes} : wireType k = 5 → bs.length + 1 < 4 → CutScalar k bs
  | fixed64 {bs : Bytes} : wireType k = 1 → bs.length + 1 < 8 → CutScalar k bs
  | body {l rest : Bytes} {n : Nat} : wireType k = 2 → Varint l n → rest.length + 1 < n % 2 ^ 32 →
      CutScalar k (l ++ rest)

/-- A complete value of a map entry: a number, text, bytes, or a message that is accepted. -/
inductive WholeMapValue (accepted : Nat → Bytes → Prop) : MapVal → Bytes → Prop
  | scalar {k : Kind} {c : Bytes} : WholeScalar k c → WholeMapValue accepted (.scalar k) c
  | enum {c : Bytes} {n : Nat} : Varint c n → WholeMapValue accepted .enum c
  | msg {m : Nat} {l body : Bytes} {n : Nat} : Varint l n → body.length = n % 2 ^ 32 → accepted m body →
      WholeMapValue accepted (.msg m) (l ++ body)

/-- One part of a map entry: a tag, and a complete key (field 1) or value (any other number). -/
inductive WholePart (accepted : Nat → Bytes → Prop) (kk : Kind) (vt : MapVal) : Bytes → Prop
  | key {tag c : Bytes} {t : Nat} : Varint tag t → t % 2 ^ 32 / 8 = 1 → WholeScalar kk c →
      WholePart accepted kk vt (tag ++ c)
  | value {tag c : Bytes} {t : Nat} : Varint tag t → t % 2 ^ 32 / 8 ≠ 1 → WholeMapValue accepted vt c →
      WholePart accepted kk vt (tag ++ c)

/-- The wire types the library knows. -/
def KnownWireType (wt : Nat) : Prop := wt = 0 ∨ wt = 1 ∨ wt = 2 ∨ wt = 5

mutual
/-- `CutMessage accepted m bs`: in an encoding of message type `m`, some value is cut off. `accepted m p`
stands for: `p` is by itself accepted as a message of type `m`. -/
inductive CutMessage (env : Env) (accepted : Nat → Bytes → Prop) : Nat → Bytes → Prop
  | tag {m : Nat} {pre bs : Bytes} : accepted m pre → LongVarint bs → CutMessage env accepted m (pre ++ bs)
  | unknown {m : Nat} {pre tag bs : Bytes} {t : Nat} : accepted m pre → Varint tag t → t % 8 = 2 →
      t % 2 ^ 32 / 8 ≠ 0 → (∀ f ∈ env.sch m, f.num ≠ t % 2 ^ 32 / 8) → LongVarint bs →
      CutMessage env accepted m (pre ++ (tag ++ bs))
  | field {m : Nat} {pre tag bs : Bytes} {t : Nat} {f : Field} : accepted m pre → Varint tag t →
      KnownWireType (t % 8) → f ∈ env.sch m → f.num = t % 2 ^ 32 / 8 → CutValue env accepted f.ty bs →
      CutMessage env accepted m (pre ++ (tag ++ bs))

/-- `CutValue accepted ty bs`: where a value of a field of type `ty` should start, `bs` follows, and in it
something is cut off. -/
inductive CutValue (env : Env) (accepted : Nat → Bytes → Prop) : FieldTy → Bytes → Prop
  | scalar {k : Kind} {bs : Bytes} : CutScalar k bs → CutValue env accepted (.scalar k) bs
  | enum {bs : Bytes} : LongVarint bs → CutValue env accepted .enum bs
  | element {k : Kind} {bs : Bytes} : k = .string ∨ k = .bytes → CutScalar k bs →
      CutValue env accepted (.list k) bs
  | length {ty : FieldTy} {bs : Bytes} : hasLength ty → ty ≠ .list .bool → LongVarint bs →
      CutValue env accepted ty bs
  | packed {k : Kind} {l elems tail : Bytes} {n : Nat} : k ≠ .bool → k ≠ .string → k ≠ .bytes → Varint l n →
      n % 2 ^ 32 ≤ (elems ++ tail).length → Past (WholeScalar k) (n % 2 ^ 32) 0 elems → CutScalar k tail →
      CutValue env accepted (.list k) (l ++ (elems ++ tail))
  | packedEnum {l elems tail : Bytes} {n : Nat} : Varint l n →
      n % 2 ^ 32 ≤ (elems ++ tail).length → Past (WholeScalar .int64) (n % 2 ^ 32) 0 elems → CutScalar .int64 tail →
      CutValue env accepted .enumList (l ++ (elems ++ tail))
  | bodyShort {ty : FieldTy} {m : Nat} {bs : Bytes} : ty = .msg m ∨ ty = .msgList m →
      CutScalar .bytes bs → CutValue env accepted ty bs
  | inBody {ty : FieldTy} {m : Nat} {l body rest : Bytes} {n : Nat} : ty = .msg m ∨ ty = .msgList m →
      Varint l n → body.length = n % 2 ^ 32 → CutMessage env accepted m body →
      CutValue env accepted ty (l ++ (body ++ rest))
  | entryTag {kk : Kind} {vt : MapVal} {l parts tail : Bytes} {n : Nat} : Varint l n →
      n % 2 ^ 32 ≤ (parts ++ tail).length → Past (WholePart accepted kk vt) (n % 2 ^ 32) 0 parts → LongVarint tail →
      CutValue env accepted (.map kk vt) (l ++ (parts ++ tail))
  | entryKey {kk : Kind} {vt : MapVal} {l parts tag tail : Bytes} {n t : Nat} : Varint l n →
      n % 2 ^ 32 ≤ (parts ++ (tag ++ tail)).length → Past (WholePart accepted kk vt) (n % 2 ^ 32) 0 parts →
      Varint tag t → t % 2 ^ 32 / 8 = 1 → CutScalar kk tail →
      CutValue env accepted (.map kk vt) (l ++ (parts ++ (tag ++ tail)))
  | entryValue {kk : Kind} {vt : MapVal} {l parts tag tail : Bytes} {n t : Nat} : Varint l n →
      n % 2 ^ 32 ≤ (parts ++ (tag ++ tail)).length → Past (WholePart accepted kk vt) (n % 2 ^ 32) 0 parts →
      Varint tag t → t % 2 ^ 32 / 8 ≠ 1 →
      CutValue env accepted (MapVal.toTy vt) tail →
      CutValue env accepted (.map kk vt) (l ++ (parts ++ (tag ++ tail)))
end

end QtPb.Spec
