import Verif.SpecObj
/-
Encodings cut into their records, to state what happens when records are inserted or reordered.
-/
namespace QtPb.Spec

section
variable (env : Env) (Sub : Nat → Bytes → Obj → Prop) (m : Nat)

/-- A well formed record whose field number the message type does not declare. -/
def UnknownRecord (num : Nat) (bs : Bytes) : Prop :=
  (∀ f ∈ env.sch m, f.num ≠ num) ∧
  ∃ hdr payload wt, bs = hdr ++ payload ∧ Tag hdr num wt ∧ Skippable wt payload

/-- A record of a declared field: effect on the value of that field. -/
def FieldRecord (f : Field) (bs : Bytes) (old new : Val) : Prop :=
  ∃ hdr payload wt v, bs = hdr ++ payload ∧ Tag hdr f.num wt ∧
    FieldEffect env Sub f.ty wt payload old v ∧ new = store f.ty old v

/-- Effect of the record `bs` with field number `num` on a message object. -/
inductive Rec : Nat → Bytes → Obj → Obj → Prop
  | known {bs : Bytes} {i : Nat} {f : Field} {o : Obj} {old new : Val} :
      (env.sch m)[i]? = some f → o[i]? = some old → FieldRecord env Sub f bs old new →
      Rec f.num bs o (o.set i new)
  | unknown {num : Nat} {bs : Bytes} {o : Obj} : UnknownRecord env m num bs → Rec num bs o o

/-- Effect of a list of records (field number and bytes), first to last. -/
inductive Recs : List (Nat × Bytes) → Obj → Obj → Prop
  | nil (o : Obj) : Recs [] o o
  | cons {num : Nat} {bs : Bytes} {rs : List (Nat × Bytes)} {o o1 o2 : Obj} :
      Rec env Sub m num bs o o1 → Recs rs o1 o2 → Recs ((num, bs) :: rs) o o2

/-- Effect of the records of one field on its value. -/
inductive FieldRecs (f : Field) : List Bytes → Val → Val → Prop
  | nil (v : Val) : FieldRecs f [] v v
  | cons {bs : Bytes} {rs : List Bytes} {v v1 v2 : Val} : FieldRecord env Sub f bs v v1 →
      FieldRecs f rs v1 v2 → FieldRecs f (bs :: rs) v v2

/-- `rs'` is `rs` with any number of unknown records inserted at any positions. -/
inductive Inserted : List (Nat × Bytes) → List (Nat × Bytes) → Prop
  | nil : Inserted [] []
  | keep (r : Nat × Bytes) {rs rs' : List (Nat × Bytes)} : Inserted rs rs' →
      Inserted (r :: rs) (r :: rs')
  | insert {num : Nat} {bs : Bytes} {rs rs' : List (Nat × Bytes)} : UnknownRecord env m num bs →
      Inserted rs rs' → Inserted rs ((num, bs) :: rs')

end

/-- The bytes of a list of records. -/
def bytesOf (rs : List (Nat × Bytes)) : Bytes := (rs.map (·.2)).flatten

/-- The records of one field number, in their order. -/
def ofField (num : Nat) (rs : List (Nat × Bytes)) : List Bytes :=
  (rs.filter fun r => r.1 == num).map (·.2)

end QtPb.Spec

namespace QtPb.Spec

/-- The beginning of a varint of which the last byte is missing (at most 9 bytes, since a varint has
at most 10; possibly empty). -/
def Truncated (bs : Bytes) : Prop := (∀ b ∈ bs, 128 ≤ b.toNat) ∧ bs.length ≤ 9

/-- Field types whose records start with a varint (the value itself, or a length). -/
def startsWithVarint : FieldTy → Bool
  | .scalar .float | .scalar .double | .scalar .fixed32 | .scalar .fixed64 | .scalar .sfixed32
  | .scalar .sfixed64 => false
  | .list .bool => false
  | _ => true

/-- Field types whose records are decoded by first checking the announced length: packed lists and
maps. -/
def checksLength : FieldTy → Prop
  | .list k => packable k
  | .enumList | .map _ _ => True
  | _ => False

/-- Message type of the sub-messages a field holds directly. -/
def subMessage : FieldTy → Option Nat
  | .msg m | .msgList m => some m
  | _ => none

/-- What can be wrong with the rest of a map entry, and the exception it is reported with. -/
inductive BadEntry (SubFails : Nat → Bytes → Exn → Prop) (kk : Kind) (vt : MapVal) : Bytes → Exn → Prop
  /-- the input ends inside the tag -/
  | truncatedTag {tr : Bytes} : Truncated tr → tr ≠ [] → BadEntry SubFails kk vt tr .outOfRange
  /-- the input ends inside the key or its length -/
  | truncatedKey {hdr tr : Bytes} : Tag hdr 1 (wireType kk) → startsWithVarint (.scalar kk) = true →
      Truncated tr → BadEntry SubFails kk vt (hdr ++ tr) .outOfRange
  /-- the input ends inside the value or its length -/
  | truncatedValue {hdr tr : Bytes} {wt : Nat} : Tag hdr 2 wt → wt = 0 ∨ wt = 1 ∨ wt = 2 ∨ wt = 5 →
      startsWithVarint (MapVal.toTy vt) = true → Truncated tr →
      BadEntry SubFails kk vt (hdr ++ tr) .outOfRange
  /-- the message value fails -/
  | nested {hdr l body rest : Bytes} {m : Nat} {e : Exn} : Tag hdr 2 2 → vt = .msg m →
      Varint l body.length → SubFails m body e → BadEntry SubFails kk vt (hdr ++ l ++ body ++ rest) e

/-- What can be wrong with the first record of `bs`, for a receiver of message type `m`, and the
exception it is reported with. `Sub m' body o`: `body` is an encoding of `o`; `SubFails m' body e`: decoding `body` as a message of type `m'` fails
with `e`. -/
inductive BadRecord (env : Env) (Sub : Nat → Bytes → Obj → Prop)
    (SubFails : Nat → Bytes → Exn → Prop) (m : Nat) : Bytes → Exn → Prop
  /-- field number 0 or wire type 3, 4, 6, 7 (the receiver looks at the low 32 bits of the tag) -/
  | tag {tag rest : Bytes} {t : Nat} : Varint tag t →
      t % 2 ^ 32 / 8 = 0 ∨ t % 8 = 3 ∨ t % 8 = 4 ∨ t % 8 = 6 ∨ t % 8 = 7 →
      BadRecord env Sub SubFails m (tag ++ rest) .invalidArgument
  /-- the input ends inside the tag -/
  | truncatedTag {tr : Bytes} : Truncated tr → tr ≠ [] → BadRecord env Sub SubFails m tr .outOfRange
  /-- the input ends inside the value or the length of a declared field -/
  | truncatedValue {hdr tr : Bytes} {f : Field} {wt : Nat} : f ∈ env.sch m → Tag hdr f.num wt →
      wt = 0 ∨ wt = 1 ∨ wt = 2 ∨ wt = 5 → startsWithVarint f.ty = true → Truncated tr →
      BadRecord env Sub SubFails m (hdr ++ tr) .outOfRange
  /-- a packed list or map entry is longer than the rest of the input -/
  | tooLong {hdr l rest : Bytes} {f : Field} {wt len : Nat} : f ∈ env.sch m → Tag hdr f.num wt →
      wt = 0 ∨ wt = 1 ∨ wt = 2 ∨ wt = 5 → checksLength f.ty → Varint l len → len < 2 ^ 31 →
      rest.length < len → BadRecord env Sub SubFails m (hdr ++ l ++ rest) .outOfRange
  /-- the input ends inside an element of a packed list -/
  | packedTruncated {hdr l body tr : Bytes} {f : Field} {wt len : Nat} {k : Kind} {vs : List Scalar} :
      f ∈ env.sch m → Tag hdr f.num wt → wt = 0 ∨ wt = 1 ∨ wt = 2 ∨ wt = 5 → f.ty = .list k →
      packable k → wireType k = 0 → Varint l len → body.length < len → len ≤ (body ++ tr).length →
      ReadsAll env k body vs → Truncated tr →
      BadRecord env Sub SubFails m (hdr ++ l ++ body ++ tr) .outOfRange
  | enumsTruncated {hdr l body tr : Bytes} {f : Field} {wt len : Nat} {es : List (BitVec 32)} :
      f ∈ env.sch m → Tag hdr f.num wt → wt = 0 ∨ wt = 1 ∨ wt = 2 ∨ wt = 5 → f.ty = .enumList →
      Varint l len → body.length < len → len ≤ (body ++ tr).length →
      ReadsEnums body es → Truncated tr →
      BadRecord env Sub SubFails m (hdr ++ l ++ body ++ tr) .outOfRange
  /-- a map entry goes wrong after the records in `body` -/
  | entry {hdr l body bad : Bytes} {f : Field} {wt len : Nat} {kk : Kind} {vt : MapVal}
      {kv : Scalar × Val} {e : Exn} :
      f ∈ env.sch m → Tag hdr f.num wt → wt = 0 ∨ wt = 1 ∨ wt = 2 ∨ wt = 5 → f.ty = .map kk vt →
      Varint l len → body.length < len → len ≤ (body ++ bad).length →
      Entry env Sub kk vt body (emptyEntry kk vt) kv → BadEntry SubFails kk vt bad e →
      BadRecord env Sub SubFails m (hdr ++ l ++ body ++ bad) e
  /-- a sub-message fails -/
  | nested {hdr l body rest : Bytes} {f : Field} {wt m' : Nat} {e : Exn} : f ∈ env.sch m →
      Tag hdr f.num wt → wt = 0 ∨ wt = 1 ∨ wt = 2 ∨ wt = 5 → subMessage f.ty = some m' →
      Varint l body.length → SubFails m' body e →
      BadRecord env Sub SubFails m (hdr ++ l ++ body ++ rest) e
  /-- a repeated bool field, which the library does not support -/
  | boolList {hdr rest : Bytes} {f : Field} {wt : Nat} : f ∈ env.sch m → Tag hdr f.num wt →
      wt = 0 ∨ wt = 1 ∨ wt = 2 ∨ wt = 5 → f.ty = .list .bool →
      BadRecord env Sub SubFails m (hdr ++ rest) .badFunctionCall
  /-- the input ends inside the value of an unknown field -/
  | unknownVarint {hdr tr : Bytes} {num : Nat} : (∀ f ∈ env.sch m, f.num ≠ num) → Tag hdr num 0 →
      (∀ b ∈ tr, 128 ≤ b.toNat) → BadRecord env Sub SubFails m (hdr ++ tr) .outOfRange
  | unknownFixed32 {hdr rest : Bytes} {num : Nat} : (∀ f ∈ env.sch m, f.num ≠ num) → Tag hdr num 5 →
      rest.length < 4 → BadRecord env Sub SubFails m (hdr ++ rest) .outOfRange
  | unknownFixed64 {hdr rest : Bytes} {num : Nat} : (∀ f ∈ env.sch m, f.num ≠ num) → Tag hdr num 1 →
      rest.length < 8 → BadRecord env Sub SubFails m (hdr ++ rest) .outOfRange
  | unknownLength {hdr tr : Bytes} {num : Nat} : (∀ f ∈ env.sch m, f.num ≠ num) → Tag hdr num 2 →
      Truncated tr → BadRecord env Sub SubFails m (hdr ++ tr) .outOfRange
  | unknownTooLong {hdr l rest : Bytes} {num len : Nat} : (∀ f ∈ env.sch m, f.num ≠ num) →
      Tag hdr num 2 → Varint l len → len < 2 ^ 31 → rest.length < len →
      BadRecord env Sub SubFails m (hdr ++ l ++ rest) .outOfRange

/-- `bs` consists of well formed records, whose effect on a new message of type `m` is `o`, followed
by a bad record that is reported with `e`. -/
def Fails (env : Env) : Nat → Nat → Bytes → Exn → Obj → Prop
  | 0, _, _, _, _ => False
  | d + 1, m, bs, e, o => ∃ pre bad, bs = pre ++ bad ∧
      Stream env (Message env d) m pre (defaultObj env m) o ∧
      BadRecord env (Message env d) (fun m' body e' => ∃ o', Fails env d m' body e' o') m bad e

end QtPb.Spec
