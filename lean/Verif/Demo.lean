import Verif.Values
/-
A concrete schema used by the examples that show that hypotheses can be met. It is not part of the
model or of any theorem.
-/
namespace QtPb

/-- Message 0: one field of (almost) every type. Message 1: a leaf. Message 2: refers to itself through
a singular field. Message 3: refers to itself through a repeated field. -/
def demoSch : Nat → List Field
  | 0 => [⟨1, .scalar .int32⟩, ⟨2, .scalar .string⟩, ⟨3, .list .sint32⟩, ⟨5, .enum⟩, ⟨6, .msg 1⟩,
          ⟨7, .msgList 1⟩, ⟨8, .map .string (.scalar .int64)⟩, ⟨9, .map .int32 (.msg 1)⟩,
          ⟨10, .list .string⟩, ⟨11, .enumList⟩, ⟨15, .scalar .double⟩]
  | 1 => [⟨1, .scalar .float⟩, ⟨4, .scalar .bytes⟩]
  | 2 => [⟨1, .scalar .int32⟩, ⟨2, .msg 2⟩]
  | 3 => [⟨1, .scalar .int32⟩, ⟨2, .msgList 3⟩]
  | _ => []

/-- The fields are iterated back to front; text is Latin-1. -/
def demoEnv : Env where
  sch := demoSch
  ord m := (List.range (demoSch m).length).reverse
  toUtf8 s := s.map fun c => UInt8.ofNat c.toNat
  fromUtf8 b := b.map fun u => Char.ofNat u.toNat

end QtPb
