import Verif.SpecInterop
/-
Specification of C79: the form of what an encoder writes that leaves out what it need not write. It uses the
vocabulary of `Verif/SpecInterop.lean` and models no code of the repository.
-/
namespace QtPb.Spec

open Ref (Payload)

/-- Fields of which at most one record is written: singular fields and packed lists. -/
def AtMostOnce : FieldTy → Prop
  | .scalar _ | .enum | .msg _ | .enumList => True
  | .list k => k ≠ .string ∧ k ≠ .bytes
  | .msgList _ | .map _ _ => False

/-- `bs` is a message of type `m` in the form in which encoders that leave out what they can write it, with messages nested at most
`d` deep: a usual encoding; only fields of the message type; no field that is not a list of strings, bytes or messages or a map more
than once; and no zero for a number or an enumeration that is written as varint. Nested messages are in this form too. -/
def Sparse (env : Env) : Nat → Nat → Bytes → Prop
  | 0, _, _ => False
  | d + 1, m, bs => ∃ rs, Cut bs rs ∧
      (∀ r ∈ rs, ∃ f ∈ env.sch m, f.num = r.1) ∧
      ∀ f ∈ env.sch m, UsualField (Sparse env d) f.ty (payloadsOf f.num rs) ∧
        (AtMostOnce f.ty → (payloadsOf f.num rs).length ≤ 1) ∧
        ((∃ k, f.ty = .scalar k) ∨ f.ty = .enum → Payload.varint 0 ∉ payloadsOf f.num rs)

end QtPb.Spec
