import Verif.QtFields
import Verif.SpecQtPeers
import Verif.SpecRecords
/-
Specification for C120: the records of a message with fields of Qt's types, and what is expected of such a message after transmission.
-/
namespace QtPb.Qt.FieldSpec
open QtPb QtPb.Spec

section
variable (eq : QtVal → QtVal → Bool) (env envQ : Env) (d : Nat) (fs : List Member)

/-- Effect of a record on the field it belongs to. A record of a field of a Qt type holds a message that shows a value of that type; the field gets
this value, unless Qt takes it for equal to the one the field has. -/
inductive MemberRecord : Member → Bytes → Slot → Slot → Prop
  | plain {num : Nat} {ty : FieldTy} {bs : Bytes} {old new : Val} : FieldRecord env (Message env d) ⟨num, ty⟩ bs old new →
      MemberRecord ⟨num, .plain ty⟩ bs (.val old) (.val new)
  | same {num : Nat} {hdr len body : Bytes} {o : Obj} {q old : QtVal} : Tag hdr num 2 → Varint len body.length →
      Message envQ d (Peer.carrier q) body o → Peer.Shows q o → Faithful q → eq old q = true →
      MemberRecord ⟨num, .qt (Peer.carrier q)⟩ (hdr ++ (len ++ body)) (.qt old) (.qt old)
  | other {num : Nat} {hdr len body : Bytes} {o : Obj} {q old : QtVal} : Tag hdr num 2 → Varint len body.length →
      Message envQ d (Peer.carrier q) body o → Peer.Shows q o → Faithful q → eq old q = false →
      MemberRecord ⟨num, .qt (Peer.carrier q)⟩ (hdr ++ (len ++ body)) (.qt old) (.qt q)

/-- Effect of the record `bs` with field number `num` on an object. -/
inductive SlotRec : Nat → Bytes → List Slot → List Slot → Prop
  | known {bs : Bytes} {i : Nat} {f : Member} {o : List Slot} {old new : Slot} : fs[i]? = some f → o[i]? = some old →
      MemberRecord eq env envQ d f bs old new → SlotRec f.num bs o (o.set i new)
  | unknown {num wt : Nat} {hdr payload : Bytes} {o : List Slot} : (∀ f ∈ fs, f.num ≠ num) → Tag hdr num wt → Skippable wt payload →
      SlotRec num (hdr ++ payload) o o

/-- Effect of a list of records (field number and bytes), first to last. -/
inductive SlotRecs : List (Nat × Bytes) → List Slot → List Slot → Prop
  | nil (o : List Slot) : SlotRecs [] o o
  | cons {num : Nat} {bs : Bytes} {rs : List (Nat × Bytes)} {o o1 o2 : List Slot} : SlotRec eq env envQ d fs num bs o o1 → SlotRecs rs o1 o2 →
      SlotRecs ((num, bs) :: rs) o o2

end

/-- Field numbers are distinct and in the legal range (guaranteed by protoc). -/
def Valid (fs : List Member) : Prop := (fs.map (·.num)).Nodup ∧ ∀ f ∈ fs, 1 ≤ f.num ∧ f.num < 2 ^ 29

/-- A value that the member can hold and that is expected to arrive. -/
inductive Sendable (env : Env) : SlotTy → Slot → Prop
  | plain {ty : FieldTy} {v : Val} : HasTy env ty v → Sendable env (.plain ty) (.val v)
  | qt {q : QtVal} : Faithful q → Sendable env (.qt (Peer.carrier q)) (.qt q)

/-- What the receiver has for a field that was sent: for a Qt type the same value up to the sign of zeros, or else the value of a new object, when Qt
takes the two for equal. -/
inductive Received (eq : QtVal → QtVal → Bool) (env : Env) : SlotTy → Slot → Slot → Prop
  | plain {ty : FieldTy} {v v' : Val} : Arrives env ty v v' → Received eq env (.plain ty) (.val v) (.val v')
  | qt {m : Nat} {q : QtVal} : eq (qtDefault m) (plusZero q) = false → Received eq env (.qt m) (.qt q) (.qt (plusZero q))
  | asNew {m : Nat} {q : QtVal} : eq (qtDefault m) (plusZero q) = true → Received eq env (.qt m) (.qt q) (.qt (qtDefault m))

/-- Message types outside the class: legal numbers, every field in the iteration order once. The Qt messages are those of QtCore.proto and QtGui.proto. -/
structure World (env envQ : Env) : Prop where
  schema : ValidSchema env
  order : ValidOrder env
  qtSchema : envQ.sch = Peer.schema
  qtOrder : ValidOrder envQ
  ascii : ∀ t : List Char, (∀ c ∈ t, c.toNat < 128) → envQ.fromUtf8 (envQ.toUtf8 t) = t

end QtPb.Qt.FieldSpec
