import Verif.GenRegister
/-
What "the types of the program have handlers" means, without the functions of the model that register and look up.
-/
namespace QtPb.Gen.Reg

/-- The fields as protoc hands them over: no groups in proto3; a field of message or enum type names it. -/
structure Named (f : FieldD) : Prop where
  noGroup : f.type ≠ .group
  message : f.type = .message → ∃ q, f.msgType = some q
  enum : f.type = .enum → ∃ q, f.enumType = some q

/-- A map is a field of message type; its key is a scalar, and neither key nor value are maps. -/
structure WellFormed (p : Program) (f : FieldD) : Prop where
  field : Named f
  map : f.isMap = true → f.type = .message ∧ Named (p.entry (f.msgType.getD [])).2 ∧
    (p.entry (f.msgType.getD [])).1.type ≠ .message ∧ (p.entry (f.msgType.getD [])).1.type ≠ .enum ∧
    (p.entry (f.msgType.getD [])).1.type ≠ .group

/-- The handler for a type is the one that converts values of this type. -/
inductive Right : CppT → Server → Prop
  | scalar (t : FType) : Right (.basic t) .builtin
  | scalars (t : FType) : Right (.list (.basic t)) .builtin
  | message (q : Path) : Right (.ptr (.cls q)) (.registered (.object (.cls q)))
  | messages (q : Path) : Right (.list (.shared (.cls q))) (.registered (.objects (.cls q)))
  | enum (q : Path) : Right (.enum q) (.registered (.enum (.enum q)))
  | enums (q : Path) : Right (.list (.enum q)) (.registered (.enums (.enum q)))
  | scalarMap (k t : FType) : Right (.map (.basic k) (.basic t)) (.registered (.map (.basic k) (.basic t)))
  | enumMap (k : FType) (q : Path) : Right (.map (.basic k) (.enum q)) (.registered (.map (.basic k) (.enum q)))
  | messageMap (k : FType) (q : Path) : Right (.map (.basic k) (.shared (.cls q))) (.registered (.map (.basic k) (.cls q)))
  | qtMap (k : FType) (q : Path) : Right (.map (.basic k) (.qt q)) (.registered (.map (.basic k) (.qt q)))
  | qt (q : Path) : Right (.qt q) (.registered (.qt (.qt q)))

/-- The enum is declared in a file, or in a generated message that has a field of this type itself. -/
def EnumRegistered (p : Program) (q : Path) : Prop :=
  q ∈ p.fileEnums ∨ ∃ c ∈ classes p, q ∈ p.enumsIn c.path ∧ ∃ f ∈ c.fields, f.type = .enum ∧ f.enumType = some q

/-- There is a class for the message. -/
def ClassGenerated (p : Program) (q : Path) : Prop := ∃ c ∈ classes p, c.path = q

/-- The message is one of package QtProtobuf, for which a Qt class stands (used outside of this package). -/
def StandsForQt (package : List Str) (q : Path) : Prop := q.dropLast = [kQtProtobuf] ∧ package ≠ [kQtProtobuf]

/-- The values of a map have handlers. -/
inductive ValueSupported (p : Program) (package : List Str) (v : FieldD) : Prop
  | scalar (h : v.type ≠ .message ∧ v.type ≠ .enum) : ValueSupported p package v
  | enum (q : Path) (h : v.type = .enum) (hq : v.enumType = some q) (hr : EnumRegistered p q) : ValueSupported p package v
  | message (q : Path) (h : v.type = .message) (hq : v.msgType = some q) (hn : ¬ StandsForQt package q) (hc : ClassGenerated p q) :
      ValueSupported p package v

/-- The fields that have the handlers they need. -/
inductive Supported (p : Program) (package : List Str) (f : FieldD) : Prop
  | scalar (hm : f.isMap = false) (h : f.type ≠ .message ∧ f.type ≠ .enum) (hb : ¬ (f.repeated = true ∧ f.type = .bool)) :
      Supported p package f
  | enum (q : Path) (hm : f.isMap = false) (h : f.type = .enum) (hq : f.enumType = some q) (hr : EnumRegistered p q) :
      Supported p package f
  | message (q : Path) (hm : f.isMap = false) (h : f.type = .message) (hq : f.msgType = some q) (hn : ¬ StandsForQt package q)
      (hc : ClassGenerated p q) : Supported p package f
  | qt (q : Path) (hm : f.isMap = false) (h : f.type = .message) (hq : f.msgType = some q) (hn : StandsForQt package q)
      (hs : f.repeated = false) (hc : q ∈ p.qtTypes) : Supported p package f
  | map (hm : f.isMap = true) (hv : ValueSupported p package (p.entry (f.msgType.getD [])).2) : Supported p package f

/-- The registrations have run, in some order, each at least once (the order of the registrars of different source files is not
specified). -/
def AnyOrder (p : Program) (reg : List Entry) : Prop := ∀ e, e ∈ reg ↔ e ∈ registrations p

end QtPb.Gen.Reg
