import Verif.QtObjects
import Verif.SpecQtFields
import Verif.SpecEq
/-
Specification for C121: copies and comparisons of objects with fields of Qt's types.
-/
namespace QtPb.Qt.ObjectSpec
open QtPb QtPb.Spec

/-- A value that the member can hold. -/
inductive Typed (env : Env) : SlotTy → Slot → Prop
  | plain {ty : FieldTy} {v : Val} : Safe env ty v → Typed env (.plain ty) (.val v)
  | qt (q : QtVal) : Typed env (.qt (Peer.carrier q)) (.qt q)

/-- An object of the class. -/
def Object (env : Env) (fs : List Member) (o : List Slot) : Prop :=
  o.length = fs.length ∧ ∀ (i : Nat) (f : Member) (s : Slot), fs[i]? = some f → o[i]? = some s → Typed env f.ty s

/-- What a field that had the value `old` has after `src` was assigned: a field of a Qt type has exactly the value of the source, unless Qt took the two
for equal, in which case it is left alone. -/
inductive Assigned (eq : QtVal → QtVal → Bool) (env : Env) : SlotTy → Slot → Slot → Slot → Prop
  | plain {ty : FieldTy} {old src new : Val} : Mirrors env ty new src → Assigned eq env (.plain ty) (.val old) (.val src) (.val new)
  | copied {m : Nat} {old src : QtVal} : eq old src = false → Assigned eq env (.qt m) (.qt old) (.qt src) (.qt src)
  | kept {m : Nat} {old src : QtVal} : eq old src = true → Assigned eq env (.qt m) (.qt old) (.qt src) (.qt old)

/-- A new object's value of the field, as far as Qt's types are concerned. -/
inductive Fresh : Member → Slot → Prop
  | plain {num : Nat} {ty : FieldTy} (v : Val) : Fresh ⟨num, .plain ty⟩ (.val v)
  | qt (num m : Nat) : Fresh ⟨num, .qt m⟩ (.qt (qtDefault m))

/-- Equal fields: the same value (C24), or for a Qt type what Qt takes for equal. -/
inductive Alike (eq : QtVal → QtVal → Bool) (env : Env) : SlotTy → Slot → Slot → Prop
  | plain {ty : FieldTy} {a b : Val} : Same env ty a b → Alike eq env (.plain ty) (.val a) (.val b)
  | qt {m : Nat} {a b : QtVal} : eq a b = true → Alike eq env (.qt m) (.qt a) (.qt b)

/-- No field contains a NaN outside of Qt's types. -/
def NoNaN (env : Env) (fs : List Member) (o : List Slot) : Prop :=
  ∀ (i : Nat) (f : Member) (ty : FieldTy) (v : Val), fs[i]? = some f → f.ty = .plain ty → o[i]? = some (.val v) → Plain env ty v

/-- A value of a field that is expected to arrive unchanged: no NaN and text that UTF-8 can express, or a Qt value of C45. -/
inductive Exact (env : Env) : SlotTy → Slot → Prop
  | plain {ty : FieldTy} {v : Val} : Clean env ty v → Exact env (.plain ty) (.val v)
  | qt {q : QtVal} : Faithful q → Exact env (.qt (Peer.carrier q)) (.qt q)

/-- What a field of the target has after the value `sent` was received: the same value, for a Qt type up to the sign of zeros; when Qt takes that for equal
to the value of a new object, that value is received instead, and when Qt takes what is received for equal to what the target had, the target keeps it. -/
inductive EndsAs (eq : QtVal → QtVal → Bool) (env : Env) : SlotTy → Slot → Slot → Slot → Prop
  | plain {ty : FieldTy} {old sent new : Val} : Same env ty new sent → EndsAs eq env (.plain ty) (.val old) (.val sent) (.val new)
  | qt {m : Nat} {old sent r new : QtVal} : (r = plusZero sent ∧ eq (qtDefault m) (plusZero sent) = false ∨
      r = qtDefault m ∧ eq (qtDefault m) (plusZero sent) = true) → (new = r ∧ eq old r = false ∨ new = old ∧ eq old r = true) →
      EndsAs eq env (.qt m) (.qt old) (.qt sent) (.qt new)

end QtPb.Qt.ObjectSpec
