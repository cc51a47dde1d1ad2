import Verif.SpecEq
/-
Specification: pairs of messages whose maps of messages have the same keys.
-/
namespace QtPb.Spec

/-- Two keys that a `QMap` does not tell apart: neither is less than the other. -/
def sameMapKey (kk : Kind) (a b : Scalar) : Prop := keyLt kk a b = false ∧ keyLt kk b a = false

/-- Wherever the two values have, at corresponding places, maps of messages of the same size, these maps
have the same keys; and wherever they have lists or maps of messages of the same size, corresponding
pointers are both null or both not null. Nothing is required of other types of field, nor of lists and
maps that differ in size. An unset sub-message counts as a default one. -/
inductive Comparable (env : Env) : FieldTy → Val → Val → Prop
  | other {ty : FieldTy} {a b : Val} : (∀ m, ty ≠ .msg m) → (∀ m, ty ≠ .msgList m) →
      (∀ kk m, ty ≠ .map kk (.msg m)) → Comparable env ty a b
  | unset (m : Nat) : Comparable env (.msg m) .msgNull .msgNull
  | msg {m : Nat} {a b : Val} :
      (∀ (i : Nat) (f : Field) (x y : Val), (env.sch m)[i]? = some f →
        (contents env m a)[i]? = some x → (contents env m b)[i]? = some y → Comparable env f.ty x y) →
      Comparable env (.msg m) a b
  | msgList {m : Nat} {a b : List Val} :
      (a.length = b.length → ∀ (i : Nat) (x y : Val), a[i]? = some x → b[i]? = some y →
        (x = .msgNull ↔ y = .msgNull)) →
      (a.length = b.length → ∀ (i : Nat) (x y : Val), a[i]? = some x → b[i]? = some y →
        Comparable env (.msg m) x y) →
      Comparable env (.msgList m) (.msgList a) (.msgList b)
  | map {kk : Kind} {m : Nat} {a b : List (Scalar × Val)} :
      (a.length = b.length → (∀ x ∈ a, ∃ y ∈ b, sameMapKey kk x.1 y.1) ∧
        (∀ y ∈ b, ∃ x ∈ a, sameMapKey kk x.1 y.1)) →
      (a.length = b.length → ∀ x ∈ a, ∀ y ∈ b, sameMapKey kk x.1 y.1 →
        (x.2 = .msgNull ↔ y.2 = .msgNull)) →
      (a.length = b.length → ∀ x ∈ a, ∀ y ∈ b, sameMapKey kk x.1 y.1 →
        Comparable env (.msg m) x.2 y.2) →
      Comparable env (.map kk (.msg m)) (.map a) (.map b)

/-- The set sub-messages of two objects of message type `m` are pairwise comparable. Nothing is required
of the other fields: an assignment does not compare them, or compares them without following pointers. -/
def ComparableSubs (env : Env) (m : Nat) (a b : Obj) : Prop :=
  ∀ (i : Nat) (f : Field) (m' : Nat) (x y : Val), (env.sch m)[i]? = some f → f.ty = .msg m' →
    a[i]? = some x → b[i]? = some y → Comparable env (.msg m') x y

end QtPb.Spec
