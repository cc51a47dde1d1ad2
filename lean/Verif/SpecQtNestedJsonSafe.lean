import Verif.QtNestedJson
import Verif.SpecQtNested
import Verif.SpecJsonRead
/-
Specification for C126: objects of the right class, whatever their values.
-/
namespace QtPb.Qt.NestedSafeSpec
open QtPb QtPb.Spec

/-- A value that a member of type `ty` can hold: Qt values of the member's Qt type, objects with one member per field of their class, no null
pointers in lists. -/
inductive Shaped (env : Env) (cls : Classes) : DeepTy → Deep → Prop
  | plain {ty : FieldTy} {v : Val} : HasTy env ty v → Shaped env cls (.plain ty) (.val v)
  | qt (q : QtVal) : Shaped env cls (.qt (Peer.carrier q)) (.qt q)
  | unset (c : Nat) : Shaped env cls (.sub c) .unset
  | sub {c : Nat} {o : List Deep} : o.length = (cls.tab c).length →
      (∀ (i : Nat) (f : DeepField) (s : Deep), (cls.tab c)[i]? = some f → o[i]? = some s → Shaped env cls f.ty s) → Shaped env cls (.sub c) (.sub o)
  | subs {c : Nat} {l : List Deep} : (∀ s ∈ l, ∃ o, s = .sub o) → (∀ s ∈ l, Shaped env cls (.sub c) s) → Shaped env cls (.subs c) (.subs l)

/-- The numbers of Qt types in the classes are those of Qt types. -/
def QtOnly (cls : Classes) : Prop := ∀ (c : Nat), ∀ f ∈ cls.tab c, ∀ m, f.ty = .qt m → ∃ q, Peer.carrier q = m

/-- No class has a field of type `QRect`. -/
def NoRects (cls : Classes) : Prop := ∀ (c : Nat), ∀ f ∈ cls.tab c, ∀ r, f.ty ≠ .qt (Peer.carrier (.rect r))

end QtPb.Qt.NestedSafeSpec
