import Verif.QtNestedMove
import Verif.SpecQtNestedObjects
import Verif.SpecMove
/-
Specification for C124: moves of objects in which Qt values occur at any depth.
-/
namespace QtPb.Qt.MoveSpec
open QtPb QtPb.Spec

/-- A value of the type of the member: numbers in the range of their type, objects with the members of their class, at every depth. -/
inductive Proper (env : Env) (cls : Classes) : DeepTy → Deep → Prop
  | plain {ty : FieldTy} {v : Val} : HasTy env ty v → Proper env cls (.plain ty) (.val v)
  | qt {m : Nat} (q : QtVal) : Proper env cls (.qt m) (.qt q)
  | unset {c : Nat} : Proper env cls (.sub c) .unset
  | sub {c : Nat} {o : List Deep} : o.length = (cls.tab c).length →
      (∀ (i : Nat) (f : DeepField) (s : Deep), (cls.tab c)[i]? = some f → o[i]? = some s → Proper env cls f.ty s) → Proper env cls (.sub c) (.sub o)
  | subs {c : Nat} {l : List Deep} : (∀ s ∈ l, Proper env cls (.sub c) s) → Proper env cls (.subs c) (.subs l)

/-- What is assumed of Qt: a moved-from container is still a container of its type, and lists of pointers that compare equal have the same elements. -/
structure Movers.Sound (env : Env) (cls : Classes) (q : Movers) : Prop where
  plain : Containers.Sound env q.plain
  left : ∀ c a b, Proper env cls (.subs c) (.subs a) → Proper env cls (.subs c) (.subs b) → Proper env cls (.subs c) (.subs (q.leftSubs a b))
  same : ∀ a b, q.sameSubs a b = true → a = b

/-- The contents of the target and of the source after a move. -/
def movedTo (r : List DeepMoved) : List Deep := r.map fun x => x.target
def movedFrom (r : List DeepMoved) : List Deep := r.map fun x => x.source

end QtPb.Qt.MoveSpec
