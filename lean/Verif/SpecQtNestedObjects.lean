import Verif.QtNestedObjects
import Verif.SpecQtNested
import Verif.SpecEq
/-
Specification for C123: copies and comparisons of objects in which Qt values occur at any depth.
-/
namespace QtPb.Qt.CopySpec
open QtPb QtPb.Spec

/-- A value that the member can hold, with objects nested at most `d` deep; there are no null pointers in lists. -/
inductive TypedAt (env : Env) (cls : Classes) : Nat → DeepTy → Deep → Prop
  | plain {d : Nat} {ty : FieldTy} {v : Val} : Safe env ty v → TypedAt env cls d (.plain ty) (.val v)
  | qt {d m : Nat} (q : QtVal) : TypedAt env cls d (.qt m) (.qt q)
  | unset {d c : Nat} : TypedAt env cls d (.sub c) .unset
  | sub {d c : Nat} {o : List Deep} : o.length = (cls.tab c).length →
      (∀ (i : Nat) (f : DeepField) (s : Deep), (cls.tab c)[i]? = some f → o[i]? = some s → TypedAt env cls d f.ty s) →
      TypedAt env cls (d + 1) (.sub c) (.sub o)
  | subs {d c : Nat} {l : List Deep} : (∀ s ∈ l, s ≠ .unset) → (∀ s ∈ l, TypedAt env cls d (.sub c) s) → TypedAt env cls d (.subs c) (.subs l)

/-- An object of class `c`, nested at most `d` deep. -/
def ObjectAt (env : Env) (cls : Classes) (d c : Nat) (o : List Deep) : Prop := TypedAt env cls (d + 1) (.sub c) (.sub o)

/-- The object of a member of class type; an unset one counts as a new object. -/
def inner (cls : Classes) (c : Nat) : Deep → List Deep
  | .sub o => o
  | _ => newObject cls c

/-- Equal values: at every depth the same in the sense of C24, or for a Qt type what Qt takes for equal. -/
inductive DeepAlike (eq : QtVal → QtVal → Bool) (env : Env) (cls : Classes) : DeepTy → Deep → Deep → Prop
  | plain {ty : FieldTy} {a b : Val} : Same env ty a b → DeepAlike eq env cls (.plain ty) (.val a) (.val b)
  | qt {m : Nat} {a b : QtVal} : eq a b = true → DeepAlike eq env cls (.qt m) (.qt a) (.qt b)
  | unset {c : Nat} : DeepAlike eq env cls (.sub c) .unset .unset
  | sub {c : Nat} {a b : Deep} : (∀ (i : Nat) (f : DeepField) (x y : Deep), (cls.tab c)[i]? = some f → (inner cls c a)[i]? = some x →
      (inner cls c b)[i]? = some y → DeepAlike eq env cls f.ty x y) → DeepAlike eq env cls (.sub c) a b
  | subs {c : Nat} {a b : List Deep} : a.length = b.length → (∀ (i : Nat) (x y : Deep), a[i]? = some x → b[i]? = some y →
      DeepAlike eq env cls (.sub c) x y) → DeepAlike eq env cls (.subs c) (.subs a) (.subs b)

/-- `new` is a copy of `src`: at every depth identical, or a copy in the sense of C25, or equal, for a Qt type by Qt's opinion. -/
inductive DeepCopy (eq : QtVal → QtVal → Bool) (env : Env) (cls : Classes) : DeepTy → Deep → Deep → Prop
  | refl (ty : DeepTy) (s : Deep) : DeepCopy eq env cls ty s s
  | plain {ty : FieldTy} {src new : Val} : Mirrors env ty new src → DeepCopy eq env cls (.plain ty) (.val src) (.val new)
  | alike {ty : DeepTy} {src new : Deep} : DeepAlike eq env cls ty new src → DeepCopy eq env cls ty src new
  | sub {c : Nat} {src new : Deep} : (∀ (i : Nat) (f : DeepField) (x y : Deep), (cls.tab c)[i]? = some f → (inner cls c src)[i]? = some x →
      (inner cls c new)[i]? = some y → DeepCopy eq env cls f.ty x y) → DeepCopy eq env cls (.sub c) src new

/-- No map with message values, in the classes and in the messages without Qt values. -/
def NoMaps (env : Env) (cls : Classes) : Prop := NoMessageMaps env ∧ ∀ c, ∀ f ∈ cls.tab c, ∀ kk m, f.ty ≠ .plain (.map kk (.msg m))

/-- No NaN outside of Qt's types, at any depth. -/
inductive DeepPlain (env : Env) (cls : Classes) : DeepTy → Deep → Prop
  | plain {ty : FieldTy} {v : Val} : Plain env ty v → DeepPlain env cls (.plain ty) (.val v)
  | qt {m : Nat} (q : QtVal) : DeepPlain env cls (.qt m) (.qt q)
  | unset {c : Nat} : DeepPlain env cls (.sub c) .unset
  | sub {c : Nat} {o : List Deep} : o.length = (cls.tab c).length →
      (∀ (i : Nat) (f : DeepField) (s : Deep), (cls.tab c)[i]? = some f → o[i]? = some s → DeepPlain env cls f.ty s) → DeepPlain env cls (.sub c) (.sub o)
  | subs {c : Nat} {l : List Deep} : (∀ s ∈ l, DeepPlain env cls (.sub c) s) → DeepPlain env cls (.subs c) (.subs l)

/-- Nothing that gets lost in messages without Qt values: no NaN, and every text survives a conversion to UTF-8 and back. -/
inductive DeepClean (env : Env) (cls : Classes) : DeepTy → Deep → Prop
  | plain {ty : FieldTy} {v : Val} : Clean env ty v → DeepClean env cls (.plain ty) (.val v)
  | qt {m : Nat} (q : QtVal) : DeepClean env cls (.qt m) (.qt q)
  | unset {c : Nat} : DeepClean env cls (.sub c) (.sub (newObject cls c)) → DeepClean env cls (.sub c) .unset
  | sub {c : Nat} {o : List Deep} : o.length = (cls.tab c).length →
      (∀ (i : Nat) (f : DeepField) (s : Deep), (cls.tab c)[i]? = some f → o[i]? = some s → DeepClean env cls f.ty s) → DeepClean env cls (.sub c) (.sub o)
  | subs {c : Nat} {l : List Deep} : (∀ o, Deep.sub o ∈ l → DeepClean env cls (.sub c) (.sub o)) → DeepClean env cls (.subs c) (.subs l)

end QtPb.Qt.CopySpec
