import Verif.SpecObj
/-
Specification of "equal messages", independent of the generated code modelled in
`Verif/Objects.lean`.
-/
namespace QtPb.Spec

/-- Every scalar inside the value satisfies `P` (map keys included), the value has type `ty`, and
lists and maps contain no null pointers. -/
inductive Holds (env : Env) (P : Kind → Scalar → Prop) : FieldTy → Val → Prop
  | sc {k : Kind} {s : Scalar} : P k s → Holds env P (.scalar k) (.sc s)
  | scList {k : Kind} {l : List Scalar} : (∀ s ∈ l, P k s) → Holds env P (.list k) (.scList l)
  | enum (e : BitVec 32) : Holds env P .enum (.enum e)
  | enumList (l : List (BitVec 32)) : Holds env P .enumList (.enumList l)
  | null (m : Nat) : Holds env P (.msg m) .msgNull
  | msg {m : Nat} {o : Obj} : o.length = (env.sch m).length →
      (∀ (i : Nat) (f : Field) (v : Val), (env.sch m)[i]? = some f → o[i]? = some v →
        Holds env P f.ty v) →
      Holds env P (.msg m) (.msg o)
  | msgList {m : Nat} {l : List Val} : (∀ v ∈ l, v ≠ .msgNull) → (∀ v ∈ l, Holds env P (.msg m) v) →
      Holds env P (.msgList m) (.msgList l)
  | map {kk : Kind} {vt : MapVal} {es : List (Scalar × Val)} :
      (∀ e ∈ es, P kk e.1) → (∀ e ∈ es, e.2 ≠ .msgNull) →
      (∀ e ∈ es, Holds env P (MapVal.toTy vt) e.2) →
      es.Pairwise (fun a b => keyLt kk a.1 b.1) →
      Holds env P (.map kk vt) (.map es)

/-- The value has its type and contains no null pointers in lists and maps. -/
def Safe (env : Env) : FieldTy → Val → Prop := Holds env fun k s => k.holds s

/-- `s` is not a NaN. -/
def notNaN : Kind → Scalar → Prop
  | .float, .w32 b => isNaN32 b = false
  | .double, .w64 b => isNaN64 b = false
  | _, _ => True

/-- `Safe` and no floating point number is a NaN. -/
def Plain (env : Env) : FieldTy → Val → Prop := Holds env fun k s => k.holds s ∧ notNaN k s

/-- Text that survives a conversion to UTF-8 and back. -/
def textExact (env : Env) : Scalar → Prop
  | .str s => env.fromUtf8 (env.toUtf8 (s.getD [])) = s.getD []
  | _ => True

/-- `Plain` and every text survives a conversion to UTF-8 and back. -/
def Clean (env : Env) : FieldTy → Val → Prop :=
  Holds env fun k s => k.holds s ∧ notNaN k s ∧ textExact env s

/-- Contents of a sub-message field: an unset one counts as a default message. -/
def contents (env : Env) (m : Nat) : Val → Obj
  | .msg o => o
  | _ => defaultObj env m

/-- The same value, field by field, element by element and entry by entry: numbers numerically equal
(IEEE for floating point), equal text and bytes, equal enumeration numbers; an unset sub-message is
the same as a default one. -/
inductive Same (env : Env) : FieldTy → Val → Val → Prop
  | sc {k : Kind} {a b : Scalar} : scalarEq k a b → Same env (.scalar k) (.sc a) (.sc b)
  | scList {k : Kind} {a b : List Scalar} : a.length = b.length →
      (∀ (i : Nat) (x y : Scalar), a[i]? = some x → b[i]? = some y → scalarEq k x y) →
      Same env (.list k) (.scList a) (.scList b)
  | enum (e : BitVec 32) : Same env .enum (.enum e) (.enum e)
  | enumList (l : List (BitVec 32)) : Same env .enumList (.enumList l) (.enumList l)
  | unset (m : Nat) : Same env (.msg m) .msgNull .msgNull
  | msg {m : Nat} {a b : Val} :
      (∀ (i : Nat) (f : Field) (x y : Val), (env.sch m)[i]? = some f →
        (contents env m a)[i]? = some x → (contents env m b)[i]? = some y → Same env f.ty x y) →
      Same env (.msg m) a b
  | msgList {m : Nat} {a b : List Val} : a.length = b.length →
      (∀ (i : Nat) (x y : Val), a[i]? = some x → b[i]? = some y → Same env (.msg m) x y) →
      Same env (.msgList m) (.msgList a) (.msgList b)
  | map {kk : Kind} {vt : MapVal} {a b : List (Scalar × Val)} : a.length = b.length →
      (∀ (i : Nat) (x y : Scalar × Val), a[i]? = some x → b[i]? = some y →
        keyLt kk x.1 y.1 = false ∧ keyLt kk y.1 x.1 = false) →
      (∀ (i : Nat) (x y : Scalar × Val), a[i]? = some x → b[i]? = some y →
        Same env (MapVal.toTy vt) x.2 y.2) →
      Same env (.map kk vt) (.map a) (.map b)

/-- `r` is a copy of `s`: identical, or the same in the sense of `Same`, or a sub-message all of whose
fields are copies. (For values without NaN this is `Same`; a NaN is copied bit by bit.) -/
inductive Mirrors (env : Env) : FieldTy → Val → Val → Prop
  | refl (ty : FieldTy) (v : Val) : Mirrors env ty v v
  | same {ty : FieldTy} {a b : Val} : Same env ty a b → Mirrors env ty a b
  | msg {m : Nat} {a b : Val} :
      (∀ (i : Nat) (f : Field) (x y : Val), (env.sch m)[i]? = some f →
        (contents env m a)[i]? = some x → (contents env m b)[i]? = some y → Mirrors env f.ty x y) →
      Mirrors env (.msg m) a b

/-- No field of any message type is a map with message values. -/
def NoMessageMaps (env : Env) : Prop := ∀ m, ∀ f ∈ env.sch m, ∀ kk m', f.ty ≠ .map kk (.msg m')

end QtPb.Spec
