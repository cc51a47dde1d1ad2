import Verif.Spec
/-
Specification vocabulary about message objects: which objects the generated classes can hold, and
which object a receiver is expected to see after a transmission. Independent of `Verif/Codec.lean`.
-/
namespace QtPb.Spec

/-- Field type of the values of a map. -/
def MapVal.toTy : MapVal → FieldTy
  | .scalar k => .scalar k
  | .enum => .enum
  | .msg m => .msg m

/-- `v` is a value that a property of type `ty` can hold. The entries of a map are in strictly
increasing key order (as in every `QMap`). -/
inductive HasTy (env : Env) : FieldTy → Val → Prop
  | sc {k : Kind} {s : Scalar} : k.holds s → HasTy env (.scalar k) (.sc s)
  | scList {k : Kind} {l : List Scalar} : (∀ s ∈ l, k.holds s) → HasTy env (.list k) (.scList l)
  | enum (e : BitVec 32) : HasTy env .enum (.enum e)
  | enumList (l : List (BitVec 32)) : HasTy env .enumList (.enumList l)
  | null (m : Nat) : HasTy env (.msg m) .msgNull
  | msg {m : Nat} {o : Obj} : o.length = (env.sch m).length →
      (∀ (i : Nat) (f : Field) (v : Val), (env.sch m)[i]? = some f → o[i]? = some v → HasTy env f.ty v) →
      HasTy env (.msg m) (.msg o)
  | msgList {m : Nat} {l : List Val} : (∀ v ∈ l, HasTy env (.msg m) v) →
      HasTy env (.msgList m) (.msgList l)
  | map {kk : Kind} {vt : MapVal} {es : List (Scalar × Val)} :
      (∀ e ∈ es, kk.holds e.1) → (∀ e ∈ es, HasTy env (MapVal.toTy vt) e.2) →
      es.Pairwise (fun a b => keyLt kk a.1 b.1) →
      HasTy env (.map kk vt) (.map es)

/-- `o` is an object of the generated class of message type `m`. -/
def WellTyped (env : Env) (m : Nat) (o : Obj) : Prop := HasTy env (.msg m) (.msg o)

/-- Singular message fields form no cycle: they lead to message types of smaller rank. -/
def Acyclic (env : Env) (rank : Nat → Nat) : Prop :=
  ∀ m, ∀ f ∈ env.sch m, ∀ m', f.ty = .msg m' → rank m' < rank m

/-- No repeated bool field, for which the library has no handler. -/
def NoRepeatedBool (env : Env) : Prop := ∀ m, ∀ f ∈ env.sch m, f.ty ≠ .list .bool

/-- A scalar after a trip over the wire: text goes through UTF-8, a null string or byte array arrives
as an empty one, everything else arrives bit for bit. -/
def transmitted (env : Env) : Scalar → Scalar
  | .str s => .str (some (env.fromUtf8 (env.toUtf8 (s.getD []))))
  | .bytes b => .bytes (some (b.getD []))
  | s => s

/-- A null string or byte array, which is not put on the wire at all. -/
def isAbsent : Scalar → Bool
  | .str none | .bytes none => true
  | _ => false

/-- Key or value of a map entry after transmission. -/
def entryScalar (env : Env) (s : Scalar) : Scalar := if isAbsent s then s else transmitted env s

/-- A singular scalar field after transmission: written over the default value of a new object. -/
def fieldScalar (env : Env) (k : Kind) (s : Scalar) : Scalar :=
  if isAbsent s then s
  else if scalarEq k (defaultScalar k) (transmitted env s) then defaultScalar k
  else transmitted env s

/-- Insert map entries one after the other. -/
def insertAll (kk : Kind) (vt : MapVal) (es acc : List (Scalar × Val)) : Val :=
  es.foldl (fun a e => match a with
    | .map old => store (.map kk vt) (.map old) (.map (mapInsert kk e.1 e.2 old))
    | a => a) (.map acc)

mutual
/-- `Arrives ty v v'`: when a property of type `ty` with value `v` is transmitted, the receiver's
property has value `v'`.
* scalars: `fieldScalar`; list elements: `transmitted`; enumerations unchanged
* an unset sub-message arrives as a default constructed one; sub-messages field by field
* null pointers in lists and maps are dropped -/
inductive Arrives (env : Env) : FieldTy → Val → Val → Prop
  | sc (k : Kind) (s : Scalar) : Arrives env (.scalar k) (.sc s) (.sc (fieldScalar env k s))
  | scList (k : Kind) (l : List Scalar) :
      Arrives env (.list k) (.scList l) (.scList (l.map (transmitted env)))
  | enum (e : BitVec 32) : Arrives env .enum (.enum e) (.enum e)
  | enumList (l : List (BitVec 32)) : Arrives env .enumList (.enumList l) (.enumList l)
  | unset {m : Nat} {v : Val} : Arrives env (.msg m) (.msg (defaultObj env m)) v →
      Arrives env (.msg m) .msgNull v
  | msg {m : Nat} {o o' : Obj} : o'.length = (env.sch m).length →
      (∀ (i : Nat) (f : Field) (v v' : Val), (env.sch m)[i]? = some f → o[i]? = some v → o'[i]? = some v' →
        Arrives env f.ty v v') →
      Arrives env (.msg m) (.msg o) (.msg o')
  | msgList {m : Nat} {l l' : List Val} : ArrivesList env m l l' →
      Arrives env (.msgList m) (.msgList l) (.msgList l')
  | map {kk : Kind} {vt : MapVal} {es es' : List (Scalar × Val)} : ArrivesEntries env vt es es' →
      Arrives env (.map kk vt) (.map es) (insertAll kk vt es' [])
/-- Elements of a repeated message field: null pointers are dropped. -/
inductive ArrivesList (env : Env) : Nat → List Val → List Val → Prop
  | nil (m : Nat) : ArrivesList env m [] []
  | null {m : Nat} {l l' : List Val} : ArrivesList env m l l' → ArrivesList env m (.msgNull :: l) l'
  | cons {m : Nat} {o o' : Obj} {l l' : List Val} : Arrives env (.msg m) (.msg o) (.msg o') →
      ArrivesList env m l l' → ArrivesList env m (.msg o :: l) (.msg o' :: l')
/-- Entries of a map: null pointers are dropped. -/
inductive ArrivesEntries (env : Env) : MapVal → List (Scalar × Val) → List (Scalar × Val) → Prop
  | nil (vt : MapVal) : ArrivesEntries env vt [] []
  | null {vt : MapVal} {key : Scalar} {es es' : List (Scalar × Val)} :
      ArrivesEntries env vt es es' → ArrivesEntries env vt ((key, .msgNull) :: es) es'
  | scalar {k : Kind} {key s : Scalar} {es es' : List (Scalar × Val)} :
      ArrivesEntries env (.scalar k) es es' →
      ArrivesEntries env (.scalar k) ((key, .sc s) :: es)
        ((entryScalar env key, .sc (entryScalar env s)) :: es')
  | enum {key : Scalar} {e : BitVec 32} {es es' : List (Scalar × Val)} :
      ArrivesEntries env .enum es es' →
      ArrivesEntries env .enum ((key, .enum e) :: es) ((entryScalar env key, .enum e) :: es')
  | msg {m : Nat} {key : Scalar} {o o' : Obj} {es es' : List (Scalar × Val)} :
      Arrives env (.msg m) (.msg o) (.msg o') → ArrivesEntries env (.msg m) es es' →
      ArrivesEntries env (.msg m) ((key, .msg o) :: es) ((entryScalar env key, .msg o') :: es')
end

end QtPb.Spec
