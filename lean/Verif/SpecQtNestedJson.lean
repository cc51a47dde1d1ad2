import Verif.QtNestedJson
import Verif.SpecQtJson
import Verif.SpecQtNested
import Verif.SpecEq
/-
Specification for C125: the JSON value that a message with Qt values at any depth is to be written as.
-/
namespace QtPb.Qt.NestedJsonSpec
open QtPb QtPb.Json QtPb.Spec

/-- `j` is the JSON value of member `i` of class `c` with the value `s`.
* without Qt values: as in C47
* a Qt value: the JSON value of the message of QtCore.proto or QtGui.proto that shows it
* an object: a JSON object with one member per field, named by the field's JSON name; an unset one is shown as a new object
* null pointers in lists are left out -/
inductive ShowsDeep (env envQ : JEnv) (cls : Classes) (num : Nat → Nat) : Nat → Nat → DeepTy → Deep → JVal → Prop
  | plain {c i : Nat} {ty : FieldTy} {v : Val} {j : JVal} : Spec.Shows env (num c) i ty v j → ShowsDeep env envQ cls num c i (.plain ty) (.val v) j
  | qt {c i : Nat} {q : QtVal} {o : Obj} {j : JVal} : Peer.Shows q o → Spec.Shows envQ 0 0 (.msg (Peer.carrier q)) (.msg o) j →
      ShowsDeep env envQ cls num c i (.qt (Peer.carrier q)) (.qt q) j
  | unset {c i c' : Nat} {j : JVal} : ShowsDeep env envQ cls num c i (.sub c') (.sub (newObject cls c')) j →
      ShowsDeep env envQ cls num c i (.sub c') .unset j
  | sub {c i c' : Nat} {o : List Deep} {ms : List (Bytes × JVal)} :
      ms.map (·.1) = (cls.ord c').map (fun i' => env.toUtf8 (env.jsonName (num c') i')) →
      (∀ (p i' : Nat) (f : DeepField) (s : Deep) (name : Bytes) (j : JVal), (cls.ord c')[p]? = some i' →
        (cls.tab c')[i']? = some f → o[i']? = some s → ms[p]? = some (name, j) → ShowsDeep env envQ cls num c' i' f.ty s j) →
      ShowsDeep env envQ cls num c i (.sub c') (.sub o) (.obj ms)
  | subs {c i c' : Nat} {l : List Deep} {js : List JVal} : js.length = (NestedSpec.objects l).length →
      (∀ (p : Nat) (o : List Deep) (j : JVal), (NestedSpec.objects l)[p]? = some o → js[p]? = some j →
        ShowsDeep env envQ cls num c' 0 (.sub c') (.sub o) j) →
      ShowsDeep env envQ cls num c i (.subs c') (.subs l) (.arr js)

/-- Values that C125 is proved for: without Qt values those of C47; Qt values that their messages can express and whose numbers Qt reads as it prints
them; classes with at least one field and names without special characters. No unset object of a recursive class. -/
inductive Writable (env : JEnv) (envQ : REnv) (cls : Classes) (num : Nat → Nat) : Nat → Nat → DeepTy → Deep → Prop
  | plain {c i : Nat} {ty : FieldTy} {v : Val} : Printable env (num c) i ty v → Writable env envQ cls num c i (.plain ty) (.val v)
  | qt {c i : Nat} {q : QtVal} : Peer.Expressible q → JsonSpec.NumbersExact envQ q → Writable env envQ cls num c i (.qt (Peer.carrier q)) (.qt q)
  | unset {c i c' : Nat} : Writable env envQ cls num c i (.sub c') (.sub (newObject cls c')) → Writable env envQ cls num c i (.sub c') .unset
  | sub {c i c' : Nat} {o : List Deep} : cls.tab c' ≠ [] → o.length = (cls.tab c').length →
      (∀ i', i' < (cls.tab c').length → NoEscapes (env.toUtf8 (env.jsonName (num c') i'))) →
      (∀ (i' : Nat) (f : DeepField) (s : Deep), (cls.tab c')[i']? = some f → o[i']? = some s → Writable env envQ cls num c' i' f.ty s) →
      Writable env envQ cls num c i (.sub c') (.sub o)
  | subs {c i c' : Nat} {l : List Deep} : (∀ o, Deep.sub o ∈ l → Writable env envQ cls num c' 0 (.sub c') (.sub o)) →
      Writable env envQ cls num c i (.subs c') (.subs l)

/-- `j` stands for the value `s` of member `i` of class `c`, in an object that was new before.
* without Qt values: as in C65
* a Qt value: what `j` stands for as a message of QtCore.proto or QtGui.proto; the value of a new object stays if Qt takes the two for equal
* an object: members named by the JSON names of fields, in any order and none twice; other members mean nothing; a field without member, or with `null`,
  is that of a new object -/
inductive MeansDeep (eq : QtVal → QtVal → Bool) (env envQ : REnv) (cls : Classes) (num : Nat → Nat) : Nat → Nat → DeepTy → JVal → Deep → Prop
  | plain {c i : Nat} {ty : FieldTy} {j : JVal} {v : Val} : Means env quoteEscape (num c) i ty j v →
      MeansDeep eq env envQ cls num c i (.plain ty) j (.val (store ty (defaultVal ty) v))
  | qt {c i : Nat} {q : QtVal} {j : JVal} {o : Obj} : Means envQ quoteEscape 0 0 (.msg (Peer.carrier q)) j (.msg o) → Peer.Shows q o → Faithful q →
      eq (qtDefault (Peer.carrier q)) q = false → MeansDeep eq env envQ cls num c i (.qt (Peer.carrier q)) j (.qt q)
  | asNew {c i : Nat} {q : QtVal} {j : JVal} {o : Obj} : Means envQ quoteEscape 0 0 (.msg (Peer.carrier q)) j (.msg o) → Peer.Shows q o → Faithful q →
      eq (qtDefault (Peer.carrier q)) q = true →
      MeansDeep eq env envQ cls num c i (.qt (Peer.carrier q)) j (.qt (qtDefault (Peer.carrier q)))
  | sub {c i c' : Nat} {ms : List (Bytes × JVal)} {o : List Deep} :
      ms.Pairwise (fun a b => env.fromUtf8 a.1 ≠ env.fromUtf8 b.1) → (∀ q ∈ ms, NoEscapes q.1) → o.length = (cls.tab c').length →
      (∀ (i' : Nat) (f : DeepField), (cls.tab c')[i']? = some f → (∀ q ∈ ms, env.fromUtf8 q.1 ≠ env.jsonName (num c') i') →
        o[i']? = some f.default) →
      (∀ (i' : Nat) (f : DeepField) (name : Bytes), (cls.tab c')[i']? = some f → (name, JVal.null) ∈ ms →
        env.fromUtf8 name = env.jsonName (num c') i' → o[i']? = some f.default) →
      (∀ (i' : Nat) (f : DeepField) (name : Bytes) (j : JVal) (s : Deep), (cls.tab c')[i']? = some f → (name, j) ∈ ms →
        env.fromUtf8 name = env.jsonName (num c') i' → j ≠ .null → o[i']? = some s → MeansDeep eq env envQ cls num c' i' f.ty j s) →
      MeansDeep eq env envQ cls num c i (.sub c') (.obj ms) (.sub o)
  | subs {c i c' : Nat} {js : List JVal} {os : List (List Deep)} : js.length = os.length →
      (∀ (p : Nat) (j : JVal) (o : List Deep), js[p]? = some j → os[p]? = some o → MeansDeep eq env envQ cls num c' 0 (.sub c') j (.sub o)) →
      MeansDeep eq env envQ cls num c i (.subs c') (.arr js) (.subs (os.map .sub))

/-- Each field is in the iteration order once, fields of one class have different JSON names, and those without Qt values can be read. -/
structure ReadableClasses (env : REnv) (cls : Classes) (num : Nat → Nat) : Prop where
  valid : NestedSpec.Valid cls
  distinct : ∀ c a b, a < (cls.tab c).length → b < (cls.tab c).length → env.jsonName (num c) a = env.jsonName (num c) b → a = b
  noBool : ∀ c, ∀ f ∈ cls.tab c, f.ty ≠ .plain (.list .bool) ∧ ∀ vt, f.ty ≠ .plain (.map .bool vt)

/-- The messages without Qt values can be read (C65), the JSON library reads JSON, and Qt reads numbers. -/
structure ReadableWorld (env : REnv) : Prop where
  order : ValidOrder env.toEnv
  distinct : DistinctNames env.toJEnv
  noBool : NoRepeatedBool env.toEnv
  noBoolKeys : NoBoolKeys env.toEnv
  noNull : NoNullName env
  library : ReadsJson env
  reads : QtReads env

/-- JSON names of the fields of classes need no escaping and survive a conversion to UTF-8 and back. -/
structure ClassNames (env : REnv) (cls : Classes) (num : Nat → Nat) : Prop where
  plain : ∀ c i, i < (cls.tab c).length → NoEscapes (env.toUtf8 (env.jsonName (num c) i))
  exact : ∀ c i, i < (cls.tab c).length → env.fromUtf8 (env.toUtf8 (env.jsonName (num c) i)) = env.jsonName (num c) i

/-- Values that are expected to survive JSON: without Qt values those of C65, Qt values those of C119, classes with at least one field. No unset object of
a recursive class. -/
inductive Kept (env envQ : REnv) (cls : Classes) (num : Nat → Nat) : Nat → Nat → DeepTy → Deep → Prop
  | plain {c i : Nat} {ty : FieldTy} {v : Val} : Exact env (num c) i ty v → Kept env envQ cls num c i (.plain ty) (.val v)
  | qt {c i : Nat} {q : QtVal} : Faithful q → JsonSpec.NumbersExact envQ q → Kept env envQ cls num c i (.qt (Peer.carrier q)) (.qt q)
  | unset {c i c' : Nat} : Kept env envQ cls num c i (.sub c') (.sub (newObject cls c')) → Kept env envQ cls num c i (.sub c') .unset
  | sub {c i c' : Nat} {o : List Deep} : cls.tab c' ≠ [] → o.length = (cls.tab c').length →
      (∀ (i' : Nat) (f : DeepField) (s : Deep), (cls.tab c')[i']? = some f → o[i']? = some s → Kept env envQ cls num c' i' f.ty s) →
      Kept env envQ cls num c i (.sub c') (.sub o)
  | subs {c i c' : Nat} {l : List Deep} : (∀ o, Deep.sub o ∈ l → Kept env envQ cls num c' 0 (.sub c') (.sub o)) →
      Kept env envQ cls num c i (.subs c') (.subs l)

/-- What the receiver has for a value that was sent: without Qt values an equal one, for a Qt type the same value up to the sign of zeros, or else the
value of a new object, when Qt takes the two for equal. An unset object arrives as a new one, null pointers in lists do not arrive. -/
inductive Restored (eq : QtVal → QtVal → Bool) (env : Env) (cls : Classes) : DeepTy → Deep → Deep → Prop
  | plain {ty : FieldTy} {v v' : Val} : Same env ty v v' → Restored eq env cls (.plain ty) (.val v) (.val v')
  | qt {m : Nat} {q q' : QtVal} : plusZero q' = plusZero q → eq (qtDefault m) q' = false → Restored eq env cls (.qt m) (.qt q) (.qt q')
  | asNew {m : Nat} {q q' : QtVal} : plusZero q' = plusZero q → eq (qtDefault m) q' = true → Restored eq env cls (.qt m) (.qt q) (.qt (qtDefault m))
  | unset {c : Nat} {s : Deep} : Restored eq env cls (.sub c) (.sub (newObject cls c)) s → Restored eq env cls (.sub c) .unset s
  | sub {c : Nat} {o o' : List Deep} : o'.length = (cls.tab c).length →
      (∀ (i : Nat) (f : DeepField) (s s' : Deep), (cls.tab c)[i]? = some f → o[i]? = some s → o'[i]? = some s' → Restored eq env cls f.ty s s') →
      Restored eq env cls (.sub c) (.sub o) (.sub o')
  | subs {c : Nat} {l : List Deep} {os : List (List Deep)} : os.length = (NestedSpec.objects l).length →
      (∀ (i : Nat) (o o' : List Deep), (NestedSpec.objects l)[i]? = some o → os[i]? = some o' → Restored eq env cls (.sub c) (.sub o) (.sub o')) →
      Restored eq env cls (.subs c) (.subs l) (.subs (os.map .sub))

end QtPb.Qt.NestedJsonSpec
