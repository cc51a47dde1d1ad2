import Verif.QtNested
import Verif.SpecQtFields
import Verif.SpecRecords
/-
Specification for C122: messages in which Qt values occur at any depth, as records, and what is expected of them after transmission.
-/
namespace QtPb.Qt.NestedSpec
open QtPb QtPb.Spec

section
variable (eq : QtVal → QtVal → Bool) (env envQ : Env) (Sub : Nat → Bytes → List Deep → Prop) (d : Nat) (fs : List DeepField)

/-- Effect of a record on the field it belongs to; `Sub c body o`: the body of a message of class `c` has the contents `o`. -/
inductive DeepRecord : DeepField → Bytes → Deep → Deep → Prop
  | plain {num : Nat} {ty : FieldTy} {bs : Bytes} {old new : Val} : FieldRecord env (Message env d) ⟨num, ty⟩ bs old new →
      DeepRecord ⟨num, .plain ty⟩ bs (.val old) (.val new)
  | same {num : Nat} {hdr len body : Bytes} {o : Obj} {q old : QtVal} : Tag hdr num 2 → Varint len body.length →
      Message envQ d (Peer.carrier q) body o → Peer.Shows q o → Faithful q → eq old q = true →
      DeepRecord ⟨num, .qt (Peer.carrier q)⟩ (hdr ++ (len ++ body)) (.qt old) (.qt old)
  | other {num : Nat} {hdr len body : Bytes} {o : Obj} {q old : QtVal} : Tag hdr num 2 → Varint len body.length →
      Message envQ d (Peer.carrier q) body o → Peer.Shows q o → Faithful q → eq old q = false →
      DeepRecord ⟨num, .qt (Peer.carrier q)⟩ (hdr ++ (len ++ body)) (.qt old) (.qt q)
  /-- a message replaces the previous one -/
  | sub {num c : Nat} {hdr len body : Bytes} {o : List Deep} {old : Deep} : Tag hdr num 2 → Varint len body.length → Sub c body o →
      DeepRecord ⟨num, .sub c⟩ (hdr ++ (len ++ body)) old (.sub o)
  /-- a message of a list is appended -/
  | elem {num c : Nat} {hdr len body : Bytes} {o l : List Deep} : Tag hdr num 2 → Varint len body.length → Sub c body o →
      DeepRecord ⟨num, .subs c⟩ (hdr ++ (len ++ body)) (.subs l) (.subs (l ++ [.sub o]))

/-- Effect of a list of records (field number and bytes) on an object, first to last. -/
inductive DeepRecs : List (Nat × Bytes) → List Deep → List Deep → Prop
  | nil (o : List Deep) : DeepRecs [] o o
  | known {bs : Bytes} {i : Nat} {f : DeepField} {rs : List (Nat × Bytes)} {o o' : List Deep} {old new : Deep} : fs[i]? = some f → o[i]? = some old →
      DeepRecord eq env envQ Sub d f bs old new → DeepRecs rs (o.set i new) o' → DeepRecs ((f.num, bs) :: rs) o o'
  | unknown {num wt : Nat} {hdr payload : Bytes} {rs : List (Nat × Bytes)} {o o' : List Deep} : (∀ f ∈ fs, f.num ≠ num) → Tag hdr num wt →
      Skippable wt payload → DeepRecs rs o o' → DeepRecs ((num, hdr ++ payload) :: rs) o o'

end

/-- The bytes are an encoding of a message of class `c` with the contents `o`, nested at most `d` deep: a list of records in any order. -/
def DeepMessage (eq : QtVal → QtVal → Bool) (env envQ : Env) (cls : Classes) : Nat → Nat → Bytes → List Deep → Prop
  | 0, _, _, _ => False
  | d + 1, c, bs, o => ∃ rs, bs = bytesOf rs ∧ DeepRecs eq env envQ (DeepMessage eq env envQ cls d) d (cls.tab c) rs (newObject cls c) o

/-- What can be wrong with the first record of the bytes, for a class with the fields `fs`, and the exception it is reported with. `SubFails c body e`:
reading `body` as a message of class `c` fails with `e`. -/
inductive BadDeep (envQ : Env) (SubFails : Nat → Bytes → Exn → Prop) (fs : List DeepField) : Bytes → Exn → Prop
  /-- field number 0 or wire type 3, 4, 6, 7 (the receiver looks at the low 32 bits of the tag) -/
  | tag {tag rest : Bytes} {t : Nat} : Varint tag t → t % 2 ^ 32 / 8 = 0 ∨ t % 8 = 3 ∨ t % 8 = 4 ∨ t % 8 = 6 ∨ t % 8 = 7 →
      BadDeep envQ SubFails fs (tag ++ rest) .invalidArgument
  /-- the input ends inside the tag -/
  | truncatedTag {tr : Bytes} : Truncated tr → tr ≠ [] → BadDeep envQ SubFails fs tr .outOfRange
  /-- the input ends inside the length of a message -/
  | truncatedLength {hdr tr : Bytes} {f : DeepField} : f ∈ fs → (∀ ty, f.ty ≠ .plain ty) → Tag hdr f.num 2 → Truncated tr →
      BadDeep envQ SubFails fs (hdr ++ tr) .outOfRange
  /-- the message of a Qt value fails -/
  | qt {hdr len body rest : Bytes} {num m d : Nat} {e : Exn} {o : Obj} : ⟨num, .qt m⟩ ∈ fs → Tag hdr num 2 → Varint len body.length →
      Fails envQ d m body e o → BadDeep envQ SubFails fs (hdr ++ (len ++ body ++ rest)) e
  /-- a message of another class fails -/
  | inside {hdr len body rest : Bytes} {f : DeepField} {c : Nat} {e : Exn} : f ∈ fs → f.ty = .sub c ∨ f.ty = .subs c → Tag hdr f.num 2 →
      Varint len body.length → SubFails c body e → BadDeep envQ SubFails fs (hdr ++ (len ++ body ++ rest)) e

/-- The bytes are records with the effect `o` on a new object of class `c`, followed by a bad record, itself or in one of the messages in it. -/
def DeepFails (eq : QtVal → QtVal → Bool) (env envQ : Env) (cls : Classes) : Nat → Nat → Bytes → Exn → List Deep → Prop
  | 0, _, _, _, _ => False
  | d + 1, c, bs, e, o => ∃ rs bad, bs = bytesOf rs ++ bad ∧
      DeepRecs eq env envQ (DeepMessage eq env envQ cls d) d (cls.tab c) rs (newObject cls c) o ∧
      BadDeep envQ (fun c' body e' => ∃ o', DeepFails eq env envQ cls d c' body e' o') (cls.tab c) bad e

/-- Legal and distinct field numbers, every field in the iteration order once. -/
def Valid (cls : Classes) : Prop :=
  ∀ c, ((cls.tab c).map (·.num)).Nodup ∧ (∀ f ∈ cls.tab c, 1 ≤ f.num ∧ f.num < 2 ^ 29) ∧ (cls.ord c).Perm (List.range (cls.tab c).length)

/-- A value that the member can hold and that is expected to arrive. For an unset member that is the object the lazy pointer creates. -/
inductive Sendable (env : Env) (cls : Classes) : DeepTy → Deep → Prop
  | plain {ty : FieldTy} {v : Val} : HasTy env ty v → Sendable env cls (.plain ty) (.val v)
  | qt {q : QtVal} : Faithful q → Sendable env cls (.qt (Peer.carrier q)) (.qt q)
  | unset {c : Nat} : Sendable env cls (.sub c) (.sub (newObject cls c)) → Sendable env cls (.sub c) .unset
  | sub {c : Nat} {o : List Deep} : o.length = (cls.tab c).length →
      (∀ (i : Nat) (f : DeepField) (s : Deep), (cls.tab c)[i]? = some f → o[i]? = some s → Sendable env cls f.ty s) → Sendable env cls (.sub c) (.sub o)
  | subs {c : Nat} {l : List Deep} : (∀ o, Deep.sub o ∈ l → Sendable env cls (.sub c) (.sub o)) → Sendable env cls (.subs c) (.subs l)

/-- The objects in a list of pointers; null pointers are left out. -/
def objects : List Deep → List (List Deep)
  | [] => []
  | .sub o :: l => o :: objects l
  | _ :: l => objects l

/-- What the receiver has for a value that was sent: at every depth, for a Qt type the same value up to the sign of zeros, or else the value of a new
object, when Qt takes the two for equal. -/
inductive Received (eq : QtVal → QtVal → Bool) (env : Env) (cls : Classes) : DeepTy → Deep → Deep → Prop
  | plain {ty : FieldTy} {v v' : Val} : Arrives env ty v v' → Received eq env cls (.plain ty) (.val v) (.val v')
  | qt {m : Nat} {q : QtVal} : eq (qtDefault m) (plusZero q) = false → Received eq env cls (.qt m) (.qt q) (.qt (plusZero q))
  | asNew {m : Nat} {q : QtVal} : eq (qtDefault m) (plusZero q) = true → Received eq env cls (.qt m) (.qt q) (.qt (qtDefault m))
  | unset {c : Nat} {s : Deep} : Received eq env cls (.sub c) (.sub (newObject cls c)) s → Received eq env cls (.sub c) .unset s
  | sub {c : Nat} {o o' : List Deep} : o'.length = (cls.tab c).length →
      (∀ (i : Nat) (f : DeepField) (s s' : Deep), (cls.tab c)[i]? = some f → o[i]? = some s → o'[i]? = some s' → Received eq env cls f.ty s s') →
      Received eq env cls (.sub c) (.sub o) (.sub o')
  | subs {c : Nat} {l : List Deep} {os : List (List Deep)} : os.length = (objects l).length →
      (∀ (i : Nat) (o o' : List Deep), (objects l)[i]? = some o → os[i]? = some o' → Received eq env cls (.sub c) (.sub o) (.sub o')) →
      Received eq env cls (.subs c) (.subs l) (.subs (os.map .sub))

end QtPb.Qt.NestedSpec
