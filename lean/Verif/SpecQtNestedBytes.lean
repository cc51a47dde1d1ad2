import Verif.QtNested
import Verif.SpecBytes
/-
Specification for C128: lengths in bytes that are read into messages with Qt values at any depth.
-/
namespace QtPb.Qt.NestedBytesSpec
open QtPb QtPb.Spec

/-- Field types whose records start with a length. -/
def lengthFirst : DeepTy → Prop
  | .plain ty => hasLength ty
  | _ => True

/-- A record with this tag starts with a length, in one of the classes (`cls`), in a message without Qt fields (`env`) or in a message that stands
for a Qt value (`envQ`). -/
def announcesLength (env envQ : Env) (cls : Classes) (num wt : Nat) : Prop :=
  startsWithLength env num wt ∨ startsWithLength envQ num wt ∨ ∃ c, ∃ f ∈ cls.tab c, f.num = num ∧ lengthFirst f.ty

/-- Every varint behind a tag that announces a length is below 2^31 (modulo 2^32), in other words not negative as a 32 bit `int`. -/
def NoNegativeLengths (env envQ : Env) (cls : Classes) (bs : Bytes) : Prop :=
  ∀ pre tag l rest t n, bs = pre ++ (tag ++ (l ++ rest)) → Varint tag t →
    announcesLength env envQ cls (t % 2 ^ 32 / 8) (t % 8) → Varint l n → n % 2 ^ 32 < 2 ^ 31

/-- The types of the entries of every map in the classes are known: some message of `env` has a map field with them. -/
def MapsKnown (env : Env) (cls : Classes) : Prop :=
  ∀ (c : Nat), ∀ f ∈ cls.tab c, ∀ kk vt, f.ty = .plain (.map kk vt) → ∃ m, ∃ g ∈ env.sch m, g.ty = .map kk vt

/-- Messages that are accepted by themselves. -/
def Accepted (env : Env) (m : Nat) (p : Bytes) : Prop := ∃ n o, deserializeMessage env n m p = (.ok (), o)

/-- Number `i` of a message of numbers; 0 if there is none. -/
def numberOf (o : Obj) (i : Nat) : Int := match o[i]? with | some (.sc (.w32 b)) => b.toInt | _ => 0

/-- Message `j` of a message of messages; empty if it is unset. -/
def part (o : Obj) (j : Nat) : Obj := match o[j]? with | some (.msg p) => p | _ => []

/-- In a message for a `QRect`, a position and a size, the rectangle ends beyond the range of `int` to the right (`i = 0`) or at the bottom (`i = 1`): one of the
sums `x + width` and `x + width - 1` is not an `int`. -/
def TooFar (o : Obj) : Prop :=
  ∃ i : Nat, i < 2 ∧ ¬ (-2 ^ 31 + 1 ≤ numberOf (part o 0) i + numberOf (part o 1) i ∧ numberOf (part o 0) i + numberOf (part o 1) i < 2 ^ 31)

/-- `Breaks ok c bs`: in an encoding of class `c`, behind a prefix that is accepted by itself (`ok c`), a complete message for a `QRect` stands for a rectangle
that ends too far, or something is cut off: a tag or the length of an
unknown field that does not end within ten bytes; a value of a field without Qt values, or a message that stands for a Qt value, in the sense of
`CutValue`; the length or the bytes of an object; or something inside of an object. -/
inductive Breaks (env envQ : Env) (cls : Classes) (ok : Nat → Bytes → Prop) : Nat → Bytes → Prop
  | tag {c : Nat} {pre bs : Bytes} : ok c pre → LongVarint bs → Breaks env envQ cls ok c (pre ++ bs)
  | unknown {c : Nat} {pre tag bs : Bytes} {t : Nat} : ok c pre → Varint tag t → t % 8 = 2 → t % 2 ^ 32 / 8 ≠ 0 →
      (∀ f ∈ cls.tab c, f.num ≠ t % 2 ^ 32 / 8) → LongVarint bs → Breaks env envQ cls ok c (pre ++ (tag ++ bs))
  | plain {c : Nat} {pre tag bs : Bytes} {t : Nat} {f : DeepField} {ty : FieldTy} : ok c pre → Varint tag t → KnownWireType (t % 8) → f ∈ cls.tab c →
      f.num = t % 2 ^ 32 / 8 → f.ty = .plain ty → CutValue env (Accepted env) ty bs → Breaks env envQ cls ok c (pre ++ (tag ++ bs))
  | qt {c : Nat} {pre tag bs : Bytes} {t : Nat} {f : DeepField} {m : Nat} : ok c pre → Varint tag t → KnownWireType (t % 8) → f ∈ cls.tab c →
      f.num = t % 2 ^ 32 / 8 → f.ty = .qt m → CutValue envQ (Accepted envQ) (.msg m) bs → Breaks env envQ cls ok c (pre ++ (tag ++ bs))
  | rect {c : Nat} {pre tag l body rest : Bytes} {t n k : Nat} {f : DeepField} {o : Obj} : ok c pre → Varint tag t → KnownWireType (t % 8) →
      f ∈ cls.tab c → f.num = t % 2 ^ 32 / 8 → f.ty = .qt mRect → Varint l n → body.length = n % 2 ^ 32 →
      deserializeMessage envQ k mRect body = (.ok (), o) → TooFar o → Breaks env envQ cls ok c (pre ++ (tag ++ (l ++ (body ++ rest))))
  | short {c : Nat} {pre tag bs : Bytes} {t : Nat} {f : DeepField} {c' : Nat} : ok c pre → Varint tag t → KnownWireType (t % 8) → f ∈ cls.tab c →
      f.num = t % 2 ^ 32 / 8 → f.ty = .sub c' ∨ f.ty = .subs c' → CutScalar .bytes bs → Breaks env envQ cls ok c (pre ++ (tag ++ bs))
  | inside {c : Nat} {pre tag l body rest : Bytes} {t n : Nat} {f : DeepField} {c' : Nat} : ok c pre → Varint tag t → KnownWireType (t % 8) →
      f ∈ cls.tab c → f.num = t % 2 ^ 32 / 8 → f.ty = .sub c' ∨ f.ty = .subs c' → Varint l n → body.length = n % 2 ^ 32 → Breaks env envQ cls ok c' body →
      Breaks env envQ cls ok c (pre ++ (tag ++ (l ++ (body ++ rest))))

end QtPb.Qt.NestedBytesSpec
