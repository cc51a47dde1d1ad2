import Verif.SpecBytes
/-
What a receiver makes of arbitrary bytes: the format as this library reads it, for every input. It is stated on byte
strings (what is read, what is left), without positions, iterators or bounds on the number of steps.

The library is more lenient than the format: tags and lengths count modulo 2^32, the wire type of a declared field
is ignored, a map entry takes every field number other than 1 for its value, and the elements of a packed list or
map entry are read until one of them ends exactly where the announced length ends.
-/
namespace QtPb.Spec

/-- What can go wrong. -/
inductive Trouble where
  /-- rejected with an exception -/
  | fails (e : Exn)
  /-- bytes behind the end of the input are used, or more than ten bytes of a varint: undefined behaviour -/
  | cut
  /-- a length of 2^31 or more, that is negative as an `int` -/
  | negative
  deriving DecidableEq

/-- Reading from the front of the input gives a value and leaves the rest, or something is wrong. -/
inductive Got (α : Type) where
  | value (a : α) (rest : Bytes)
  | trouble (t : Trouble)

/-- The same with the value put through a function. -/
def Got.map {α β : Type} (f : α → β) : Got α → Got β
  | .value a rest => .value (f a) rest
  | .trouble t => .trouble t

/-- A varint at the front. -/
inductive GetVarint : Bytes → Got Nat → Prop
  | value {c rest : Bytes} {n : Nat} : Varint c n → GetVarint (c ++ rest) (.value n rest)
  | truncated {bs : Bytes} : Truncated bs → GetVarint bs (.trouble (.fails .outOfRange))
  | long {bs : Bytes} : LongVarint bs → GetVarint bs (.trouble .cut)

/-- `w` bytes at the front. If just one is missing this is noticed, because the library reads the
terminating zero byte first. -/
inductive GetFixed (w : Nat) : Bytes → Got Bytes → Prop
  | value {c rest : Bytes} : c.length = w → GetFixed w (c ++ rest) (.value c rest)
  | oneMissing {bs : Bytes} : bs.length + 1 = w → GetFixed w bs (.trouble (.fails .outOfRange))
  | moreMissing {bs : Bytes} : bs.length + 1 < w → GetFixed w bs (.trouble .cut)

/-- A length and so many bytes at the front. -/
inductive GetBody : Bytes → Got Bytes → Prop
  | read {bs rest : Bytes} {n : Nat} {g : Got Bytes} : GetVarint bs (.value n rest) → n % 2 ^ 32 < 2 ^ 31 →
      GetFixed (n % 2 ^ 32) rest g → GetBody bs g
  | negative {bs rest : Bytes} {n : Nat} : GetVarint bs (.value n rest) → 2 ^ 31 ≤ n % 2 ^ 32 →
      GetBody bs (.trouble .negative)
  | noLength {bs : Bytes} {t : Trouble} : GetVarint bs (.trouble t) → GetBody bs (.trouble t)

/-- Little endian bytes as a number. -/
def littleEndian : Bytes → Nat
  | [] => 0
  | b :: bs => b.toNat + 2 ^ 8 * littleEndian bs

/-- Value of a scalar that is sent as the varint `n`. -/
def ofVarint : Kind → Nat → Scalar
  | .int64, n | .uint64, n => .w64 (.ofNat 64 n)
  | .sint64, n => .w64 (.ofInt 64 (zigzagInt (n % 2 ^ 64)))
  | .sint32, n => .w32 (.ofInt 32 (zigzagInt (n % 2 ^ 32)))
  | .bool, n => .bool (n % 2 ^ 32 ≠ 0)
  | _, n => .w32 (.ofNat 32 n)

/-- Value of a text or byte array with the contents `body`. -/
def ofBody (env : Env) : Kind → Bytes → Scalar
  | .string, body => .str (some (env.fromUtf8 body))
  | _, body => .bytes (some body)

/-- A scalar at the front. -/
inductive GetScalar (env : Env) (k : Kind) : Bytes → Got Scalar → Prop
  | varint {bs : Bytes} {g : Got Nat} : wireType k = 0 → GetVarint bs g → GetScalar env k bs (g.map (ofVarint k))
  | fixed32 {bs : Bytes} {g : Got Bytes} : wireType k = 5 → GetFixed 4 bs g →
      GetScalar env k bs (g.map fun c => .w32 (.ofNat 32 (littleEndian c)))
  | fixed64 {bs : Bytes} {g : Got Bytes} : wireType k = 1 → GetFixed 8 bs g →
      GetScalar env k bs (g.map fun c => .w64 (.ofNat 64 (littleEndian c)))
  | body {bs : Bytes} {g : Got Bytes} : wireType k = 2 → GetBody bs g → GetScalar env k bs (g.map (ofBody env k))

/-- Steps from a state to the next until exactly `stop` bytes are read; `done` of them already are. A step that
goes beyond is not noticed: then steps follow until something is wrong. -/
inductive GetSteps {σ : Type} (Step : σ → Bytes → Got σ → Prop) (stop : Nat) : Nat → σ → Bytes → Got σ → Prop
  | stop {s : σ} {bs : Bytes} : GetSteps Step stop stop s bs (.value s bs)
  | step {done : Nat} {s s' : σ} {bs rest : Bytes} {g : Got σ} : done ≠ stop → Step s bs (.value s' rest) →
      GetSteps Step stop (done + (bs.length - rest.length)) s' rest g → GetSteps Step stop done s bs g
  | trouble {done : Nat} {s : σ} {bs : Bytes} {t : Trouble} : done ≠ stop → Step s bs (.trouble t) →
      GetSteps Step stop done s bs (.trouble t)

/-- A length, and steps over so many bytes. -/
inductive GetMany {σ : Type} (Step : σ → Bytes → Got σ → Prop) (s : σ) : Bytes → Got σ → Prop
  | read {bs rest : Bytes} {n : Nat} {g : Got σ} : GetVarint bs (.value n rest) → n % 2 ^ 32 < 2 ^ 31 →
      n % 2 ^ 32 ≤ rest.length → GetSteps Step (n % 2 ^ 32) 0 s rest g → GetMany Step s bs g
  | tooLong {bs rest : Bytes} {n : Nat} : GetVarint bs (.value n rest) → n % 2 ^ 32 < 2 ^ 31 →
      rest.length < n % 2 ^ 32 → GetMany Step s bs (.trouble (.fails .outOfRange))
  | negative {bs rest : Bytes} {n : Nat} : GetVarint bs (.value n rest) → 2 ^ 31 ≤ n % 2 ^ 32 →
      GetMany Step s bs (.trouble .negative)
  | noLength {bs : Bytes} {t : Trouble} : GetVarint bs (.trouble t) → GetMany Step s bs (.trouble t)

/-- One element of a packed list. -/
inductive GetElement (env : Env) (k : Kind) : List Scalar → Bytes → Got (List Scalar) → Prop
  | next {l : List Scalar} {bs : Bytes} {g : Got Scalar} : GetScalar env k bs g →
      GetElement env k l bs (g.map fun s => l ++ [s])

/-- One element of a packed list of enumeration numbers. -/
inductive GetNumber : List (BitVec 32) → Bytes → Got (List (BitVec 32)) → Prop
  | next {l : List (BitVec 32)} {bs : Bytes} {g : Got Nat} : GetVarint bs g →
      GetNumber l bs (g.map fun n => l ++ [.ofNat 32 n])

/-- The payload of a record of wire type `wt` that is skipped. -/
inductive GetSkipped : Nat → Bytes → Got Unit → Prop
  | varint {c rest : Bytes} {n : Nat} : IsVarint c n → GetSkipped 0 (c ++ rest) (.value () rest)
  | openVarint {bs : Bytes} : (∀ b ∈ bs, 128 ≤ b.toNat) → GetSkipped 0 bs (.trouble (.fails .outOfRange))
  | fixed {wt w : Nat} {c rest : Bytes} : (wt = 5 ∧ w = 4) ∨ (wt = 1 ∧ w = 8) → c.length = w →
      GetSkipped wt (c ++ rest) (.value () rest)
  | fixedShort {wt w : Nat} {bs : Bytes} : (wt = 5 ∧ w = 4) ∨ (wt = 1 ∧ w = 8) → bs.length < w →
      GetSkipped wt bs (.trouble (.fails .outOfRange))
  | body {bs c rest : Bytes} {n : Nat} : GetVarint bs (.value n (c ++ rest)) → c.length = n % 2 ^ 32 →
      n % 2 ^ 32 < 2 ^ 31 → GetSkipped 2 bs (.value () rest)
  | bodyShort {bs rest : Bytes} {n : Nat} : GetVarint bs (.value n rest) → rest.length < n % 2 ^ 32 →
      n % 2 ^ 32 < 2 ^ 31 → GetSkipped 2 bs (.trouble (.fails .outOfRange))
  | negative {bs rest : Bytes} {n : Nat} : GetVarint bs (.value n rest) → 2 ^ 31 ≤ n % 2 ^ 32 →
      GetSkipped 2 bs (.trouble .negative)
  | noLength {bs : Bytes} {t : Trouble} : GetVarint bs (.trouble t) → GetSkipped 2 bs (.trouble t)

section
/- `Sub m body o r`: from the body of a nested message of type `m` the object `o` is read, and `r` says what is
wrong, if anything is. -/
variable (env : Env) (Sub : Nat → Bytes → Obj → Option Trouble → Prop)

/-- A sub-message at the front. -/
inductive GetObject (m : Nat) : Bytes → Got Obj → Prop
  | value {bs body rest : Bytes} {o : Obj} : GetBody bs (.value body rest) → Sub m body o none →
      GetObject m bs (.value o rest)
  | inside {bs body rest : Bytes} {o : Obj} {t : Trouble} : GetBody bs (.value body rest) → Sub m body o (some t) →
      GetObject m bs (.trouble t)
  | noBody {bs : Bytes} {t : Trouble} : GetBody bs (.trouble t) → GetObject m bs (.trouble t)

/-- The value of a map entry at the front. -/
inductive GetMapValue : MapVal → Bytes → Got Val → Prop
  | scalar {k : Kind} {bs : Bytes} {g : Got Scalar} : GetScalar env k bs g → GetMapValue (.scalar k) bs (g.map .sc)
  | enum {bs : Bytes} {g : Got Nat} : GetVarint bs g → GetMapValue .enum bs (g.map fun n => .enum (.ofNat 32 n))
  | msg {m : Nat} {bs : Bytes} {g : Got Obj} : GetObject Sub m bs g → GetMapValue (.msg m) bs (g.map .msg)

/-- A part of a map entry: the key or the value. -/
inductive GetPart (kk : Kind) (vt : MapVal) : Scalar × Val → Bytes → Got (Scalar × Val) → Prop
  | key {kv : Scalar × Val} {bs rest : Bytes} {t : Nat} {g : Got Scalar} : GetVarint bs (.value t rest) →
      t % 2 ^ 32 / 8 = 1 → GetScalar env kk rest g → GetPart kk vt kv bs (g.map fun s => (s, kv.2))
  | value {kv : Scalar × Val} {bs rest : Bytes} {t : Nat} {g : Got Val} : GetVarint bs (.value t rest) →
      t % 2 ^ 32 / 8 ≠ 1 → GetMapValue env Sub vt rest g → GetPart kk vt kv bs (g.map fun v => (kv.1, v))
  | noTag {kv : Scalar × Val} {bs : Bytes} {t : Trouble} : GetVarint bs (.trouble t) → GetPart kk vt kv bs (.trouble t)

/-- The payload of a record of a declared field whose value so far is the second argument. -/
inductive GetValue : FieldTy → Val → Bytes → Got Val → Prop
  | scalar {k : Kind} {old : Val} {bs : Bytes} {g : Got Scalar} : GetScalar env k bs g →
      GetValue (.scalar k) old bs (g.map .sc)
  | enum {old : Val} {bs : Bytes} {g : Got Nat} : GetVarint bs g →
      GetValue .enum old bs (g.map fun n => .enum (.ofNat 32 n))
  | append {k : Kind} {old : List Scalar} {bs : Bytes} {g : Got Scalar} : k = .string ∨ k = .bytes →
      GetScalar env k bs g → GetValue (.list k) (.scList old) bs (g.map fun s => .scList (old ++ [s]))
  | bools {old : Val} {bs : Bytes} : GetValue (.list .bool) old bs (.trouble (.fails .badFunctionCall))
  | packed {k : Kind} {old : Val} {bs : Bytes} {g : Got (List Scalar)} : packable k →
      GetMany (GetElement env k) [] bs g → GetValue (.list k) old bs (g.map .scList)
  | enums {old : List (BitVec 32)} {bs : Bytes} {g : Got (List (BitVec 32))} : GetMany GetNumber old bs g →
      GetValue .enumList (.enumList old) bs (g.map .enumList)
  | msg {m : Nat} {old : Val} {bs : Bytes} {g : Got Obj} : GetObject Sub m bs g →
      GetValue (.msg m) old bs (g.map .msg)
  | msgList {m : Nat} {old : List Val} {bs : Bytes} {g : Got Obj} : GetObject Sub m bs g →
      GetValue (.msgList m) (.msgList old) bs (g.map fun o => .msgList (old ++ [.msg o]))
  | map {kk : Kind} {vt : MapVal} {old : List (Scalar × Val)} {bs : Bytes} {g : Got (Scalar × Val)} :
      GetMany (GetPart env Sub kk vt) (emptyEntry kk vt) bs g →
      GetValue (.map kk vt) (.map old) bs (g.map fun kv => .map (mapInsert kk kv.1 kv.2 old))

/-- A record at the front, and what becomes of the object. -/
inductive GetRecord (m : Nat) (o : Obj) : Bytes → Got Obj → Prop
  | known {bs rest : Bytes} {t i : Nat} {f : Field} {old : Val} {g : Got Val} : GetVarint bs (.value t rest) →
      KnownWireType (t % 8) → (env.sch m)[i]? = some f → f.num = t % 2 ^ 32 / 8 → o[i]? = some old →
      GetValue env Sub f.ty old rest g → GetRecord m o bs (g.map fun v => o.set i (store f.ty old v))
  | unknown {bs rest : Bytes} {t : Nat} {g : Got Unit} : GetVarint bs (.value t rest) → KnownWireType (t % 8) →
      t % 2 ^ 32 / 8 ≠ 0 → (∀ f ∈ env.sch m, f.num ≠ t % 2 ^ 32 / 8) → GetSkipped (t % 8) rest g →
      GetRecord m o bs (g.map fun _ => o)
  | badTag {bs rest : Bytes} {t : Nat} : GetVarint bs (.value t rest) →
      t % 2 ^ 32 / 8 = 0 ∨ ¬ KnownWireType (t % 8) → GetRecord m o bs (.trouble (.fails .invalidArgument))
  | noTag {bs : Bytes} {t : Trouble} : GetVarint bs (.trouble t) → GetRecord m o bs (.trouble t)

/-- Record after record, up to the end of the input or to the first thing that is wrong. -/
inductive GetRecords (m : Nat) : Obj → Bytes → Obj → Option Trouble → Prop
  | done {o : Obj} : GetRecords m o [] o none
  | record {o o1 o2 : Obj} {bs rest : Bytes} {r : Option Trouble} : bs ≠ [] → GetRecord env Sub m o bs (.value o1 rest) →
      GetRecords m o1 rest o2 r → GetRecords m o bs o2 r
  | trouble {o : Obj} {bs : Bytes} {t : Trouble} : bs ≠ [] → GetRecord env Sub m o bs (.trouble t) →
      GetRecords m o bs o (some t)

end

/-- `Received env d m bs o r`: read as a message of type `m`, with messages nested at most `d` deep, `bs` gives
the object `o`, and `r` says what is wrong, if anything is; `o` is then made from the records before that. -/
def Received (env : Env) : Nat → Nat → Bytes → Obj → Option Trouble → Prop
  | 0, _, _, _, _ => False
  | d + 1, m, bs, o, r => GetRecords env (Received env d) m (defaultObj env m) bs o r

end QtPb.Spec

namespace QtPb.Spec

/-- Reading `bs` as a message of type `m`, record after record, a length of 2^31 or more is met. -/
def MeetsNegative (env : Env) (m : Nat) (bs : Bytes) : Prop := ∃ d o, Received env d m bs o (some .negative)

end QtPb.Spec
