import Verif.SpecObj
import Verif.DecodeLemmas
/-
The model encoder produces byte sequences that the specification describes.
-/
namespace QtPb
open Spec

/-! ### Scalars -/

theorem wireType_eq (k : Kind) : k.wireType = wireType k := by cases k <;> rfl

theorem isAbsent_eq (s : Scalar) : isAbsent s = s.isNull := by
  cases s with
  | str s => cases s <;> rfl
  | bytes s => cases s <;> rfl
  | _ => rfl

theorem reads_le4 {env : Env} {k : Kind} (hk : k = .float ∨ k = .fixed32 ∨ k = .sfixed32)
    (b : BitVec 32) : Reads env k (leBytes 4 b.toNat) (.w32 b) := by
  have h := ofLe_leBytes 4 b.toNat (by have := b.isLt; omega)
  have hr := Reads.fixed32 (env := env) hk (UInt8.ofNat (b.toNat % 256))
    (UInt8.ofNat (b.toNat / 256 % 256)) (UInt8.ofNat (b.toNat / 256 / 256 % 256))
    (UInt8.ofNat (b.toNat / 256 / 256 / 256 % 256))
  simp only [leBytes, ofLe] at h
  have e : ∀ x : Nat, x = b.toNat → BitVec.ofNat 32 x = b := by
    intro x hx; subst hx; simp
  rw [e _ (by omega)] at hr
  exact hr

theorem reads_le8 {env : Env} {k : Kind} (hk : k = .double ∨ k = .fixed64 ∨ k = .sfixed64)
    (b : BitVec 64) : Reads env k (leBytes 8 b.toNat) (.w64 b) := by
  have h := ofLe_leBytes 8 b.toNat (by have := b.isLt; omega)
  have hr := Reads.fixed64 (env := env) hk (UInt8.ofNat (b.toNat % 256))
    (UInt8.ofNat (b.toNat / 256 % 256)) (UInt8.ofNat (b.toNat / 256 / 256 % 256))
    (UInt8.ofNat (b.toNat / 256 / 256 / 256 % 256))
    (UInt8.ofNat (b.toNat / 256 / 256 / 256 / 256 % 256))
    (UInt8.ofNat (b.toNat / 256 / 256 / 256 / 256 / 256 % 256))
    (UInt8.ofNat (b.toNat / 256 / 256 / 256 / 256 / 256 / 256 % 256))
    (UInt8.ofNat (b.toNat / 256 / 256 / 256 / 256 / 256 / 256 / 256 % 256))
  simp only [leBytes, ofLe] at h
  have e : ∀ x : Nat, x = b.toNat → BitVec.ofNat 64 x = b := by
    intro x hx; subst hx; simp
  rw [e _ (by omega)] at hr
  exact hr

theorem unsigned_cases (w : Nat) (hw : 0 < w) (hw' : w ≤ 64) (v : Nat) (hv : v < 2 ^ w) (idx : Int) :
    (v = 0 ∧ serializeUnsigned w v idx = ([], notUsed)) ∨
    (v ≠ 0 ∧ (serializeUnsigned w v idx).2 = idx ∧ Varint (serializeUnsigned w v idx).1 v) := by
  by_cases h : v = 0
  · left; subst h; exact ⟨rfl, serializeUnsigned_zero w idx⟩
  · right
    rw [serializeUnsigned_ne hw h]
    exact ⟨h, rfl, serializeVarintCommon_varint hw hw' hv⟩

theorem zigzag_eq_zero {w : Nat} (hw : 0 < w) {v : BitVec w} (h : (zigzag v).toNat = 0) : v = 0#w := by
  have h1 := zigzagInt_zigzag hw v
  rw [h] at h1
  have h2 : v.toInt = 0 := by rw [← h1]; rfl
  rw [← BitVec.ofInt_toInt (x := v), h2]
  simp

/-- What `serializeBasic` writes: nothing for a zero varint, an encoding of the value otherwise. -/
theorem serializeBasic_cases (env : Env) {k : Kind} {s : Scalar} (hs : k.holds s) (idx : Int)
    (hlen : (serializeBasic env k s idx).1.length < 2 ^ 31) :
    (s = defaultScalar k ∧ transmitted env s = s ∧ Reads env k [0] s ∧ k ≠ .string ∧ k ≠ .bytes ∧
      serializeBasic env k s idx = ([], notUsed)) ∨
    ((serializeBasic env k s idx).2 = idx ∧
      Reads env k (serializeBasic env k s idx).1 (transmitted env s)) := by
  have h0 : Varint [0] 0 := ⟨IsVarint.last 0 (by decide), by simp⟩
  cases k <;> cases s <;> simp only [Kind.holds, Bool.false_eq_true] at hs
  case float.w32 b => exact Or.inr ⟨rfl, reads_le4 (by simp) b⟩
  case fixed32.w32 b => exact Or.inr ⟨rfl, reads_le4 (by simp) b⟩
  case sfixed32.w32 b => exact Or.inr ⟨rfl, reads_le4 (by simp) b⟩
  case double.w64 b => exact Or.inr ⟨rfl, reads_le8 (by simp) b⟩
  case fixed64.w64 b => exact Or.inr ⟨rfl, reads_le8 (by simp) b⟩
  case sfixed64.w64 b => exact Or.inr ⟨rfl, reads_le8 (by simp) b⟩
  case int32.w32 b =>
    rcases unsigned_cases 32 (by omega) (by omega) b.toNat b.isLt idx with ⟨h1, h2⟩ | ⟨_, h2, h3⟩
    · left
      have e : b = 0#32 := BitVec.eq_of_toNat_eq (by simpa using h1)
      subst e
      exact ⟨rfl, rfl, .int32 h0, by simp, by simp, h2⟩
    · right
      have := Reads.int32 (env := env) h3
      rw [BitVec.ofNat_toNat, BitVec.setWidth_eq] at this
      exact ⟨h2, this⟩
  case uint32.w32 b =>
    rcases unsigned_cases 32 (by omega) (by omega) b.toNat b.isLt idx with ⟨h1, h2⟩ | ⟨_, h2, h3⟩
    · left
      have e : b = 0#32 := BitVec.eq_of_toNat_eq (by simpa using h1)
      subst e
      exact ⟨rfl, rfl, .uint32 h0, by simp, by simp, h2⟩
    · right
      have := Reads.uint32 (env := env) h3
      rw [BitVec.ofNat_toNat, BitVec.setWidth_eq] at this
      exact ⟨h2, this⟩
  case int64.w64 b =>
    rcases unsigned_cases 64 (by omega) (by omega) b.toNat b.isLt idx with ⟨h1, h2⟩ | ⟨_, h2, h3⟩
    · left
      have e : b = 0#64 := BitVec.eq_of_toNat_eq (by simpa using h1)
      subst e
      exact ⟨rfl, rfl, .int64 h0, by simp, by simp, h2⟩
    · right
      have := Reads.int64 (env := env) h3
      rw [BitVec.ofNat_toNat, BitVec.setWidth_eq] at this
      exact ⟨h2, this⟩
  case uint64.w64 b =>
    rcases unsigned_cases 64 (by omega) (by omega) b.toNat b.isLt idx with ⟨h1, h2⟩ | ⟨_, h2, h3⟩
    · left
      have e : b = 0#64 := BitVec.eq_of_toNat_eq (by simpa using h1)
      subst e
      exact ⟨rfl, rfl, .uint64 h0, by simp, by simp, h2⟩
    · right
      have := Reads.uint64 (env := env) h3
      rw [BitVec.ofNat_toNat, BitVec.setWidth_eq] at this
      exact ⟨h2, this⟩
  case sint32.w32 b =>
    rcases unsigned_cases 32 (by omega) (by omega) (zigzag b).toNat (zigzag b).isLt idx with
      ⟨h1, h2⟩ | ⟨_, h2, h3⟩
    · left
      have e := zigzag_eq_zero (by omega) h1
      subst e
      exact ⟨rfl, rfl, .sint32 h0 (by omega), by simp, by simp, h2⟩
    · right
      have := Reads.sint32 (env := env) h3 (zigzag b).isLt
      rw [zigzagInt_zigzag (by omega), BitVec.ofInt_toInt] at this
      exact ⟨h2, this⟩
  case sint64.w64 b =>
    rcases unsigned_cases 64 (by omega) (by omega) (zigzag b).toNat (zigzag b).isLt idx with
      ⟨h1, h2⟩ | ⟨_, h2, h3⟩
    · left
      have e := zigzag_eq_zero (by omega) h1
      subst e
      exact ⟨rfl, rfl, .sint64 h0 (by omega), by simp, by simp, h2⟩
    · right
      have := Reads.sint64 (env := env) h3 (zigzag b).isLt
      rw [zigzagInt_zigzag (by omega), BitVec.ofInt_toInt] at this
      exact ⟨h2, this⟩
  case bool.bool b =>
    rcases unsigned_cases 32 (by omega) (by omega) (if b then 1 else 0) (by split <;> omega) idx with
      ⟨h1, h2⟩ | ⟨_, h2, h3⟩
    · left
      cases b
      · exact ⟨rfl, rfl, .bool h0 (by omega), by simp, by simp, h2⟩
      · simp at h1
    · right
      have := Reads.bool (env := env) h3 (by split <;> omega)
      cases b
      · exact absurd rfl (by assumption)
      · exact ⟨h2, this⟩
  case string.str s =>
    right
    refine ⟨rfl, ?_⟩
    simp only [serializeBasic, prependLengthDelimitedSize, List.length_append] at hlen ⊢
    exact Reads.string (prepend_varint (by omega))
  case bytes.bytes b =>
    right
    refine ⟨rfl, ?_⟩
    simp only [serializeBasic, prependLengthDelimitedSize, List.length_append] at hlen ⊢
    exact Reads.bytes (prepend_varint (by omega))

theorem absent_default {k : Kind} {s : Scalar} (hs : k.holds s) (h : s.isNull = true) :
    s = defaultScalar k := by
  cases k <;> cases s <;> simp only [Kind.holds, Bool.false_eq_true] at hs <;>
    rename_i x <;> cases x <;> simp_all [Scalar.isNull, defaultScalar]

theorem natCast_ne_notUsed (num : Nat) : ((num : Nat) : Int) ≠ notUsed := by
  unfold notUsed; omega

/-- What is written for a scalar field: nothing, and the receiver's default is the value; or one
record. -/
theorem scalarField_cases (env : Env) {k : Kind} {s : Scalar} (hs : k.holds s) {num : Nat}
    (h1 : 1 ≤ num) (h2 : num < 2 ^ 29) (hlen : (serializeScalarField env num k s).length < 2 ^ 31) :
    (serializeScalarField env num k s = [] ∧ fieldScalar env k s = defaultScalar k ∧
      entryScalar env s = defaultScalar k) ∨
    (∃ hdr payload, serializeScalarField env num k s = hdr ++ payload ∧ Tag hdr num (wireType k) ∧
      Reads env k payload (transmitted env s) ∧ isAbsent s = false) := by
  by_cases hn : s.isNull = true
  · left
    have e := absent_default hs hn
    refine ⟨by simp [serializeScalarField, serializeWrapper, hn, withHeader], ?_, ?_⟩
    · simp [fieldScalar, isAbsent_eq, hn, ← e]
    · simp [entryScalar, isAbsent_eq, hn, ← e]
  · have hn' : s.isNull = false := by simpa using hn
    simp only [serializeScalarField, serializeWrapper, hn', Bool.false_eq_true, if_false] at hlen ⊢
    have hl : (serializeBasic env k s num).1.length < 2 ^ 31 := by
      unfold withHeader at hlen
      split at hlen
      · exact hlen
      · simp only [List.length_append] at hlen; omega
    rcases serializeBasic_cases env hs num hl with ⟨a, b, _, _, _, c⟩ | ⟨a, b⟩
    · left
      refine ⟨by simp [c, withHeader], ?_, ?_⟩
      · simp only [fieldScalar, b, ← a]; simp
      · simp only [entryScalar, b, ← a]; simp
    · right
      refine ⟨encodeHeader num k.wireType, _, ?_, ?_, b, ?_⟩
      · unfold withHeader
        rw [if_neg]
        rw [a]; exact natCast_ne_notUsed num
      · rw [← wireType_eq]
        exact encodeHeader_tag h1 h2 (by cases k <;> decide)
      · rw [isAbsent_eq, hn']

theorem enumSigned (e : BitVec 32) : BitVec.ofNat 32 (enumToInt64 e).toNat = e := by
  apply BitVec.eq_of_toNat_eq
  have h : (enumToInt64 e).setWidth 32 = e := by
    unfold enumToInt64
    apply BitVec.eq_of_getElem_eq
    intro i hi
    rw [BitVec.getElem_setWidth, BitVec.getLsbD_signExtend]
    simp [hi, show i < 64 by omega]
  have := congrArg BitVec.toNat h
  simpa using this

theorem enumToInt64_eq_zero {e : BitVec 32} (h : (enumToInt64 e).toNat = 0) : e = 0#32 := by
  rw [← enumSigned e, h]

theorem readsEnum_of (e : BitVec 32) {bs : Bytes} (h : Varint bs (enumToInt64 e).toNat) :
    ReadsEnum bs e := ⟨_, h, (enumSigned e).symm⟩

theorem enumField_cases (e : BitVec 32) {num : Nat} (h1 : 1 ≤ num) (h2 : num < 2 ^ 29) :
    (serializeEnumField num e = [] ∧ e = 0#32) ∨
    (∃ hdr payload, serializeEnumField num e = hdr ++ payload ∧ Tag hdr num 0 ∧
      ReadsEnum payload e) := by
  unfold serializeEnumField
  rcases unsigned_cases 64 (by omega) (by omega) _ (enumToInt64 e).isLt (num : Int) with
    ⟨a, b⟩ | ⟨_, b, c⟩
  · left
    exact ⟨by simp [b, withHeader], enumToInt64_eq_zero a⟩
  · right
    refine ⟨encodeHeader num wtVarint, _, ?_, encodeHeader_tag h1 h2 (by decide), readsEnum_of e c⟩
    unfold withHeader
    rw [if_neg]
    rw [b]; exact natCast_ne_notUsed num

/-! ### Lists -/

theorem packedElems_of (env : Env) {k : Kind} {l : List Scalar}
    (hl : ∀ s ∈ l, k.holds s) (hlen : (serializePackedElems env k l).length < 2 ^ 31) :
    ReadsAll env k (serializePackedElems env k l) (l.map (transmitted env)) := by
  induction l with
  | nil => exact .nil
  | cons s l ih =>
    simp only [serializePackedElems, List.length_append] at hlen ⊢
    simp only [List.mem_cons, forall_eq_or_imp] at hl
    refine .cons ?_ (ih hl.2 (by omega))
    have hl' : (serializeBasic env k s notUsed).1.length < 2 ^ 31 := by
      split at hlen
      · simp_all
      · omega
    rcases serializeBasic_cases env hl.1 notUsed hl' with ⟨a, b, c, _, _, d⟩ | ⟨a, b⟩
    · rw [d]; simpa [b] using c
    · have := b.length_pos
      rw [if_neg (by simp; intro h; rw [h] at this; simp at this)]
      exact b

theorem enumElems_of (env : Env) (l : List (BitVec 32)) :
    ReadsEnums (serializePackedElems env .int64 (l.map fun e => .w64 (enumToInt64 e))) l := by
  induction l with
  | nil => exact .nil
  | cons e l ih =>
    simp only [List.map_cons, serializePackedElems]
    refine .cons ?_ ih
    have eb : serializeBasic env .int64 (.w64 (enumToInt64 e)) notUsed
        = serializeUnsigned 64 (enumToInt64 e).toNat notUsed := rfl
    rw [eb]
    rcases unsigned_cases 64 (by omega) (by omega) _ (enumToInt64 e).isLt notUsed with
      ⟨a, b⟩ | ⟨_, _, c⟩
    · rw [b]
      simp only [List.isEmpty_nil, if_true]
      refine readsEnum_of e ?_
      rw [a]
      exact ⟨IsVarint.last 0 (by decide), by simp⟩
    · have := c.1.length_pos
      rw [if_neg (by simp; intro h; rw [h] at this; simp at this)]
      exact readsEnum_of e c

/-! ### Messages -/

section
variable {env : Env} {Sub : Nat → Bytes → Obj → Prop} {rec : Nat → Obj → Res Bytes}

/-- `bs` turns field `i` of type `ty` from `old` into `new`. -/
def Turns (env : Env) (Sub : Nat → Bytes → Obj → Prop) (m i : Nat) (bs : Bytes) (old new : Val) : Prop :=
  ∀ rest o o', o[i]? = some old → Stream env Sub m rest (o.set i new) o' →
    Stream env Sub m (bs ++ rest) o o'

theorem set_self {o : Obj} {i : Nat} {v : Val} (h : o[i]? = some v) : o.set i v = o := by
  obtain ⟨hi, rfl⟩ := List.getElem?_eq_some_iff.mp h
  exact List.set_getElem_self hi

theorem Turns.nil (m i : Nat) (v : Val) : Turns env Sub m i [] v v := by
  intro rest o o' ho h
  rw [set_self ho] at h
  exact h

theorem Turns.trans {m i : Nat} {a b : Bytes} {u v w : Val} (h1 : Turns env Sub m i a u v)
    (h2 : Turns env Sub m i b v w) : Turns env Sub m i (a ++ b) u w := by
  intro rest o o' ho h
  rw [List.append_assoc]
  obtain ⟨hi, _⟩ := List.getElem?_eq_some_iff.mp ho
  refine h1 _ _ _ ho (h2 _ _ _ ?_ ?_)
  · simp [hi]
  · simpa using h

theorem Turns.record {m i : Nat} {f : Field} {hdr payload : Bytes} {wt : Nat} {old new : Val}
    (hf : (env.sch m)[i]? = some f) (ht : Tag hdr f.num wt)
    (he : FieldEffect env Sub f.ty wt payload old new) :
    Turns env Sub m i (hdr ++ payload) old (store f.ty old new) := by
  intro rest o o' ho h
  exact .known hf ht ho he h

theorem frameObject_tag {num : Nat} (h1 : 1 ≤ num) (h2 : num < 2 ^ 29) :
    Tag (encodeHeader num wtLengthDelimited) num 2 := encodeHeader_tag h1 h2 (by decide)

theorem frame_len {num : Nat} {body : Bytes} (h : (frameObject num body).length < 2 ^ 31) :
    Varint (serializeVarintCommon 32 body.length) body.length := by
  simp only [frameObject, prependLengthDelimitedSize, List.length_append] at h
  exact prepend_varint (by omega)

theorem scalar_turns {m i : Nat} {f : Field} {k : Kind} {s : Scalar}
    (hf : (env.sch m)[i]? = some f) (hn : 1 ≤ f.num ∧ f.num < 2 ^ 29) (hty : f.ty = .scalar k)
    (hs : k.holds s) (hlen : (serializeScalarField env f.num k s).length < 2 ^ 31) :
    Turns env Sub m i (serializeScalarField env f.num k s) (defaultVal f.ty)
      (.sc (fieldScalar env k s)) := by
  rw [hty]
  rcases scalarField_cases env hs hn.1 hn.2 hlen with ⟨a, b, _⟩ | ⟨hdr, payload, a, b, c, d⟩
  · rw [a, b]; exact Turns.nil _ _ _
  · rw [a]
    have := Turns.record (Sub := Sub) (old := defaultVal f.ty) hf b
      (by rw [hty]; exact FieldEffect.scalar _ c)
    rw [hty] at this
    have e : store (.scalar k) (defaultVal (.scalar k)) (.sc (transmitted env s))
        = .sc (fieldScalar env k s) := by
      simp only [defaultVal, store, fieldScalar, d, Bool.false_eq_true, if_false]
      split <;> rfl
    rw [e] at this
    exact this

theorem enum_turns {m i : Nat} {f : Field} {e : BitVec 32}
    (hf : (env.sch m)[i]? = some f) (hn : 1 ≤ f.num ∧ f.num < 2 ^ 29) (hty : f.ty = .enum) :
    Turns env Sub m i (serializeEnumField f.num e) (defaultVal f.ty) (.enum e) := by
  rw [hty]
  rcases enumField_cases e hn.1 hn.2 with ⟨a, b⟩ | ⟨hdr, payload, a, b, c⟩
  · rw [a, b]; exact Turns.nil _ _ _
  · rw [a]
    have := Turns.record (Sub := Sub) (old := defaultVal f.ty) hf b
      (by rw [hty]; exact FieldEffect.enum _ c)
    rw [hty] at this
    exact this

theorem enumList_turns {m i : Nat} {f : Field} {l : List (BitVec 32)}
    (hf : (env.sch m)[i]? = some f) (hn : 1 ≤ f.num ∧ f.num < 2 ^ 29) (hty : f.ty = .enumList)
    (hlen : (serializeEnumListField env f.num l).length < 2 ^ 31) :
    Turns env Sub m i (serializeEnumListField env f.num l) (defaultVal f.ty) (.enumList l) := by
  rw [hty]
  cases l with
  | nil =>
    have e : serializeEnumListField env f.num [] = [] := by
      simp [serializeEnumListField, serializeListType, withHeader]
    rw [e]; exact Turns.nil _ _ _
  | cons e0 l0 =>
    have e : serializeEnumListField env f.num (e0 :: l0) =
        encodeHeader f.num wtLengthDelimited ++ prependLengthDelimitedSize
          (serializePackedElems env .int64 ((e0 :: l0).map fun e => .w64 (enumToInt64 e))) := by
      simp [serializeEnumListField, serializeListType, withHeader, notUsed]
    rw [e] at hlen ⊢
    simp only [prependLengthDelimitedSize, List.length_append] at hlen ⊢
    have h := FieldEffect.enums (env := env) (Sub := Sub) []
      (prepend_varint (data := serializePackedElems env .int64
        ((e0 :: l0).map fun e => .w64 (enumToInt64 e))) (by omega)) (enumElems_of env (e0 :: l0))
    rw [← hty] at h
    have := Turns.record hf (frameObject_tag hn.1 hn.2) h
    rw [hty] at this
    exact this

theorem scalarListEq_length {k : Kind} {a b : List Scalar} (h : scalarListEq k a b = true) :
    a.length = b.length := by
  induction a generalizing b with
  | nil => cases b <;> simp_all [scalarListEq]
  | cons x a ih =>
    cases b with
    | nil => simp [scalarListEq] at h
    | cons y b => simp only [scalarListEq, Bool.and_eq_true] at h; simp [ih h.2]

theorem store_list_ne {k : Kind} {a b : List Scalar} (h : a.length ≠ b.length) :
    store (.list k) (.scList a) (.scList b) = .scList b := by
  have : scalarListEq k a b = false := by
    cases e : scalarListEq k a b with
    | false => rfl
    | true => exact absurd (scalarListEq_length e) h
  simp [store, this]

theorem delimited_turns {m i : Nat} {f : Field} {k : Kind} (hk : k = .string ∨ k = .bytes)
    {l : List Scalar} (hf : (env.sch m)[i]? = some f) (hn : 1 ≤ f.num ∧ f.num < 2 ^ 29)
    (hty : f.ty = .list k) (hs : ∀ s ∈ l, k.holds s)
    (hlen : (serializeDelimitedElems env k f.num l).length < 2 ^ 31) (acc : List Scalar) :
    Turns env Sub m i (serializeDelimitedElems env k f.num l) (.scList acc)
      (.scList (acc ++ l.map (transmitted env))) := by
  induction l generalizing acc with
  | nil => simpa [serializeDelimitedElems] using Turns.nil _ _ _
  | cons s l ih =>
    simp only [serializeDelimitedElems, List.length_append] at hlen ⊢
    simp only [List.mem_cons, forall_eq_or_imp] at hs
    have e : acc ++ (s :: l).map (transmitted env)
        = (acc ++ [transmitted env s]) ++ l.map (transmitted env) := by simp
    rw [e]
    refine Turns.trans ?_ (ih hs.2 (by omega) _)
    rcases serializeBasic_cases env hs.1 f.num (by omega) with ⟨_, _, _, h1, h2, _⟩ | ⟨_, b⟩
    · rcases hk with hk | hk
      · exact absurd hk h1
      · exact absurd hk h2
    · have h := FieldEffect.append (Sub := Sub) acc hk b
      rw [← hty] at h
      have := Turns.record hf (frameObject_tag hn.1 hn.2) h
      rw [hty, store_list_ne (by simp)] at this
      exact this

theorem list_turns {m i : Nat} {f : Field} {k : Kind} (hk : k.hasListHandler = true)
    {l : List Scalar} (hf : (env.sch m)[i]? = some f) (hn : 1 ≤ f.num ∧ f.num < 2 ^ 29)
    (hty : f.ty = .list k) (hs : ∀ s ∈ l, k.holds s)
    (hlen : (withHeader f.num wtLengthDelimited (serializeListType env k l f.num)).length < 2 ^ 31) :
    Turns env Sub m i (withHeader f.num wtLengthDelimited (serializeListType env k l f.num))
      (defaultVal f.ty) (.scList (l.map (transmitted env))) := by
  rw [hty]
  by_cases hsb : k = .string ∨ k = .bytes
  · have e : withHeader f.num wtLengthDelimited (serializeListType env k l f.num)
        = serializeDelimitedElems env k f.num l := by
      cases l with
      | nil => simp [serializeListType, withHeader, serializeDelimitedElems]
      | cons s l => rcases hsb with h | h <;> subst h <;> simp [serializeListType, withHeader]
    rw [e] at hlen ⊢
    have := delimited_turns (Sub := Sub) hsb hf hn hty hs hlen []
    simpa [defaultVal] using this
  · have hsb' : k ≠ .string ∧ k ≠ .bytes := by simpa using hsb
    cases l with
    | nil => simpa [serializeListType, withHeader, defaultVal] using Turns.nil _ _ _
    | cons s l =>
      have e : withHeader f.num wtLengthDelimited (serializeListType env k (s :: l) f.num)
          = encodeHeader f.num wtLengthDelimited ++ prependLengthDelimitedSize
            (serializePackedElems env k (s :: l)) := by
        cases k <;> simp_all [serializeListType, withHeader, notUsed]
      rw [e] at hlen ⊢
      simp only [prependLengthDelimitedSize, List.length_append] at hlen ⊢
      have hp : packable k := by
        cases k <;> simp_all [packable, Kind.hasListHandler]
      have h := FieldEffect.packed (env := env) (Sub := Sub) (defaultVal (.list k)) hp
        (prepend_varint (data := serializePackedElems env k (s :: l)) (by omega))
        (packedElems_of env hs (by omega))
      rw [← hty] at h
      have := Turns.record hf (frameObject_tag hn.1 hn.2) h
      rw [hty] at this
      rw [show defaultVal (.list k) = .scList [] from rfl, store_list_ne (by simp)] at this
      exact this

/-- What the induction hypothesis says about nested serialization. -/
def RecOk (env : Env) (Sub : Nat → Bytes → Obj → Prop) (rec : Nat → Obj → Res Bytes) : Prop :=
  ∀ m o body, rec m o = .ok body → HasTy env (.msg m) (.msg o) → body.length < 2 ^ 31 →
    ∃ o', Sub m body o' ∧ Arrives env (.msg m) (.msg o) (.msg o')

theorem default_hasTy (env : Env) (m : Nat) : HasTy env (.msg m) (.msg (defaultObj env m)) := by
  refine .msg (by simp [defaultObj]) ?_
  intro i f v hf hv
  simp only [defaultObj, List.getElem?_map, hf, Option.map_some, Option.some.injEq] at hv
  subst hv
  cases h : f.ty with
  | scalar k => cases k <;> exact .sc rfl
  | list k => exact .scList (by simp)
  | enum => exact .enum 0
  | enumList => exact .enumList []
  | msg m => exact .null m
  | msgList m => exact .msgList (by simp)
  | map kk vt => exact .map (by simp) (by simp) (by simp)

theorem msg_turns (hrec : RecOk env Sub rec) {m i : Nat} {f : Field} {m' : Nat} {v : Val}
    (hf : (env.sch m)[i]? = some f) (hn : 1 ≤ f.num ∧ f.num < 2 ^ 29) (hty : f.ty = .msg m')
    (hv : HasTy env f.ty v) {bs : Bytes} (hbs : serializeMsgField env rec f.num m' v = .ok bs)
    (hlen : bs.length < 2 ^ 31) :
    ∃ v', Arrives env f.ty v v' ∧ Turns env Sub m i bs (defaultVal f.ty) v' := by
  simp only [serializeMsgField, Res.bind_eq, Res.bind_eq_ok, Res.ok.injEq] at hbs
  obtain ⟨body, hb, rfl⟩ := hbs
  have hl := frame_len hlen
  have key : ∀ o, HasTy env (.msg m') (.msg o) → rec m' o = .ok body →
      ∃ o', Arrives env (.msg m') (.msg o) (.msg o') ∧
        Turns env Sub m i (frameObject f.num body) (defaultVal f.ty) (.msg o') := by
    intro o ho hro
    obtain ⟨o', h1, h2⟩ := hrec m' o body hro ho (by
      simp only [frameObject, prependLengthDelimitedSize, List.length_append] at hlen; omega)
    refine ⟨o', h2, ?_⟩
    have h := FieldEffect.msg (env := env) (Sub := Sub) (defaultVal f.ty) hl h1
    rw [← hty] at h
    have := Turns.record hf (frameObject_tag hn.1 hn.2) h
    rw [hty] at this ⊢
    exact this
  rw [hty] at hv
  cases hv with
  | null =>
    obtain ⟨o', h1, h2⟩ := key _ (default_hasTy env m') hb
    exact ⟨.msg o', by rw [hty]; exact .unset h1, h2⟩
  | msg h1 h2 =>
    obtain ⟨o', h3, h4⟩ := key _ (.msg h1 h2) hb
    exact ⟨.msg o', by rw [hty]; exact h3, h4⟩

theorem msgList_turns (hrec : RecOk env Sub rec) {m i : Nat} {f : Field} {m' : Nat} {l : List Val}
    (hf : (env.sch m)[i]? = some f) (hn : 1 ≤ f.num ∧ f.num < 2 ^ 29) (hty : f.ty = .msgList m')
    (hv : ∀ v ∈ l, HasTy env (.msg m') v) {bs : Bytes}
    (hbs : serializeMsgList rec f.num m' l = .ok bs) (hlen : bs.length < 2 ^ 31) :
    ∃ l', ArrivesList env m' l l' ∧
      ∀ acc, Turns env Sub m i bs (.msgList acc) (.msgList (acc ++ l')) := by
  induction l generalizing bs with
  | nil =>
    simp only [serializeMsgList, Res.ok.injEq] at hbs
    subst hbs
    exact ⟨[], .nil _, fun acc => by simpa using Turns.nil _ _ _⟩
  | cons v l ih =>
    simp only [List.mem_cons, forall_eq_or_imp] at hv
    obtain ⟨hv1, hv2⟩ := hv
    cases hv1 with
    | null =>
      simp only [serializeMsgList] at hbs
      obtain ⟨l', h1, h2⟩ := ih hv2 hbs hlen
      exact ⟨l', .null h1, h2⟩
    | @msg _ o ho1 ho2 =>
      simp only [serializeMsgList, Res.bind_eq, Res.bind_eq_ok, Res.ok.injEq] at hbs
      obtain ⟨body, hb, r, hr, rfl⟩ := hbs
      simp only [List.length_append] at hlen
      obtain ⟨l', h1, h2⟩ := ih hv2 hr (by omega)
      have hfl : (frameObject f.num body).length < 2 ^ 31 := by omega
      obtain ⟨o', h3, h4⟩ := hrec m' o body hb (.msg ho1 ho2) (by
        simp only [frameObject, prependLengthDelimitedSize, List.length_append] at hfl; omega)
      refine ⟨.msg o' :: l', .cons h4 h1, fun acc => ?_⟩
      have e : acc ++ Val.msg o' :: l' = (acc ++ [.msg o']) ++ l' := by simp
      rw [e]
      refine Turns.trans ?_ (h2 _)
      have h := FieldEffect.msgList (env := env) (Sub := Sub) acc (frame_len hfl) h3
      rw [← hty] at h
      have := Turns.record hf (frameObject_tag hn.1 hn.2) h
      rw [hty] at this
      exact this

theorem entry_of (hrec : RecOk env Sub rec) {kk : Kind} {vt : MapVal} {key : Scalar} {v : Val}
    (hk : kk.holds key) (hv : HasTy env (MapVal.toTy vt) v) (hnn : v ≠ .msgNull) {value : Bytes}
    (hb : serializeMapValue env rec vt v = .ok value)
    (hlen : (serializeScalarField env 1 kk key ++ value).length < 2 ^ 31) :
    ∃ v', (∀ es es', ArrivesEntries env vt es es' →
        ArrivesEntries env vt ((key, v) :: es) ((entryScalar env key, v') :: es')) ∧
      Entry env Sub kk vt (serializeScalarField env 1 kk key ++ value) (emptyEntry kk vt)
        (entryScalar env key, v') := by
  simp only [List.length_append] at hlen
  have hkey : ∀ kv' bs, Entry env Sub kk vt bs (entryScalar env key, (emptyEntry kk vt).2) kv' →
      Entry env Sub kk vt (serializeScalarField env 1 kk key ++ bs) (emptyEntry kk vt) kv' := by
    intro kv' bs h
    rcases scalarField_cases env hk (num := 1) (by omega) (by omega) (by omega) with
      ⟨a, _, b⟩ | ⟨hdr, payload, a, b, c, d⟩
    · rw [a]
      rw [b] at h
      cases vt <;> exact h
    · rw [a]
      refine .key b c ?_
      simpa [entryScalar, d] using h
  cases vt with
  | scalar k =>
    cases hv with
    | @sc _ s hs =>
      simp only [serializeMapValue, Res.ok.injEq] at hb
      subst hb
      refine ⟨_, fun es es' h => .scalar h, hkey _ _ ?_⟩
      rcases scalarField_cases env hs (num := 2) (by omega) (by omega) (by omega) with
        ⟨a, _, b⟩ | ⟨hdr, payload, a, b, c, d⟩
      · rw [a, b]; exact .nil _
      · rw [a]
        have := Entry.val (kk := kk) (kv := (entryScalar env key, (emptyEntry kk (.scalar k)).2)) b
          (ReadsMapVal.scalar (env := env) (Sub := Sub) c) (.nil _)
        simpa [entryScalar, d] using this
  | enum =>
    cases hv with
    | enum e =>
      simp only [serializeMapValue, Res.ok.injEq] at hb
      subst hb
      refine ⟨_, fun es es' h => .enum h, hkey _ _ ?_⟩
      rcases enumField_cases e (num := 2) (by omega) (by omega) with ⟨a, b⟩ | ⟨hdr, payload, a, b, c⟩
      · rw [a, b]; exact .nil _
      · rw [a]
        have := Entry.val (kk := kk) (kv := (entryScalar env key, (emptyEntry kk .enum).2)) b
          (ReadsMapVal.enum (env := env) (Sub := Sub) c) (.nil _)
        simpa using this
  | msg m =>
    cases hv with
    | null => exact absurd rfl hnn
    | @msg _ o ho1 ho2 =>
      simp only [serializeMapValue, Res.bind_eq, Res.bind_eq_ok, Res.ok.injEq] at hb
      obtain ⟨body, hb, rfl⟩ := hb
      have hfl : (frameObject 2 body).length < 2 ^ 31 := by omega
      obtain ⟨o', h3, h4⟩ := hrec m o body hb (.msg ho1 ho2) (by
        simp only [frameObject, prependLengthDelimitedSize, List.length_append] at hfl; omega)
      refine ⟨.msg o', fun es es' h => .msg h4 h, hkey _ _ ?_⟩
      have := Entry.val (kk := kk) (kv := (entryScalar env key, (emptyEntry kk (.msg m)).2))
        (frameObject_tag (num := 2) (by omega) (by omega))
        (ReadsMapVal.msg (env := env) (frame_len hfl) h3) (.nil _)
      simpa [frameObject, prependLengthDelimitedSize] using this

theorem insertAll_cons (kk : Kind) (vt : MapVal) (e : Scalar × Val) (es acc : List (Scalar × Val)) :
    ∃ acc', store (.map kk vt) (.map acc) (.map (mapInsert kk e.1 e.2 acc)) = .map acc' ∧
      insertAll kk vt (e :: es) acc = insertAll kk vt es acc' := by
  have : ∃ acc', store (.map kk vt) (.map acc) (.map (mapInsert kk e.1 e.2 acc)) = .map acc' := by
    cases vt with
    | scalar k => simp only [store]; split <;> exact ⟨_, rfl⟩
    | enum => simp only [store]; split <;> exact ⟨_, rfl⟩
    | msg m => exact ⟨_, rfl⟩
  obtain ⟨acc', h⟩ := this
  exact ⟨acc', h, by simp [insertAll, h]⟩

theorem map_turns (hrec : RecOk env Sub rec) {m i : Nat} {f : Field} {kk : Kind} {vt : MapVal}
    {es : List (Scalar × Val)} (hf : (env.sch m)[i]? = some f) (hn : 1 ≤ f.num ∧ f.num < 2 ^ 29)
    (hty : f.ty = .map kk vt) (hk : ∀ e ∈ es, kk.holds e.1)
    (hv : ∀ e ∈ es, HasTy env (MapVal.toTy vt) e.2) {bs : Bytes}
    (hbs : serializeMap env rec f.num kk vt es = .ok bs) (hlen : bs.length < 2 ^ 31) :
    ∃ es', ArrivesEntries env vt es es' ∧
      ∀ acc, Turns env Sub m i bs (.map acc) (insertAll kk vt es' acc) := by
  induction es generalizing bs with
  | nil =>
    simp only [serializeMap, Res.ok.injEq] at hbs
    subst hbs
    exact ⟨[], .nil _, fun acc => by simpa [insertAll] using Turns.nil _ _ _⟩
  | cons e es ih =>
    simp only [List.mem_cons, forall_eq_or_imp] at hk hv
    obtain ⟨key, v⟩ := e
    by_cases hnn : v = .msgNull
    · subst hnn
      simp only [serializeMap] at hbs
      obtain ⟨es', h1, h2⟩ := ih hk.2 hv.2 hbs hlen
      exact ⟨es', .null h1, h2⟩
    · have hbs' : (do
          let value ← serializeMapValue env rec vt v
          let r ← serializeMap env rec f.num kk vt es
          Res.ok (frameObject f.num (serializeScalarField env 1 kk key ++ value) ++ r)) = .ok bs := by
        rw [← hbs]
        cases v <;> first | rfl | exact absurd rfl hnn
      simp only [Res.bind_eq, Res.bind_eq_ok, Res.ok.injEq] at hbs'
      obtain ⟨value, hb, r, hr, rfl⟩ := hbs'
      simp only [List.length_append] at hlen
      obtain ⟨es', h1, h2⟩ := ih hk.2 hv.2 hr (by omega)
      have hfl : (frameObject f.num (serializeScalarField env 1 kk key ++ value)).length < 2 ^ 31 := by
        omega
      obtain ⟨v', h3, h4⟩ := entry_of hrec hk.1 hv.1 hnn hb (by
        simp only [frameObject, prependLengthDelimitedSize, List.length_append] at hfl ⊢; omega)
      refine ⟨_, h3 _ _ h1, fun acc => ?_⟩
      obtain ⟨acc', e1, e2⟩ := insertAll_cons kk vt (entryScalar env key, v') es' acc
      rw [e2]
      refine Turns.trans ?_ (h2 _)
      have h := FieldEffect.map (env := env) (Sub := Sub) acc (frame_len hfl) h4
      rw [← hty] at h
      have := Turns.record hf (frameObject_tag hn.1 hn.2) h
      rw [hty, e1] at this
      exact this

theorem property_turns (hrec : RecOk env Sub rec) {m i : Nat} {f : Field} {v : Val}
    (hf : (env.sch m)[i]? = some f) (hn : 1 ≤ f.num ∧ f.num < 2 ^ 29)
    (hv : HasTy env f.ty v) {bs : Bytes} (hbs : serializeProperty env rec f.num f.ty v = .ok bs)
    (hlen : bs.length < 2 ^ 31) :
    ∃ v', Arrives env f.ty v v' ∧ Turns env Sub m i bs (defaultVal f.ty) v' := by
  cases hty : f.ty with
  | scalar k =>
    rw [hty] at hv hbs
    cases hv with
    | sc hs =>
      simp only [serializeProperty, Res.ok.injEq] at hbs
      subst hbs
      exact ⟨_, .sc _ _, hty ▸ scalar_turns hf hn hty hs hlen⟩
  | list k =>
    rw [hty] at hv hbs
    cases hv with
    | scList hs =>
      simp only [serializeProperty] at hbs
      split at hbs
      · simp only [Res.ok.injEq] at hbs
        subst hbs
        exact ⟨_, .scList _ _, hty ▸ list_turns (by assumption) hf hn hty hs hlen⟩
      · simp at hbs
  | enum =>
    rw [hty] at hv hbs
    cases hv
    simp only [serializeProperty, Res.ok.injEq] at hbs
    subst hbs
    exact ⟨_, .enum _, hty ▸ enum_turns hf hn hty⟩
  | enumList =>
    rw [hty] at hv hbs
    cases hv
    simp only [serializeProperty, Res.ok.injEq] at hbs
    subst hbs
    exact ⟨_, .enumList _, hty ▸ enumList_turns hf hn hty hlen⟩
  | msg m' =>
    rw [hty] at hbs
    have hbs' : serializeMsgField env rec f.num m' v = .ok bs := by
      rw [← hbs]; cases v <;> rfl
    have := msg_turns (Sub := Sub) hrec hf hn hty hv hbs' hlen
    rw [hty] at this
    exact this
  | msgList m' =>
    rw [hty] at hv hbs
    cases hv with
    | msgList hs =>
      simp only [serializeProperty] at hbs
      obtain ⟨l', h1, h2⟩ := msgList_turns (Sub := Sub) hrec hf hn hty hs hbs hlen
      exact ⟨_, .msgList h1, by simpa [defaultVal] using h2 []⟩
  | map kk vt =>
    rw [hty] at hv hbs
    cases hv with
    | map hk hv _ =>
      simp only [serializeProperty] at hbs
      obtain ⟨es', h1, h2⟩ := map_turns (Sub := Sub) hrec hf hn hty hk hv hbs hlen
      exact ⟨_, .map h1, h2 []⟩

/-- Fields visited in the order `is` from an object in which they still have default values. -/
theorem fields_stream (hv : ValidSchema env) (hrec : RecOk env Sub rec) {m : Nat} {obj : Obj}
    (hobj : HasTy env (.msg m) (.msg obj)) (is : List Nat) (hnd : is.Nodup)
    (hin : ∀ i ∈ is, i < (env.sch m).length) {bs : Bytes}
    (hbs : concatRes (is.map fun i =>
      match (env.sch m)[i]?, obj[i]? with
      | some f, some v => serializeProperty env rec f.num f.ty v
      | _, _ => .ok []) = .ok bs)
    (hlen : bs.length < 2 ^ 31) (o : Obj) (hol : o.length = (env.sch m).length)
    (hdef : ∀ i ∈ is, ∀ f, (env.sch m)[i]? = some f → o[i]? = some (defaultVal f.ty)) :
    ∃ o', Stream env Sub m bs o o' ∧ o'.length = (env.sch m).length ∧
      (∀ i, i ∉ is → o'[i]? = o[i]?) ∧
      (∀ i f v v', i ∈ is → (env.sch m)[i]? = some f → obj[i]? = some v → o'[i]? = some v' →
        Arrives env f.ty v v') := by
  induction is generalizing bs o with
  | nil =>
    simp only [List.map_nil, concatRes, Res.ok.injEq] at hbs
    subst hbs
    exact ⟨o, .nil o, hol, fun _ _ => rfl, by simp⟩
  | cons i is ih =>
    simp only [List.map_cons, concatRes, Res.bind_eq, Res.bind_eq_ok, Res.ok.injEq] at hbs
    obtain ⟨a, ha, b, hb, rfl⟩ := hbs
    simp only [List.length_append] at hlen
    simp only [List.nodup_cons] at hnd
    simp only [List.mem_cons, forall_eq_or_imp] at hin hdef
    cases hobj with
    | msg hl hf =>
      have hi := hin.1
      have hfi : (env.sch m)[i]? = some (env.sch m)[i] := by simp [hi]
      have hvi : obj[i]? = some (obj[i]'(by omega)) := by simp [hl, hi]
      rw [hfi, hvi] at ha
      simp only at ha
      obtain ⟨v', h1, h2⟩ := property_turns (Sub := Sub) (rec := rec) hrec hfi
        ((hv m).2 _ (List.getElem_mem hi)) (hf _ _ _ hfi hvi) ha (by omega)
      obtain ⟨o', h3, h4, h5, h6⟩ := ih hnd.2 hin.2 hb (by omega) (o.set i v') (by simpa using hol) (by
        intro j hj f hf
        have hij : i ≠ j := fun e => hnd.1 (e ▸ hj)
        rw [List.getElem?_set_ne hij]
        exact hdef.2 j hj f hf)
      refine ⟨o', h2 _ _ _ (hdef.1 _ hfi) h3, h4, ?_, ?_⟩
      · intro j hj
        simp only [List.mem_cons, not_or] at hj
        rw [h5 j hj.2, List.getElem?_set_ne (Ne.symm hj.1)]
      · intro j f v w hj hfj hvj hwj
        simp only [List.mem_cons] at hj
        rcases hj with rfl | hj
        · rw [h5 _ hnd.1] at hwj
          simp only [List.getElem?_set_self (show j < o.length by omega), Option.some.injEq] at hwj
          subst hwj
          rw [hfi] at hfj
          rw [hvi] at hvj
          simp only [Option.some.injEq] at hfj hvj
          subst hfj hvj
          exact h1
        · exact h6 j f v w hj hfj hvj hwj

end

/-- The serializer's output is an encoding of the object that arrives. -/
theorem serializeMessage_message {env : Env} (hv : ValidSchema env) (ho : ValidOrder env) {n m : Nat}
    {obj : Obj} {bs : Bytes} (hobj : WellTyped env m obj) (hs : serializeMessage env n m obj = .ok bs)
    (hlen : bs.length < 2 ^ 31) :
    ∃ o', Message env n m bs o' ∧ Arrives env (.msg m) (.msg obj) (.msg o') := by
  induction n generalizing m obj bs with
  | zero => simp [serializeMessage] at hs
  | succ n ih =>
    have hrec : RecOk env (Message env n) (serializeMessage env n) :=
      fun m o body h1 h2 h3 => ih h2 h1 h3
    have hp := ho m
    have hmem : ∀ i, i ∈ env.ord m ↔ i < (env.sch m).length := by
      intro i; rw [hp.mem_iff, List.mem_range]
    have hnd : (env.ord m).Nodup := hp.nodup_iff.mpr List.nodup_range
    simp only [serializeMessage] at hs
    obtain ⟨o', h1, h2, _, h4⟩ := fields_stream hv hrec hobj (env.ord m) hnd (fun i hi => (hmem i).mp hi)
      hs hlen (defaultObj env m) (by simp [defaultObj]) (by
        intro i _ f hf; simp [defaultObj, hf])
    refine ⟨o', h1, .msg h2 ?_⟩
    intro i f v v' hf hv hv'
    refine h4 i f v v' ((hmem i).mpr ?_) hf hv hv'
    exact (List.getElem?_eq_some_iff.mp hf).1

end QtPb
