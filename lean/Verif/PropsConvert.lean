import Verif.Convert
import Verif.SpecFloat
import Verif.JsonLemmas
/-
C75 and C78: conversions of numbers through `QVariant`.
-/
namespace QtPb.Convert
open QtPb.Spec

/-! ### Specification -/

/-- The numbers of a C++ integer type or of a protobuf number type. -/
def Spec.InRange : Ty → Int → Prop
  | .i32, n | .wrap .int32, n | .wrap .sfixed32, n => -2 ^ 31 ≤ n ∧ n < 2 ^ 31
  | .i64, n | .ll, n | .wrap .int64, n | .wrap .sfixed64, n => -2 ^ 63 ≤ n ∧ n < 2 ^ 63
  | .u32, n | .wrap .fixed32, n => 0 ≤ n ∧ n < 2 ^ 32
  | .u64, n | .ull, n | .wrap .fixed64, n => 0 ≤ n ∧ n < 2 ^ 64
  | .double, _ | .string, _ => False

/-- A `QVariant` of this type can hold the value. -/
def Spec.Holds : Ty → Value → Prop
  | .double, .dbl _ => True
  | .string, .text _ => True
  | ty, .num n => InRange ty n
  | _, _ => False

/-- The smallest positive `double` is 2^-1074. -/
def Spec.one : Nat := 2 ^ 1074

/-- The value stands for the number `x / one`. -/
def Spec.Means : Value → Int → Prop
  | .num n, x => x = n * one
  | .dbl b, x => number 11 52 b.toNat = .fin x
  | .text t, x => ∃ n, IntegerText t n ∧ x = n * one

/-- The integer types of C++. -/
def Spec.natives : List Ty := [.i32, .i64, .u32, .u64, .ll, .ull]

/-- The conversions there should be: between a protobuf number type and every integer type and `double`, and to text. -/
def Spec.Offered (src dst : Ty) : Prop :=
  ∃ w, (src = .wrap w ∧ (dst ∈ natives ∨ dst = .double ∨ dst = .string)) ∨ (dst = .wrap w ∧ (src ∈ natives ∨ src = .double))

open Spec

/-! ### Lemmas -/

theorem one_pos : 0 < one := Nat.two_pow_pos _

theorem toNat_split (b : BitVec 64) : b.toNat / 2 ^ 63 % 2 = b.toNat / 2 ^ 63 := by
  have := b.isLt
  omega

/-- Magnitude of a finite `double`. -/
theorem number_fin {x : Nat} {s : Int} (h : number 11 52 x = .fin s) :
    x / 2 ^ 52 % 2 ^ 11 ≠ 2047 ∧
    s.natAbs = (if x / 2 ^ 52 % 2 ^ 11 = 0 then x % 2 ^ 52 else (2 ^ 52 + x % 2 ^ 52) * 2 ^ (x / 2 ^ 52 % 2 ^ 11 - 1)) ∧
    s = (if x / 2 ^ 63 % 2 = 1 then -(s.natAbs : Int) else s.natAbs) := by
  simp only [number] at h
  by_cases he : x / 2 ^ 52 % 2 ^ 11 = 2 ^ 11 - 1
  · rw [if_pos he] at h
    split at h <;> exact absurd h (by simp)
  · rw [if_neg he] at h
    have h' := (Number.fin.inj h).symm
    refine ⟨he, ?_, ?_⟩
    · rw [h']
      split <;> simp only [Int.natAbs_neg, Int.natAbs_natCast]
    · rw [h']
      by_cases hs : x / 2 ^ 63 % 2 = 1
      · rw [if_pos hs, if_pos hs, Int.natAbs_neg, Int.natAbs_natCast]
      · rw [if_neg hs, if_neg hs, Int.natAbs_natCast]

theorem div_units (m ex : Nat) (h : 1 ≤ ex) :
    (if 1075 ≤ ex then m * 2 ^ (ex - 1075) else m / 2 ^ (1075 - ex)) = m * 2 ^ (ex - 1) / one := by
  unfold one
  split
  · rename_i h1
    have e : ex - 1 = (ex - 1075) + 1074 := by omega
    rw [e, Nat.pow_add, ← Nat.mul_assoc, Nat.mul_div_cancel _ (Nat.two_pow_pos _)]
  · rename_i h1
    have e : 1074 = (1075 - ex) + (ex - 1) := by omega
    have e' : (2 : Nat) ^ 1074 = 2 ^ (1075 - ex) * 2 ^ (ex - 1) := by rw [← Nat.pow_add, ← e]
    rw [e', Nat.mul_div_mul_right _ _ (Nat.two_pow_pos _)]

theorem natAbs_small {x : Nat} : x % 2 ^ 52 / one = 0 := by
  apply Nat.div_eq_of_lt
  have h1 : x % 2 ^ 52 < 2 ^ 52 := Nat.mod_lt _ (by decide)
  have h2 : (2 : Nat) ^ 52 ≤ one := Nat.pow_le_pow_right (by decide) (by decide)
  omega

/-- Cutting off the fraction. -/
theorem ofDouble_fin {b : BitVec 64} {s : Int} (ty : Ty) (h : number 11 52 b.toNat = .fin s) :
    ofDouble ty b = if (limits ty).1 ≤ s.tdiv one ∧ s.tdiv one ≤ (limits ty).2 then .ok (s.tdiv one) else .ub := by
  obtain ⟨h1, h2, h3⟩ := number_fin h
  rw [toNat_split] at h3
  have key : (if b.toNat / 2 ^ 52 % 2 ^ 11 = 0 then 0 else
      if 1075 ≤ b.toNat / 2 ^ 52 % 2 ^ 11 then (2 ^ 52 + b.toNat % 2 ^ 52) * 2 ^ (b.toNat / 2 ^ 52 % 2 ^ 11 - 1075)
      else (2 ^ 52 + b.toNat % 2 ^ 52) / 2 ^ (1075 - b.toNat / 2 ^ 52 % 2 ^ 11)) = s.natAbs / one := by
    rw [h2]
    split
    · rw [natAbs_small]
    · rename_i he
      rw [div_units _ _ (by omega)]
  have key2 : (if b.toNat / 2 ^ 63 = 1 then -((s.natAbs / one : Nat) : Int) else ((s.natAbs / one : Nat) : Int)) = s.tdiv one := by
    generalize s.natAbs = a at *
    rw [h3]
    split
    · rw [Int.neg_tdiv, Int.ofNat_tdiv]
    · rw [Int.ofNat_tdiv]
  simp only [ofDouble]
  rw [if_neg h1, key, key2]

theorem ofDouble_not_fin {b : BitVec 64} (ty : Ty) (h : ∀ s, number 11 52 b.toNat ≠ .fin s) : ofDouble ty b = .ub := by
  simp only [number] at h
  by_cases he : b.toNat / 2 ^ 52 % 2 ^ 11 = 2 ^ 11 - 1
  · simp only [ofDouble]
    rw [if_pos he]
  · exact absurd (if_neg he) (h _)

/-- What the bits made by `toDouble` stand for. -/
theorem number_pack {sg e q : Nat} (hs : sg = 0 ∨ sg = 1) (he : 1 ≤ e) (he' : e < 2046) (hq : 2 ^ 52 ≤ q) (hq' : q ≤ 2 ^ 53) :
    number 11 52 (sg * 2 ^ 63 + (e * 2 ^ 52 + (q - 2 ^ 52))) = .fin (if sg = 1 then -((q * 2 ^ (e - 1) : Nat) : Int) else ((q * 2 ^ (e - 1) : Nat) : Int)) := by
  generalize hx : sg * 2 ^ 63 + (e * 2 ^ 52 + (q - 2 ^ 52)) = x
  have hsign : x / 2 ^ (11 + 52) % 2 = sg := by omega
  by_cases hc : q = 2 ^ 53
  · have hex : x / 2 ^ 52 % 2 ^ 11 = e + 1 := by omega
    have hfr : x % 2 ^ 52 = 0 := by omega
    have h1 : ¬ e + 1 = 2 ^ 11 - 1 := by omega
    have h2 : ¬ e + 1 = 0 := by omega
    have : (2 ^ 52 + 0) * 2 ^ (e + 1 - 1) = q * 2 ^ (e - 1) := by
      rw [hc, show e + 1 - 1 = 1 + (e - 1) by omega, Nat.pow_add, ← Nat.mul_assoc]
    simp only [number, hsign, hex, hfr, if_neg h1, if_neg h2, this]
  · have hex : x / 2 ^ 52 % 2 ^ 11 = e := by omega
    have hfr : x % 2 ^ 52 = q - 2 ^ 52 := by omega
    have h1 : ¬ e = 2 ^ 11 - 1 := by omega
    have h2 : ¬ e = 0 := by omega
    simp only [number, hsign, hex, hfr, if_neg h1, if_neg h2]
    rw [show 2 ^ 52 + (q - 2 ^ 52) = q by omega]

theorem mantissa_bounds {m : Nat} (h0 : m ≠ 0) : 2 ^ 52 ≤ mantissa m.log2 m ∧ mantissa m.log2 m ≤ 2 ^ 53 := by
  have h1 := Nat.log2_self_le h0
  have h2 : m < 2 ^ (m.log2 + 1) := Nat.lt_log2_self
  generalize m.log2 = k at h1 h2
  unfold mantissa
  split
  · rename_i hk
    constructor
    · calc 2 ^ 52 = 2 ^ k * 2 ^ (52 - k) := by rw [← Nat.pow_add]; congr 1; omega
        _ ≤ _ := Nat.mul_le_mul_right _ h1
    · calc m * 2 ^ (52 - k) ≤ 2 ^ (k + 1) * 2 ^ (52 - k) := Nat.mul_le_mul_right _ (by omega)
        _ = 2 ^ 53 := by rw [← Nat.pow_add]; congr 1; omega
  · rename_i hk
    have e1 : 2 ^ k = 2 ^ 52 * 2 ^ (k - 52) := by rw [← Nat.pow_add]; congr 1; omega
    have e2 : 2 ^ (k + 1) = 2 ^ 53 * 2 ^ (k - 52) := by rw [← Nat.pow_add]; congr 1; omega
    have hq1 : 2 ^ 52 ≤ m / 2 ^ (k - 52) := (Nat.le_div_iff_mul_le (Nat.two_pow_pos _)).mpr (by omega)
    have hq2 : m / 2 ^ (k - 52) < 2 ^ 53 := (Nat.div_lt_iff_lt_mul (Nat.two_pow_pos _)).mpr (by omega)
    simp only
    split <;> omega

/-- The number that `toDouble` makes of an integer other than zero. -/
theorem toDouble_number {n : Int} (h0 : n ≠ 0) (h : n.natAbs < 2 ^ 64) :
    number 11 52 (toDouble n).toNat = .fin (if n < 0 then -((mantissa n.natAbs.log2 n.natAbs * 2 ^ (n.natAbs.log2 + 1022) : Nat) : Int)
      else ((mantissa n.natAbs.log2 n.natAbs * 2 ^ (n.natAbs.log2 + 1022) : Nat) : Int)) := by
  have hm : n.natAbs ≠ 0 := by omega
  have hk : n.natAbs.log2 < 64 := (Nat.log2_lt hm).mpr h
  obtain ⟨hq1, hq2⟩ := mantissa_bounds hm
  simp only [toDouble]
  rw [if_neg hm]
  generalize mantissa n.natAbs.log2 n.natAbs = q at *
  generalize n.natAbs.log2 = k at *
  rw [BitVec.toNat_ofNat, Nat.mod_eq_of_lt (by split <;> omega)]
  by_cases hn : n < 0
  · have := number_pack (sg := 1) (e := k + 1023) (q := q) (Or.inr rfl) (by omega) (by omega) hq1 hq2
    rw [if_pos hn, if_pos hn]
    rw [Nat.one_mul, if_pos rfl] at this
    exact this
  · have := number_pack (sg := 0) (e := k + 1023) (q := q) (Or.inl rfl) (by omega) (by omega) hq1 hq2
    rw [if_neg hn, if_neg hn]
    rw [Nat.zero_mul, if_neg (by decide)] at this
    exact this

/-- Every `double` is smaller than a power of two or a multiple of the distance of the numbers above it. -/
theorem double_grid {x : Nat} {s : Int} (h : number 11 52 x = .fin s) (d : Nat) :
    s.natAbs < 2 ^ (d + 52) * one ∨ ∃ j, s.natAbs = j * (2 ^ d * one) := by
  obtain ⟨-, h2, -⟩ := number_fin h
  have hf : x % 2 ^ 52 < 2 ^ 52 := Nat.mod_lt _ (by decide)
  generalize x / 2 ^ 52 % 2 ^ 11 = ex at h2
  generalize x % 2 ^ 52 = f at h2 hf
  by_cases he : ex = 0
  · rw [if_pos he] at h2
    left
    have h3 : 2 ^ 52 * 1 ≤ 2 ^ (d + 52) * one := Nat.mul_le_mul (Nat.pow_le_pow_right (by decide) (by omega)) one_pos
    omega
  · rw [if_neg he] at h2
    by_cases hd : d + 1074 ≤ ex - 1
    · right
      refine ⟨(2 ^ 52 + f) * 2 ^ (ex - 1 - (d + 1074)), ?_⟩
      rw [h2, one, ← Nat.pow_add, Nat.mul_assoc, ← Nat.pow_add]
      congr 2
      omega
    · left
      rw [h2, one, ← Nat.pow_add]
      calc (2 ^ 52 + f) * 2 ^ (ex - 1) < 2 ^ 53 * 2 ^ (ex - 1) := Nat.mul_lt_mul_of_pos_right (by omega) (Nat.two_pow_pos _)
        _ = 2 ^ (53 + (ex - 1)) := by rw [Nat.pow_add]
        _ ≤ 2 ^ (d + 52 + 1074) := Nat.pow_le_pow_right (by decide) (by omega)

theorem round_small {k m : Nat} (h : k ≤ 52) : mantissa k m * 2 ^ (k + 1022) = m * one := by
  have e : 52 - k + (k + 1022) = 1074 := by omega
  rw [mantissa, if_pos h, Nat.mul_assoc, ← Nat.pow_add, e, one]

theorem round_large {k m : Nat} (h : ¬ k ≤ 52) : mantissa k m * 2 ^ (k + 1022) = mantissa k m * (2 ^ (k - 52) * one) := by
  have e : k - 52 + 1074 = k + 1022 := by omega
  rw [one, ← Nat.pow_add, e]

/-- No `double` is nearer to a positive number than its rounded value. -/
theorem round_nearest {m : Nat} (h0 : m ≠ 0) {x : Nat} {t : Int} (h : number 11 52 x = .fin t) :
    ∃ lo hi, lo ≤ m * one ∧ m * one ≤ hi ∧ hi - lo ≤ lo ∧ (t.natAbs ≤ lo ∨ hi ≤ t.natAbs) ∧
      ((mantissa m.log2 m * 2 ^ (m.log2 + 1022) = lo ∧ m * one - lo ≤ hi - m * one) ∨
       (mantissa m.log2 m * 2 ^ (m.log2 + 1022) = hi ∧ hi - m * one ≤ m * one - lo)) := by
  by_cases hk : m.log2 ≤ 52
  · rw [round_small hk]
    exact ⟨m * one, m * one, by omega, by omega, by omega, by omega, by omega⟩
  · rw [round_large hk]
    have h1 := Nat.log2_self_le h0
    have hb := mantissa_bounds h0
    have hg := double_grid h (m.log2 - 52)
    rw [show m.log2 - 52 + 52 = m.log2 by omega] at hg
    unfold mantissa
    rw [if_neg hk]
    dsimp only
    generalize m.log2 = k at *
    have e1 : 2 ^ k = 2 ^ 52 * 2 ^ (k - 52) := by rw [← Nat.pow_add]; congr 1; omega
    have hD : 0 < 2 ^ (k - 52) := Nat.two_pow_pos _
    generalize 2 ^ (k - 52) = D at *
    have hq1 : 2 ^ 52 ≤ m / D := (Nat.le_div_iff_mul_le hD).mpr (by omega)
    have hr : m % D < D := Nat.mod_lt _ hD
    have hm : m = m / D * D + m % D := by rw [Nat.mul_comm]; exact (Nat.div_add_mod m D).symm
    generalize m / D = q at *
    generalize m % D = r at *
    have eM : m * one = q * (D * one) + r * one := by rw [hm, Nat.add_mul, Nat.mul_assoc]
    have hW : r * one ≤ D * one := Nat.mul_le_mul_right _ (by omega)
    have hQ : D * one ≤ q * (D * one) := Nat.le_mul_of_pos_left _ (by omega)
    refine ⟨q * (D * one), (q + 1) * (D * one), by omega, ?_, ?_, ?_, ?_⟩
    · rw [Nat.add_mul]; omega
    · rw [Nat.add_mul]; omega
    · rcases hg with hg | ⟨j, hj⟩
      · left
        have : 2 ^ 52 * (D * one) ≤ q * (D * one) := Nat.mul_le_mul_right _ hq1
        rw [e1, Nat.mul_assoc] at hg
        omega
      · rw [hj]
        by_cases hjq : j ≤ q
        · exact Or.inl (Nat.mul_le_mul_right _ hjq)
        · exact Or.inr (Nat.mul_le_mul_right _ (by omega))
    · by_cases hup : D < 2 * r ∨ (2 * r = D ∧ q % 2 = 1)
      · rw [if_pos hup]
        right
        refine ⟨rfl, ?_⟩
        have : D * one ≤ (2 * r) * one := Nat.mul_le_mul_right _ (by omega)
        rw [Nat.mul_assoc] at this
        rw [Nat.add_mul]
        omega
      · rw [if_neg hup]
        left
        refine ⟨rfl, ?_⟩
        have : (2 * r) * one ≤ D * one := Nat.mul_le_mul_right _ (by omega)
        rw [Nat.mul_assoc] at this
        rw [Nat.add_mul]
        omega

theorem toDouble_nearest {n : Int} (h : n.natAbs < 2 ^ 64) :
    ∃ s, number 11 52 (toDouble n).toNat = .fin s ∧ ∀ x t, number 11 52 x = .fin t → (s - n * one).natAbs ≤ (t - n * one).natAbs := by
  by_cases h0 : n = 0
  · subst h0
    refine ⟨0, by decide, ?_⟩
    intro x t _
    simp
  · refine ⟨_, toDouble_number h0 h, ?_⟩
    intro x t ht
    obtain ⟨lo, hi, h1, h2, h3, h4, h5⟩ := round_nearest (m := n.natAbs) (by omega) ht
    have hn : n * one = if n < 0 then -((n.natAbs * one : Nat) : Int) else ((n.natAbs * one : Nat) : Int) := by
      rw [Int.natCast_mul]
      split
      · rw [← Int.neg_mul]; congr 1; omega
      · congr 1; omega
    rw [hn]
    generalize mantissa n.natAbs.log2 n.natAbs * 2 ^ (n.natAbs.log2 + 1022) = v at *
    generalize n.natAbs * one = w at *
    split <;> omega

theorem toIntType_id : ∀ {ty : Ty} {n : Int}, ty ∈ natives → InRange ty n → toIntType ty n = n := by
  intro ty n hty h
  simp only [natives, List.mem_cons, List.not_mem_nil, or_false] at hty
  rcases hty with rfl | rfl | rfl | rfl | rfl | rfl <;> simp only [InRange] at h <;> simp only [toIntType] <;> first | omega | (rw [Int.bmod_def]; split <;> omega)

theorem under_native (w : Wrapper) : w.under ∈ natives := by cases w <;> decide

theorem under_range {w : Wrapper} {n : Int} : InRange w.under n ↔ InRange (.wrap w) n := by cases w <;> exact Iff.rfl

theorem limits_range {ty : Ty} {n : Int} (hty : ty ∈ natives) : ((limits ty).1 ≤ n ∧ n ≤ (limits ty).2) ↔ InRange ty n := by
  simp only [natives, List.mem_cons, List.not_mem_nil, or_false] at hty
  rcases hty with rfl | rfl | rfl | rfl | rfl | rfl <;> simp only [limits, InRange] <;> omega

theorem range_small {ty : Ty} {n : Int} (h : InRange ty n) : n.natAbs < 2 ^ 64 := by
  cases ty with
  | wrap w => cases w <;> simp only [InRange] at h <;> omega
  | double => exact h.elim
  | string => exact h.elim
  | _ => simp only [InRange] at h; omega

theorem mem_registered {src dst : Ty} : (src, dst) ∈ registered ↔ Offered src dst := by
  constructor
  · intro h
    have hb : ∀ w, (src, dst) ∈ basicConverters w → Offered src dst := by
      intro w h
      refine ⟨w, ?_⟩
      simp only [basicConverters, List.mem_cons, List.not_mem_nil, or_false, Prod.mk.injEq] at h
      rcases h with h | h | h | h | h | h | h | h | h | h | h | h | h | h | h <;> (obtain ⟨rfl, rfl⟩ := h; simp [natives])
    simp only [registered, List.mem_append] at h
    rcases h with ((((h | h) | h) | h) | h) | h <;> exact hb _ h
  · rintro ⟨w, ⟨rfl, h⟩ | ⟨rfl, h⟩⟩
    · simp only [natives, List.mem_cons, List.not_mem_nil, or_false] at h
      rcases h with (h | h | h | h | h | h) | h | h <;> subst h <;> cases w <;> decide
    · simp only [natives, List.mem_cons, List.not_mem_nil, or_false] at h
      rcases h with (h | h | h | h | h | h) | h <;> subst h <;> cases w <;> decide

theorem convert_to_double {w : Wrapper} (n : Int) : convert (.wrap w) .double (.num n) = some (.ok (.dbl (toDouble n))) := by
  unfold convert
  rw [if_pos (mem_registered.mpr ⟨w, Or.inl ⟨rfl, by simp⟩⟩)]

theorem convert_to_string {w : Wrapper} (n : Int) : convert (.wrap w) .string (.num n) = some (.ok (.text (Json.decimal n))) := by
  unfold convert
  rw [if_pos (mem_registered.mpr ⟨w, Or.inl ⟨rfl, by simp⟩⟩)]

theorem convert_of_double {w : Wrapper} (b : BitVec 64) : convert .double (.wrap w) (.dbl b) = some ((ofDouble w.under b).bind fun n => .ok (.num n)) := by
  unfold convert
  rw [if_pos (mem_registered.mpr ⟨w, Or.inr ⟨rfl, by simp⟩⟩)]

theorem convert_to_native {w : Wrapper} {ty : Ty} (h : ty ∈ natives) (n : Int) : convert (.wrap w) ty (.num n) = some (.ok (.num (toIntType ty n))) := by
  unfold convert
  rw [if_pos (mem_registered.mpr ⟨w, Or.inl ⟨rfl, Or.inl h⟩⟩)]
  simp only [natives, List.mem_cons, List.not_mem_nil, or_false] at h
  rcases h with rfl | rfl | rfl | rfl | rfl | rfl <;> rfl

theorem convert_of_native {w : Wrapper} {ty : Ty} (h : ty ∈ natives) (n : Int) : convert ty (.wrap w) (.num n) = some (.ok (.num (toIntType w.under n))) := by
  unfold convert
  rw [if_pos (mem_registered.mpr ⟨w, Or.inr ⟨rfl, Or.inl h⟩⟩)]
  simp only [natives, List.mem_cons, List.not_mem_nil, or_false] at h
  rcases h with rfl | rfl | rfl | rfl | rfl | rfl <;> rfl

theorem holds_native {ty : Ty} {v : Value} (h : ty ∈ natives) (hv : Holds ty v) : ∃ n, v = .num n ∧ InRange ty n := by
  simp only [natives, List.mem_cons, List.not_mem_nil, or_false] at h
  cases v <;> rcases h with rfl | rfl | rfl | rfl | rfl | rfl <;> first | exact ⟨_, rfl, hv⟩ | exact hv.elim

theorem holds_num {ty : Ty} {n : Int} : Holds ty (.num n) ↔ InRange ty n := by
  cases ty <;> exact Iff.rfl

theorem holds_wrap {w : Wrapper} {v : Value} (hv : Holds (.wrap w) v) : ∃ n, v = .num n ∧ InRange (.wrap w) n := by
  cases v with
  | num n => exact ⟨n, rfl, hv⟩
  | _ => exact hv.elim

theorem mul_one_inj {a b : Int} (h : a * one = b * one) : a = b :=
  Int.eq_of_mul_eq_mul_right (by have := one_pos; omega) h

/-! ### Properties -/

/-- **C75.** There is a conversion exactly between the protobuf number types and the number types of C++, and to text. -/
theorem C75_offered {src dst : Ty} {v : Value} (h : Holds src v) : convert src dst v ≠ none ↔ Offered src dst := by
  constructor
  · intro hc
    apply mem_registered.mp
    apply Decidable.byContradiction
    intro hn
    exact hc (by unfold convert; rw [if_neg hn])
  · rintro ⟨w, ⟨rfl, hd⟩ | ⟨rfl, hd⟩⟩
    · obtain ⟨n, rfl, -⟩ := holds_wrap h
      rcases hd with hd | rfl | rfl
      · rw [convert_to_native hd]; simp
      · rw [convert_to_double]; simp
      · rw [convert_to_string]; simp
    · rcases hd with hd | rfl
      · obtain ⟨n, rfl, -⟩ := holds_native hd h
        rw [convert_of_native hd]; simp
      · cases v with
        | dbl b => rw [convert_of_double]; simp
        | _ => exact h.elim

/-- **C75.** A conversion keeps the number if the target type has a value for it. -/
theorem C75_exact {src dst : Ty} {v : Value} {x : Int} (ho : Offered src dst) (h : Holds src v) (hx : Means v x)
    (ht : ∃ w, Holds dst w ∧ Means w x) : ∃ w, convert src dst v = some (.ok w) ∧ Holds dst w ∧ Means w x := by
  obtain ⟨w, ⟨rfl, hd⟩ | ⟨rfl, hd⟩⟩ := ho
  · obtain ⟨n, rfl, hn⟩ := holds_wrap h
    simp only [Means] at hx
    subst hx
    rcases hd with hd | rfl | rfl
    · obtain ⟨u, hu, hm⟩ := ht
      obtain ⟨n', rfl, hn'⟩ := holds_native hd hu
      simp only [Means] at hm
      rw [← mul_one_inj hm] at hn'
      refine ⟨_, convert_to_native hd n, ?_⟩
      rw [toIntType_id hd hn']
      exact ⟨holds_num.mpr hn', rfl⟩
    · refine ⟨_, convert_to_double n, trivial, ?_⟩
      obtain ⟨u, hu, hm⟩ := ht
      cases u with
      | dbl b =>
        obtain ⟨s, h1, h2⟩ := toDouble_nearest (range_small hn)
        have := h2 _ _ hm
        simp only [Means]
        rw [h1]
        congr 1
        omega
      | num _ => exact hu.elim
      | text _ => exact hu.elim
    · refine ⟨_, convert_to_string n, trivial, n, ?_, rfl⟩
      exact (Json.decimal_spec (by have := range_small hn; omega)).2.1
  · obtain ⟨u, hu, hm⟩ := ht
    obtain ⟨n', rfl, hn'⟩ := holds_wrap hu
    simp only [Means] at hm
    subst hm
    rcases hd with hd | rfl
    · obtain ⟨n, rfl, hn⟩ := holds_native hd h
      simp only [Means] at hx
      rw [mul_one_inj hx] at hn'
      refine ⟨_, convert_of_native hd n, ?_⟩
      rw [toIntType_id (under_native w) (under_range.mpr hn')]
      exact ⟨holds_num.mpr hn', hx⟩
    · cases v with
      | dbl b =>
        refine ⟨.num n', ?_, hn', rfl⟩
        simp only [Means] at hx
        rw [convert_of_double, ofDouble_fin _ hx]
        have hone : ((one : Nat) : Int) ≠ 0 := by have := one_pos; omega
        rw [Int.mul_tdiv_cancel _ hone, if_pos ((limits_range (under_native w)).mpr (under_range.mpr hn'))]
        rfl
      | num _ => exact h.elim
      | text _ => exact h.elim

/-- **C75.** Going to another number type that has a value for the number and back gives the number again. -/
theorem C75_roundtrip {src dst : Ty} {v : Value} {x : Int} (ho : Offered src dst) (ho' : Offered dst src) (h : Holds src v) (hx : Means v x)
    (ht : ∃ w, Holds dst w ∧ Means w x) : ∃ w w', convert src dst v = some (.ok w) ∧ convert dst src w = some (.ok w') ∧ Holds src w' ∧ Means w' x := by
  obtain ⟨w, h1, h2, h3⟩ := C75_exact ho h hx ht
  obtain ⟨w', h4, h5⟩ := C75_exact ho' h2 h3 ⟨v, h, hx⟩
  exact ⟨w, w', h1, h4, h5⟩

/-- The integers up to 2^53 are numbers of `double`. -/
theorem C75_double_has {n : Int} (h : n.natAbs ≤ 2 ^ 53) : ∃ b, Holds .double b ∧ Means b (n * one) := by
  refine ⟨.dbl (toDouble n), trivial, ?_⟩
  simp only [Means]
  by_cases h0 : n = 0
  · subst h0
    rw [Int.zero_mul]
    decide
  · rw [toDouble_number h0 (by omega)]
    have key : mantissa n.natAbs.log2 n.natAbs * 2 ^ (n.natAbs.log2 + 1022) = n.natAbs * one := by
      by_cases hk : n.natAbs.log2 ≤ 52
      · exact round_small hk
      · have e : n.natAbs = 2 ^ 53 := by
          have := Nat.log2_self_le (n := n.natAbs) (by omega)
          have h2 : 2 ^ 53 ≤ 2 ^ n.natAbs.log2 := Nat.pow_le_pow_right (by decide) (by omega)
          omega
        rw [round_large hk, e]
        have hl : Nat.log2 (2 ^ 53) = 53 := Nat.log2_two_pow
        rw [hl, show mantissa 53 (2 ^ 53) = 2 ^ 52 by decide, ← Nat.mul_assoc]
    rw [key, Int.natCast_mul]
    by_cases hn : n < 0
    · have e : (n.natAbs : Int) = -n := by omega
      rw [if_pos hn, e, Int.neg_mul, Int.neg_neg]
    · have e : (n.natAbs : Int) = n := by omega
      rw [if_neg hn, e]

/-- **C75.** A conversion to `double` gives a nearest number. -/
theorem C75_nearest {w : Wrapper} {n : Int} (h : Holds (.wrap w) (.num n)) :
    ∃ b s, convert (.wrap w) .double (.num n) = some (.ok b) ∧ Means b s ∧
      ∀ b' t, Holds .double b' → Means b' t → (s - n * one).natAbs ≤ (t - n * one).natAbs := by
  obtain ⟨s, h1, h2⟩ := toDouble_nearest (range_small (holds_num.mp h))
  refine ⟨_, s, convert_to_double n, h1, ?_⟩
  intro b' t hb ht
  cases b' with
  | dbl b => exact h2 _ _ ht
  | num _ => exact hb.elim
  | text _ => exact hb.elim

/-- **C75.** A conversion from `double` cuts off the fraction: the result is not larger in magnitude, has no other sign, and is less than
one away. -/
theorem C75_fraction {w : Wrapper} {b : BitVec 64} {s n : Int} (h : Means (.dbl b) s) (hn : InRange (.wrap w) n)
    (h1 : (n * one).natAbs ≤ s.natAbs) (h2 : (s - n * one).natAbs < one) :
    convert .double (.wrap w) (.dbl b) = some (.ok (.num n)) := by
  have hq : s.tdiv one = n := by
    have hpos := one_pos
    have a1 : (s.tdiv one).natAbs = s.natAbs / one := by rw [Int.natAbs_tdiv]; rfl
    rcases Int.lt_trichotomy n 0 with hneg | rfl | hp
    · have e : n * one = -((n.natAbs * one : Nat) : Int) := by
        rw [Int.natCast_mul, ← Int.neg_mul]; congr 1; omega
      rw [e] at h1 h2
      have l : one ≤ n.natAbs * one := Nat.le_mul_of_pos_left _ (by omega)
      have hs : s.natAbs / one = n.natAbs := by
        apply Nat.div_eq_of_lt_le
        · omega
        · rw [Nat.succ_mul]; omega
      have hsn : s < 0 := by omega
      have : s.tdiv one ≤ 0 := by
        have e2 : s = -((s.natAbs : Nat) : Int) := by omega
        rw [e2, Int.neg_tdiv, ← Int.ofNat_tdiv]
        omega
      omega
    · rw [Int.zero_mul] at h2
      have : s.natAbs / one = 0 := Nat.div_eq_of_lt (by omega)
      omega
    · have e : n * one = ((n.natAbs * one : Nat) : Int) := by
        rw [Int.natCast_mul]; congr 1; omega
      rw [e] at h1 h2
      have l : one ≤ n.natAbs * one := Nat.le_mul_of_pos_left _ (by omega)
      have hs : s.natAbs / one = n.natAbs := by
        apply Nat.div_eq_of_lt_le
        · omega
        · rw [Nat.succ_mul]; omega
      have : 0 ≤ s.tdiv one := by
        have e2 : s = ((s.natAbs : Nat) : Int) := by omega
        rw [e2, ← Int.ofNat_tdiv]
        omega
      omega
  rw [convert_of_double, ofDouble_fin _ h, hq, if_pos ((limits_range (under_native w)).mpr (under_range.mpr hn))]
  rfl

/-- **C78, negation.** A `double` that is no number, or whose integer part the type does not have, is undefined behaviour. -/
theorem C78_double_violated {w : Wrapper} {b : BitVec 64} (h : ∀ s, Means (.dbl b) s → ¬ InRange (.wrap w) (s.tdiv one)) :
    convert .double (.wrap w) (.dbl b) = some .ub := by
  rw [convert_of_double]
  by_cases hf : ∃ s, number 11 52 b.toNat = .fin s
  · obtain ⟨s, hs⟩ := hf
    rw [ofDouble_fin _ hs, if_neg (fun hc => h s hs (under_range.mp ((limits_range (under_native w)).mp hc)))]
    rfl
  · rw [ofDouble_not_fin _ (fun s hs => hf ⟨s, hs⟩)]
    rfl

/-- **C78, negation.** An integer that the type does not have becomes another one, with no sign of failure: the one that differs by a
multiple of a power of two. -/
theorem C78_wraps_violated {src dst : Ty} {n : Int} (ho : Offered src dst) (h1 : Holds src (.num n)) (h2 : dst ≠ .double) (h3 : dst ≠ .string)
    (h4 : ¬ InRange dst n) : ∃ n', convert src dst (.num n) = some (.ok (.num n')) ∧ InRange dst n' ∧ n' ≠ n ∧ (2 ^ 32 : Int) ∣ n - n' := by
  suffices hs : ∀ {ty : Ty}, ty ∈ natives → ¬ InRange ty n → InRange ty (toIntType ty n) ∧ toIntType ty n ≠ n ∧ (2 ^ 32 : Int) ∣ n - toIntType ty n by
    obtain ⟨w, ⟨rfl, hd⟩ | ⟨rfl, hd⟩⟩ := ho
    · have hd : dst ∈ natives := by
        rcases hd with hd | hd | hd
        · exact hd
        · exact absurd hd h2
        · exact absurd hd h3
      exact ⟨_, convert_to_native hd n, hs hd h4⟩
    · have hd : src ∈ natives := by
        rcases hd with hd | rfl
        · exact hd
        · exact h1.elim
      obtain ⟨a, b⟩ := hs (under_native w) (fun hc => h4 (under_range.mp hc))
      exact ⟨_, convert_of_native hd n, under_range.mp a, b⟩
  intro ty hty hr
  suffices hh : InRange ty (toIntType ty n) ∧ (2 ^ 32 : Int) ∣ n - toIntType ty n from ⟨hh.1, fun hc => hr (by rw [hc] at hh; exact hh.1), hh.2⟩
  simp only [natives, List.mem_cons, List.not_mem_nil, or_false] at hty
  rcases hty with rfl | rfl | rfl | rfl | rfl | rfl <;> simp only [toIntType, InRange] <;>
    first | omega | (rw [Int.bmod_def]; split <;> omega)

/-- **C78, negation.** From 2^53 on integers do not survive the way to `double` and back: 2^53 + 1 comes back as 2^53, and the largest
`fixed64` is undefined behaviour. -/
theorem C78_precision_violated :
    (∃ b, convert (.wrap .int64) .double (.num (2 ^ 53 + 1)) = some (.ok b) ∧ convert .double (.wrap .int64) b = some (.ok (.num (2 ^ 53)))) ∧
    (∃ b, convert (.wrap .fixed64) .double (.num (2 ^ 64 - 1)) = some (.ok b) ∧ convert .double (.wrap .fixed64) b = some .ub) :=
  ⟨⟨.dbl 0x4340000000000000, by decide +kernel, by decide +kernel⟩, ⟨.dbl 0x43f0000000000000, by decide +kernel, by decide +kernel⟩⟩

/-! ### The hypotheses can be met -/

theorem demo_three : Means (.dbl 0x4008000000000000) (3 * one) := by
  show number 11 52 (0x4008000000000000 : BitVec 64).toNat = .fin (3 * one)
  decide +kernel

/-- -2.5 -/
theorem demo_fraction : Means (.dbl 0xc004000000000000) (-5 * 2 ^ 1073) := by
  show number 11 52 (0xc004000000000000 : BitVec 64).toNat = .fin (-5 * 2 ^ 1073)
  decide +kernel

/-- 3.0 to `fixed32` -/
example : Offered .double (.wrap .fixed32) ∧ Offered (.wrap .fixed32) .double ∧ Holds .double (.dbl 0x4008000000000000) ∧
    ∃ w, Holds (.wrap .fixed32) w ∧ Means w (3 * one) :=
  ⟨⟨.fixed32, by simp⟩, ⟨.fixed32, by simp⟩, trivial, .num 3, by rw [holds_num]; simp only [InRange]; omega, rfl⟩

/-- -2.5 to `int32` is -2. -/
example : InRange (.wrap .int32) (-2) ∧ (-2 * (one : Int)).natAbs ≤ (-5 * 2 ^ 1073 : Int).natAbs ∧ ((-5 * 2 ^ 1073 : Int) - -2 * one).natAbs < one ∧
    convert .double (.wrap .int32) (.dbl 0xc004000000000000) = some (.ok (.num (-2))) :=
  ⟨by simp only [InRange]; omega, by decide +kernel, by decide +kernel, by decide +kernel⟩

/-- NaN to `int64` and -2.5 to `fixed32` -/
example : (∀ s, ¬ Means (.dbl 0x7ff8000000000000) s) ∧ ¬ InRange (.wrap .fixed32) ((-5 * 2 ^ 1073 : Int).tdiv one) := by
  constructor
  · intro s h
    have e : number 11 52 (0x7ff8000000000000 : BitVec 64).toNat = .nan := by decide +kernel
    exact absurd (e.symm.trans h) (by simp)
  · have e : (-5 * 2 ^ 1073 : Int).tdiv one = -2 := by decide +kernel
    rw [e]
    simp only [InRange]
    omega

/-- 2^32 to `int32` -/
example : Offered .i64 (.wrap .int32) ∧ Holds .i64 (.num (2 ^ 32)) ∧ ¬ InRange (.wrap .int32) (2 ^ 32) ∧
    convert .i64 (.wrap .int32) (.num (2 ^ 32)) = some (.ok (.num 0)) :=
  ⟨⟨.int32, by simp [natives]⟩, by rw [holds_num]; simp only [InRange]; omega, by simp only [InRange]; omega, by decide +kernel⟩

end QtPb.Convert
