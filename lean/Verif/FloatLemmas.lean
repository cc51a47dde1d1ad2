import Verif.SpecFloat
/-
The model's comparison of floating point numbers agrees with their IEEE interpretation.
-/
namespace QtPb
open Spec

/-- Magnitude of a finite number. -/
def mag (f ex frac : Nat) : Nat := if ex = 0 then frac else (2 ^ f + frac) * 2 ^ (ex - 1)

theorem mag_lt {f e e' a a' : Nat} (ha : a < 2 ^ f) (h : e < e') : mag f e a < mag f e' a' := by
  have h1 : e' ≠ 0 := by omega
  simp only [mag, h1, if_false]
  have hp : 2 ^ f ≤ (2 ^ f + a') * 2 ^ (e' - 1) := by
    calc 2 ^ f ≤ 2 ^ f + a' := Nat.le_add_right _ _
      _ ≤ (2 ^ f + a') * 2 ^ (e' - 1) := Nat.le_mul_of_pos_right _ (Nat.two_pow_pos _)
  split
  · omega
  · rename_i h0
    calc (2 ^ f + a) * 2 ^ (e - 1) < (2 ^ f + 2 ^ f) * 2 ^ (e - 1) :=
          Nat.mul_lt_mul_of_pos_right (by omega) (Nat.two_pow_pos _)
      _ = 2 ^ f * 2 ^ e := by
          obtain ⟨d, rfl⟩ : ∃ d, e = d + 1 := ⟨e - 1, by omega⟩
          rw [Nat.add_sub_cancel, Nat.pow_succ, ← Nat.two_mul]; ac_rfl
      _ ≤ 2 ^ f * 2 ^ (e' - 1) := Nat.mul_le_mul_left _ (Nat.pow_le_pow_right (by omega) (by omega))
      _ ≤ (2 ^ f + a') * 2 ^ (e' - 1) := Nat.mul_le_mul_right _ (Nat.le_add_right _ _)

theorem mag_inj {f e e' a a' : Nat} (ha : a < 2 ^ f) (ha' : a' < 2 ^ f) (h : mag f e a = mag f e' a') :
    e = e' ∧ a = a' := by
  rcases Nat.lt_trichotomy e e' with hlt | heq | hlt
  · have := mag_lt (a' := a') ha hlt; omega
  · subst heq
    refine ⟨rfl, ?_⟩
    simp only [mag] at h
    split at h
    · exact h
    · have := Nat.eq_of_mul_eq_mul_right (Nat.two_pow_pos _) h; omega
  · have := mag_lt (a' := a) ha' hlt; omega

theorem mag_zero {f e a : Nat} : mag f e a = 0 ↔ e = 0 ∧ a = 0 := by
  have h1 := Nat.two_pow_pos f
  have h2 := Nat.two_pow_pos (e - 1)
  simp only [mag]
  split
  · rename_i h; simp [h]
  · rename_i h
    simp only [Nat.mul_eq_zero, h, false_and, iff_false]
    omega

/-- Exponent, fraction and sign determine the pattern. -/
theorem parts_eq {e f x y : Nat} (hx : x < 2 ^ (e + f + 1)) (hy : y < 2 ^ (e + f + 1))
    (h1 : x / 2 ^ (e + f) % 2 = y / 2 ^ (e + f) % 2) (h2 : x / 2 ^ f % 2 ^ e = y / 2 ^ f % 2 ^ e)
    (h3 : x % 2 ^ f = y % 2 ^ f) : x = y := by
  have hlow : ∀ z : Nat, z % 2 ^ (e + f) = z / 2 ^ f % 2 ^ e * 2 ^ f + z % 2 ^ f := by
    intro z
    rw [Nat.add_comm e f, Nat.pow_add, Nat.mod_mul, Nat.add_comm, Nat.mul_comm]
  have hhigh : ∀ z : Nat, z < 2 ^ (e + f + 1) → z / 2 ^ (e + f) % 2 = z / 2 ^ (e + f) := by
    intro z hz
    apply Nat.mod_eq_of_lt
    rw [Nat.div_lt_iff_lt_mul (Nat.two_pow_pos _)]
    rw [Nat.pow_succ] at hz; omega
  rw [hhigh x hx, hhigh y hy] at h1
  have hm : x % 2 ^ (e + f) = y % 2 ^ (e + f) := by rw [hlow, hlow, h2, h3]
  rw [← Nat.div_add_mod x (2 ^ (e + f)), ← Nat.div_add_mod y (2 ^ (e + f)), h1, hm]

theorem number_def (e f x : Nat) : number e f x =
    if x / 2 ^ f % 2 ^ e = 2 ^ e - 1 then
      if x % 2 ^ f = 0 then .inf (x / 2 ^ (e + f) % 2 = 1) else .nan
    else .fin (if x / 2 ^ (e + f) % 2 = 1 then -(mag f (x / 2 ^ f % 2 ^ e) (x % 2 ^ f) : Int)
      else (mag f (x / 2 ^ f % 2 ^ e) (x % 2 ^ f) : Int)) := rfl

/-- Two patterns that are not NaN stand for the same number exactly when they are equal or both zero. -/
theorem number_eq {e f x y : Nat} (he : 1 ≤ e) (hx : x < 2 ^ (e + f + 1)) (hy : y < 2 ^ (e + f + 1)) :
    (number e f x ≠ .nan ∧ number e f x = number e f y) ↔
    (number e f x ≠ .nan ∧ number e f y ≠ .nan ∧
      (x = y ∨ (x % 2 ^ (e + f) = 0 ∧ y % 2 ^ (e + f) = 0))) := by
  have hlow : ∀ z : Nat, z % 2 ^ (e + f) = 0 ↔ z / 2 ^ f % 2 ^ e = 0 ∧ z % 2 ^ f = 0 := by
    intro z
    rw [Nat.add_comm e f, Nat.pow_add, Nat.mod_mul]
    have := Nat.two_pow_pos f
    simp [Nat.mul_eq_zero]
    omega
  have hE : 2 ^ e - 1 ≠ 0 := by
    have : 2 ^ 1 ≤ 2 ^ e := Nat.pow_le_pow_right (by omega) he
    omega
  have hs : ∀ z : Nat, z / 2 ^ (e + f) % 2 = 0 ∨ z / 2 ^ (e + f) % 2 = 1 := fun z => by omega
  have hfx := Nat.mod_lt x (Nat.two_pow_pos f)
  have hfy := Nat.mod_lt y (Nat.two_pow_pos f)
  constructor
  · rintro ⟨h1, h2⟩
    refine ⟨h1, h2 ▸ h1, ?_⟩
    rw [number_def, number_def] at h2
    rw [number_def] at h1
    split at h2
    · rename_i hex
      rw [if_pos hex] at h1
      split at h2
      · rename_i hfr
        split at h2
        · rename_i hey
          split at h2
          · rename_i hfr'
            left
            refine parts_eq hx hy ?_ (hex.trans hey.symm) (hfr.trans hfr'.symm)
            have h3 := Number.inf.inj h2
            rcases hs x with h | h <;> rcases hs y with h' | h' <;> simp [h, h'] at h3 ⊢
          · exact absurd h2 (by simp)
        · exact absurd h2 (by simp)
      · rename_i hfr; rw [if_neg hfr] at h1; exact absurd rfl h1
    · rename_i hex
      by_cases hey : y / 2 ^ f % 2 ^ e = 2 ^ e - 1
      · rw [if_pos hey] at h2
        by_cases hfy0 : y % 2 ^ f = 0
        · rw [if_pos hfy0] at h2; exact absurd h2 (by simp)
        · rw [if_neg hfy0] at h2; exact absurd h2 (by simp)
      · rw [if_neg hey] at h2
        have h3 := Number.fin.inj h2
        generalize hA : mag f (x / 2 ^ f % 2 ^ e) (x % 2 ^ f) = A at h3
        generalize hB : mag f (y / 2 ^ f % 2 ^ e) (y % 2 ^ f) = B at h3
        have hab : A = B := by split at h3 <;> split at h3 <;> omega
        by_cases hz : A = 0
        · right
          rw [hlow, hlow]
          exact ⟨mag_zero.mp (hA.trans hz), mag_zero.mp (hB.trans (hab ▸ hz))⟩
        · left
          have := mag_inj hfx hfy (hA.trans (hab.trans hB.symm))
          refine parts_eq hx hy ?_ this.1 this.2
          rcases hs x with h | h <;> rcases hs y with h' | h' <;> simp [h, h'] at h3 ⊢ <;> omega
  · rintro ⟨h1, -, rfl | ⟨h3, h4⟩⟩
    · exact ⟨h1, rfl⟩
    · refine ⟨h1, ?_⟩
      obtain ⟨h5, h6⟩ := (hlow x).mp h3
      obtain ⟨h7, h8⟩ := (hlow y).mp h4
      have hzero : mag f 0 0 = 0 := rfl
      rw [number_def, number_def, h5, h6, h7, h8, if_neg (Ne.symm hE), if_neg (Ne.symm hE), hzero]
      simp

theorem isNaN32_iff (b : BitVec 32) : isNaN32 b = false ↔ number 8 23 b.toNat ≠ .nan := by
  have := b.isLt
  have h1 : isNaN32 b = false ↔ ¬ b.toNat % 2 ^ 31 > 0x7f800000 := by simp [isNaN32]
  rw [h1, number_def]
  split
  · split <;> simp <;> omega
  · simp; omega

theorem isNaN64_iff (b : BitVec 64) : isNaN64 b = false ↔ number 11 52 b.toNat ≠ .nan := by
  have := b.isLt
  have h1 : isNaN64 b = false ↔ ¬ b.toNat % 2 ^ 63 > 0x7ff0000000000000 := by simp [isNaN64]
  rw [h1, number_def]
  split
  · split <;> simp <;> omega
  · simp; omega

theorem f32Eq_iff (a b : BitVec 32) : f32Eq a b = true ↔
    number 8 23 a.toNat ≠ .nan ∧ number 8 23 a.toNat = number 8 23 b.toNat := by
  rw [number_eq (by omega) a.isLt b.isLt, ← isNaN32_iff, ← isNaN32_iff]
  simp [f32Eq, BitVec.toNat_eq, and_assoc]

theorem f64Eq_iff (a b : BitVec 64) : f64Eq a b = true ↔
    number 11 52 a.toNat ≠ .nan ∧ number 11 52 a.toNat = number 11 52 b.toNat := by
  rw [number_eq (by omega) a.isLt b.isLt, ← isNaN64_iff, ← isNaN64_iff]
  simp [f64Eq, BitVec.toNat_eq, and_assoc]

theorem scalarEq_iff (k : Kind) (a b : Scalar) : scalarEq k a b = true ↔ scalarSame k a b := by
  cases k <;> cases a <;> cases b <;> simp [scalarEq, scalarSame, f32Eq_iff, f64Eq_iff]

end QtPb
