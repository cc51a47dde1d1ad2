import Verif.QuickText
import Verif.PropsConvert
/-
C103: texts assigned to number properties in QML.
-/
namespace QtPb.Convert
open QtPb.Spec
open Spec

/-! ### Specification -/

/-- Qt reads the decimal text of an integer of up to 64 bits as a `double` nearest to it. -/
def Spec.Parses (parse : Bytes → Option (BitVec 64)) : Prop :=
  ∀ t n, decimalValue t = some n → n.natAbs < 2 ^ 64 → ∃ b s, parse t = some b ∧ Means (.dbl b) s ∧
    ∀ b' s', Means (.dbl b') s' → (s - n * one).natAbs ≤ (s' - n * one).natAbs

/-! ### Lemmas -/

theorem assign_of_double {parse : Bytes → Option (BitVec 64)} {w : Wrapper} (hw : w ∈ [Wrapper.int32, .fixed32, .sfixed32]) (t : Bytes) :
    assignText parse w t = some ((ofDouble w.under ((parse t).getD 0)).bind fun n => .ok (.num n)) := by
  unfold assignText coverter
  rw [if_pos (by simpa [textConverters] using hw), convert_of_double]

theorem parse_exact {parse : Bytes → Option (BitVec 64)} (hp : Parses parse) {t : Bytes} {n : Int} (ht : decimalValue t = some n) (h : n.natAbs ≤ 2 ^ 53) :
    ∃ b, parse t = some b ∧ number 11 52 b.toNat = .fin (n * one) := by
  obtain ⟨b, s, h1, h2, h3⟩ := hp t n ht (by omega)
  obtain ⟨v, hv, hm⟩ := C75_double_has h
  cases v with
  | dbl b' =>
    have := h3 b' _ hm
    have e : s = n * one := by omega
    exact ⟨b, h1, e ▸ h2⟩
  | num _ => exact hv.elim
  | text _ => exact hv.elim

/-- A text of a number beyond 2^53 is read as a number beyond 2^53. -/
theorem parse_large {parse : Bytes → Option (BitVec 64)} (hp : Parses parse) {t : Bytes} {n : Int} (ht : decimalValue t = some n) (h : 2 ^ 53 < n.natAbs)
    (h' : n.natAbs < 2 ^ 64) : ∃ b s, parse t = some b ∧ number 11 52 b.toNat = .fin s ∧ (2 ^ 53 * (one : Int) ≤ s ∨ s ≤ -2 ^ 53 * (one : Int)) := by
  obtain ⟨b, s, h1, h2, h3⟩ := hp t n ht h'
  refine ⟨b, s, h1, h2, ?_⟩
  have hone : (0 : Int) < one := by have := one_pos; omega
  have key : ∀ m : Int, m.natAbs ≤ 2 ^ 53 → (s - n * one).natAbs ≤ (m * one - n * one).natAbs := by
    intro m hm
    obtain ⟨v, hv, hmean⟩ := C75_double_has hm
    cases v with
    | dbl b' => exact h3 b' _ hmean
    | num _ => exact hv.elim
    | text _ => exact hv.elim
  by_cases hn : 0 ≤ n
  · left
    have := key (2 ^ 53) (by decide)
    have hle : 2 ^ 53 * (one : Int) ≤ n * one := Int.mul_le_mul_of_nonneg_right (by omega) (by omega)
    omega
  · right
    have := key (-2 ^ 53) (by decide)
    have hle : n * (one : Int) ≤ -2 ^ 53 * one := Int.mul_le_mul_of_nonneg_right (by omega) (by omega)
    omega

theorem range32 {w : Wrapper} (hw : w ∈ [Wrapper.int32, .fixed32, .sfixed32]) {n : Int} (h : InRange (.wrap w) n) : n.natAbs < 2 ^ 32 := by
  simp only [List.mem_cons, List.not_mem_nil, or_false] at hw
  rcases hw with rfl | rfl | rfl <;> simp only [InRange] at h <;> omega

/-! ### Properties -/

/-- **C103, part.** The decimal text of a number of a 32 bit type gives the property that number. -/
theorem C103_exact_partial {parse : Bytes → Option (BitVec 64)} (hp : Parses parse) {w : Wrapper} (hw : w ∈ [Wrapper.int32, .fixed32, .sfixed32])
    {t : Bytes} {n : Int} (ht : decimalValue t = some n) (hn : InRange (.wrap w) n) : assignText parse w t = some (.ok (.num n)) := by
  obtain ⟨b, h1, h2⟩ := parse_exact hp ht (by have := range32 hw hn; omega)
  have hone : ((one : Nat) : Int) ≠ 0 := by have := one_pos; omega
  rw [assign_of_double hw, h1, Option.getD_some, ofDouble_fin _ h2, Int.mul_tdiv_cancel _ hone,
    if_pos ((limits_range (under_native w)).mpr (under_range.mpr hn))]
  rfl

/-- **C103, part.** The text a number of a 32 bit type is converted to gives the number back. -/
theorem C103_back_partial {parse : Bytes → Option (BitVec 64)} (hp : Parses parse) {w : Wrapper} (hw : w ∈ [Wrapper.int32, .fixed32, .sfixed32])
    {v : Value} (hv : Holds (.wrap w) v) :
    ∃ t, convert (.wrap w) .string v = some (.ok (.text t)) ∧ assignText parse w t = some (.ok v) := by
  obtain ⟨n, rfl, hn⟩ := holds_wrap hv
  refine ⟨_, convert_to_string n, C103_exact_partial hp hw ?_ hn⟩
  exact (Json.decimal_spec (by have := range_small hn; omega)).2.1.1

/-- **C103, negation.** The text of an integer that the type does not have is undefined behaviour. -/
theorem C103_range_violated {parse : Bytes → Option (BitVec 64)} (hp : Parses parse) {w : Wrapper} (hw : w ∈ [Wrapper.int32, .fixed32, .sfixed32])
    {t : Bytes} {n : Int} (ht : decimalValue t = some n) (h : n.natAbs < 2 ^ 64) (hn : ¬ InRange (.wrap w) n) : assignText parse w t = some .ub := by
  have hone : (0 : Int) < one := by have := one_pos; omega
  rw [assign_of_double hw]
  by_cases hs : n.natAbs ≤ 2 ^ 53
  · obtain ⟨b, h1, h2⟩ := parse_exact hp ht hs
    rw [h1, Option.getD_some, ofDouble_fin _ h2, Int.mul_tdiv_cancel _ (by omega),
      if_neg (fun hc => hn (under_range.mp ((limits_range (under_native w)).mp hc)))]
    rfl
  · obtain ⟨b, s, h1, h2, h3⟩ := parse_large hp ht (by omega) h
    rw [h1, Option.getD_some, ofDouble_fin _ h2, if_neg]
    · rfl
    · intro hc
      have hr := range32 hw (under_range.mp ((limits_range (under_native w)).mp hc))
      rcases h3 with h3 | h3
      · have : (2 : Int) ^ 53 ≤ s.tdiv one := by
          rw [Int.tdiv_eq_ediv_of_nonneg (by have : (0 : Int) ≤ 2 ^ 53 * one := Int.mul_nonneg (by decide) (by omega); omega)]
          exact (Int.le_ediv_iff_mul_le hone).mpr h3
        omega
      · have : (2 : Int) ^ 53 ≤ (-s).tdiv one := by
          have h4 : 2 ^ 53 * (one : Int) ≤ -s := by rw [Int.neg_mul] at h3; omega
          rw [Int.tdiv_eq_ediv_of_nonneg (by have : (0 : Int) ≤ 2 ^ 53 * one := Int.mul_nonneg (by decide) (by omega); omega)]
          exact (Int.le_ediv_iff_mul_le hone).mpr h4
        rw [Int.neg_tdiv] at this
        omega

/-- **C103, negation.** A text that is no number is not refused. It gives the property the number 0. -/
theorem C103_junk_violated {parse : Bytes → Option (BitVec 64)} {w : Wrapper} (hw : w ∈ [Wrapper.int32, .fixed32, .sfixed32])
    {t : Bytes} (ht : parse t = none) : assignText parse w t = some (.ok (.num 0)) := by
  rw [assign_of_double hw, ht]
  simp only [List.mem_cons, List.not_mem_nil, or_false] at hw
  rcases hw with rfl | rfl | rfl <;> decide +kernel

/-- **C103, negation.** No text can be assigned to a property of a 64 bit type. -/
theorem C103_missing_violated (parse : Bytes → Option (BitVec 64)) {w : Wrapper} (hw : w ∈ [Wrapper.int64, .fixed64, .sfixed64]) (t : Bytes) :
    assignText parse w t = none := by
  simp only [List.mem_cons, List.not_mem_nil, or_false] at hw
  rcases hw with rfl | rfl | rfl <;> rfl

/-! ### The hypotheses can be met -/

/-- A reader of texts. -/
def demoParse (t : Bytes) : Option (BitVec 64) :=
  match decimalValue t with
  | some n => if n.natAbs < 2 ^ 64 then some (toDouble n) else none
  | none => none

theorem demoParses : Parses demoParse := by
  intro t n h hn
  obtain ⟨s, h1, h2⟩ := toDouble_nearest hn
  exact ⟨toDouble n, s, by simp only [demoParse, h]; rw [if_pos hn], h1, fun b' s' h' => h2 _ _ h'⟩

/-- "-17" to `sfixed32`, "4294967296" to `fixed32` and "many" to `int32` -/
example : decimalValue "-17".toUTF8.toList = some (-17) ∧ InRange (.wrap .sfixed32) (-17) ∧
    decimalValue "4294967296".toUTF8.toList = some 4294967296 ∧ ¬ InRange (.wrap .fixed32) 4294967296 ∧ demoParse "many".toUTF8.toList = none :=
  ⟨by decide +kernel, by simp only [InRange]; omega, by decide +kernel, by simp only [InRange]; omega, by decide +kernel⟩

end QtPb.Convert
