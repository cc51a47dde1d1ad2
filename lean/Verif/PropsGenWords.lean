import Verif.SpecMembers
import Verif.SpecClient
import Verif.NameLemmas
/-
C62: the names in generated code are not words of C++.
-/
namespace QtPb.Gen
open Spec

/-! ### Lemmas -/

theorem upper_not_lower (c : Char) : c.toUpper.isLower = false := by
  unfold Char.toUpper
  simp only [Char.isLower]
  split
  · rename_i h
    have h1 : 97 ≤ c.val.toNat ∧ c.val.toNat ≤ 122 := h
    have e : ('A'.val - 'a'.val).toNat = 4294967264 := by decide
    have hv : (c.val + ('A'.val - 'a'.val)).toNat = c.val.toNat - 32 := by
      rw [UInt32.toNat_add, e]
      omega
    simp only [ge_iff_le, decide_eq_false_iff_not, UInt32.le_iff_toNat_le, Bool.and_eq_false_imp, decide_eq_true_eq, hv]
    have ea : 'a'.val.toNat = 97 := by decide
    have ez : 'z'.val.toNat = 122 := by decide
    omega
  · rename_i h
    simpa using h

theorem keyword_head {s : Str} (h : s ∈ keywords) : ∃ c r, s = c :: r ∧ c.isLower = true := by
  have : ∀ s ∈ keywords, (match s with | c :: _ => c.isLower | [] => false) = true := by decide +kernel
  have := this s h
  cases s with
  | nil => simp at this
  | cons c r => exact ⟨c, r, rfl, this⟩

theorem upper_not_keyword (s r : Str) (hs : s ≠ []) : upperCaseName s ++ r ∉ keywords := by
  intro h
  obtain ⟨c, t, e, hc⟩ := keyword_head h
  cases s with
  | nil => exact hs rfl
  | cons d s =>
    simp only [upperCaseName, List.cons_append, List.cons.injEq] at e
    rw [← e.1, upper_not_lower] at hc
    cases hc

theorem no_prefix {p : Str} (hp : ∀ k ∈ keywords, p.isPrefixOf k = false) (s : Str) : p ++ s ∉ keywords := by
  intro h
  have := hp _ h
  rw [List.isPrefixOf_iff_prefix.mpr (List.prefix_append p s)] at this
  cases this

theorem no_suffix {p : Str} (hp : ∀ k ∈ keywords, p.isSuffixOf k = false) (s : Str) : s ++ p ∉ keywords := by
  intro h
  have := hp _ h
  rw [List.isSuffixOf_iff_suffix.mpr (List.suffix_append s p)] at this
  cases this

/-! ### Properties -/

/-- No class of a message or client, namespace of nested messages, enumeration or constant is a word of C++. -/
theorem C62_capital (s : Str) (h : s ≠ []) :
    upperCaseName s ∉ keywords ∧ upperCaseName s ++ kRepeated ∉ keywords ∧ nestedNs s ∉ keywords ∧ upperCaseName s ++ kGadget ∉ keywords ∧
      upperCaseName s ++ kFieldNumber ∉ keywords ∧ upperCaseName s ++ kClientClass ∉ keywords := by
  have := upper_not_keyword s
  exact ⟨by simpa using this [] h, this _ h, this _ h, this _ h, this _ h, this _ h⟩

/-- No method of a field other than the getter, and no data member, is a word of C++. -/
theorem C62_methods {qml : Bool} {package : List Str} {f : FieldD} {m : Method} (hm : m ∈ fieldMethods qml package f) :
    m.name = f.prop ∨ m.name ∉ keywords := by
  have h1 := no_suffix (p := kL) (by decide +kernel) f.prop
  have h2 := no_prefix (p := kSet) (by decide +kernel) (upperCaseName f.prop)
  have h3 := no_suffix (p := kChanged) (by decide +kernel) f.prop
  have h4 := no_suffix (p := kP) (by decide +kernel) f.prop
  have h5 := no_suffix (p := kP) (by decide +kernel) f.setter
  simp only [fieldMethods, List.mem_append, List.mem_singleton] at hm
  rcases hm with ((((rfl | hm) | rfl) | rfl) | hm) | hm
  · exact Or.inl rfl
  · split at hm
    · simp only [List.mem_append, List.mem_singleton] at hm
      rcases hm with rfl | hm
      · exact Or.inl rfl
      · split at hm
        · simp only [List.mem_singleton] at hm
          subst hm
          exact Or.inr h1
        · simp at hm
    · simp at hm
  · exact Or.inr h2
  · exact Or.inr h3
  · split at hm
    · simp only [List.mem_cons, List.not_mem_nil, or_false] at hm
      rcases hm with rfl | rfl
      · exact Or.inr h4
      · exact Or.inr h5
    · simp at hm
  · split at hm
    · simp only [List.mem_cons, List.not_mem_nil, or_false] at hm
      rcases hm with rfl | rfl
      · exact Or.inr h4
      · exact Or.inr h5
    · simp at hm

theorem C62_member (f : FieldD) : f.member ∉ keywords := no_prefix (p := kM) (by decide +kernel) f.prop

/-- The getter of a field (and the parameter of constructors and setters) is a word of C++ exactly if the field is called so. -/
theorem C62_getter_partial {f : FieldD} (h : Named f) : f.prop ∈ keywords ↔ f.camel ∈ keywords := by
  have hk : ∀ k ∈ keywords, qualifiedName k = k := by decide +kernel
  rw [FieldD.prop, lowerCase_eq h.lower]
  constructor
  · intro hq
    rcases qualified_cases f.camel with e | e
    · rwa [e] at hq
    · rw [e] at hq
      exact absurd hq (no_suffix (p := kProto) (by decide +kernel) f.camel)
  · intro hc
    rwa [hk _ hc]

/-- A function for a method of a service is a word of C++ exactly if the method is called so and is not a stream. -/
theorem C62_function_partial (m : MethodD) : functionName m ∈ keywords ↔ m.serverStreaming = false ∧ m.name ∈ keywords := by
  unfold functionName
  cases m.serverStreaming with
  | false => simp
  | true =>
    have := no_prefix (p := ['s', 't', 'r', 'e', 'a', 'm']) (by decide +kernel) (upperCaseName m.name)
    simpa using this

/-- message M { int32 class = 1; }: the getter is called "class". -/
theorem C62_getter_violated : ∃ fields : List FieldD, ValidFields fields ∧ ∀ qml package, ∃ m ∈ methods qml package fields, m.name ∈ keywords := by
  refine ⟨[⟨['c', 'l', 'a', 's', 's'], [], 1, .int32, false, false, none, none⟩], ⟨by decide, by decide, by decide, by decide, by simp⟩, fun qml package => ?_⟩
  refine ⟨⟨['c', 'l', 'a', 's', 's'], 0, .get (kM ++ ['c', 'l', 'a', 's', 's'])⟩, ?_, by decide +kernel⟩
  exact List.mem_flatMap.mpr ⟨_, List.mem_singleton.mpr rfl, List.mem_append_left _ (List.mem_append_left _ (List.mem_append_left _
    (List.mem_append_left _ (List.mem_append_left _ (List.mem_singleton.mpr rfl)))))⟩

/-- service S { rpc delete(M) returns (M); }: the functions of the client are called "delete". -/
theorem C62_function_violated : ∃ s : ServiceD, ∀ qml, ∀ d ∈ declaredMethods qml s, d.name ∈ keywords := by
  refine ⟨⟨['S'], [⟨['d', 'e', 'l', 'e', 't', 'e'], [['M']], [['M']], false, false⟩]⟩, fun qml => ?_⟩
  cases qml <;> decide +kernel

/-- package a.default: the namespace is a word of C++. -/
theorem C62_package_violated : ∃ package : List Str, ∀ extra, ∃ n ∈ fileNs extra package, n ∈ keywords :=
  ⟨[['a'], ['d', 'e', 'f', 'a', 'u', 'l', 't']], fun extra => ⟨['d', 'e', 'f', 'a', 'u', 'l', 't'], by simp [fileNs], by decide +kernel⟩⟩

theorem upper_char {c : Char} (h : c.isAlphanum = true ∨ c = '_') : c.toUpper.isAlphanum = true ∨ c.toUpper = '_' := by
  by_cases hl : 'a'.val ≤ c.val ∧ c.val ≤ 'z'.val
  · left
    have h1 : 97 ≤ c.val.toNat ∧ c.val.toNat ≤ 122 := hl
    have e : ('A'.val - 'a'.val).toNat = 4294967264 := by decide
    have hv : (c.val + ('A'.val - 'a'.val)).toNat = c.val.toNat - 32 := by
      rw [UInt32.toNat_add, e]
      omega
    have ea : 'A'.val.toNat = 65 := by decide
    have ez : 'Z'.val.toNat = 90 := by decide
    have : c.toUpper.isUpper = true := by
      unfold Char.toUpper
      rw [dif_pos hl]
      simp only [Char.isUpper, ge_iff_le, UInt32.le_iff_toNat_le, decide_eq_true_eq, hv]
      omega
    simp [Char.isAlphanum, Char.isAlpha, this]
  · have : c.toUpper = c := by
      unfold Char.toUpper
      rw [dif_neg hl]
    rwa [this]

theorem upper_digit {c : Char} : c.toUpper.isDigit = c.isDigit := by
  by_cases hl : 'a'.val ≤ c.val ∧ c.val ≤ 'z'.val
  · have h1 : 97 ≤ c.val.toNat ∧ c.val.toNat ≤ 122 := hl
    have e : ('A'.val - 'a'.val).toNat = 4294967264 := by decide
    have hv : (c.val + ('A'.val - 'a'.val)).toNat = c.val.toNat - 32 := by
      rw [UInt32.toNat_add, e]
      omega
    have ea : '0'.val.toNat = 48 := by decide
    have ez : '9'.val.toNat = 57 := by decide
    unfold Char.toUpper
    rw [dif_pos hl]
    simp only [Char.isDigit, ge_iff_le, UInt32.le_iff_toNat_le, hv]
    rw [Bool.eq_iff_iff]
    simp only [Bool.and_eq_true, decide_eq_true_eq]
    omega
  · have : c.toUpper = c := by
      unfold Char.toUpper
      rw [dif_neg hl]
    rw [this]

/-- Capitalising an identifier, and putting letters after it, gives an identifier. -/
theorem C62_capital_identifier {s r : Str} (h : Identifier s) (hr : ∀ c ∈ r, c.isAlphanum = true ∨ c = '_') : Identifier (upperCaseName s ++ r) := by
  obtain ⟨hne, hall, hhead⟩ := h
  cases s with
  | nil => exact absurd rfl hne
  | cons c s =>
    refine ⟨by simp [upperCaseName], ?_, ?_⟩
    · intro d hd
      simp only [upperCaseName, List.cons_append, List.mem_cons, List.mem_append] at hd
      rcases hd with rfl | hd | hd
      · exact upper_char (hall c (by simp))
      · exact hall d (by simp [hd])
      · exact hr d hd
    · intro d hd
      simp only [upperCaseName, List.cons_append, List.head?_cons, Option.some.injEq] at hd
      rw [← hd, upper_digit]
      exact hhead c rfl

/-- The getter of a field is an identifier exactly if its name in camel case does not start with a digit. -/
theorem C62_getter_identifier_partial {f : FieldD} (h : Named f) (hall : ∀ c ∈ f.camel, c.isAlphanum = true) :
    Identifier f.prop ↔ ∀ c, f.camel.head? = some c → c.isDigit = false := by
  have hhead : f.prop.head? = f.camel.head? := by
    have hne := h.nonempty
    rcases prop_cases h with e | e <;> rw [e]
    cases hc : f.camel with
    | nil => exact absurd hc hne
    | cons a b => rfl
  constructor
  · rintro ⟨-, -, hd⟩ c hc
    exact hd c (by rw [hhead, hc])
  · intro hd
    refine ⟨?_, ?_, fun c hc => hd c (by rw [← hhead, hc])⟩
    · rcases prop_cases h with e | e <;> rw [e]
      · exact h.nonempty
      · simp [kProto]
    · intro c hc
      rcases prop_cases h with e | e <;> rw [e] at hc
      · exact Or.inl (hall c hc)
      · rcases List.mem_append.mp hc with hc | hc
        · exact Or.inl (hall c hc)
        · have hk : ∀ c ∈ kProto, c.isAlphanum = true ∨ c = '_' := by decide
          exact hk c hc

/-- message M { int32 _1 = 1; }: protoc's name of the field in camel case is "1", and so is the name of the getter. -/
theorem C62_digit_violated : ∃ fields : List FieldD, ValidFields fields ∧ ∀ qml package, ∃ m ∈ methods qml package fields, ¬ Identifier m.name := by
  refine ⟨[⟨['1'], [], 1, .int32, false, false, none, none⟩], ⟨by decide, by decide, by decide, by decide, by simp⟩, fun qml package => ?_⟩
  refine ⟨⟨['1'], 0, .get (kM ++ ['1'])⟩, ?_, fun h => absurd (h.2.2 '1' rfl) (by decide)⟩
  exact List.mem_flatMap.mpr ⟨_, List.mem_singleton.mpr rfl, List.mem_append_left _ (List.mem_append_left _ (List.mem_append_left _
    (List.mem_append_left _ (List.mem_append_left _ (List.mem_singleton.mpr rfl)))))⟩

/-! A message with fields `name` and `id`: the hypotheses hold and no method is a word of C++. -/

example : ∀ f ∈ [(⟨['n', 'a', 'm', 'e'], [], 1, .int32, false, false, none, none⟩ : FieldD), ⟨['i', 'd'], [], 2, .message, true, false, some [['p'], ['M']], none⟩],
    Named f ∧ ∀ qml, ∀ m ∈ fieldMethods qml [['p']] f, m.name ∉ keywords := by
  intro f hf
  have hn : Named f := by
    simp only [List.mem_cons, List.not_mem_nil, or_false] at hf
    rcases hf with rfl | rfl <;> exact ⟨by decide, by decide, by simp⟩
  refine ⟨hn, fun qml m hm => ?_⟩
  rcases C62_methods hm with e | h
  · rw [e, C62_getter_partial hn]
    simp only [List.mem_cons, List.not_mem_nil, or_false] at hf
    rcases hf with rfl | rfl <;> decide +kernel
  · exact h

end QtPb.Gen
