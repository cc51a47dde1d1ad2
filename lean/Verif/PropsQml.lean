import Verif.SpecQml
import Verif.NameLemmas
import Verif.PropsGenNames
/-
C84: the types of generated code in QML.
-/
namespace QtPb.Gen
open Spec

/-! ### Lemmas -/

theorem gnsDot (l : List Str) : getNamespacesString ['.'] l = joined ['.'] l := by
  unfold getNamespacesString
  cases l with
  | nil => rfl
  | cons a l =>
    simp only [joined_concat (l := a :: l) (by simp)]
    rw [if_neg (by simp)]
    simp

instance (s : Str) : Decidable (QmlWord s) :=
  match s with
  | [] => isFalse fun h => h.1 rfl
  | c :: r =>
    decidable_of_iff ((∀ d ∈ c :: r, d.isAlphanum = true ∨ d = '_') ∧ c.isDigit = false)
      ⟨fun h => ⟨by simp, h.1, fun d t e => by cases e; exact h.2⟩, fun h => ⟨h.2.1, h.2.2 _ _ rfl⟩⟩

theorem word_noDot {s : Str} (h : QmlWord s) : s ≠ [] ∧ '.' ∉ s := by
  refine ⟨h.1, fun hm => ?_⟩
  have := h.2.1 _ hm
  revert this
  decide

theorem word_ident {s : Str} (h : QmlWord s) : Ident s := by
  refine ⟨h.1, (word_noDot h).2, fun hm => ?_⟩
  have := h.2.1 _ hm
  revert this
  decide

/-- Cutting a text made of words at a dot. -/
theorem joined_cut : ∀ (parts : List Str), (∀ p ∈ parts, '.' ∉ p) → ∀ (a b : Str), joined ['.'] parts = a ++ '.' :: b →
    ∃ l r, parts = l ++ r ∧ l ≠ [] ∧ r ≠ [] ∧ a = joined ['.'] l ∧ b = joined ['.'] r
  | [], _, a, b, h => by simp [joined] at h
  | [p], hp, a, b, h => by
    exfalso
    refine hp p (by simp) ?_
    rw [show p = a ++ '.' :: b from h]
    simp
  | p :: q :: l, hp, a, b, h => by
    have hpd := hp p (by simp)
    have h' : p ++ '.' :: joined ['.'] (q :: l) = a ++ '.' :: b := by
      rw [joined] at h
      simpa using h
    rcases List.append_eq_append_iff.mp h' with ⟨w, h1, h2⟩ | ⟨w, h1, h2⟩
    · cases w with
      | nil =>
        refine ⟨[p], q :: l, rfl, by simp, by simp, by simpa [joined] using h1, ?_⟩
        simpa using h2.symm
      | cons c w =>
        rw [List.cons_append, List.cons.injEq] at h2
        obtain ⟨rfl, h2⟩ := h2
        obtain ⟨l1, r1, e1, n1, n2, e2, e3⟩ := joined_cut (q :: l) (fun x hx => hp x (by simp [hx])) w b h2
        refine ⟨p :: l1, r1, by rw [e1]; rfl, by simp, n2, ?_, e3⟩
        rw [joined_cons n1, h1, e2]
        simp
    · cases w with
      | nil =>
        refine ⟨[p], q :: l, rfl, by simp, by simp, by simpa [joined] using h1.symm, ?_⟩
        simpa using h2
      | cons c w =>
        exfalso
        rw [List.cons_append, List.cons.injEq] at h2
        refine hpd ?_
        rw [h1, ← h2.1]
        simp

theorem joinedDot_inj {a b : List Str} (ha : ∀ p ∈ a, QmlWord p) (hb : ∀ p ∈ b, QmlWord p)
    (h : joined ['.'] a = joined ['.'] b) : a = b := by
  have h1 := split_joined (d := '.') a (fun p hp => word_noDot (ha p hp))
  have h2 := split_joined (d := '.') b (fun p hp => word_noDot (hb p hp))
  rw [← h1, ← h2, h]

/-- What `toUpper` does to the code of a character. -/
theorem toUpper_val (x : Char) : x.toUpper.val.toNat = if 97 ≤ x.val.toNat ∧ x.val.toNat ≤ 122 then x.val.toNat - 32 else x.val.toNat := by
  unfold Char.toUpper
  by_cases hl : 'a'.val ≤ x.val ∧ x.val ≤ 'z'.val
  · have h1 : 97 ≤ x.val.toNat ∧ x.val.toNat ≤ 122 := hl
    have e : ('A'.val - 'a'.val).toNat = 4294967264 := by decide
    rw [dif_pos hl, if_pos h1]
    show (x.val + ('A'.val - 'a'.val)).toNat = _
    rw [UInt32.toNat_add, e]
    omega
  · have h1 : ¬ (97 ≤ x.val.toNat ∧ x.val.toNat ≤ 122) := hl
    rw [dif_neg hl, if_neg h1]

/-- What `toLower` does to the code of a character. -/
theorem toLower_val (x : Char) : x.toLower.val.toNat = if 65 ≤ x.val.toNat ∧ x.val.toNat ≤ 90 then x.val.toNat + 32 else x.val.toNat := by
  unfold Char.toLower
  by_cases hl : 'A'.val ≤ x.val ∧ x.val ≤ 'Z'.val
  · have h1 : 65 ≤ x.val.toNat ∧ x.val.toNat ≤ 90 := hl
    have e : ('a'.val - 'A'.val).toNat = 32 := by decide
    rw [dif_pos hl, if_pos h1]
    show (x.val + ('a'.val - 'A'.val)).toNat = _
    rw [UInt32.toNat_add, e]
    omega
  · have h1 : ¬ (65 ≤ x.val.toNat ∧ x.val.toNat ≤ 90) := hl
    rw [dif_neg hl, if_neg h1]

theorem isUpper_val (x : Char) : x.isUpper = true ↔ 65 ≤ x.val.toNat ∧ x.val.toNat ≤ 90 := by
  have ea : 'A'.val.toNat = 65 := by decide
  have ez : 'Z'.val.toNat = 90 := by decide
  simp only [Char.isUpper, ge_iff_le, UInt32.le_iff_toNat_le, decide_eq_true_eq, ea, ez]

theorem isLower_val (x : Char) : x.isLower = true ↔ 97 ≤ x.val.toNat ∧ x.val.toNat ≤ 122 := by
  have ea : 'a'.val.toNat = 97 := by decide
  have ez : 'z'.val.toNat = 122 := by decide
  simp only [Char.isLower, ge_iff_le, UInt32.le_iff_toNat_le, Bool.and_eq_true, decide_eq_true_eq, ea, ez]

theorem isAlpha_val (x : Char) :
    x.isAlpha = true ↔ (65 ≤ x.val.toNat ∧ x.val.toNat ≤ 90) ∨ (97 ≤ x.val.toNat ∧ x.val.toNat ≤ 122) := by
  rw [Char.isAlpha, Bool.or_eq_true, isUpper_val, isLower_val]

theorem char_val {c d : Char} : c = d ↔ c.val.toNat = d.val.toNat := by
  constructor
  · rintro rfl; rfl
  · intro h; exact Char.ext (UInt32.toNat_inj.mp h)

theorem upper_upper {c : Char} : c.toUpper.isUpper = true ↔ c.isAlpha = true := by
  rw [isUpper_val, isAlpha_val, toUpper_val]
  split <;> omega

theorem toUpper_eq {c d : Char} :
    c.toUpper = d.toUpper ↔ c = d ∨ (c.isAlpha = true ∧ d.isAlpha = true ∧ c.toLower = d.toLower) := by
  rw [isAlpha_val, isAlpha_val, char_val, char_val (c := c), char_val (c := c.toLower), toUpper_val, toUpper_val, toLower_val, toLower_val]
  split <;> split <;> split <;> split <;> omega

theorem upperName_eq {a b : Str} (ha : a ≠ []) (hb : b ≠ []) : upperCaseName a = upperCaseName b ↔ SameButFirstCase a b := by
  cases a with
  | nil => exact absurd rfl ha
  | cons c r =>
    cases b with
    | nil => exact absurd rfl hb
    | cons d s =>
      simp only [upperCaseName, List.cons.injEq, toUpper_eq]
      constructor
      · rintro ⟨h, rfl⟩
        exact ⟨c, d, r, rfl, rfl, h⟩
      · rintro ⟨c', d', r', h1, h2, h⟩
        cases h1
        cases h2
        exact ⟨h, rfl⟩

theorem word_upper {s : Str} (h : QmlWord s) : QmlTypeName (upperCaseName s) ↔ ∃ c r, s = c :: r ∧ c.isAlpha = true := by
  cases s with
  | nil => exact absurd rfl h.1
  | cons c r =>
    constructor
    · rintro ⟨-, h2⟩
      exact ⟨c, r, rfl, upper_upper.mp (h2 _ _ rfl)⟩
    · rintro ⟨c', r', e, hc⟩
      cases e
      have hu := upper_upper.mpr hc
      refine ⟨⟨by simp [upperCaseName], ?_, ?_⟩, ?_⟩
      · intro d hd
        rcases List.mem_cons.mp hd with rfl | hd
        · left; simp [Char.isAlphanum, Char.isAlpha, hu]
        · exact h.2.1 d (by simp [hd])
      · intro d s e
        cases e
        rw [isUpper_val] at hu
        have e0 : '0'.val.toNat = 48 := by decide
        have e9 : '9'.val.toNat = 57 := by decide
        simp only [Char.isDigit, ge_iff_le, UInt32.le_iff_toNat_le, e0, e9]
        rw [Bool.eq_false_iff]
        simp only [ne_eq, Bool.and_eq_true, decide_eq_true_eq]
        omega
      · intro d s e
        cases e
        exact hu

theorem importable_words {l : List Str} (hl : ∀ p ∈ l, QmlWord p) : Importable (joined ['.'] l) ↔ l ≠ [] ∧ ∀ p ∈ l, p ∉ qmlReserved := by
  constructor
  · rintro ⟨parts, hne, e, hp⟩
    have := joinedDot_inj hl (fun p h => (hp p h).1) e
    subst this
    exact ⟨hne, fun p h => (hp p h).2⟩
  · rintro ⟨hne, hr⟩
    exact ⟨l, hne, rfl, fun p h => ⟨hl p h, hr p h⟩⟩

theorem importable_extra {extra : Str} {l : List Str} (hl : ∀ p ∈ l, QmlWord p) :
    Importable (joined ['.'] (extra :: l)) ↔ Importable extra ∧ ∀ p ∈ l, p ∉ qmlReserved := by
  cases hl0 : l with
  | nil => simp [joined]
  | cons a l' =>
    rw [← hl0]
    have hne : l ≠ [] := by rw [hl0]; simp
    rw [joined_cons hne]
    constructor
    · rintro ⟨parts, -, e, hp⟩
      obtain ⟨x, y, e1, n1, n2, e2, e3⟩ := joined_cut parts (fun p h => (word_noDot (hp p h).1).2) extra (joined ['.'] l)
        (by rw [← e]; simp)
      have : l = y := joinedDot_inj hl (fun p h => (hp p (by rw [e1]; simp [h])).1) e3
      subst this
      exact ⟨⟨x, n1, e2, fun p h => hp p (by rw [e1]; simp [h])⟩, fun p h => (hp p (by rw [e1]; simp [h])).2⟩
    · rintro ⟨⟨x, n1, e2, hx⟩, hr⟩
      refine ⟨x ++ l, by simp [n1], ?_, ?_⟩
      · rw [joined_split n1 hne, e2]
      · intro p h
        rcases List.mem_append.mp h with h | h
        · exact hx p h
        · exact ⟨hl p h, hr p h⟩

section
variable {package inside : List Str} {name : Str}

theorem qmlPackage_eq (extra : Str) (h : ∀ c ∈ package ++ inside ++ [name], QmlWord c) :
    qmlPackage extra (typeAt package inside name) = joined ['.'] ((if extra = [] then [] else [extra]) ++ (package ++ inside)) := by
  rw [qmlPackage, getNamespaces_eq (fun c hc => word_ident (h c hc)), gnsDot]

/-! ### The property -/

/-- C84. Without the option QML nothing is registered; with it one type for each message and enumeration, the enumeration as one of
which no objects can be made. -/
theorem C84_one (extra : Str) (type : TypeD) (nested : Bool) :
    qmlRegisterMessage false extra type nested = [] ∧ qmlRegisterEnum false extra type = [] ∧
    (∃ e, qmlRegisterMessage true extra type nested = [e] ∧ e.creatable = true) ∧
    ∃ e, qmlRegisterEnum true extra type = [e] ∧ e.creatable = false :=
  ⟨rfl, rfl, ⟨_, rfl, rfl⟩, ⟨_, rfl, rfl⟩⟩

/-- C84. Which types can be used in QML, exactly: those with a package or an enclosing message or an extra namespace, whose name
begins with a letter, if the extra namespace could be imported itself and neither the package nor the names of the enclosing messages
have reserved words as parts. -/
theorem C84_usable_exactly (h : ∀ c ∈ package ++ inside ++ [name], QmlWord c) (extra : Str) (nested : Bool) (e : QmlEntry)
    (he : e ∈ qmlRegisterMessage true extra (typeAt package inside name) nested ∨ e ∈ qmlRegisterEnum true extra (typeAt package inside name)) :
    QmlUsable e ↔ (extra = [] ∨ Importable extra) ∧ (extra ≠ [] ∨ package ++ inside ≠ []) ∧ (∀ p ∈ package ++ inside, p ∉ qmlReserved) ∧
      ∃ c r, name = c :: r ∧ c.isAlpha = true := by
  have hu : e.uri = joined ['.'] ((if extra = [] then [] else [extra]) ++ (package ++ inside)) := by
    rw [← qmlPackage_eq extra h]
    rcases he with he | he <;> simp [qmlRegisterMessage, qmlRegisterEnum] at he <;> rw [he]
  have hn : e.name = upperCaseName name := by
    rcases he with he | he <;> simp [qmlRegisterMessage, qmlRegisterEnum] at he <;> rw [he] <;> rfl
  have hw : ∀ p ∈ package ++ inside, QmlWord p := fun p hp => h p (by rw [List.mem_append]; exact .inl hp)
  rw [QmlUsable, hu, hn, word_upper (h name (by simp))]
  by_cases hx : extra = []
  · rw [if_pos hx, List.nil_append, importable_words hw]
    simp only [hx, true_or, true_and, ne_eq, not_true_eq_false, false_or, and_assoc]
  · rw [if_neg hx, List.singleton_append, importable_extra hw]
    simp only [hx, false_or, ne_eq, not_false_eq_true, true_or, true_and, and_assoc]

end

/-- C84. Two types have one name in QML exactly if they are declared in the same place with names that differ at most in the case of
their first letter. -/
theorem C84_distinct_exactly {package inside package' inside' : List Str} {name name' : Str}
    (h : ∀ c ∈ package ++ inside ++ [name], QmlWord c) (h' : ∀ c ∈ package' ++ inside' ++ [name'], QmlWord c) (extra : Str)
    (nested nested' : Bool) (e e' : QmlEntry)
    (he : e ∈ qmlRegisterMessage true extra (typeAt package inside name) nested ∨ e ∈ qmlRegisterEnum true extra (typeAt package inside name))
    (he' : e' ∈ qmlRegisterMessage true extra (typeAt package' inside' name') nested' ∨
      e' ∈ qmlRegisterEnum true extra (typeAt package' inside' name')) :
    QmlSame e e' ↔ package ++ inside = package' ++ inside' ∧ SameButFirstCase name name' := by
  have hu : e.uri = joined ['.'] ((if extra = [] then [] else [extra]) ++ (package ++ inside)) ∧ e.name = upperCaseName name := by
    rw [← qmlPackage_eq extra h]
    rcases he with he | he <;> simp [qmlRegisterMessage, qmlRegisterEnum] at he <;> rw [he] <;> exact ⟨rfl, rfl⟩
  have hu' : e'.uri = joined ['.'] ((if extra = [] then [] else [extra]) ++ (package' ++ inside')) ∧ e'.name = upperCaseName name' := by
    rw [← qmlPackage_eq extra h']
    rcases he' with he | he <;> simp [qmlRegisterMessage, qmlRegisterEnum] at he <;> rw [he] <;> exact ⟨rfl, rfl⟩
  have hw : ∀ p ∈ package ++ inside, QmlWord p := fun p hp => h p (by rw [List.mem_append]; exact .inl hp)
  have hw' : ∀ p ∈ package' ++ inside', QmlWord p := fun p hp => h' p (by rw [List.mem_append]; exact .inl hp)
  rw [QmlSame, hu.1, hu.2, hu'.1, hu'.2, upperName_eq (h name (by simp)).1 (h' name' (by simp)).1]
  refine and_congr_left fun _ => ⟨fun hj => ?_, fun hj => by rw [hj]⟩
  by_cases hx : extra = []
  · rw [if_pos hx, List.nil_append, List.nil_append] at hj
    exact joinedDot_inj hw hw' hj
  · rw [if_neg hx, List.singleton_append, List.singleton_append] at hj
    generalize package ++ inside = a at hj hw
    generalize package' ++ inside' = b at hj hw'
    cases a with
    | nil =>
      cases b with
      | nil => rfl
      | cons x b =>
        rw [joined_cons (l := x :: b) (by simp)] at hj
        have := congrArg List.length hj
        simp [joined] at this
    | cons y a =>
      cases b with
      | nil =>
        rw [joined_cons (l := y :: a) (by simp)] at hj
        have := congrArg List.length hj
        simp [joined] at this
      | cons x b =>
        rw [joined_cons (l := x :: b) (by simp), joined_cons (l := y :: a) (by simp)] at hj
        exact joinedDot_inj hw hw' (List.append_cancel_left hj)

/-- C84 as far as it holds: the class that is registered for a message is the class of the message, if the messages around it begin
with capital letters (otherwise the name that is printed denotes nothing, C42_lower_violated). -/
theorem C84_class_partial {extra : Str} {f : File} {inside : List Str} {name : Str} {enums : Path → List Str} {p : Printed}
    (hp : p ∈ f.classes extra) (ep : p.msg = f.package ++ inside ++ [name])
    (h : ∀ c ∈ f.package ++ inside ++ [name], QmlWord c) (hcap : ∀ c ∈ inside, Capital c)
    {nested : Bool} (hn : nested = true ↔ inside ≠ []) (e : QmlEntry)
    (he : e ∈ qmlRegisterMessage true extra (typeAt f.package inside name) nested) :
    ∃ P, e.cls = joined kScope P ∧ Found (Denotes extra f enums) p.cpp P p.msg := by
  have hid : ∀ c ∈ f.package ++ inside ++ [name], Ident c := fun c hc => word_ident (h c hc)
  have hcpp := class_name hp ep
  have hden : Denotes extra f enums p.cpp p.msg := .cls hp
  simp only [qmlRegisterMessage, if_true, List.mem_singleton] at he
  subst he
  simp only [messageTypeMap]
  rw [show (typeAt f.package inside name).name = name from rfl, show getNamespaces none = [] from rfl]
  have hs : ∀ s, getScopeNamespacesString s (getNamespacesString kScope []) = s := by
    intro s
    rw [getNamespacesString_eq]
    simp [getScopeNamespacesString, joined]
  rw [hs]
  have hqual : ∀ l : List Str, (∀ c ∈ l, c ≠ []) → qualify (joined kScope l) (upperCaseName name) = joined kScope (l ++ [upperCaseName name]) := by
    intro l hl
    cases l with
    | nil => simp [qualify, joined]
    | cons a l =>
      have hne : joined kScope (a :: l) ≠ [] := by
        have := hl a (by simp)
        cases l with
        | nil => simpa [joined] using this
        | cons b l => simp [joined, this]
      rw [qualify, if_neg hne, joined_split (by simp) (by simp)]
      rfl
  by_cases hi : inside = []
  · have hnf : nested = false := by
      cases nested with
      | false => rfl
      | true => exact absurd hi (hn.mp rfl)
    subst hi
    rw [hnf]
    simp only [Bool.false_eq_true, if_false]
    have hg := getNamespaces_eq (package := f.package) (inside := []) (name := name) hid
    rw [hg, getNamespacesString_eq, hqual]
    · refine ⟨_, rfl, [], List.nil_prefix, ?_⟩
      rw [List.nil_append]
      have : (if extra = [] then [] else [extra]) ++ (f.package ++ []) ++ [upperCaseName name] = p.cpp := by
        rw [hcpp]; simp [fileNs]
      rw [this]
      exact hden
    · intro c hc
      rcases List.mem_append.mp hc with hc | hc
      · split at hc
        · simp at hc
        · rename_i hx
          rw [List.mem_singleton] at hc
          rw [hc]; exact hx
      · exact (hid c (by simp at hc; simp [hc])).1
  · have hnt : nested = true := hn.mpr hi
    rw [hnt]
    simp only [if_true]
    rw [getNestedNamespaces_eq hid, getNamespacesString_eq, hqual]
    · refine ⟨_, rfl, (if extra = [] then [] else [extra]), ?_, ?_⟩
      · rw [hcpp]
        simp [fileNs]
      · have : (if extra = [] then [] else [extra]) ++ (f.package ++ inside.map (· ++ kNested) ++ [upperCaseName name]) = p.cpp := by
          have hm : inside.map (· ++ kNested) = inside.map nestedNs := by
            apply List.map_congr_left
            intro c hc
            rw [nestedNs, hcap c hc]
          rw [hcpp, hm]
          simp [fileNs]
        rw [this]
        exact hden
    · intro c hc
      rcases List.mem_append.mp hc with hc | hc
      · exact (hid c (by simp [hc])).1
      · obtain ⟨d, -, rfl⟩ := List.mem_map.mp hc
        simp [kNested]

/-- C84 is violated: a file without a package registers its types in a module without a name, which cannot be imported. -/
theorem C84_package_violated {name : Str} (h : QmlWord name) :
    ∀ e ∈ qmlRegisterMessage true [] (typeAt [] [] name) false, e.uri = [] ∧ ¬ QmlUsable e := by
  intro e he
  have hw : ∀ c ∈ ([] : List Str) ++ [] ++ [name], QmlWord c := by simpa using h
  refine ⟨?_, ?_⟩
  · have := qmlPackage_eq [] hw
    simp [qmlRegisterMessage] at he
    rw [he]
    simpa [joined] using this
  · rw [C84_usable_exactly hw [] false e (.inl he)]
    simp

/-- C84 is violated: with an extra namespace of two parts, as `a::b`, the module has a name that cannot be imported, for every
type. -/
theorem C84_extra_violated {package inside : List Str} {name : Str} (h : ∀ c ∈ package ++ inside ++ [name], QmlWord c) (nested : Bool) :
    ∀ e ∈ qmlRegisterMessage true ['a', ':', ':', 'b'] (typeAt package inside name) nested, ¬ QmlUsable e := by
  intro e he
  rw [C84_usable_exactly h _ nested e (.inl he)]
  rintro ⟨hx | ⟨parts, hne, e1, hp⟩, -⟩
  · cases hx
  · have hd : '.' ∉ ['a', ':', ':', 'b'] := by decide
    cases parts with
    | nil => exact hne rfl
    | cons p l =>
      cases l with
      | nil =>
        have e2 : p = ['a', ':', ':', 'b'] := e1.symm
        have := (word_ident (hp p (by simp)).1).2.2
        rw [e2] at this
        exact this (by decide)
      | cons q l =>
        rw [e1, joined] at hd
        simp at hd

/-- C84 is violated: `message _M` in package `p`. -/
theorem C84_underscore_violated : ∀ e ∈ qmlRegisterMessage true [] (typeAt [['p']] [] ['_', 'M']) false, ¬ QmlUsable e := by
  intro e he
  rw [C84_usable_exactly (by decide) [] false e (.inl he)]
  rintro ⟨-, -, -, c, r, h, hc⟩
  cases h
  revert hc
  decide

/-- C84 is violated: package `a.new`. -/
theorem C84_reserved_violated : ∀ e ∈ qmlRegisterMessage true [] (typeAt [['a'], ['n', 'e', 'w']] [] ['M']) false, ¬ QmlUsable e := by
  intro e he
  rw [C84_usable_exactly (by decide) [] false e (.inl he)]
  rintro ⟨-, -, h, -⟩
  exact h ['n', 'e', 'w'] (by simp) (by decide +kernel)

/-- A type that can be used: `message Inner` in `message Outer` in package `my.app`. -/
example : ∃ e ∈ qmlRegisterMessage true [] (typeAt ["my".toList, "app".toList] ["Outer".toList] "inner".toList) true,
    e.uri = "my.app.Outer".toList ∧ e.name = "Inner".toList ∧ e.cls = "my::app::Outer_QtProtobufNested::Inner".toList ∧ QmlUsable e := by
  refine ⟨_, List.mem_singleton.mpr rfl, by decide +kernel, by decide +kernel, by decide +kernel, ?_⟩
  rw [C84_usable_exactly (package := ["my".toList, "app".toList]) (inside := ["Outer".toList]) (name := "inner".toList) (by decide) [] true _
    (.inl (List.mem_singleton.mpr rfl))]
  exact ⟨.inl rfl, .inr (by simp), by decide +kernel, 'i', "nner".toList, by decide, by decide⟩

end QtPb.Gen
