import Verif.Pre
import Verif.SpecPre
import Verif.PropsOptions
import Verif.PropsGenSingle
/-
Lemmas about the build scripts.
-/
namespace QtPb.Pre
open Gen Spec

/-! ### Characters -/

theorem isNameChar_iff (c : Char) : isNameChar c = true ↔ NameChar c := by
  simp only [isNameChar, NameChar, Char.isAlphanum, Char.isAlpha, Char.isUpper, Char.isLower, Char.isDigit, Char.le_def, Bool.or_eq_true,
    Bool.and_eq_true, decide_eq_true_eq, UInt32.le_iff_toNat_le]
  constructor
  · rintro (((h | h) | h) | h)
    · exact .inr (.inl h)
    · exact .inl h
    · exact .inr (.inr (.inl h))
    · exact .inr (.inr (.inr h))
  · rintro (h | h | h | h)
    · exact .inl (.inl (.inr h))
    · exact .inl (.inl (.inl h))
    · exact .inl (.inr h)
    · exact .inr h

theorem isPackageChar_iff (c : Char) : isPackageChar c = true ↔ PackageChar c := by
  simp only [isPackageChar, PackageChar, Bool.or_eq_true, decide_eq_true_eq, isNameChar_iff, or_assoc]

theorem isBlank_iff (c : Char) : isBlank c = true ↔ c = ' ' ∨ c = '\t' := by simp [isBlank]

/-! ### Lines as items -/

/-- What becomes of a line: a semicolon gets a backslash. -/
def esc : Str → Str
  | [] => []
  | c :: s => if c = ';' then '\\' :: ';' :: esc s else c :: esc s

theorem expand_char {c : Char} (h1 : c ≠ ';') (h2 : c ≠ '[') (h3 : c ≠ ']') {n : Int} {cur s : Str} (hb : c = '\\' → s.head? ≠ some ';') :
    expandList n cur (c :: s) = expandList n (cur ++ [c]) s := by
  rw [expandList.eq_def]
  split
  · simp_all
  · simp_all
  · simp_all
  · simp_all
  · simp_all
  · simp_all

theorem expand_line : ∀ (l : Str) (n : Int) (cur rest : Str), (rest.head? = some ';' → l.getLast? ≠ some '\\') →
    expandList n cur (escapeSemicolons l ++ rest) = expandList (n + l.count '[' - l.count ']') (cur ++ esc l) rest
  | [], n, cur, rest, _ => by simp [escapeSemicolons, esc]
  | c :: l, n, cur, rest, h => by
    have hl : rest.head? = some ';' → l.getLast? ≠ some '\\' := by
      intro hr he
      apply h hr
      cases l with
      | nil => simp at he
      | cons d l => rw [List.getLast?_cons_cons]; exact he
    have ih := expand_line l
    by_cases h1 : c = ';'
    · subst h1
      rw [escapeSemicolons, if_pos rfl, esc, if_pos rfl]
      rw [List.cons_append, expand_char (by decide) (by decide) (by decide) (by simp), List.cons_append, List.cons_append, expandList]
      rw [ih _ _ _ hl]
      simp [List.append_assoc]
    rw [escapeSemicolons, if_neg h1, esc, if_neg h1, List.cons_append]
    by_cases h2 : c = '['
    · subst h2
      rw [expandList, ih _ _ _ hl]
      simp only [List.append_assoc, List.singleton_append, List.count_cons_self, List.count_cons_of_ne (show ('[' : Char) ≠ ']' by decide)]
      congr 1
      omega
    by_cases h3 : c = ']'
    · subst h3
      rw [expandList, ih _ _ _ hl]
      simp only [List.append_assoc, List.singleton_append, List.count_cons_self, List.count_cons_of_ne (show (']' : Char) ≠ '[' by decide)]
      congr 1
      omega
    rw [expand_char h1 h2 h3, ih _ _ _ hl]
    · simp only [List.append_assoc, List.singleton_append, List.count_cons_of_ne h2, List.count_cons_of_ne h3]
    · rintro rfl hs
      cases l with
      | nil => exact h (by simpa [escapeSemicolons] using hs) rfl
      | cons d l =>
        by_cases hd : d = ';'
        · subst hd; simp [escapeSemicolons] at hs
        · rw [escapeSemicolons, if_neg hd] at hs
          simp at hs
          exact hd hs

theorem escape_append (a b : Str) : escapeSemicolons (a ++ b) = escapeSemicolons a ++ escapeSemicolons b := by
  induction a with
  | nil => rfl
  | cons c a ih => rw [List.cons_append]; simp only [escapeSemicolons]; split <;> simp [ih]

theorem newlines_append (a b : Str) : newlinesToSemicolons (a ++ b) = newlinesToSemicolons a ++ newlinesToSemicolons b := by
  simp [newlinesToSemicolons]

theorem newlines_line {l : Str} (h : '\n' ∉ l) : newlinesToSemicolons (escapeSemicolons l) = escapeSemicolons l := by
  induction l with
  | nil => rfl
  | cons c l ih =>
    simp only [List.mem_cons, not_or] at h
    simp only [escapeSemicolons]
    split
    · simp only [newlinesToSemicolons, List.map_cons] at ih ⊢
      rw [ih h.2]; simp
    · simp only [newlinesToSemicolons, List.map_cons, if_neg (Ne.symm h.1)] at ih ⊢
      rw [ih h.2]

theorem items_lines : ∀ (lines : List Str), lines ≠ [] → (∀ l ∈ lines, Readable l) → items (join '\n' lines) = lines.map esc
  | [], h, _ => absurd rfl h
  | [a], _, h => by
    obtain ⟨h1, h2, h3⟩ := h a (by simp)
    have := expand_line a 0 [] [] (by simp)
    simp only [List.append_nil, List.nil_append] at this
    simp only [items, join, newlines_line h1, this, expandList, List.map_cons, List.map_nil]
  | a :: b :: l, _, h => by
    obtain ⟨h1, h2, h3⟩ := h a (by simp)
    have ih := items_lines (b :: l) (by simp) (fun x hx => h x (by simp [hx]))
    simp only [items] at ih ⊢
    rw [join, escape_append, newlines_append, newlines_line h1]
    have e : newlinesToSemicolons (escapeSemicolons ('\n' :: join '\n' (b :: l))) = ';' :: newlinesToSemicolons (escapeSemicolons (join '\n' (b :: l))) := by
      simp [escapeSemicolons, newlinesToSemicolons]
    rw [e, expand_line a 0 [] _ (fun _ => h3), h2]
    rw [show (0 : Int) + (a.count ']' : Nat) - (a.count ']' : Nat) = 0 by omega, expandList, if_pos rfl, ih]
    simp

/-! ### Patterns -/

theorem esc_append (a b : Str) : esc (a ++ b) = esc a ++ esc b := by
  induction a with
  | nil => rfl
  | cons c a ih => rw [List.cons_append]; simp only [esc]; split <;> simp [ih]

theorem esc_id {a : Str} (h : ';' ∉ a) : esc a = a := by
  induction a with
  | nil => rfl
  | cons c a ih =>
    simp only [List.mem_cons, not_or] at h
    rw [esc, if_neg (Ne.symm h.1), ih h.2]

theorem esc_contains {c : Char} (h1 : c ≠ ';') (h2 : c ≠ '\\') (s : Str) : (esc s).contains c = s.contains c := by
  induction s with
  | nil => rfl
  | cons d s ih =>
    simp only [esc]
    split
    · rename_i hd; subst hd
      simp only [List.contains_cons, ih, beq_false_of_ne h1, beq_false_of_ne h2, Bool.false_or]
    · simp only [List.contains_cons, ih]

theorem dropWhile_esc (s : Str) : (esc s).dropWhile isBlank = esc (s.dropWhile isBlank) := by
  induction s with
  | nil => rfl
  | cons c s ih =>
    simp only [esc]
    split
    · rename_i h; subst h
      simp [List.dropWhile, isBlank, esc]
    · rename_i h
      simp only [List.dropWhile]
      split
      · exact ih
      · rw [esc, if_neg h]

theorem takeWhile_esc {ok : Char → Bool} (h1 : ok ';' = false) (h2 : ok '\\' = false) (s : Str) : (esc s).takeWhile ok = s.takeWhile ok := by
  induction s with
  | nil => rfl
  | cons c s ih =>
    simp only [esc]
    split
    · rename_i h; subst h
      simp [List.takeWhile, h1, h2]
    · simp only [List.takeWhile, ih]

theorem prefix_esc {key : Str} (h1 : ';' ∉ key) (h2 : '\\' ∉ key) : ∀ s : Str,
    key.isPrefixOf (esc s) = key.isPrefixOf s ∧ (key.isPrefixOf s = true → (esc s).drop key.length = esc (s.drop key.length)) := by
  induction key with
  | nil => intro s; simp
  | cons k key ih =>
    simp only [List.mem_cons, not_or] at h1 h2
    intro s
    cases s with
    | nil => simp [esc]
    | cons c s =>
      obtain ⟨g1, g2⟩ := ih h1.2 h2.2 s
      by_cases hc : c = ';'
      · subst hc
        simp [esc, List.isPrefixOf, beq_false_of_ne (Ne.symm h1.1), beq_false_of_ne (Ne.symm h2.1)]
      · simp only [esc, if_neg hc, List.isPrefixOf, g1, List.length_cons, List.drop_succ_cons, Bool.and_eq_true]
        exact ⟨trivial, fun h => g2 h.2⟩

theorem matchKey_esc {key : Str} {ok : Char → Bool} (h1 : ';' ∉ key) (h2 : '\\' ∉ key) (h3 : ok ';' = false) (h4 : ok '\\' = false)
    (s : Str) : matchKey key ok (esc s) = matchKey key ok s := by
  simp only [matchKey, dropWhile_esc]
  obtain ⟨g1, g2⟩ := prefix_esc h1 h2 (s.dropWhile isBlank)
  rw [g1]
  split
  · rename_i h
    rw [g2 h]
    cases (s.dropWhile isBlank).drop key.length with
    | nil => rfl
    | cons c r =>
      by_cases hc : c = ';'
      · subst hc
        rw [esc, if_pos rfl]
        simp [isBlank]
      · rw [esc, if_neg hc]
        simp only [dropWhile_esc, takeWhile_esc h3 h4]
  · rfl

theorem dropWhile_append_of {p : Char → Bool} : ∀ (a b : Str), (∀ c ∈ a, p c = true) → (∀ c, b.head? = some c → p c = false) →
    (a ++ b).dropWhile p = b ∧ (a ++ b).takeWhile p = a
  | [], [], _, _ => by simp
  | [], c :: b, _, h => by simp [List.dropWhile, List.takeWhile, h c rfl]
  | c :: a, b, h, h' => by
    obtain ⟨h1, h2⟩ := dropWhile_append_of a b (fun d hd => h d (by simp [hd])) h'
    simp [List.dropWhile, List.takeWhile, h c (by simp), h1, h2]

/-- A key of the script: it begins with a letter. -/
def IsKey (key : Str) : Prop := ∃ k r, key = k :: r ∧ isBlank k = false

theorem matchKey_iff {key : Str} {ok : Char → Bool} {Ok : Char → Prop} (hok : ∀ c, ok c = true ↔ Ok c) (hblank : ∀ c, isBlank c = true → ok c = false)
    (hk : IsKey key) (l name : Str) : matchKey key ok l = some name ↔ Declares key Ok name l := by
  constructor
  · intro h
    simp only [matchKey] at h
    split at h
    · rename_i hp
      obtain ⟨t, ht⟩ := List.isPrefixOf_iff_prefix.mp hp
      rw [← ht, List.drop_left] at h
      split at h
      · rename_i c rest
        split at h
        · rename_i hc
          split at h
          · exact absurd h (by simp)
          · rename_i hn
            simp only [Option.some.injEq] at h
            refine ⟨l.takeWhile isBlank, c :: rest.takeWhile isBlank, (rest.dropWhile isBlank).dropWhile ok, ?_, ?_, ?_, by simp, ?_, ?_, ?_⟩
            · subst h
              rw [List.takeWhile_append_dropWhile, List.cons_append, List.takeWhile_append_dropWhile, ht, List.takeWhile_append_dropWhile]
            · intro d hd
              exact (isBlank_iff d).mp (List.all_takeWhile (p := isBlank) (l := l) |> List.all_eq_true.mp |> (· d hd))
            · intro d hd
              rcases List.mem_cons.mp hd with rfl | hd
              · exact (isBlank_iff _).mp hc
              · exact (isBlank_iff d).mp (List.all_takeWhile (p := isBlank) (l := rest) |> List.all_eq_true.mp |> (· d hd))
            · rw [← h]; exact hn
            · intro d hd
              rw [← h] at hd
              exact (hok d).mp (List.all_takeWhile (p := ok) |> List.all_eq_true.mp |> (· d hd))
            · intro d hd
              rw [← hok]
              have := List.head?_dropWhile_not ok (rest.dropWhile isBlank)
              rw [hd] at this
              simpa using this
        · exact absurd h (by simp)
      · exact absurd h (by simp)
    · exact absurd h (by simp)
  · rintro ⟨b1, b2, r, rfl, h1, h2, h3, h4, h5, h6⟩
    obtain ⟨k, kr, rfl, hkb⟩ := hk
    have e1 := (dropWhile_append_of (p := isBlank) b1 ((k :: kr) ++ (b2 ++ (name ++ r))) (fun c hc => (isBlank_iff c).mpr (h1 c hc))
      (by rintro c hc; simp at hc; exact hc ▸ hkb)).1
    simp only [matchKey, e1]
    rw [if_pos (List.isPrefixOf_iff_prefix.mpr ⟨_, rfl⟩), List.drop_left]
    cases b2 with
    | nil => exact absurd rfl h3
    | cons b b2 =>
      simp only [List.cons_append, (isBlank_iff b).mpr (h2 b (by simp)), if_true]
      have e2 := (dropWhile_append_of (p := isBlank) b2 (name ++ r) (fun c hc => (isBlank_iff c).mpr (h2 c (by simp [hc])))
        (by
          intro c hc
          cases name with
          | nil => exact absurd rfl h4
          | cons n name =>
            simp at hc
            subst hc
            cases hb : isBlank n with
            | false => rfl
            | true =>
              have := (hok n).mpr (h5 n (by simp))
              rw [hblank n hb] at this
              cases this)).1
      have e3 := (dropWhile_append_of (p := ok) name r (fun c hc => (hok c).mpr (h5 c hc)) (by
        intro c hc
        cases h : ok c with
        | false => rfl
        | true => exact absurd ((hok c).mp h) (h6 c hc))).2
      rw [e2, e3, if_neg h4]

theorem blank_name (c : Char) (h : isBlank c = true) : isNameChar c = false := by
  rcases (isBlank_iff c).mp h with rfl | rfl <;> decide
theorem blank_package (c : Char) (h : isBlank c = true) : isPackageChar c = false := by
  rcases (isBlank_iff c).mp h with rfl | rfl <;> decide

theorem matchPackage (l name : Str) : matchKey kwPackage isPackageChar (esc l) = some name ↔ Declares Spec.package PackageChar name l := by
  rw [matchKey_esc (by decide) (by decide) (by decide) (by decide)]
  exact matchKey_iff isPackageChar_iff blank_package ⟨'p', _, rfl, by decide⟩ l name
theorem matchMessage (l name : Str) : matchKey kwMessage isNameChar (esc l) = some name ↔ Declares Spec.message NameChar name l := by
  rw [matchKey_esc (by decide) (by decide) (by decide) (by decide)]
  exact matchKey_iff isNameChar_iff blank_name ⟨'m', _, rfl, by decide⟩ l name
theorem matchService (l name : Str) : matchKey kwService isNameChar (esc l) = some name ↔ Declares Spec.service NameChar name l := by
  rw [matchKey_esc (by decide) (by decide) (by decide) (by decide)]
  exact matchKey_iff isNameChar_iff blank_name ⟨'s', _, rfl, by decide⟩ l name
theorem matchEnum (l name : Str) : matchKey kwEnum isNameChar (esc l) = some name ↔ Declares Spec.enum NameChar name l := by
  rw [matchKey_esc (by decide) (by decide) (by decide) (by decide)]
  exact matchKey_iff isNameChar_iff blank_name ⟨'e', _, rfl, by decide⟩ l name

theorem none_of {α : Type} {o : Option α} (h : ∀ a, o ≠ some a) : o = none := by
  cases o with
  | none => rfl
  | some a => exact absurd rfl (h a)

/-- A line does not begin with two keywords. -/
theorem declares_first {key : Str} {ok : Char → Prop} {name l : Str} (hk : IsKey key) (h : Declares key ok name l) :
    (l.dropWhile isBlank).head? = key.head? := by
  obtain ⟨b1, b2, r, rfl, h1, -⟩ := h
  obtain ⟨k, kr, rfl, hkb⟩ := hk
  rw [(dropWhile_append_of (p := isBlank) b1 _ (fun c hc => (isBlank_iff c).mpr (h1 c hc))
      (by rintro c hc; simp at hc; exact hc ▸ hkb)).1]
  rfl

theorem declares_other {k1 k2 : Str} {ok1 ok2 : Char → Prop} {n1 n2 l : Str} (h1 : IsKey k1) (h2 : IsKey k2) (hne : k1.head? ≠ k2.head?)
    (h : Declares k1 ok1 n1 l) : ¬ Declares k2 ok2 n2 l :=
  fun h' => hne ((declares_first h1 h).symm.trans (declares_first h2 h'))

theorem isKey_package : IsKey Spec.package := ⟨'p', _, rfl, by decide⟩
theorem isKey_message : IsKey Spec.message := ⟨'m', _, rfl, by decide⟩
theorem isKey_service : IsKey Spec.service := ⟨'s', _, rfl, by decide⟩
theorem isKey_enum : IsKey Spec.enum := ⟨'e', _, rfl, by decide⟩

/-! ### The loop -/

theorem findKey_quiet {l : Str} (h : Quiet l) (s : Scan) : findKey s (esc l) = s := by
  simp only [findKey]
  rw [none_of (fun a ha => (h a).1 ((matchPackage l a).mp ha)), none_of (fun a ha => (h a).2.1 ((matchMessage l a).mp ha)),
    none_of (fun a ha => (h a).2.2.1 ((matchService l a).mp ha)), none_of (fun a ha => (h a).2.2.2 ((matchEnum l a).mp ha))]

theorem findKey_package {l n : Str} (h : Declares Spec.package PackageChar n l) (s : Scan) : findKey s (esc l) = { s with package := n } := by
  simp only [findKey, (matchPackage l n).mpr h]

theorem findKey_message {l n : Str} (h : Declares Spec.message NameChar n l) (s : Scan) :
    findKey s (esc l) = if s.braces = 0 then { s with messages := s.messages ++ [n], inScope := true } else s := by
  simp only [findKey]
  rw [none_of (fun a ha => declares_other isKey_message isKey_package (by decide) h ((matchPackage l a).mp ha)), (matchMessage l n).mpr h]

theorem findKey_service {l n : Str} (h : Declares Spec.service NameChar n l) (s : Scan) :
    findKey s (esc l) = { s with services := s.services ++ [n] } := by
  simp only [findKey]
  rw [none_of (fun a ha => declares_other isKey_service isKey_package (by decide) h ((matchPackage l a).mp ha)),
    none_of (fun a ha => declares_other isKey_service isKey_message (by decide) h ((matchMessage l a).mp ha)), (matchService l n).mpr h]

theorem findKey_enum {l n : Str} (h : Declares Spec.enum NameChar n l) (s : Scan) :
    findKey s (esc l) = { s with enums := s.enums ++ [n] } := by
  simp only [findKey]
  rw [none_of (fun a ha => declares_other isKey_enum isKey_package (by decide) h ((matchPackage l a).mp ha)),
    none_of (fun a ha => declares_other isKey_enum isKey_message (by decide) h ((matchMessage l a).mp ha)),
    none_of (fun a ha => declares_other isKey_enum isKey_service (by decide) h ((matchService l a).mp ha)), (matchEnum l n).mpr h]

/-- The same but for the enumerations. -/
def Same (s t : Scan) : Prop :=
  t.package = s.package ∧ t.messages = s.messages ∧ t.services = s.services ∧ t.braces = s.braces ∧ t.inScope = s.inScope

theorem findKey_inner {l : Str} (h : Inner l) {s : Scan} (hb : s.braces ≠ 0) : Same s (findKey s (esc l)) := by
  simp only [findKey]
  rw [none_of (fun a ha => (h a).1 ((matchPackage l a).mp ha)), none_of (fun a ha => (h a).2 ((matchService l a).mp ha))]
  cases matchKey kwMessage isNameChar (esc l) with
  | some m => simp only [if_neg hb]; exact ⟨rfl, rfl, rfl, rfl, rfl⟩
  | none => cases matchKey kwEnum isNameChar (esc l) <;> exact ⟨rfl, rfl, rfl, rfl, rfl⟩

theorem countBraces_out {s : Scan} (h : s.inScope = false) (item : Str) : countBraces s item = s := by
  simp [countBraces, h]

theorem contains_count {c : Char} {l : Str} (h : l.count c ≤ 1) : (l.contains c = true ∧ l.count c = 1) ∨ (l.contains c = false ∧ l.count c = 0) := by
  by_cases hm : c ∈ l
  · have := List.count_pos_iff.mpr hm
    exact .inl ⟨by simpa using hm, by omega⟩
  · exact .inr ⟨by simpa using hm, List.count_eq_zero.mpr hm⟩

theorem countBraces_in {s : Scan} (h : s.inScope = true) {l : Str} (hl : FewBraces l) :
    let d := s.braces + l.count '{' - l.count '}'
    countBraces s (esc l) = { s with braces := d, inScope := !(decide (l.count '}' = 1 ∧ d = 0)) } := by
  obtain ⟨pk, ms, sv, en, br, sc⟩ := s
  simp only at h
  subst h
  simp only [countBraces, if_true, esc_contains (show ('{' : Char) ≠ ';' by decide) (by decide),
    esc_contains (show ('}' : Char) ≠ ';' by decide) (by decide)]
  rcases contains_count hl.1 with ⟨h1, h2⟩ | ⟨h1, h2⟩ <;> rcases contains_count hl.2 with ⟨h3, h4⟩ | ⟨h3, h4⟩ <;>
    simp only [h1, h2, h3, h4, if_true, if_false, Bool.false_eq_true] <;> simp
  · split <;> simp_all
  · split <;> simp_all

/-- One item. -/
def step (s : Scan) (item : Str) : Scan := countBraces (findKey s item) item

theorem scan_eq (its : List Str) : scan its = its.foldl step {} := rfl

/-- After a message: nothing but enumerations has been found. -/
def Done (s t : Scan) : Prop := t.package = s.package ∧ t.messages = s.messages ∧ t.services = s.services ∧ t.braces = 0 ∧ t.inScope = false

theorem body_fold : ∀ {lines : List Str} {d : Nat}, Body d lines → d ≠ 0 → (∀ l ∈ lines, Inner l) → ∀ s : Scan, s.braces = d → s.inScope = true →
    Done s ((lines.map esc).foldl step s) := by
  intro lines d h
  induction h with
  | @last depth line hf hc he =>
    intro hd hi s hb hs
    obtain ⟨e1, e2, e3, e4, e5⟩ := findKey_inner (hi line (by simp)) (s := s) (by omega)
    simp only [List.map_cons, List.map_nil, List.foldl_cons, List.foldl_nil, step]
    rw [countBraces_in (e5.trans hs) hf]
    have hz : (findKey s (esc line)).braces + (line.count '{' : Nat) - (line.count '}' : Nat) = 0 := by rw [e4, hb]; omega
    exact ⟨e1, e2, e3, hz, by simp only [hz]; simp [hc]⟩
  | @more depth rest line lines hf he hr hin _ ih =>
    intro hd hi s hb hs
    obtain ⟨e1, e2, e3, e4, e5⟩ := findKey_inner (hi line (by simp)) (s := s) (by omega)
    simp only [List.map_cons, List.foldl_cons, step]
    rw [countBraces_in (e5.trans hs) hf]
    have hz : (findKey s (esc line)).braces + (line.count '{' : Nat) - (line.count '}' : Nat) = rest := by rw [e4, hb]; omega
    have := ih hr hin { findKey s (esc line) with braces := rest, inScope := true } rfl rfl
    have hnz : ¬ ((rest : Int) = 0) := by omega
    simp only [hz, hnz, and_false, decide_false, Bool.not_false]
    obtain ⟨g1, g2, g3, g4, g5⟩ := this
    exact ⟨g1.trans e1, g2.trans e2, g3.trans e3, g4, g5⟩

/-- The first line of the braces of a message, after its keys have been looked at. -/
theorem body_first {line : Str} {lines : List Str} (h : Body 0 (line :: lines)) {s : Scan} (hb : s.braces = 0) (hs : s.inScope = true) :
    Done s ((lines.map esc).foldl step (countBraces s (esc line))) := by
  cases h with
  | last hf hc he =>
    rw [countBraces_in hs hf]
    have hz : s.braces + (line.count '{' : Nat) - (line.count '}' : Nat) = 0 := by rw [hb]; omega
    exact ⟨rfl, rfl, rfl, hz, by simp only [List.map_nil, List.foldl_nil, hz]; simp [hc]⟩
  | more hf he hr hin hbody =>
    rename_i rest
    rw [countBraces_in hs hf]
    have hz : s.braces + (line.count '{' : Nat) - (line.count '}' : Nat) = rest := by rw [hb]; omega
    have hnz : ¬ ((rest : Int) = 0) := by omega
    simp only [hz, hnz, and_false, decide_false, Bool.not_false]
    exact body_fold hbody hr hin _ rfl rfl

theorem countBraces_none {s : Scan} {l : Str} (h1 : '{' ∉ l) (h2 : '}' ∉ l) : countBraces s (esc l) = s := by
  have c1 : (esc l).contains '{' = false := by rw [esc_contains (by decide) (by decide)]; simpa using h1
  have c2 : (esc l).contains '}' = false := by rw [esc_contains (by decide) (by decide)]; simpa using h2
  simp only [countBraces, c1, c2, Bool.false_eq_true, if_false, ite_self]

theorem rest_fold {lines : List Str} (h : Rest lines) : ∀ s : Scan, s.braces = 0 → s.inScope = true → Done s ((lines.map esc).foldl step s) := by
  induction h with
  | gap hq h1 h2 _ ih =>
    intro s hb hs
    simp only [List.map_cons, List.foldl_cons, step]
    rw [findKey_quiet hq, countBraces_none h1 h2]
    exact ih s hb hs
  | opens hq hbody =>
    intro s hb hs
    simp only [List.map_cons, List.foldl_cons, step]
    rw [findKey_quiet hq]
    exact body_first hbody hb hs

theorem message_fold {name : Str} {lines : List Str} (h : Message name lines) {s : Scan} (hb : s.braces = 0) :
    Done { s with messages := s.messages ++ [name] } ((lines.map esc).foldl step s) := by
  cases h with
  | block hd hbody =>
    simp only [List.map_cons, List.foldl_cons, step]
    rw [findKey_message hd, if_pos hb]
    exact body_first hbody (s := { s with messages := s.messages ++ [name], inScope := true }) hb rfl
  | header hd h1 h2 hr =>
    simp only [List.map_cons, List.foldl_cons, step]
    rw [findKey_message hd, if_pos hb, countBraces_none h1 h2]
    exact rest_fold hr { s with messages := s.messages ++ [name], inScope := true } hb rfl

/-- What the loop finds in a file. -/
theorem layout_fold {lines : List Str} {d : Decls} (h : Layout lines d) : ∀ s : Scan, s.braces = 0 → s.inScope = false →
    let t := (lines.map esc).foldl step s
    t.package = (if d.package = [] then s.package else d.package) ∧ t.messages = s.messages ++ d.messages ∧
      t.services = s.services ++ d.services ∧ (d.messages = [] → t.enums = s.enums ++ d.enums) := by
  induction h with
  | nil => intro s _ _; simp
  | quiet hq _ ih =>
    intro s hb hs
    simp only [List.map_cons, List.foldl_cons, step, findKey_quiet hq, countBraces_out hs]
    exact ih s hb hs
  | package hd hp _ ih =>
    rename_i line name lines d hl
    intro s hb hs
    simp only [List.map_cons, List.foldl_cons, step, findKey_package hd]
    rw [countBraces_out (s := { s with package := name }) hs]
    obtain ⟨g1, g2, g3, g4⟩ := ih { s with package := name } hb hs
    have hn : name ≠ [] := by obtain ⟨_, _, _, _, _, _, _, hn, _⟩ := hd; exact hn
    rw [if_pos hp] at g1
    exact ⟨by rw [if_neg hn]; exact g1, g2, g3, g4⟩
  | enum hd _ ih =>
    rename_i line name lines d hl
    intro s hb hs
    simp only [List.map_cons, List.foldl_cons, step, findKey_enum hd]
    rw [countBraces_out (s := { s with enums := s.enums ++ [name] }) hs]
    obtain ⟨g1, g2, g3, g4⟩ := ih { s with enums := s.enums ++ [name] } hb hs
    exact ⟨g1, g2, g3, fun hm => by rw [g4 hm]; simp⟩
  | service hd _ ih =>
    rename_i line name lines d hl
    intro s hb hs
    simp only [List.map_cons, List.foldl_cons, step, findKey_service hd]
    rw [countBraces_out (s := { s with services := s.services ++ [name] }) hs]
    obtain ⟨g1, g2, g3, g4⟩ := ih { s with services := s.services ++ [name] } hb hs
    exact ⟨g1, g2, by rw [g3]; simp, g4⟩
  | message hm _ ih =>
    rename_i block lines name d hl
    intro s hb hs
    simp only [List.map_append, List.foldl_append]
    obtain ⟨e1, e2, e3, e4, e5⟩ := message_fold hm hb
    obtain ⟨g1, g2, g3, g4⟩ := ih _ e4 e5
    refine ⟨by rw [g1, e1], by rw [g2, e2]; simp, by rw [g3, e3], fun h => absurd h (by simp)⟩

end QtPb.Pre
