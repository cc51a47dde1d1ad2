import Verif.GoList
import Verif.SpecGoList
import Verif.PropsPre
import Verif.GenTemplates
/-
C110: the names that `parsemessages.go` prints are those of the headers that the generator writes.
-/
namespace QtPb.GoList
open Gen Pre.Spec Spec

theorem isSpace_iff (c : Char) : isSpace c = true ↔ Space c := by simp [isSpace, Space, or_assoc]

theorem name_iff (c : Char) : isNameChar c = true ↔ NameChar c := Pre.isNameChar_iff c

theorem space_name {c : Char} (h : isSpace c = true) : isNameChar c = false := by
  rw [isSpace_iff] at h
  simp only [Space, List.mem_cons, List.not_mem_nil, or_false] at h
  rcases h with rfl | rfl | rfl | rfl | rfl <;> decide

theorem space_package {c : Char} (h : PackageChar c) : isSpace c = false := by
  cases hs : isSpace c with
  | false => rfl
  | true =>
    rw [isSpace_iff] at hs
    rw [← Pre.isPackageChar_iff] at h
    simp only [Space, List.mem_cons, List.not_mem_nil, or_false] at hs
    rcases hs with rfl | rfl | rfl | rfl | rfl <;> revert h <;> decide

theorem findKey_iff (key name line : Str) : findKey key line = some name ↔ Begins key name line := by
  constructor
  · intro h
    simp only [findKey] at h
    split at h
    · rename_i hp
      obtain ⟨t, rfl⟩ := List.isPrefixOf_iff_prefix.1 hp
      rw [List.drop_left] at h
      split at h
      · cases h
      · rename_i hn
        rw [not_or] at hn
        simp only [Option.some.injEq] at h
        refine ⟨t.takeWhile isSpace, (t.dropWhile isSpace).dropWhile isNameChar, ?_, ?_, hn.1, ?_, ?_, ?_⟩
        · rw [← h, List.takeWhile_append_dropWhile, List.takeWhile_append_dropWhile]
        · intro c hc
          exact (isSpace_iff c).1 (List.all_takeWhile (p := isSpace) (l := t) |> List.all_eq_true.mp |> (· c hc))
        · rw [← h]; exact hn.2
        · intro c hc
          rw [← h] at hc
          exact (name_iff c).1 (List.all_takeWhile (p := isNameChar) |> List.all_eq_true.mp |> (· c hc))
        · intro c hc
          rw [← name_iff]
          have := List.head?_dropWhile_not isNameChar (t.dropWhile isSpace)
          rw [hc] at this
          simpa using this
    · cases h
  · rintro ⟨ws, rest, rfl, h1, h2, h3, h4, h5⟩
    have e1 := Pre.dropWhile_append_of (p := isSpace) ws (name ++ rest) (fun c hc => (isSpace_iff c).2 (h1 c hc)) (by
      intro c hc
      cases name with
      | nil => exact absurd rfl h3
      | cons x n =>
        cases hc
        cases hs : isSpace c with
        | false => rfl
        | true =>
          have := space_name hs
          rw [(name_iff c).2 (h4 c (by simp))] at this
          cases this)
    have e2 := Pre.dropWhile_append_of (p := isNameChar) name rest (fun c hc => (name_iff c).2 (h4 c hc)) (by
      intro c hc
      have := h5 c hc
      rw [← name_iff] at this
      simpa using this)
    simp only [findKey]
    rw [if_pos (List.isPrefixOf_iff_prefix.2 ⟨_, rfl⟩), List.drop_left, e1.1, e1.2, e2.2, if_neg (by simp [h2, h3])]

theorem findKey_none {key line : Str} (h : ∀ n, ¬ Begins key n line) : findKey key line = none :=
  Pre.none_of fun n hn => h n ((findKey_iff key n line).1 hn)

theorem begins_prefix {key name line : Str} (h : Begins key name line) : key <+: line := by
  obtain ⟨ws, rest, rfl, -⟩ := h
  exact ⟨_, rfl⟩

theorem other_prefix {k1 k2 line : Str} {a b : Char} (h1 : k1.head? = some a) (h2 : k2.head? = some b) (hne : a ≠ b) (h : k1 <+: line) : ¬ k2 <+: line := by
  obtain ⟨t, rfl⟩ := h
  rintro ⟨u, hu⟩
  cases k1 with
  | nil => cases h1
  | cons x k1 =>
    cases k2 with
    | nil => cases h2
    | cons y k2 =>
      cases h1
      cases h2
      simp only [List.cons_append, List.cons.injEq] at hu
      exact hne hu.1.symm

theorem begins_other {k1 k2 name line : Str} {a b : Char} (h1 : k1.head? = some a) (h2 : k2.head? = some b) (hne : a ≠ b) (h : k1 <+: line) : ¬ Begins k2 name line :=
  fun h' => other_prefix h1 h2 hne h (begins_prefix h')

theorem findPackage_none {line : Str} (h : NoPackage line) : findPackage line = none := by
  simp only [findPackage]
  rw [if_neg]
  intro hp
  exact h (List.isPrefixOf_iff_prefix.1 hp)

theorem beforeLast_none {c : Char} : ∀ {s : Str}, c ∉ s → beforeLast c s = none
  | [], _ => rfl
  | x :: s, h => by
    rw [beforeLast, beforeLast_none fun hs => h (by simp [hs])]
    dsimp only
    rw [if_neg]
    rintro rfl
    simp at h

theorem beforeLast_mid {c : Char} {rest : Str} (h : c ∉ rest) : ∀ a : Str, beforeLast c (a ++ c :: rest) = some a
  | [] => by
    rw [List.nil_append, beforeLast, beforeLast_none h]
    simp
  | x :: a => by
    rw [List.cons_append, beforeLast, beforeLast_mid h a]

theorem findPackage_some {line name : Str} (h : DeclaresPackage name line) : findPackage line = some name := by
  obtain ⟨ws, rest, rfl, h1, h2, h3, h4, h5⟩ := h
  have e1 := Pre.dropWhile_append_of (p := isSpace) ws (name ++ ';' :: rest) (fun c hc => (isSpace_iff c).2 (h1 c hc)) (by
    intro c hc
    cases name with
    | nil => exact absurd rfl h3
    | cons x n =>
      cases hc
      exact space_package (h4 c (by simp)))
  have e : Pre.kwPackage = Pre.Spec.package := rfl
  simp only [findPackage, e]
  rw [if_pos (List.isPrefixOf_iff_prefix.2 ⟨_, rfl⟩), List.drop_left, e1.1, e1.2, if_neg h2, beforeLast_mid h5]
  cases name with
  | nil => exact absurd rfl h3
  | cons x n => rfl

/-! ### Lines -/

theorem rawLines_line : ∀ (line cur rest : Str), '\n' ∉ line → rawLines cur (line ++ '\n' :: rest) = (cur ++ line) :: rawLines [] rest
  | [], cur, rest, _ => by simp [rawLines]
  | c :: line, cur, rest, h => by
    rw [List.cons_append, rawLines, if_neg (by rintro rfl; simp at h), rawLines_line line _ rest fun hm => h (by simp [hm])]
    simp

theorem rawLines_last : ∀ (line cur : Str), '\n' ∉ line → rawLines cur line = if cur ++ line = [] then [] else [cur ++ line]
  | [], cur, _ => by simp [rawLines]
  | c :: line, cur, h => by
    rw [rawLines, if_neg (by rintro rfl; simp at h), rawLines_last line _ fun hm => h (by simp [hm])]
    simp

theorem dropCR_line {line : Str} (h : line.getLast? ≠ some '\r') : dropCR line = line := by rw [dropCR, if_neg h]

theorem dropCR_cr (line : Str) : dropCR (line ++ ['\r']) = line := by simp [dropCR]

theorem size_append (a b : Str) : ((a ++ b).map Char.utf8Size).sum = (a.map Char.utf8Size).sum + (b.map Char.utf8Size).sum := by simp

theorem lines_scanned {text : Str} {lines : List Str} (h : LinesOf text lines) : scanned text = lines ∧ scanFails text = false := by
  unfold scanned scanFails
  induction h with
  | nil => exact ⟨rfl, rfl⟩
  | @last line hne hl =>
    obtain ⟨h1, h2, h3⟩ := hl
    have h4 : tooLong line = false := by simp only [tooLong, decide_eq_false_iff_not]; omega
    rw [rawLines_last _ _ h1, List.nil_append, if_neg hne]
    simp [h4, dropCR_line h2]
  | @lf line text lines hl _ ih =>
    obtain ⟨h1, h2, h3⟩ := hl
    have h4 : tooLong line = false := by simp only [tooLong, decide_eq_false_iff_not]; omega
    rw [rawLines_line _ _ _ h1, List.nil_append]
    simp only [List.takeWhile_cons, h4, Bool.not_false, if_true, List.map_cons, List.any_cons, Bool.false_or, dropCR_line h2]
    exact ⟨by rw [ih.1], ih.2⟩
  | @crlf line text lines hl _ ih =>
    obtain ⟨h1, h2, h3⟩ := hl
    have h4 : tooLong (line ++ ['\r']) = false := by
      simp only [tooLong, decide_eq_false_iff_not, size_append]
      have : ([('\r' : Char)].map Char.utf8Size).sum = 1 := by decide
      omega
    have e : line ++ '\r' :: '\n' :: text = (line ++ ['\r']) ++ '\n' :: text := by simp
    rw [e, rawLines_line _ _ _ (by simp [h1]), List.nil_append]
    simp only [List.takeWhile_cons, h4, Bool.not_false, if_true, List.map_cons, List.any_cons, Bool.false_or, dropCR_cr]
    exact ⟨by rw [ih.1], ih.2⟩

/-! ### Declarations -/

theorem layout_package {lines : List Str} {d : Decls} (h : Spec.Layout lines d) : lines.findSome? findPackage = if d.package = [] then none else some d.package := by
  have np : ∀ {key line : Str} {a : Char}, key.head? = some a → a ≠ 'p' → key <+: line → findPackage line = none := by
    intro key line a h1 h2 h3
    exact findPackage_none (other_prefix h1 (b := 'p') rfl h2 h3)
  induction h with
  | nil => rfl
  | quiet _ hp _ ih => rw [List.findSome?_cons, findPackage_none hp]; exact ih
  | package hp _ _ _ =>
    rw [List.findSome?_cons, findPackage_some hp]
    obtain ⟨-, -, -, -, -, h3, -⟩ := hp
    dsimp only
    rw [if_neg h3]
  | enum hb _ ih => rw [List.findSome?_cons, np (key := Pre.Spec.enum) rfl (by decide) (begins_prefix hb)]; exact ih
  | service hb _ ih => rw [List.findSome?_cons, np (key := Pre.Spec.service) rfl (by decide) (begins_prefix hb)]; exact ih
  | message hb _ ih => rw [List.findSome?_cons, np (key := Pre.Spec.message) rfl (by decide) (begins_prefix hb)]; exact ih

theorem keys_of {k1 line : Str} {a : Char} (h1 : k1.head? = some a) (h : k1 <+: line) :
    (a ≠ 'm' → findKey Pre.kwMessage line = none) ∧ (a ≠ 's' → findKey Pre.kwService line = none) ∧ (a ≠ 'e' → findKey Pre.kwEnum line = none) :=
  ⟨fun hn => findKey_none fun _ => begins_other h1 rfl hn h, fun hn => findKey_none fun _ => begins_other h1 rfl hn h, fun hn => findKey_none fun _ => begins_other h1 rfl hn h⟩

theorem package_prefix {name line : Str} (h : DeclaresPackage name line) : Pre.Spec.package <+: line := by
  obtain ⟨ws, rest, rfl, -⟩ := h
  exact ⟨_, rfl⟩

theorem layout_keys {lines : List Str} {d : Decls} (h : Spec.Layout lines d) :
    lines.filterMap (findKey Pre.kwMessage) = d.messages ∧ lines.filterMap (findKey Pre.kwService) = d.services ∧ lines.filterMap (findKey Pre.kwEnum) = d.enums := by
  induction h with
  | nil => exact ⟨rfl, rfl, rfl⟩
  | quiet hq _ _ ih =>
    rw [List.filterMap_cons_none (findKey_none (key := Pre.kwMessage) fun n => (hq n).1), List.filterMap_cons_none (findKey_none (key := Pre.kwService) fun n => (hq n).2.1), List.filterMap_cons_none (findKey_none (key := Pre.kwEnum) fun n => (hq n).2.2)]
    exact ih
  | package hp _ _ ih =>
    obtain ⟨k1, k2, k3⟩ := keys_of (a := 'p') rfl (package_prefix hp)
    rw [List.filterMap_cons_none (k1 (by decide)), List.filterMap_cons_none (k2 (by decide)), List.filterMap_cons_none (k3 (by decide))]
    exact ih
  | enum hb _ ih =>
    obtain ⟨k1, k2, k3⟩ := keys_of (a := 'e') rfl (begins_prefix hb)
    rw [List.filterMap_cons_none (k1 (by decide)), List.filterMap_cons_none (k2 (by decide)), List.filterMap_cons_some ((findKey_iff Pre.kwEnum _ _).2 hb)]
    exact ⟨ih.1, ih.2.1, by rw [ih.2.2]⟩
  | service hb _ ih =>
    obtain ⟨k1, k2, k3⟩ := keys_of (a := 's') rfl (begins_prefix hb)
    rw [List.filterMap_cons_none (k1 (by decide)), List.filterMap_cons_none (k3 (by decide)), List.filterMap_cons_some ((findKey_iff Pre.kwService _ _).2 hb)]
    exact ⟨ih.1, by rw [ih.2.1], ih.2.2⟩
  | message hb _ ih =>
    obtain ⟨k1, k2, k3⟩ := keys_of (a := 'm') rfl (begins_prefix hb)
    rw [List.filterMap_cons_none (k2 (by decide)), List.filterMap_cons_none (k3 (by decide)), List.filterMap_cons_some ((findKey_iff Pre.kwMessage _ _).2 hb)]
    exact ⟨by rw [ih.1], ih.2.1, ih.2.2⟩

theorem multiLines_perm (full : Str) : ∀ lines : List Str, (lines.flatMap (multiLine full)).Perm
    ((lines.filterMap (findKey Pre.kwMessage)).map (fun n => full ++ toLower n ++ kH) ++ (lines.filterMap (findKey Pre.kwService)).map (fun n => full ++ toLower n ++ kClient ++ kH))
  | [] => .nil
  | l :: lines => by
    have ih := multiLines_perm full lines
    rw [List.flatMap_cons]
    unfold multiLine
    cases hm : findKey Pre.kwMessage l with
    | none =>
      rw [List.filterMap_cons_none hm]
      cases hs : findKey Pre.kwService l with
      | none =>
        rw [List.filterMap_cons_none hs]
        exact ih
      | some v =>
        rw [List.filterMap_cons_some hs]
        dsimp only
        rw [List.nil_append, List.singleton_append, List.map_cons]
        exact (ih.cons _).trans List.perm_middle.symm
    | some n =>
      rw [List.filterMap_cons_some hm]
      cases hs : findKey Pre.kwService l with
      | none =>
        rw [List.filterMap_cons_none hs]
        dsimp only
        rw [List.append_nil, List.singleton_append, List.map_cons, List.cons_append]
        exact ih.cons _
      | some v =>
        rw [List.filterMap_cons_some hs]
        dsimp only
        rw [List.map_cons, List.map_cons, List.cons_append]
        refine List.Perm.cons _ ?_
        exact (ih.cons _).trans List.perm_middle.symm

theorem any_filterMap {f : Str → Option Str} : ∀ lines : List Str, (lines.any fun l => (f l).isSome) = !(lines.filterMap f).isEmpty
  | [] => rfl
  | l :: lines => by
    rw [List.any_cons, any_filterMap lines]
    cases h : f l with
    | none => rw [List.filterMap_cons_none h]; simp
    | some v => rw [List.filterMap_cons_some h]; simp

theorem any_or {f g : Str → Bool} : ∀ lines : List Str, (lines.any fun l => f l || g l) = (lines.any f || lines.any g)
  | [] => rfl
  | l :: lines => by
    rw [List.any_cons, List.any_cons, List.any_cons, any_or lines]
    cases f l <;> cases g l <;> cases lines.any f <;> cases lines.any g <;> rfl

theorem full_eq {s : Source} {lines : List Str} {d : Decls} (h : Spec.Layout lines d) (hp : d.package = join '.' s.file.package)
    (hn : ∀ p ∈ s.file.package, p ≠ [] ∧ ∀ c ∈ p, NameChar c) : fullpath lines = Gen.Spec.dirOf s.file.package := by
  rw [fullpath, layout_package h, hp]
  by_cases he : s.file.package = []
  · rw [he]; rfl
  · have hj : join '.' s.file.package ≠ [] := by
      cases hq : s.file.package with
      | nil => exact absurd hq he
      | cons a l =>
        have ha := (hn a (by rw [hq]; simp)).1
        cases l with
        | nil => exact ha
        | cons b l =>
          cases a with
          | nil => exact absurd rfl ha
          | cons x a => simp [join]
    rw [if_neg hj]
    have h1 := Pre.packagePath_join s.file.package fun a ha => (hn a ha).2
    have h2 := Pre.join_dirOf s.file.package he []
    rw [Pre.packagePath] at h1
    dsimp only
    rw [h1]
    simpa using h2

/-- **C110**, partial: with `MULTI` the program prints the headers that the generator writes for a file in multi-file mode, each once, and succeeds.

Missing: `globalenums.h`, which is written once for all files (see `C110_enums_violated`); other layouts, see the negations below. -/
theorem C110_multi_partial {s : Source} (h : Ok s) {files : Str → Option Str} (hf : files s.path = some s.text) {options : List Str} (ho : ['M', 'U', 'L', 'T', 'I'] ∈ options) :
    ∃ names, main (s.path :: options) files = (names, 0) ∧ names.Perm (multiHeaders true s.file) := by
  obtain ⟨lines, d, h1, h2, h3, h4, h5, -⟩ := h.layout
  obtain ⟨k1, k2⟩ := lines_scanned h1
  have hm : options.contains kMulti = true := by rw [List.contains_eq_mem]; exact decide_eq_true ho
  simp only [main, hf, hm, k1, k2, if_true, Bool.false_eq_true, if_false]
  refine ⟨_, rfl, ?_⟩
  rw [full_eq h2 h3 h.package]
  refine (multiLines_perm _ lines).trans ?_
  obtain ⟨e1, e2, -⟩ := layout_keys h2
  rw [e1, e2, h4, h5]
  simp only [multiHeaders, messageHeader, clientHeader, generateBaseName, if_true, concat_dirOf, List.map_map]
  exact List.Perm.refl _

/-- **C110**, partial: without `MULTI` the program prints the headers that the generator writes for a file in single-file mode, in directories if `FOLDER` is given, and succeeds.

Missing: other layouts, see the negations below. -/
theorem C110_single_partial {s : Source} (h : Ok s) {files : Str → Option Str} (hf : files s.path = some s.text) {options : List Str} (ho : ['M', 'U', 'L', 'T', 'I'] ∉ options) :
    ∃ names, main (s.path :: options) files = (names, 0) ∧ singleHeaders (decide (['F', 'O', 'L', 'D', 'E', 'R'] ∈ options)) s.file = some names := by
  obtain ⟨lines, d, h1, h2, h3, h4, h5, h6⟩ := h.layout
  obtain ⟨k1, k2⟩ := lines_scanned h1
  obtain ⟨d1, d2, b, ext, hp, hn⟩ := h.named
  have hm : options.contains kMulti = false := by rw [List.contains_eq_mem]; exact decide_eq_false ho
  have hfd : options.contains kFolder = decide (['F', 'O', 'L', 'D', 'E', 'R'] ∈ options) := by
    rw [List.contains_eq_mem]; rfl
  have hbase : extractFileBasename s.file.name = some b := by
    rw [hn.1]; exact basename_eq hn.2.2.1 hn.2.2.2.1
  have hb : basename s.path = b := Pre.nameWle_eq hp
  simp only [main, hf, hm, k1, k2, Bool.false_eq_true, if_false, Bool.false_or, hfd]
  refine ⟨_, rfl, ?_⟩
  obtain ⟨e1, e2, e3⟩ := layout_keys h2
  simp only [single, any_or, any_filterMap, e1, e2, e3, h4, h5, h6, hb, full_eq h2 h3 h.package]
  have hdir : ∀ folder : Bool, (if folder = true then Gen.Spec.dirOf s.file.package else []) ++ b = generateBaseName folder s.file.package b := by
    intro folder
    cases folder <;> simp [generateBaseName, concat_dirOf]
  rw [hdir]
  rw [singleHeaders]
  by_cases hall : s.file.messages = [] ∧ s.file.enums = [] ∧ s.file.services = []
  · rw [if_pos hall]
    simp [hall]
  · rw [if_neg hall, hbase]
    simp only [Option.map_some, Option.some.injEq]
    congr 1
    · by_cases e : s.file.messages = [] ∧ s.file.enums = []
      · simp [e]
      · rw [if_neg e, if_pos]
        rw [← Bool.not_and]
        simp only [Bool.not_eq_true', Bool.and_eq_false_iff, List.isEmpty_eq_false_iff]
        simpa [List.isEmpty_iff, Decidable.imp_iff_not_or] using e
    · by_cases e : s.file.services = []
      · simp [e]
      · rw [if_neg e, if_pos]
        simpa [List.isEmpty_iff] using e

/-! ### Lines that are too long -/

theorem rawLines_mem : ∀ (text cur line : Str), '\n' ∉ cur → line ∈ rawLines cur text → ∃ before after, cur ++ text = before ++ line ++ after ∧ '\n' ∉ line ∧
    (before = [] ∨ before.getLast? = some '\n') ∧ (after = [] ∨ after.head? = some '\n')
  | [], cur, line, hc, h => by
    rw [rawLines] at h
    split at h
    · cases h
    · rw [List.mem_singleton] at h
      subst h
      exact ⟨[], [], by simp, hc, .inl rfl, .inl rfl⟩
  | c :: text, cur, line, hc, h => by
    rw [rawLines] at h
    split at h
    · rename_i hn
      subst hn
      rcases List.mem_cons.1 h with rfl | h
      · exact ⟨[], '\n' :: text, by simp, hc, .inl rfl, .inr rfl⟩
      · obtain ⟨b, a, h1, h2, h3, h4⟩ := rawLines_mem text [] line (by simp) h
        refine ⟨cur ++ '\n' :: b, a, ?_, h2, .inr ?_, h4⟩
        · rw [List.nil_append] at h1
          rw [h1]
          simp
        · rcases h3 with rfl | h3
          · simp
          · rw [List.getLast?_append, List.getLast?_cons, h3]; rfl
    · rename_i hn
      obtain ⟨b, a, h1, h2, h3, h4⟩ := rawLines_mem text (cur ++ [c]) line (by simp [hc, Ne.symm hn]) h
      exact ⟨b, a, by rw [← h1]; simp, h2, h3, h4⟩

theorem rawLines_before : ∀ (before cur rest : Str), before.getLast? = some '\n' → ∃ ls, rawLines cur (before ++ rest) = ls ++ rawLines [] rest
  | [], _, _, h => by cases h
  | [c], cur, rest, h => by
    have hc : c = '\n' := by simpa using h
    subst hc
    exact ⟨[cur], by simp [rawLines]⟩
  | c :: d :: before, cur, rest, h => by
    rw [List.getLast?_cons_cons] at h
    rw [List.cons_append, rawLines]
    split
    · obtain ⟨ls, e⟩ := rawLines_before (d :: before) [] rest h
      exact ⟨cur :: ls, by rw [e]; rfl⟩
    · exact rawLines_before (d :: before) _ rest h

theorem fails_text {path text : Str} {files : Str → Option Str} (hf : files path = some text) (options : List Str) :
    ((main (path :: options) files).2 ≠ 0 ↔ HasLongLine text) := by
  have e : (main (path :: options) files).2 = if scanFails text then 1 else 0 := by
    simp only [main, hf]
  rw [e]
  have e2 : ((if scanFails text = true then 1 else 0 : Nat) ≠ 0 ↔ scanFails text = true) := by
    cases scanFails text <;> simp
  rw [e2, scanFails, List.any_eq_true]
  constructor
  · rintro ⟨line, hl, ht⟩
    obtain ⟨b, a, h1, h2, h3, h4⟩ := rawLines_mem text [] line (by simp) hl
    exact ⟨b, line, a, by simpa using h1, h2, h3, h4, by simpa [tooLong] using ht⟩
  · rintro ⟨b, line, a, rfl, h2, h3, h4, h5⟩
    refine ⟨line, ?_, by simpa [tooLong] using h5⟩
    have hne : line ≠ [] := by rintro rfl; simp at h5
    have hin : line ∈ rawLines [] (line ++ a) := by
      rcases h4 with rfl | h4
      · rw [List.append_nil, rawLines_last _ _ h2, List.nil_append, if_neg hne]
        exact List.mem_singleton.2 rfl
      · cases a with
        | nil => cases h4
        | cons c a =>
          cases h4
          rw [rawLines_line _ _ _ h2]
          exact List.mem_cons_self
    rw [List.append_assoc]
    rcases h3 with rfl | h3
    · exact hin
    · obtain ⟨ls, e⟩ := rawLines_before b [] (line ++ a) h3
      rw [e]
      exact List.mem_append_right _ hin

/-- **C110**: whatever the arguments and the files are, the program fails exactly if it is called without a file, or the file cannot be read, or has a line of 64 kB or more. -/
theorem C110_fails_iff (args : List Str) (files : Str → Option Str) :
    (main args files).2 ≠ 0 ↔ ∀ path text, args.head? = some path → files path = some text → HasLongLine text := by
  cases args with
  | nil => exact ⟨(fun _ p t h => nomatch h), (fun _ => by simp [main])⟩
  | cons p options =>
    cases hf : files p with
    | none =>
      constructor
      · intro _ q t hq ht
        cases hq
        rw [hf] at ht
        cases ht
      · intro _
        simp [main, hf]
    | some text =>
      rw [fails_text hf options]
      constructor
      · intro h q t hq ht
        cases hq
        rw [hf] at ht
        cases ht
        exact h
      · exact fun h => h p text rfl hf

/-- C110: what fails before the file is read prints nothing. -/
theorem C110_unread {args : List Str} {files : Str → Option Str} (h : ∀ path, args.head? = some path → files path = none) : main args files = ([], 1) := by
  cases args with
  | nil => rfl
  | cons p options => simp [main, h p rfl]

example : main [text! "missing.proto", text! "MULTI"] (fun _ => none) = ([], 1) := C110_unread fun _ _ => rfl

example : HasLongLine (text! "message A {}\n" ++ List.replicate 65536 'x' ++ text! "\nmessage B {}\n") := by
  refine ⟨_, _, _, rfl, ?_, .inr rfl, .inr rfl, ?_⟩
  · rw [List.mem_replicate]
    exact fun h => absurd h.2 (by decide)
  · rw [List.map_replicate, List.sum_replicate_nat]
    decide

/-! ### The hypotheses hold of a file -/

theorem quiet_of {l : Str} (h : findKey Pre.kwMessage l = none ∧ findKey Pre.kwService l = none ∧ findKey Pre.kwEnum l = none) : Spec.Quiet l := by
  intro n
  have e1 := findKey_iff Pre.kwMessage n l
  have e2 := findKey_iff Pre.kwService n l
  have e3 := findKey_iff Pre.kwEnum n l
  rw [h.1] at e1
  rw [h.2.1] at e2
  rw [h.2.2] at e3
  exact ⟨fun k => (by cases (e1.2 k)), fun k => (by cases (e2.2 k)), fun k => (by cases (e3.2 k))⟩

theorem noPackage_of {l : Str} (h : Pre.kwPackage.isPrefixOf l = false) : NoPackage l := by
  intro hp
  have : Pre.kwPackage.isPrefixOf l = true := List.isPrefixOf_iff_prefix.2 hp
  rw [h] at this
  cases this

open Pre.Demo in
/-- The file of the example of C72, with a package, an enumeration, a message with another in it and a service. -/
theorem source_ok : Ok Pre.Demo.source where
  layout := by
    refine ⟨lines.dropLast, { package := ['a', '.', 'b'], messages := [['M', 'm']], services := [['S']], enums := [['E']] }, ?_, ?_, rfl, rfl, rfl, rfl⟩
    · have hl : ∀ l ∈ lines, Line l := by unfold Line; decide
      simp only [lines, List.forall_mem_cons] at hl
      exact .lf hl.1 (.lf hl.2.1 (.lf hl.2.2.1 (.lf hl.2.2.2.1 (.lf hl.2.2.2.2.1 (.lf hl.2.2.2.2.2.1 (.lf hl.2.2.2.2.2.2.1 (.lf hl.2.2.2.2.2.2.2.1
        (.lf hl.2.2.2.2.2.2.2.2.1 (.lf hl.2.2.2.2.2.2.2.2.2.1 (.lf hl.2.2.2.2.2.2.2.2.2.2.1 (.lf hl.2.2.2.2.2.2.2.2.2.2.2.1 .nil)))))))))))
    · have q : ∀ {l : Str} {ls : List Str} {d : Decls}, (findKey Pre.kwMessage l = none ∧ findKey Pre.kwService l = none ∧ findKey Pre.kwEnum l = none) ∧ Pre.kwPackage.isPrefixOf l = false →
          Spec.Layout ls d → Spec.Layout (l :: ls) d := fun h => .quiet (quiet_of h.1) (noPackage_of h.2)
      refine q (by decide) (.package (d := ⟨[], _, _, _⟩) ⟨[' '], [], rfl, ?_, by simp, by simp, ?_, by simp⟩ rfl (.enum (d := ⟨_, _, _, []⟩) ((findKey_iff _ _ _).1 (by decide))
        (.message (d := ⟨_, [], _, _⟩) ((findKey_iff _ _ _).1 (by decide)) (q (by decide) (q (by decide) (q (by decide) (q (by decide) (q (by decide) (q (by decide)
        (.service (d := ⟨_, _, [], _⟩) ((findKey_iff _ _ _).1 (by decide)) (q (by decide) .nil)))))))))))
      · simp [Space]
      · simp only [← Pre.isPackageChar_iff]; decide
  package := by simp only [← Pre.isNameChar_iff]; decide
  named := Pre.Demo.source_ok.named

example : ∃ names, main (Pre.Demo.source.path :: [['M', 'U', 'L', 'T', 'I']]) (fun _ => some Pre.Demo.source.text) = (names, 0) ∧ names.Perm (multiHeaders true Pre.Demo.source.file) :=
  C110_multi_partial source_ok rfl (by simp)

example : output (main (Pre.Demo.source.path :: [['M', 'U', 'L', 'T', 'I']]) (fun _ => some Pre.Demo.source.text)).1 = text! "a/b/mm.h;a/b/sclient.h;" := by decide

example : ∃ names, main (Pre.Demo.source.path :: [['F', 'O', 'L', 'D', 'E', 'R']]) (fun _ => some Pre.Demo.source.text) = (names, 0) ∧
    singleHeaders (decide (['F', 'O', 'L', 'D', 'E', 'R'] ∈ [['F', 'O', 'L', 'D', 'E', 'R']])) Pre.Demo.source.file = some names :=
  C110_single_partial source_ok rfl (by decide)

example : output (main (Pre.Demo.source.path :: [['F', 'O', 'L', 'D', 'E', 'R']]) (fun _ => some Pre.Demo.source.text)).1 = text! "a/b/f.qpb.h;a/b/f_grpc.qpb.h;" := by decide

/-! ### What is missing -/

/-- A file with one message `A`. -/
def oneMessage (package : List Str) : ProtoFile := { name := text! "f.proto", package := package, messages := [.mk (text! "A") [] [] false], enums := [], services := [], deps := [] }

/-- **C110, negation.** The header of a message whose declaration is indented is not printed. -/
theorem C110_indented_violated : (main [text! "f.proto", text! "MULTI"] fun _ => some (text! "  message A {\n  }\n")) = ([], 0) ∧ multiHeaders true (oneMessage []) = [text! "a.h"] := by decide

/-- **C110, negation.** A nested message that is not indented is taken for one of the file. -/
theorem C110_nested_violated : (main [text! "f.proto", text! "MULTI"] fun _ => some (text! "message A {\nmessage B {\n}\n}\n")) = ([text! "a.h", text! "b.h"], 0) ∧
    multiHeaders true { oneMessage [] with messages := [.mk (text! "A") [] [.mk (text! "B") [] [] false] false] } = [text! "a.h"] := by decide

/-- **C110, negation.** With a semicolon in a comment behind the declaration of the package, the rest of the line up to there is taken for its name. -/
theorem C110_package_violated : (main [text! "f.proto", text! "MULTI"] fun _ => some (text! "package p; // x;\nmessage A {\n}\n")) = ([text! "p; // x/a.h"], 0) ∧
    multiHeaders true (oneMessage [text! "p"]) = [text! "p/a.h"] := by decide

/-- **C110, negation.** A line of a comment that begins with `message` gives a header that is never written. -/
theorem C110_comment_violated : (main [text! "f.proto", text! "MULTI"] fun _ => some (text! "/*\nmessage in a bottle\n*/\nmessage A {\n}\n")) = ([text! "in.h", text! "a.h"], 0) ∧
    multiHeaders true (oneMessage []) = [text! "a.h"] := by decide

/-- **C110, negation.** In multi-file mode the header of the enumerations outside of messages is not printed. -/
theorem C110_enums_violated : (main [text! "f.proto", text! "MULTI"] fun _ => some (text! "enum E {\n X = 0;\n}\nmessage A {\n}\n")) = ([text! "a.h"], 0) ∧
    multiRun true [{ oneMessage [] with enums := [text! "E"] }] = [text! "globalenums.h", text! "a.h"] := by decide

end QtPb.GoList
