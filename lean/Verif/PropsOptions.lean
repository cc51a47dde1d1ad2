import Verif.GenText
/-
C43: the options of the generator (environment variable QT_PROTOBUF_OPTIONS).
-/
namespace QtPb.Gen

/-! ### Specification -/

/-- The parts of `l` with `sep` between them. -/
def Spec.joined (sep : Str) : List Str → Str
  | [] => []
  | [a] => a
  | a :: b :: l => a ++ sep ++ Spec.joined sep (b :: l)

/-- An option without a value: a known one or one that means nothing. -/
def Spec.Plain (p : Str) : Prop := p ≠ [] ∧ ':' ∉ p ∧ '=' ∉ p ∧ ¬ kExtra <+: p

/-- Exactly the options of the list are switched on. -/
def Spec.Enables (o : Options) (l : List Str) : Prop :=
  (o.multi = true ↔ kMulti ∈ l) ∧ (o.qml = true ↔ kQml ∈ l) ∧ (o.comments = true ↔ kComments ∈ l) ∧
    (o.folder = true ↔ kFolder ∈ l) ∧ (o.fieldEnum = true ↔ kFieldEnum ∈ l)

/-- A namespace that can be given as a value. -/
def Spec.Plain.Value (ns : Str) : Prop := ns ≠ [] ∧ ':' ∉ ns ∧ '=' ∉ ns ∧ '"' ∉ ns

def Spec.extraOption (ns : Str) : Str := kExtra ++ '=' :: ns

open Spec

/-! ### Lemmas -/

theorem split_ne_nil {d c : Char} {s : Str} : split d (c :: s) ≠ [] := by
  simp only [split]
  split
  · simp
  · split <;> simp

theorem split_append {d : Char} (p : Str) (h : d ∉ p) (s : Str) : split d (p ++ d :: s) = p :: split d s := by
  induction p with
  | nil => simp [split]
  | cons c p ih =>
    simp only [List.mem_cons, not_or] at h
    simp only [List.cons_append, split, if_neg (Ne.symm h.1), ih h.2]

theorem split_single {d : Char} (p : Str) (h : d ∉ p) (hp : p ≠ []) : split d p = [p] := by
  induction p with
  | nil => exact absurd rfl hp
  | cons c p ih =>
    simp only [List.mem_cons, not_or] at h
    simp only [split, if_neg (Ne.symm h.1)]
    cases p with
    | nil => rfl
    | cons e p => rw [ih h.2 (by simp)]

/-- Splitting undoes joining for non-empty parts without the separator. -/
theorem split_joined {d : Char} : ∀ (l : List Str), (∀ p ∈ l, p ≠ [] ∧ d ∉ p) → split d (joined [d] l) = l
  | [], _ => rfl
  | [a], h => split_single a (h a (by simp)).2 (h a (by simp)).1
  | a :: b :: l, h => by
    have h1 := h a (by simp)
    rw [joined, List.append_assoc, List.singleton_append, split_append a h1.2, split_joined (b :: l) (fun p hp => h p (by simp [hp]))]

theorem parseExtra_flags (t : Str) (o : Options) : (parseExtra t o).multi = o.multi ∧ (parseExtra t o).qml = o.qml ∧
    (parseExtra t o).comments = o.comments ∧ (parseExtra t o).folder = o.folder ∧ (parseExtra t o).fieldEnum = o.fieldEnum := by
  simp only [parseExtra]
  split
  · split <;> simp
  · simp

theorem parseOption_flags (t p : Str) (o : Options) :
    (parseOption t o p).multi = (o.multi || p == kMulti) ∧ (parseOption t o p).qml = (o.qml || p == kQml) ∧
    (parseOption t o p).comments = (o.comments || p == kComments) ∧
    (parseOption t o p).folder = (o.folder || p == kFolder) ∧
    (parseOption t o p).fieldEnum = (o.fieldEnum || p == kFieldEnum) := by
  have he := parseExtra_flags t o
  unfold parseOption
  by_cases h1 : p = kMulti
  · subst h1; simp [kMulti, kQml, kComments, kFolder, kFieldEnum]
  by_cases h2 : p = kQml
  · subst h2; simp [kMulti, kQml, kComments, kFolder, kFieldEnum]
  by_cases h3 : p = kComments
  · subst h3; simp [kMulti, kQml, kComments, kFolder, kFieldEnum]
  by_cases h4 : p = kFolder
  · subst h4; simp [kMulti, kQml, kComments, kFolder, kFieldEnum]
  by_cases h5 : p = kFieldEnum
  · subst h5; simp [kMulti, kQml, kComments, kFolder, kFieldEnum]
  rw [if_neg h1, if_neg h2, if_neg h3, if_neg h4, if_neg h5]
  rw [beq_false_of_ne h1, beq_false_of_ne h2, beq_false_of_ne h3, beq_false_of_ne h4, beq_false_of_ne h5]
  simp only [Bool.or_false]
  split
  · exact he
  · simp

theorem fold_flags (t : Str) (l : List Str) : ∀ o : Options,
    (l.foldl (parseOption t) o).multi = (o.multi || l.contains kMulti) ∧
    (l.foldl (parseOption t) o).qml = (o.qml || l.contains kQml) ∧
    (l.foldl (parseOption t) o).comments = (o.comments || l.contains kComments) ∧
    (l.foldl (parseOption t) o).folder = (o.folder || l.contains kFolder) ∧
    (l.foldl (parseOption t) o).fieldEnum = (o.fieldEnum || l.contains kFieldEnum) := by
  induction l with
  | nil => intro o; simp
  | cons p l ih =>
    intro o
    obtain ⟨h1, h2, h3, h4, h5⟩ := parseOption_flags t p o
    obtain ⟨g1, g2, g3, g4, g5⟩ := ih (parseOption t o p)
    simp only [List.foldl_cons, List.contains_cons, g1, g2, g3, g4, g5, h1, h2, h3, h4, h5, Bool.or_assoc]
    have e : ∀ k : Str, (k == p) = (p == k) := fun k => BEq.comm
    simp only [e, and_self]

theorem enables_of (t : Str) (l : List Str) : Enables (l.foldl (parseOption t) {}) l := by
  obtain ⟨h1, h2, h3, h4, h5⟩ := fold_flags t l {}
  simp only [Enables, h1, h2, h3, h4, h5, Bool.false_or, List.contains_iff_mem, and_self]

theorem parseOption_extra {t p : Str} (h : ¬ kExtra <+: p) (o : Options) : (parseOption t o p).extra = o.extra := by
  unfold parseOption
  repeat' split
  all_goals first | rfl | skip
  rename_i hp
  exact absurd (List.isPrefixOf_iff_prefix.mp hp) h

theorem fold_extra {t : Str} (l : List Str) (h : ∀ p ∈ l, ¬ kExtra <+: p) :
    ∀ o : Options, (l.foldl (parseOption t) o).extra = o.extra := by
  induction l with
  | nil => intro o; rfl
  | cons p l ih =>
    intro o
    rw [List.foldl_cons, ih (fun q hq => h q (by simp [hq])), parseOption_extra (h p (by simp))]

theorem extraOption_prefix (ns : Str) : kExtra <+: extraOption ns := ⟨'=' :: ns, by simp [extraOption]⟩

theorem parseOption_of_extra (t ns : Str) (o : Options) : parseOption t o (extraOption ns) = parseExtra t o := by
  have h : ∀ f : Str, '=' ∉ f → extraOption ns ≠ f := by
    rintro f hf rfl
    exact hf (by simp [extraOption])
  unfold parseOption
  rw [if_neg (h _ (by decide)), if_neg (h _ (by decide)), if_neg (h _ (by decide)), if_neg (h _ (by decide)), if_neg (h _ (by decide)),
    if_pos (List.isPrefixOf_iff_prefix.mpr (extraOption_prefix ns))]

theorem joined_append {sep : Str} : ∀ (l : List Str) (a : Str) (r : List Str),
    joined sep (l ++ a :: r) = (l.flatMap fun p => p ++ sep) ++ joined sep (a :: r)
  | [], a, r => rfl
  | [b], a, r => by simp [joined]
  | b :: c :: l, a, r => by
    have := joined_append (sep := sep) (c :: l) a r
    simp only [List.cons_append] at this ⊢
    rw [joined, this]
    simp

theorem notMem_flat {l : List Str} (h : ∀ p ∈ l, Plain p) : '=' ∉ l.flatMap fun p => p ++ [':'] := by
  simp only [List.mem_flatMap, List.mem_append, List.mem_singleton, not_exists, not_and, not_or]
  exact fun p hp => ⟨(h p hp).2.2.1, by decide⟩

/-- The text around the first '=' of options with one EXTRA_NAMESPACE. -/
theorem split_eq {l r : List Str} (hl : ∀ p ∈ l, Plain p) (ns : Str) :
    split '=' (joined [':'] (l ++ extraOption ns :: r)) =
      ((l.flatMap fun p => p ++ [':']) ++ kExtra) :: split '=' (joined [':'] (ns :: r)) := by
  have e : joined [':'] (extraOption ns :: r) = kExtra ++ '=' :: joined [':'] (ns :: r) := by
    cases r with
    | nil => simp [joined, extraOption]
    | cons b r => simp [joined, extraOption]
  rw [joined_append, e, ← List.append_assoc]
  refine split_append _ ?_ _
  rw [List.mem_append, not_or]
  exact ⟨notMem_flat hl, by decide⟩

theorem joined_noeq : ∀ (l : List Str), (∀ p ∈ l, '=' ∉ p) → '=' ∉ joined [':'] l
  | [], _ => by simp [joined]
  | [a], h => h a (by simp)
  | a :: b :: l, h => by
    have := joined_noeq (b :: l) (fun p hp => h p (by simp [hp]))
    simp only [joined, List.mem_append, List.mem_singleton, not_or]
    exact ⟨⟨h a (by simp), by decide⟩, this⟩

/-! ### Properties -/

/-- Options without values, in any order and number: exactly the named ones are switched on, and unknown ones do nothing. -/
theorem C43_flags {l : List Str} (h : ∀ p ∈ l, Plain p) :
    Enables (parseFromEnv (joined [':'] l)) l ∧ (parseFromEnv (joined [':'] l)).extra = [] := by
  simp only [parseFromEnv]
  rw [split_joined l (fun p hp => ⟨(h p hp).1, (h p hp).2.1⟩)]
  exact ⟨enables_of _ l, fold_extra l (fun p hp => (h p hp).2.2.2) {}⟩

theorem parts_ok {l r : List Str} (hl : ∀ p ∈ l, Plain p) (hr : ∀ p ∈ r, Plain p) {v : Str} (hv : ':' ∉ v) :
    ∀ p ∈ l ++ extraOption v :: r, p ≠ [] ∧ ':' ∉ p := by
  intro p hp
  simp only [List.mem_append, List.mem_cons] at hp
  rcases hp with hp | rfl | hp
  · exact ⟨(hl p hp).1, (hl p hp).2.1⟩
  · refine ⟨by simp [extraOption], ?_⟩
    simp only [extraOption, List.mem_append, List.mem_cons, not_or]
    exact ⟨by decide, by decide, hv⟩
  · exact ⟨(hr p hp).1, (hr p hp).2.1⟩

theorem parse_one_extra {l r : List Str} (hl : ∀ p ∈ l, Plain p) (hr : ∀ p ∈ r, Plain p) {v : Str} (hv : ':' ∉ v) :
    Enables (parseFromEnv (joined [':'] (l ++ extraOption v :: r))) (l ++ extraOption v :: r) ∧
      (parseFromEnv (joined [':'] (l ++ extraOption v :: r))).extra = (parseExtra (joined [':'] (l ++ extraOption v :: r)) {}).extra := by
  simp only [parseFromEnv]
  rw [split_joined _ (parts_ok hl hr hv)]
  refine ⟨enables_of _ _, ?_⟩
  rw [List.foldl_append, List.foldl_cons, fold_extra r (fun p hp => (hr p hp).2.2.2), parseOption_of_extra]
  have : ∀ o1 o2 : Options, o1.extra = o2.extra → ∀ t, (parseExtra t o1).extra = (parseExtra t o2).extra := by
    intro o1 o2 ho t
    simp only [parseExtra]
    split
    · split <;> rfl
    · exact ho
  exact this _ _ (fold_extra l (fun p hp => (hl p hp).2.2.2) {}) _

theorem enables_drop {o : Options} {l : List Str} {v : Str} (h : Enables o (l ++ [extraOption v])) : Enables o l := by
  have hne : ∀ f : Str, '=' ∉ f → (f ∈ l ++ [extraOption v] ↔ f ∈ l) := by
    intro f hf
    simp only [List.mem_append, List.mem_singleton, or_iff_left_iff_imp]
    rintro rfl
    exact absurd (by simp [extraOption]) hf
  obtain ⟨h1, h2, h3, h4, h5⟩ := h
  rw [hne _ (by decide)] at h1 h2 h3 h4 h5
  exact ⟨h1, h2, h3, h4, h5⟩

/-- EXTRA_NAMESPACE as the last option gets exactly its value, with or without quotation marks, and the options before it are
what they are without it. -/
theorem C43_extra_last_partial {l : List Str} (h : ∀ p ∈ l, Plain p) {ns : Str} (hns : Plain.Value ns) :
    (∀ v, v = ns ∨ v = '"' :: ns ++ ['"'] →
      Enables (parseFromEnv (joined [':'] (l ++ [extraOption v]))) l ∧
        (parseFromEnv (joined [':'] (l ++ [extraOption v]))).extra = ns) := by
  intro v hv
  obtain ⟨h1, h2, h3, h4⟩ := hns
  have hv' : ':' ∉ v ∧ '=' ∉ v ∧ v ≠ [] := by
    rcases hv with rfl | rfl
    · exact ⟨h2, h3, h1⟩
    · refine ⟨?_, ?_, by simp⟩ <;> simp only [List.cons_append, List.mem_cons, List.mem_append, List.not_mem_nil, or_false, not_or]
      · exact ⟨by decide, h2, by decide⟩
      · exact ⟨by decide, h3, by decide⟩
  obtain ⟨g1, g2⟩ := parse_one_extra h (r := []) (by simp) hv'.1
  refine ⟨enables_drop g1, ?_⟩
  rw [g2]
  simp only [parseExtra, split_eq h v]
  simp only [joined, split_single v hv'.2.1 hv'.2.2]
  rcases hv with rfl | rfl
  · rw [if_neg]
    rintro ⟨_, hq, _⟩
    exact h4 (List.mem_of_getElem? hq)
  · rw [if_pos]
    · simp
    · refine ⟨by simp, by simp, ?_⟩
      simp

/-- If other options follow, the namespace is the whole rest of the text, and with a second EXTRA_NAMESPACE there is none. -/
theorem C43_extra_violated {l r : List Str} (hl : ∀ p ∈ l, Plain p) (hr : ∀ p ∈ r, Plain p) (hne : r ≠ []) {ns : Str}
    (hns : Plain.Value ns) :
    (parseFromEnv (joined [':'] (l ++ extraOption ns :: r))).extra = ns ++ ':' :: joined [':'] r ∧
      (parseFromEnv (joined [':'] (l ++ extraOption ns :: r))).extra ≠ ns := by
  obtain ⟨h1, h2, h3, h4⟩ := hns
  obtain ⟨_, g2⟩ := parse_one_extra hl hr h2
  have hj : joined [':'] (ns :: r) = ns ++ ':' :: joined [':'] r := by
    cases r with
    | nil => exact absurd rfl hne
    | cons b r => simp [joined]
  have hq : '=' ∉ joined [':'] (ns :: r) := joined_noeq _ (by
    intro p hp
    rcases List.mem_cons.mp hp with rfl | hp
    · exact h3
    · exact (hr p hp).2.2.1)
  have key : (parseFromEnv (joined [':'] (l ++ extraOption ns :: r))).extra = ns ++ ':' :: joined [':'] r := by
    rw [g2]
    simp only [parseExtra, split_eq hl ns]
    rw [split_single _ hq (by rw [hj]; simp), hj]
    simp only
    rw [if_neg]
    rintro ⟨_, hq, _⟩
    cases ns with
    | nil => exact h1 rfl
    | cons c ns =>
      simp only [List.cons_append, List.getElem?_cons_zero, Option.some.injEq] at hq
      exact h4 (by simp [hq])
  refine ⟨key, ?_⟩
  rw [key]
  intro e
  have := congrArg List.length e
  simp at this

example : parseFromEnv "EXTRA_NAMESPACE=foo:QML".toList = { qml := true, extra := "foo:QML".toList } := by decide +kernel
example : parseFromEnv "QML:MULTI:EXTRA_NAMESPACE=\"foo\"".toList = { qml := true, multi := true, extra := "foo".toList } := by
  decide +kernel
example : (∀ p ∈ [kQml, kFolder, ['x', 'y']], Plain p) ∧ Plain.Value ['f', 'o', 'o'] := by
  simp only [Plain, Plain.Value, ← List.isPrefixOf_iff_prefix]
  decide

/-- Two EXTRA_NAMESPACE options cancel each other. -/
theorem C43_twice_violated : ∀ ns : Str, Plain.Value ns →
    (parseFromEnv (joined [':'] [extraOption ns, extraOption ns])).extra = [] := by
  intro ns ⟨h1, h2, h3, h4⟩
  have e : joined [':'] [extraOption ns, extraOption ns] = kExtra ++ '=' :: ((ns ++ (':' :: kExtra)) ++ '=' :: ns) := by
    simp [joined, extraOption]
  have hs : split '=' (joined [':'] [extraOption ns, extraOption ns]) = [kExtra, ns ++ (':' :: kExtra), ns] := by
    rw [e, split_append _ (by decide), split_append _ (by rw [List.mem_append, not_or]; exact ⟨h3, by decide⟩), split_single ns h3 h1]
  have hp : split ':' (joined [':'] [extraOption ns, extraOption ns]) = [extraOption ns, extraOption ns] := by
    refine split_joined _ ?_
    have := parts_ok (l := []) (r := []) (by simp) (by simp) h2
    intro p hp
    simp only [List.mem_cons, List.not_mem_nil, or_false, or_self] at hp
    exact this p (by simp [hp])
  simp only [parseFromEnv, hp, List.foldl_cons, List.foldl_nil, parseOption_of_extra]
  simp only [parseExtra, hs]

end QtPb.Gen
