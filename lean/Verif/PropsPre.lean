import Verif.PreLemmas
/-
C72: the build system expects the files that the generator writes. C73: the options of `qtprotobuf_generate` reach the generator.
-/
namespace QtPb.Pre
open Gen Spec

/-! ### Options -/

theorem isOff_iff (v : Str) : isOff v = true ↔ FalseWord v := by
  simp only [isOff, FalseWord, toLower, Bool.or_eq_true, decide_eq_true_eq, List.contains_iff_mem, List.isSuffixOf_iff_suffix, or_assoc]

theorem joinColon_eq : ∀ l : List Str, joinColon l = Gen.Spec.joined [':'] l
  | [] => rfl
  | [a] => rfl
  | a :: b :: l => by rw [joinColon, Gen.Spec.joined, joinColon_eq (b :: l)]; simp

theorem split_flags {s : Str} : ∀ (l : List Str), l ≠ [] → (∀ p ∈ l, ':' ∉ p) → split ':' (joinColon l ++ ':' :: s) = l ++ split ':' s
  | [], h, _ => absurd rfl h
  | [a], _, h => by rw [joinColon, split_append a (h a (by simp))]; rfl
  | a :: b :: l, _, h => by
    rw [joinColon, List.append_assoc, List.cons_append, split_append a (h a (by simp)), split_flags (b :: l) (by simp) (fun p hp => h p (by simp [hp]))]
    rfl

theorem joined_split {d : Char} : ∀ s : Str, s.getLast? ≠ some d → Gen.Spec.joined [d] (split d s) = s
  | [], _ => rfl
  | [c], h => by
    have hc : c ≠ d := by simpa using h
    simp [split, hc, Gen.Spec.joined]
  | c :: e :: s, h => by
    rw [List.getLast?_cons_cons] at h
    have ih := joined_split (e :: s) h
    obtain ⟨t, ts, ht⟩ : ∃ t ts, split d (e :: s) = t :: ts := by
      cases hs : split d (e :: s) with
      | nil => exact absurd hs split_ne_nil
      | cons t ts => exact ⟨t, ts, rfl⟩
    rw [split]
    split
    · rename_i hc
      rw [ht, Gen.Spec.joined, ← ht, ih, hc]; rfl
    · rw [ht] at ih ⊢
      simp only
      cases ts with
      | nil => simpa [Gen.Spec.joined] using ih
      | cons b l => simpa [Gen.Spec.joined] using ih

/-- Where a part of a split text is. -/
theorem mem_split {d : Char} {s w : Str} (hl : s.getLast? ≠ some d) (h : w ∈ split d s) :
    (∃ v, s = w ++ v) ∨ (∃ u, s = u ++ w) ∨ ∃ u v, s = u ++ (d :: (w ++ [d]) ++ v) := by
  obtain ⟨l1, l2, hs⟩ := List.append_of_mem h
  have e := joined_split s hl
  rw [hs, joined_append] at e
  cases l2 with
  | nil => exact .inr (.inl ⟨_, e.symm⟩)
  | cons b l2 =>
    rw [Gen.Spec.joined] at e
    rcases l1.eq_nil_or_concat with rfl | ⟨l1', x, rfl⟩
    · refine .inl ⟨[d] ++ Gen.Spec.joined [d] (b :: l2), ?_⟩
      rw [← e]; simp
    · refine .inr (.inr ⟨(l1'.flatMap fun p => p ++ [d]) ++ x, Gen.Spec.joined [d] (b :: l2), ?_⟩)
      rw [← e]; simp

/-- The text of the last option. -/
def extraText (ns : Str) : Str := kExtra ++ '=' :: '"' :: ns ++ ['"']

theorem extraText_last (ns : Str) : (extraText ns).getLast? = some '"' := by
  rw [extraText, List.getLast?_concat]

theorem infix_ns {ns w u v : Str} (h : extraText ns = u ++ (':' :: (w ++ [':']) ++ v)) : (':' :: (w ++ [':'])) <:+: ns := by
  -- nothing after the colon but the quotation mark
  rcases v.eq_nil_or_concat with rfl | ⟨v', q, rfl⟩
  · have := congrArg List.getLast? h
    rw [extraText_last] at this
    have e : (u ++ (':' :: (w ++ [':']) ++ [])).getLast? = some ':' := by
      rw [List.append_nil, ← List.cons_append, ← List.append_assoc, List.getLast?_append]; rfl
    rw [e] at this
    simp at this
  · have h' : (kExtra ++ ['=', '"']) ++ ns = u ++ (':' :: (w ++ [':']) ++ v') := by
      have := congrArg List.dropLast h
      rw [extraText] at this
      have e1 : (kExtra ++ '=' :: '"' :: ns ++ ['"']).dropLast = (kExtra ++ ['=', '"']) ++ ns := by
        rw [List.dropLast_concat]; simp
      have e2 : (u ++ (':' :: (w ++ [':']) ++ v'.concat q)).dropLast = u ++ (':' :: (w ++ [':']) ++ v') := by
        rw [List.concat_eq_append, ← List.append_assoc, ← List.append_assoc, List.dropLast_concat, List.append_assoc]
      rw [e1, e2] at this
      exact this
    rcases List.append_eq_append_iff.mp h' with ⟨a, ha, hb⟩ | ⟨c, hc, hd⟩
    · exact ⟨a, v', by rw [hb]; simp⟩
    · cases c with
      | nil => exact ⟨[], v', by simpa using hd⟩
      | cons x c =>
        exfalso
        have hx : x = ':' := by
          have := congrArg List.head? hd
          simpa using this.symm
        have : ':' ∈ kExtra ++ ['=', '"'] := by rw [hc, hx]; simp
        revert this
        decide

theorem word_split {ns w : Str} (hw : w ∈ optionWords) (h : w ∈ split ':' (extraText ns)) : (':' :: (w ++ [':'])) <:+: ns := by
  rcases mem_split (by rw [extraText_last]; decide) h with ⟨v, e⟩ | ⟨u, e⟩ | ⟨u, v, e⟩
  · exfalso
    have h1 : w.head? = some 'E' ∨ w = [] := by
      cases w with
      | nil => exact .inr rfl
      | cons c w =>
        have := congrArg List.head? e
        simp only [extraText, kExtra, List.cons_append, List.head?_cons] at this
        exact .inl this.symm
    have : ∀ x ∈ optionWords, ¬ (x.head? = some 'E' ∨ x = []) := by decide
    exact this w hw h1
  · exfalso
    have h1 : w.getLast? = some '"' ∨ w = [] := by
      rcases w.eq_nil_or_concat with rfl | ⟨w', c, rfl⟩
      · exact .inr rfl
      · have := congrArg List.getLast? e
        rw [extraText_last, List.concat_eq_append, ← List.append_assoc, List.getLast?_concat] at this
        rw [List.concat_eq_append, List.getLast?_concat]
        exact .inl this.symm
    have : ∀ x ∈ optionWords, ¬ (x.getLast? = some '"' ∨ x = []) := by decide
    exact this w hw h1
  · exact infix_ns e

theorem split_prefix {d : Char} (x s : Str) : ∃ A, A ≠ [] ∧ split d (x ++ d :: s) = A ++ split d s := by
  induction x with
  | nil => exact ⟨[[]], by simp, by simp [split]⟩
  | cons c x ih =>
    obtain ⟨A, hA, e⟩ := ih
    rw [List.cons_append, split, e]
    split
    · exact ⟨[] :: A, by simp, rfl⟩
    · cases A with
      | nil => exact absurd rfl hA
      | cons t A => exact ⟨(c :: t) :: A, by simp, rfl⟩

theorem split_word {ns w : Str} (hw : ':' ∉ w) (h : (':' :: (w ++ [':'])) <:+: ns) : w ∈ split ':' (extraText ns) := by
  obtain ⟨u, v, e⟩ := h
  have : extraText ns = (kExtra ++ '=' :: '"' :: u) ++ ':' :: (w ++ ':' :: (v ++ ['"'])) := by
    rw [extraText, ← e]; simp
  rw [this]
  obtain ⟨A, -, hA⟩ := split_prefix (d := ':') (kExtra ++ '=' :: '"' :: u) (w ++ ':' :: (v ++ ['"']))
  rw [hA, split_append w hw]
  simp

/-- The options that `qtprotobuf_generate` is called with. -/
theorem generationOptions_plain (a : Args) : ∀ p ∈ generationOptions a, Gen.Spec.Plain p := by
  have : ∀ p ∈ [kMulti, kSingle, kQml, kComments, kFolder, kFieldEnum], Gen.Spec.Plain p := by
    simp only [Gen.Spec.Plain, ← List.isPrefixOf_iff_prefix]
    decide
  intro p hp
  refine this p ?_
  simp only [generationOptions, List.mem_append] at hp
  rcases hp with (((hp | hp) | hp) | hp) | hp <;> (revert hp; split <;> simp_all)

theorem flags_contains (a : Args) : (generationOptions a).contains kMulti = a.multi ∧ (generationOptions a).contains kQml = a.qml ∧
    (generationOptions a).contains kComments = a.comments ∧ (generationOptions a).contains kFolder = (a.folder || a.multi) ∧
    (generationOptions a).contains kFieldEnum = a.fieldEnum := by
  obtain ⟨m, q, c, f, e, x⟩ := a
  have : ∀ m q c f e : Bool, (generationOptions ⟨m, q, c, f, e, []⟩).contains kMulti = m ∧ (generationOptions ⟨m, q, c, f, e, []⟩).contains kQml = q ∧
    (generationOptions ⟨m, q, c, f, e, []⟩).contains kComments = c ∧ (generationOptions ⟨m, q, c, f, e, []⟩).contains kFolder = (f || m) ∧
    (generationOptions ⟨m, q, c, f, e, []⟩).contains kFieldEnum = e := by decide
  exact this m q c f e

theorem parse_again {t : Str} {e : Str} (he : ∀ o, (parseExtra t o).extra = e) : ∀ (l : List Str) (o : Options), o.extra = e →
    (l.foldl (parseOption t) o).extra = e
  | [], _, h => h
  | p :: l, o, h => by
    rw [List.foldl_cons]
    refine parse_again he l _ ?_
    unfold parseOption
    repeat' split
    all_goals first | exact h | exact he o

theorem extra_first (ns : Str) : ∃ p l, split ':' (extraText ns) = p :: l ∧ kExtra <+: p := by
  have e : extraText ns = kExtra ++ '=' :: '"' :: (ns ++ ['"']) := by simp [extraText]
  rw [e]
  have key : ∀ (k : Str) (s : Str), ':' ∉ k → s ≠ [] → ∃ p l, split ':' (k ++ s) = p :: l ∧ k <+: p := by
    intro k s hk hs
    induction k with
    | nil =>
      cases h : split ':' s with
      | nil =>
        cases s with
        | nil => exact absurd rfl hs
        | cons c s => exact absurd h split_ne_nil
      | cons p l => exact ⟨p, l, h, List.nil_prefix⟩
    | cons c k ih =>
      simp only [List.mem_cons, not_or] at hk
      obtain ⟨p, l, h, hp⟩ := ih hk.2
      refine ⟨c :: p, l, ?_, ?_⟩
      · rw [List.cons_append, split, if_neg (Ne.symm hk.1), h]
      · exact List.cons_prefix_cons.mpr ⟨rfl, hp⟩
  exact key kExtra _ (by decide) (by simp)

theorem optionsString_eq {a : Args} (h : isOff a.extra = false) : optionsString a = joinColon (generationOptions a) ++ ':' :: extraText a.extra := by
  simp [optionsString, h, extraText]

theorem options_ne (a : Args) : generationOptions a ≠ [] := by simp [generationOptions]

theorem split_options {a : Args} (h : isOff a.extra = false) :
    split ':' (optionsString a) = generationOptions a ++ split ':' (extraText a.extra) := by
  rw [optionsString_eq h, split_flags _ (options_ne a) (fun p hp => (generationOptions_plain a p hp).2.1)]

theorem noeq_flags (a : Args) : '=' ∉ joinColon (generationOptions a) := by
  rw [joinColon_eq]
  exact joined_noeq _ (fun p hp => (generationOptions_plain a p hp).2.2.1)

theorem split_eq_options {a : Args} (h : isOff a.extra = false) (hn : '=' ∉ a.extra) :
    split '=' (optionsString a) = [joinColon (generationOptions a) ++ ':' :: kExtra, '"' :: a.extra ++ ['"']] := by
  have e : optionsString a = (joinColon (generationOptions a) ++ ':' :: kExtra) ++ '=' :: ('"' :: a.extra ++ ['"']) := by
    rw [optionsString_eq h, extraText]; simp
  rw [e, split_append, split_single]
  · simp only [List.cons_append, List.mem_cons, List.mem_append, List.not_mem_nil, or_false, not_or]
    exact ⟨by decide, hn, by decide⟩
  · simp
  · simp only [List.mem_append, List.mem_cons, not_or]
    exact ⟨noeq_flags a, by decide, by decide⟩

theorem parseExtra_options {a : Args} (h : isOff a.extra = false) (hn : '=' ∉ a.extra) (o : Options) :
    (parseExtra (optionsString a) o).extra = a.extra := by
  simp only [parseExtra, split_eq_options h hn]
  rw [if_pos]
  · simp
  · refine ⟨by simp, by simp, ?_⟩
    simp

theorem contains_false {l : List Str} {w : Str} (h : w ∉ l) : l.contains w = false := by simpa using h

/-- **C73.** The generator gets exactly the options that `qtprotobuf_generate` is called with (`MULTI` implies `FOLDER`), and the
namespace, whatever its parts are, unless one of them is an option word. -/
theorem C73_partial {a : Args} (h : Namespace a.extra) :
    parseFromEnv (optionsString a) =
      { multi := a.multi, qml := a.qml, comments := a.comments, folder := a.folder || a.multi, fieldEnum := a.fieldEnum, extra := a.extra } := by
  obtain ⟨m1, m2, m3, m4, m5⟩ := flags_contains a
  have hext : ∀ {o p : Options}, o.multi = p.multi → o.qml = p.qml → o.comments = p.comments → o.folder = p.folder → o.fieldEnum = p.fieldEnum →
      o.extra = p.extra → o = p := by
    rintro ⟨⟩ ⟨⟩ h1 h2 h3 h4 h5 h6
    simp only at h1 h2 h3 h4 h5 h6
    simp [h1, h2, h3, h4, h5, h6]
  rcases h with h | ⟨hf, hn, hw⟩
  · have e : optionsString a = Gen.Spec.joined [':'] (generationOptions a) := by
      rw [optionsString, h, if_pos (by decide), List.append_nil, joinColon_eq]
    rw [parseFromEnv, e, split_joined _ (fun p hp => ⟨(generationOptions_plain a p hp).1, (generationOptions_plain a p hp).2.1⟩)]
    obtain ⟨f1, f2, f3, f4, f5⟩ := fold_flags (Gen.Spec.joined [':'] (generationOptions a)) (generationOptions a) {}
    refine hext (by rw [f1, m1]; rfl) (by rw [f2, m2]; rfl) (by rw [f3, m3]; rfl) (by rw [f4, m4]; rfl) (by rw [f5, m5]; rfl) ?_
    rw [fold_extra _ (fun p hp => (generationOptions_plain a p hp).2.2.2)]
    exact h.symm
  · have hoff : isOff a.extra = false := by
      cases ho : isOff a.extra with
      | false => rfl
      | true => exact absurd ((isOff_iff _).mp ho) hf
    rw [parseFromEnv, split_options hoff]
    obtain ⟨f1, f2, f3, f4, f5⟩ := fold_flags (optionsString a) (generationOptions a ++ split ':' (extraText a.extra)) {}
    have hno : ∀ w ∈ optionWords, (split ':' (extraText a.extra)).contains w = false := fun w hw' =>
      contains_false fun hm => hw w hw' (word_split hw' hm)
    have n1 := hno kMulti (by decide)
    have n2 := hno kQml (by decide)
    have n3 := hno kComments (by decide)
    have n4 := hno kFolder (by decide)
    have n5 := hno kFieldEnum (by decide)
    have hc : ∀ w : Str, (generationOptions a ++ split ':' (extraText a.extra)).contains w =
        ((generationOptions a).contains w || (split ':' (extraText a.extra)).contains w) := by
      intro w; simp [List.contains_eq_any_beq]
    refine hext ?_ ?_ ?_ ?_ ?_ ?_
    · rw [f1, hc, m1, n1]; simp
    · rw [f2, hc, m2, n2]; simp
    · rw [f3, hc, m3, n3]; simp
    · rw [f4, hc, m4, n4]; simp
    · rw [f5, hc, m5, n5]; simp
    · rw [List.foldl_append]
      obtain ⟨p, l, hp, hpre⟩ := extra_first a.extra
      rw [hp, List.foldl_cons]
      refine parse_again (parseExtra_options hoff hn) l _ ?_
      have hne : ∀ f : Str, f.head? ≠ some 'E' → p ≠ f := by
        rintro f hf rfl
        obtain ⟨t, rfl⟩ := hpre
        exact hf rfl
      unfold parseOption
      rw [if_neg (hne _ (by decide)), if_neg (hne _ (by decide)), if_neg (hne _ (by decide)), if_neg (hne _ (by decide)), if_neg (hne _ (by decide)),
        if_pos (List.isPrefixOf_iff_prefix.mpr hpre)]
      exact parseExtra_options hoff hn _

example : Namespace ['m', 'y', ':', ':', 'Q', 'M', 'L'] ∧
    parseFromEnv (optionsString { qml := true, multi := true, extra := ['m', 'y', ':', ':', 'a'] }) =
      { multi := true, qml := true, folder := true, extra := ['m', 'y', ':', ':', 'a'] } := by
  refine ⟨.inr ⟨?_, by decide, ?_⟩, by decide⟩
  · rw [← isOff_iff]; decide
  · have : ∀ w ∈ optionWords, ':' ∉ w ∧ w ∉ split ':' (extraText ['m', 'y', ':', ':', 'Q', 'M', 'L']) := by decide
    exact fun w hw hi => (this w hw).2 (split_word (this w hw).1 hi)

/-- **C73, negation.** A part of the namespace between others that is an option word switches that option on, for example QML with
the namespace `my::QML::types`. -/
theorem C73_namespace_violated : (∀ a : Args, ¬ FalseWord a.extra → (':' :: (['Q', 'M', 'L'] ++ [':'])) <:+: a.extra →
      (parseFromEnv (optionsString a)).qml = true) ∧
    ∃ a : Args, a.qml = false ∧ a.extra = ['m', 'y', ':', ':', 'Q', 'M', 'L', ':', ':', 't'] ∧ (parseFromEnv (optionsString a)).qml = true := by
  have key : ∀ a : Args, ¬ FalseWord a.extra → (':' :: (['Q', 'M', 'L'] ++ [':'])) <:+: a.extra →
      (parseFromEnv (optionsString a)).qml = true := by
    intro a hf hi
    have hoff : isOff a.extra = false := by
      cases ho : isOff a.extra with
      | false => rfl
      | true => exact absurd ((isOff_iff _).mp ho) hf
    rw [parseFromEnv, (fold_flags _ _ _).2.1, split_options hoff]
    have := split_word (w := ['Q', 'M', 'L']) (by decide) hi
    simp only [Bool.false_or, List.contains_iff_mem, List.mem_append]
    exact .inr this
  exact ⟨key, { extra := ['m', 'y', ':', ':', 'Q', 'M', 'L', ':', ':', 't'] }, rfl, rfl, by decide⟩

/-- **C73, negation.** A namespace that is a false word of the build system, such as `off` or `No`, is dropped. -/
theorem C73_false_word_violated : (∀ a : Args, FalseWord a.extra → (parseFromEnv (optionsString a)).extra = []) ∧
    FalseWord ['N', 'o'] := by
  refine ⟨?_, by rw [← isOff_iff]; decide⟩
  intro a h
  have e : optionsString a = Gen.Spec.joined [':'] (generationOptions a) := by
    rw [optionsString, if_pos ((isOff_iff _).mpr h), List.append_nil, joinColon_eq]
  rw [parseFromEnv, e, split_joined _ (fun p hp => ⟨(generationOptions_plain a p hp).1, (generationOptions_plain a p hp).2.1⟩),
    fold_extra _ (fun p hp => (generationOptions_plain a p hp).2.2.2)]

/-! ### Files -/

theorem packagePath_name {a : Str} (h : ∀ c ∈ a, NameChar c) : packagePath a = a := by
  have hd : ¬ NameChar '.' := by rw [← isNameChar_iff]; decide
  simp only [packagePath]
  conv => rhs; rw [← List.map_id a]
  refine List.map_congr_left fun c hc => ?_
  rw [if_neg]; · rfl
  rintro rfl
  exact hd (h _ hc)

/-- The parts with slashes between them. -/
theorem packagePath_join : ∀ (p : List Str), (∀ a ∈ p, ∀ c ∈ a, NameChar c) → packagePath (join '.' p) = join '/' p
  | [], _ => rfl
  | [a], h => packagePath_name (h a (by simp))
  | a :: b :: l, h => by
    have h1 := packagePath_name (h a (by simp))
    have h2 := packagePath_join (b :: l) (fun x hx => h x (by simp [hx]))
    simp only [packagePath, join, List.map_append, List.map_cons, if_true] at h1 h2 ⊢
    rw [h1, h2]

theorem join_dirOf : ∀ (p : List Str), p ≠ [] → ∀ x : Str, join '/' p ++ '/' :: x = Gen.Spec.dirOf p ++ x
  | [], h, _ => absurd rfl h
  | [a], _, x => by simp [join, Gen.Spec.dirOf]
  | a :: b :: l, _, x => by
    have := join_dirOf (b :: l) (by simp) x
    rw [join, Gen.Spec.dirOf, List.append_assoc, List.cons_append, this]
    simp

theorem under_package {p : List Str} (h : ∀ a ∈ p, a ≠ [] ∧ ∀ c ∈ a, NameChar c) (x : Str) :
    under (packagePath (join '.' p) ++ '/' :: x) = Gen.Spec.dirOf p ++ x := by
  rw [packagePath_join p (fun a ha => (h a ha).2)]
  cases p with
  | nil => simp [join, under, Gen.Spec.dirOf]
  | cons a l =>
    rw [join_dirOf (a :: l) (by simp)]
    obtain ⟨h1, h2⟩ := h a (by simp)
    cases a with
    | nil => exact absurd rfl h1
    | cons c a =>
      have hc : c ≠ '/' := by
        rintro rfl
        have := h2 '/' (by simp)
        rw [← isNameChar_iff] at this
        revert this
        decide
      simp only [Gen.Spec.dirOf, under, List.cons_append, List.head?_cons, Option.some.injEq]
      rw [if_neg hc]

theorem under_dir {p : List Str} (h : ∀ a ∈ p, a ≠ [] ∧ ∀ c ∈ a, NameChar c) {x : Str} (hx : x.head? ≠ some '/') :
    under (Gen.Spec.dirOf p ++ x) = Gen.Spec.dirOf p ++ x := by
  rw [under, if_neg]
  cases p with
  | nil => exact hx
  | cons a l =>
    obtain ⟨h1, h2⟩ := h a (by simp)
    cases a with
    | nil => exact absurd rfl h1
    | cons c a =>
      simp only [Gen.Spec.dirOf, List.cons_append, List.head?_cons, Option.some.injEq]
      rintro rfl
      have := h2 '/' (by simp)
      rw [← isNameChar_iff] at this
      revert this
      decide

theorem lower_head {n : Str} (h : n.head? ≠ some '/') (e : Str) (he : e.head? ≠ some '/') : (toLower n ++ e).head? ≠ some '/' := by
  cases n with
  | nil => exact he
  | cons c n =>
    simp only [toLower, List.map_cons, List.cons_append, List.head?_cons, ne_eq, Option.some.injEq] at h ⊢
    exact fun hc => h (lower_slash hc)

theorem name_head {n : Str} (h : ∀ c ∈ n, NameChar c) : n.head? ≠ some '/' := by
  intro hn
  have := h '/' (List.mem_of_mem_head? hn)
  rw [← isNameChar_iff] at this
  revert this
  decide

theorem pair_take (x : Str) : pair ((x ++ kH).take ((x ++ kH).length - 2)) = pair x := by
  congr 1
  rw [List.length_append, show kH.length = 2 from rfl, Nat.add_sub_cancel, List.take_left]

theorem layout_names {lines : List Str} {d : Decls} (h : Layout lines d) :
    (∀ n ∈ d.messages ++ d.services ++ d.enums, n ≠ [] ∧ ∀ c ∈ n, NameChar c) := by
  have hm : ∀ {n : Str} {b : List Str}, Message n b → n ≠ [] ∧ ∀ c ∈ n, NameChar c := by
    intro n b h
    cases h with
    | block h _ => obtain ⟨_, _, _, _, _, _, _, h1, h2, _⟩ := h; exact ⟨h1, h2⟩
    | header h _ _ _ => obtain ⟨_, _, _, _, _, _, _, h1, h2, _⟩ := h; exact ⟨h1, h2⟩
  induction h with
  | nil => simp
  | quiet _ _ ih => exact ih
  | package _ _ _ ih => exact ih
  | enum hd _ ih =>
    obtain ⟨_, _, _, _, _, _, _, h1, h2, _⟩ := hd
    intro n hn
    simp only [List.mem_append, List.mem_cons] at hn ih
    rcases hn with hn | rfl | hn
    · exact ih n (.inl hn)
    · exact ⟨h1, h2⟩
    · exact ih n (.inr hn)
  | service hd _ ih =>
    obtain ⟨_, _, _, _, _, _, _, h1, h2, _⟩ := hd
    intro n hn
    simp only [List.mem_append, List.mem_cons] at hn ih
    rcases hn with (hn | rfl | hn) | hn
    · exact ih n (.inl (.inl hn))
    · exact ⟨h1, h2⟩
    · exact ih n (.inl (.inr hn))
    · exact ih n (.inr hn)
  | message hd _ ih =>
    have h1 := hm hd
    intro n hn
    simp only [List.mem_append, List.mem_cons] at hn ih
    rcases hn with ((rfl | hn) | hn) | hn
    · exact h1
    · exact ih n (.inl (.inl hn))
    · exact ih n (.inl (.inr hn))
    · exact ih n (.inr hn)

/-- What the script finds in a source. -/
theorem source_scan {s : Source} (h : s.Ok) : ∃ t : Scan, scan (items s.text) = t ∧ t.package = join '.' s.file.package ∧
    t.messages = s.file.messages.map Msg.name ∧ t.services = s.file.services.map ServiceD.name ∧
    (s.file.messages = [] → t.enums = s.file.enums) ∧
    (∀ n ∈ s.file.messages.map Msg.name ++ s.file.services.map ServiceD.name ++ s.file.enums, n ≠ [] ∧ ∀ c ∈ n, NameChar c) := by
  obtain ⟨lines, d, ht, hr, hl, h1, h2, h3, h4⟩ := h.layout
  refine ⟨_, rfl, ?_⟩
  have hne : lines ≠ [] := by
    rintro rfl
    exact h.text (.inl ht)
  rw [ht, items_lines lines hne hr, scan_eq]
  obtain ⟨g1, g2, g3, g4⟩ := layout_fold hl {} rfl rfl
  refine ⟨?_, by rw [g2, h2]; rfl, by rw [g3, h3]; rfl, ?_, ?_⟩
  · rw [g1, ← h1]
    split
    · rename_i he; rw [he]
    · rfl
  · intro hm
    rw [g4 (by rw [h2, hm]; rfl), h4]; rfl
  · rw [← h2, ← h3, ← h4]
    exact layout_names hl

theorem notOff {v : Str} (h : ¬ FalseWord v) : isOff v = false := by
  cases ho : isOff v with
  | false => rfl
  | true => exact absurd ((isOff_iff v).mp ho) h

theorem map_under_pair {x y : Str} (h : ∀ e : Str, e.head? ≠ some '/' → under (x ++ e) = under (y ++ e)) : (pair x).map under = (pair y).map under := by
  simp only [pair, List.map_cons, List.map_nil]
  rw [h kH (by decide), h kCpp (by decide)]

theorem flatMap_under {α : Type} {f g : α → List Str} : ∀ (l : List α), (∀ a ∈ l, (f a).map under = (g a).map under) →
    (l.flatMap f).map under = (l.flatMap g).map under
  | [], _ => rfl
  | a :: l, h => by
    simp only [List.flatMap_cons, List.map_append]
    rw [h a (by simp), flatMap_under l (fun b hb => h b (by simp [hb]))]

theorem sources_append (a b : List Str) : sources (a ++ b) = sources a ++ sources b := by simp [sources]

theorem multi_source {s : Source} (h : s.Ok) (folder : Bool) : ∃ l, preParse true folder (s.path, s.text) = some l ∧
    l.map under = (sources (multiHeaders true s.file)).map under ∧ (s.file.messages ≠ [] ∨ s.file.services ≠ [] → l ≠ []) := by
  obtain ⟨t, ht, h1, h2, h3, -, h5⟩ := source_scan h
  refine ⟨_, by rw [preParse, if_neg (by rw [notOff h.text]; simp), ht], ?_, ?_⟩
  · simp only [outputFiles, if_true, h1, h2, h3]
    rw [multiHeaders, sources_append, List.map_append, List.map_append]
    congr 1
    · simp only [sources, List.flatMap_map]
      refine flatMap_under _ fun m hm => ?_
      have hn := h5 m.name (by simp only [List.mem_append, List.mem_map]; exact .inl (.inl ⟨m, hm, rfl⟩))
      rw [messageHeader, pair_take]
      refine map_under_pair fun e he => ?_
      rw [List.append_assoc, List.cons_append, under_package h.package, generateBaseName, if_pos rfl, concat_dirOf, List.append_assoc,
        under_dir h.package (lower_head (name_head hn.2) e he)]
    · simp only [sources, List.flatMap_map]
      refine flatMap_under _ fun m hm => ?_
      have hn := h5 m.name (by simp only [List.mem_append, List.mem_map]; exact .inl (.inr ⟨m, hm, rfl⟩))
      rw [clientHeader, pair_take]
      refine map_under_pair fun e he => ?_
      have hk : (kClient ++ e).head? ≠ some '/' := by simp [kClient]
      rw [generateBaseName, if_pos rfl, concat_dirOf]
      simp only [List.append_assoc, List.cons_append]
      rw [under_package h.package, under_dir h.package (lower_head (name_head hn.2) _ hk)]
  · simp only [outputFiles, if_true, h2, h3]
    rintro (hm | hm)
    · cases he : s.file.messages with
      | nil => exact absurd he hm
      | cons m l => simp [pair]
    · cases he : s.file.services with
      | nil => exact absurd he hm
      | cons m l => simp [pair]

theorem multi_run {a : Args} (hm : a.multi = true) : ∀ (srcs : List Source), (∀ s ∈ srcs, s.Ok) →
    ∃ ls, (srcs.map fun s => (s.path, s.text)).mapM (preParse a.multi a.folder) = some ls ∧
      ls.flatten.map under = (sources ((srcs.map Source.file).flatMap (multiHeaders true))).map under ∧
      ((∃ s ∈ srcs, s.file.messages ≠ [] ∨ s.file.services ≠ []) → ls.flatten ≠ [])
  | [], _ => ⟨[], rfl, rfl, by simp⟩
  | s :: srcs, h => by
    obtain ⟨l, h1, h2, h3⟩ := multi_source (h s (by simp)) a.folder
    obtain ⟨ls, g1, g2, g3⟩ := multi_run hm srcs (fun x hx => h x (by simp [hx]))
    refine ⟨l :: ls, ?_, ?_, ?_⟩
    · rw [hm] at g1 ⊢
      rw [List.map_cons, List.mapM_cons, h1, g1]; rfl
    · rw [List.flatten_cons, List.map_append, h2, g2, List.map_cons, List.flatMap_cons, sources_append, List.map_append]
    · rintro ⟨x, hx, hne⟩
      rcases List.mem_cons.mp hx with rfl | hx
      · simp [h3 hne]
      · have := g3 ⟨x, hx, hne⟩
        simp only [List.flatten_cons, ne_eq, List.append_eq_nil_iff, not_and]
        exact fun _ => this

theorem listed_iff {l w : List Str} (h : l.map under = w.map under) (path : Str) : Listed l path ↔ Listed w path := by
  have : ∀ x : List Str, Listed x path ↔ path ∈ x.map under := by
    intro x
    simp [Listed]
  rw [this, this, h]

theorem listed_append {l w : List Str} {path : Str} : Listed (l ++ w) path ↔ Listed l path ∨ Listed w path := by
  simp [Listed, or_and_right, exists_or]

/-- **C72, MULTI.** In multi-file mode the build system expects only files that the generator writes, and all of them but
`globalenums.cpp`, if the declarations of messages and services begin their own lines. -/
theorem C72_multi_partial {a : Args} (hm : a.multi = true) (hns : Namespace a.extra) {srcs : List Source} (h : ∀ s ∈ srcs, s.Ok)
    (hne : ∃ s ∈ srcs, s.file.messages ≠ [] ∨ s.file.services ≠ []) :
    ∃ expected out, generatedFiles a (srcs.map fun s => (s.path, s.text)) = some expected ∧
      written (parseFromEnv (optionsString a)) (srcs.map Source.file) = some out ∧
      (∀ path, Listed expected path → Listed out path) ∧
      ∀ path, Listed out path → path ≠ ['g', 'l', 'o', 'b', 'a', 'l', 'e', 'n', 'u', 'm', 's', '.', 'c', 'p', 'p'] → Listed expected path := by
  obtain ⟨ls, h1, h2, h3⟩ := multi_run hm srcs h
  refine ⟨ls.flatten ++ [kGlobalEnums ++ kH], sources (multiRun true (srcs.map Source.file)), ?_, ?_, ?_, ?_⟩
  · rw [generatedFiles, h1]
    simp only [Option.bind_eq_bind, Option.bind_some]
    rw [if_neg (h3 hne), if_pos hm]
  · rw [written, C73_partial hns]
    simp only [hm, Bool.or_true, if_true]
  · intro path hp
    have e : sources (multiRun true (srcs.map Source.file)) =
        [kGlobalEnums ++ kH, kGlobalEnums ++ kCpp] ++ sources ((srcs.map Source.file).flatMap (multiHeaders true)) := by
      rw [multiRun, ← List.singleton_append, sources_append]; rfl
    rw [e]
    rcases listed_append.mp hp with hp | ⟨x, hx, rfl⟩
    · exact listed_append.mpr (.inr ((listed_iff h2 path).mp hp))
    · rw [List.mem_singleton.mp hx]
      exact listed_append.mpr (.inl ⟨_, by simp, rfl⟩)
  · intro path hp hg
    have e : sources (multiRun true (srcs.map Source.file)) =
        [kGlobalEnums ++ kH, kGlobalEnums ++ kCpp] ++ sources ((srcs.map Source.file).flatMap (multiHeaders true)) := by
      rw [multiRun, ← List.singleton_append, sources_append]; rfl
    rw [e] at hp
    rcases listed_append.mp hp with ⟨x, hx, rfl⟩ | hp
    · simp only [List.mem_cons, List.not_mem_nil, or_false] at hx
      rcases hx with rfl | rfl
      · exact listed_append.mpr (.inr ⟨_, by simp, rfl⟩)
      · exact absurd rfl hg
    · exact listed_append.mpr (.inl ((listed_iff h2 path).mpr hp))

theorem lower_semi : ∀ v : Str, ';' ∈ v → ';' ∈ toLower v := by
  intro v h
  exact List.mem_map.mpr ⟨';', h, by decide⟩

theorem listText_off : ∀ {l : List Str}, (∀ n ∈ l, (n ≠ [] ∧ ∀ c ∈ n, NameChar c) ∧ ¬ FalseWord n) → l ≠ [] → isOff (listText l) = false
  | [], _, h => absurd rfl h
  | [a], h, _ => notOff (h a (by simp)).2
  | a :: b :: l, h, _ => by
    refine notOff ?_
    have hs : ';' ∈ listText (a :: b :: l) := by simp [listText]
    have hdash : '-' ∉ listText (a :: b :: l) := by
      have : ∀ l : List Str, (∀ n ∈ l, ∀ c ∈ n, NameChar c) → '-' ∉ listText l := by
        intro l
        have hn : ¬ NameChar '-' := by rw [← isNameChar_iff]; decide
        fun_induction listText l with
        | case1 => simp
        | case2 a => exact fun h hm => hn (h a (by simp) _ hm)
        | case3 a b l ih =>
          intro h
          simp only [List.mem_append, List.mem_cons, not_or]
          exact ⟨fun hm => hn (h a (by simp) _ hm), by decide, ih (fun n hn => h n (by simp [hn]))⟩
      exact this _ (fun n hn => (h n hn).1.2)
    rintro (h1 | h1 | h1 | h1)
    · rw [h1] at hs; cases hs
    · have hl := lower_semi _ hs
      have : ∀ w ∈ [['0'], ['n'], ['n', 'o'], ['o', 'f', 'f'], ['f', 'a', 'l', 's', 'e'], ['i', 'g', 'n', 'o', 'r', 'e']], ';' ∉ w := by decide
      exact this _ h1 hl
    · rw [h1] at hs; revert hs; decide
    · exact hdash (h1.subset (by decide))

theorem nameWle_eq {path : Str} {d : List Str} {b ext : Str} (h : Gen.Spec.IsNamed path d b ext) : nameWle path = b := by
  obtain ⟨rfl, -, hb, he, hes⟩ := h
  have hbe : '/' ∉ b ++ '.' :: ext := by
    simp only [List.mem_append, List.mem_cons, not_or]
    exact ⟨hb, by decide, hes⟩
  have : (afterLast '/' (Gen.Spec.dirOf d ++ b ++ '.' :: ext)).getD (Gen.Spec.dirOf d ++ b ++ '.' :: ext) = b ++ '.' :: ext := by
    by_cases hd : d = []
    · subst hd
      simp only [Gen.Spec.dirOf, List.nil_append]
      rw [afterLast_none _ hbe]; rfl
    · obtain ⟨x, hx⟩ := dirOf_last d hd
      rw [hx, List.append_assoc, List.append_assoc, List.singleton_append, afterLast_append _ _ hbe]
      rfl
  simp only [nameWle, this, beforeLast_append _ _ he, Option.getD_some]

theorem single_source {s : Source} (h : s.Ok) (hw : ∀ n ∈ s.file.messages.map Msg.name ++ s.file.services.map ServiceD.name ++ s.file.enums, ¬ FalseWord n)
    (folder : Bool) : ∃ l hs, preParse false folder (s.path, s.text) = some l ∧ singleHeaders folder s.file = some hs ∧
    l.map under = (sources hs).map under ∧ l ≠ [] := by
  obtain ⟨t, ht, h1, h2, h3, h4, h5⟩ := source_scan h
  obtain ⟨d1, d2, b, ext, hp, hn⟩ := h.named
  have hbase : extractFileBasename s.file.name = some b := by
    rw [hn.1]; exact basename_eq hn.2.2.1 hn.2.2.2.1
  have hall := h.nonempty
  have hms : (isOff (listText t.messages) && isOff (listText t.enums)) = decide (s.file.messages = [] ∧ s.file.enums = []) := by
    rw [h2]
    by_cases hm : s.file.messages = []
    · rw [h4 hm, hm]
      by_cases he : s.file.enums = []
      · rw [he]; decide
      · rw [listText_off (fun n hn => ⟨h5 n (by simp [hn]), hw n (by simp [hn])⟩) he]
        simp [he]
    · rw [listText_off (fun n hn => ⟨h5 n (by simp only [List.mem_append]; exact .inl (.inl hn)), hw n (by simp only [List.mem_append]; exact .inl (.inl hn))⟩) (by simpa using hm)]
      simp [hm]
  have hsv : isOff (listText t.services) = decide (s.file.services = []) := by
    rw [h3]
    by_cases hm : s.file.services = []
    · rw [hm]; decide
    · rw [listText_off (fun n hn => ⟨h5 n (by simp only [List.mem_append]; exact .inl (.inr hn)), hw n (by simp only [List.mem_append]; exact .inl (.inr hn))⟩) (by simpa using hm)]
      simp [hm]
  have hne : ¬ (s.file.messages = [] ∧ s.file.enums = [] ∧ s.file.services = []) := by
    rintro ⟨e1, e2, e3⟩
    rcases hall with h | h | h <;> exact h (by assumption)
  refine ⟨_, _, by rw [preParse, if_neg (by rw [notOff h.text]; simp), ht], by rw [singleHeaders, if_neg hne, hbase]; rfl, ?_, ?_⟩
  · simp only [outputFiles, Bool.false_eq_true, if_false, hms, hsv, decide_eq_true_eq, nameWle_eq hp, h1]
    rw [sources_append, List.map_append, List.map_append]
    have hb : ∀ e : Str, e.head? ≠ some '/' → (b ++ e).head? ≠ some '/' := by
      intro e he
      cases hbb : b with
      | nil => exact he
      | cons c r =>
        simp only [List.cons_append, List.head?_cons, ne_eq, Option.some.injEq]
        rintro rfl
        exact hp.2.2.1 (by simp [hbb])
    have key : ∀ e : Str, e.head? ≠ some '/' →
        under ((if folder = true then packagePath (join '.' s.file.package) ++ ['/'] else []) ++ (b ++ e)) =
          under (generateBaseName folder s.file.package b ++ e) := by
      intro e he
      cases folder with
      | true =>
        simp only [if_true, generateBaseName, concat_dirOf, List.append_assoc, List.singleton_append]
        rw [under_package h.package, under_dir h.package (hb e he)]
      | false =>
        simp [generateBaseName]
    congr 1
    · split
      · rfl
      · simp only [sources, List.flatMap_cons, List.flatMap_nil, List.append_nil]
        rw [pair_take]
        refine map_under_pair fun e he => ?_
        have := key (kQpb ++ e) (by simp [kQpb])
        simpa only [List.append_assoc] using this
    · split
      · rfl
      · simp only [sources, List.flatMap_cons, List.flatMap_nil, List.append_nil]
        rw [pair_take]
        refine map_under_pair fun e he => ?_
        have := key (kGrpc ++ (kQpb ++ e)) (by simp [kGrpc])
        simpa only [List.append_assoc] using this
  · simp only [outputFiles, Bool.false_eq_true, if_false, hms, hsv, decide_eq_true_eq]
    by_cases e1 : s.file.messages = [] ∧ s.file.enums = []
    · have e2 : s.file.services ≠ [] := fun e => hne ⟨e1.1, e1.2, e⟩
      rw [if_pos e1, if_neg e2]; simp [pair]
    · rw [if_neg e1]; simp [pair]

theorem single_run {a : Args} (hm : a.multi = false) : ∀ (srcs : List Source), (∀ s ∈ srcs, s.Ok) →
    (∀ s ∈ srcs, ∀ n ∈ s.file.messages.map Msg.name ++ s.file.services.map ServiceD.name ++ s.file.enums, ¬ FalseWord n) →
    ∃ ls hs, (srcs.map fun s => (s.path, s.text)).mapM (preParse a.multi a.folder) = some ls ∧
      (srcs.map Source.file).mapM (singleHeaders a.folder) = some hs ∧
      ls.flatten.map under = (sources hs.flatten).map under ∧ (srcs ≠ [] → ls.flatten ≠ [])
  | [], _, _ => ⟨[], [], rfl, rfl, rfl, by simp⟩
  | s :: srcs, h, hw => by
    obtain ⟨l, x, h1, h2, h3, h4⟩ := single_source (h s (by simp)) (hw s (by simp)) a.folder
    obtain ⟨ls, hs, g1, g2, g3, -⟩ := single_run hm srcs (fun x hx => h x (by simp [hx])) (fun x hx => hw x (by simp [hx]))
    refine ⟨l :: ls, x :: hs, ?_, ?_, ?_, ?_⟩
    · rw [hm] at g1 ⊢
      rw [List.map_cons, List.mapM_cons, h1, g1]; rfl
    · rw [List.map_cons, List.mapM_cons, h2, g2]; rfl
    · rw [List.flatten_cons, List.map_append, h3, g3, List.flatten_cons, sources_append, List.map_append]
    · intro _
      simp [h4]

/-- **C72, single-file mode.** The build system expects exactly the files that the generator writes, if the declarations of messages,
services and enumerations begin their own lines and none has a name that the build system takes for "false". -/
theorem C72_single_partial {a : Args} (hm : a.multi = false) (hns : Namespace a.extra) {srcs : List Source} (hne : srcs ≠ [])
    (h : ∀ s ∈ srcs, s.Ok)
    (hw : ∀ s ∈ srcs, ∀ n ∈ s.file.messages.map Msg.name ++ s.file.services.map ServiceD.name ++ s.file.enums, ¬ FalseWord n) :
    ∃ expected out, generatedFiles a (srcs.map fun s => (s.path, s.text)) = some expected ∧
      written (parseFromEnv (optionsString a)) (srcs.map Source.file) = some out ∧
      ∀ path, Listed expected path ↔ Listed out path := by
  obtain ⟨ls, hs, h1, h2, h3, h4⟩ := single_run hm srcs h hw
  refine ⟨ls.flatten, sources hs.flatten, ?_, ?_, listed_iff h3⟩
  · rw [generatedFiles, h1]
    simp only [Option.bind_eq_bind, Option.bind_some]
    rw [if_neg (h4 hne), if_neg (by rw [hm]; simp), List.append_nil]
  · rw [written, C73_partial hns]
    simp only [hm, Bool.or_false, Bool.false_eq_true, if_false, h2, Option.map_some]

/-! ### The hypotheses hold of a file -/

namespace Demo

/-- `syntax = "proto3";` -/
def l0 : Str := ['s', 'y', 'n', 't', 'a', 'x', ' ', '=', ' ', '"', 'p', 'r', 'o', 't', 'o', '3', '"', ';']
/-- `package a.b;` -/
def l1 : Str := ['p', 'a', 'c', 'k', 'a', 'g', 'e', ' ', 'a', '.', 'b', ';']
/-- `enum E { X = 0; }` -/
def l2 : Str := ['e', 'n', 'u', 'm', ' ', 'E', ' ', '{', ' ', 'X', ' ', '=', ' ', '0', ';', ' ', '}']
/-- `message Mm` -/
def l3 : Str := ['m', 'e', 's', 's', 'a', 'g', 'e', ' ', 'M', 'm']
/-- `{` -/
def l4 : Str := ['{']
/-- `  message N {` -/
def l5 : Str := [' ', ' ', 'm', 'e', 's', 's', 'a', 'g', 'e', ' ', 'N', ' ', '{']
/-- `    bool x = 1 [deprecated = true];` -/
def l6 : Str := [' ', ' ', ' ', ' ', 'b', 'o', 'o', 'l', ' ', 'x', ' ', '=', ' ', '1', ' ', '[', 'd', 'e', 'p', 'r', 'e', 'c', 'a', 't', 'e', 'd', ' ', '=', ' ', 't', 'r', 'u', 'e', ']', ';']
/-- `  }` -/
def l7 : Str := [' ', ' ', '}']
/-- `  N n = 1;` -/
def l8 : Str := [' ', ' ', 'N', ' ', 'n', ' ', '=', ' ', '1', ';']
/-- `}` -/
def l9 : Str := ['}']
/-- `service S {` -/
def l10 : Str := ['s', 'e', 'r', 'v', 'i', 'c', 'e', ' ', 'S', ' ', '{']
/-- `}` -/
def l11 : Str := ['}']
/-- `the empty line` -/
def l12 : Str := []

def lines : List Str := [l0, l1, l2, l3, l4, l5, l6, l7, l8, l9, l10, l11, l12]

/-- A file with a package, an enumeration, a message with another in it and a service. -/
def source : Source :=
  { path := ['d', '/', 'f', '.', 'p', 'r', 'o', 't', 'o']
    text := join '\n' lines
    file := { name := ['f', '.', 'p', 'r', 'o', 't', 'o'], package := [['a'], ['b']], messages := [.mk ['M', 'm'] [] [.mk ['N'] [] [] false] false], enums := [['E']],
              services := [⟨['S'], []⟩], deps := [] } }

theorem quiet_of {l : Str} (h : matchKey kwPackage isPackageChar (esc l) = none ∧ matchKey kwMessage isNameChar (esc l) = none ∧
    matchKey kwService isNameChar (esc l) = none ∧ matchKey kwEnum isNameChar (esc l) = none) : Quiet l := by
  intro n
  rw [← matchPackage, ← matchMessage, ← matchService, ← matchEnum, h.1, h.2.1, h.2.2.1, h.2.2.2]
  simp

theorem inner_of {l : Str} (h : matchKey kwPackage isPackageChar (esc l) = none ∧ matchKey kwService isNameChar (esc l) = none) : Inner l := by
  intro n
  rw [← matchPackage, ← matchService, h.1, h.2]
  simp

theorem message_ok : Message ['M', 'm'] [l3, l4, l5, l6, l7, l8, l9] := by
  have i5 : Inner l5 := inner_of (by decide)
  have i6 : Inner l6 := inner_of (by decide)
  have i7 : Inner l7 := inner_of (by decide)
  have i8 : Inner l8 := inner_of (by decide)
  have i9 : Inner l9 := inner_of (by decide)
  refine .header ((matchMessage _ _).mp (by decide)) (by decide) (by decide) (.opens (quiet_of (by decide)) ?_)
  refine .more (rest := 1) ⟨by decide, by decide⟩ (by decide) (by decide) (by simp [i5, i6, i7, i8, i9]) ?_
  refine .more (rest := 2) ⟨by decide, by decide⟩ (by decide) (by decide) (by simp [i6, i7, i8, i9]) ?_
  refine .more (rest := 2) ⟨by decide, by decide⟩ (by decide) (by decide) (by simp [i7, i8, i9]) ?_
  refine .more (rest := 1) ⟨by decide, by decide⟩ (by decide) (by decide) (by simp [i8, i9]) ?_
  refine .more (rest := 1) ⟨by decide, by decide⟩ (by decide) (by decide) (by simp [i9]) ?_
  exact .last ⟨by decide, by decide⟩ (by decide) (by decide)

theorem source_ok : source.Ok where
  layout := by
    refine ⟨lines, { package := ['a', '.', 'b'], messages := [['M', 'm']], services := [['S']], enums := [['E']] }, rfl, ?_, ?_, rfl, rfl, rfl, rfl⟩
    · simp only [Readable]; decide
    · refine .quiet (quiet_of (by decide)) (.package ((matchPackage _ _).mp (by decide)) rfl (d := ⟨[], _, _, _⟩)
        (.enum ((matchEnum _ _).mp (by decide)) (d := ⟨_, _, _, []⟩) (.message message_ok (d := ⟨_, [], _, _⟩)
          (.service ((matchService _ _).mp (by decide)) (d := ⟨_, _, [], _⟩) (.quiet (quiet_of (by decide)) (.quiet (quiet_of (by decide)) .nil))))))
  package := by simp only [← isNameChar_iff]; decide
  named := ⟨[['d']], [], ['f'], ['p', 'r', 'o', 't', 'o'], ⟨by decide, by simp only [Gen.Spec.NoSlash]; decide⟩,
    ⟨by decide, by simp only [Gen.Spec.NoSlash]; decide⟩⟩
  text := by rw [← isOff_iff]; decide
  nonempty := .inl (by simp [source])

end Demo

/-- The hypotheses of `C72_multi_partial` and `C72_single_partial` hold of it. -/
example : (∀ s ∈ [Demo.source], s.Ok) ∧ Namespace [] ∧ (∃ s ∈ [Demo.source], s.file.messages ≠ [] ∨ s.file.services ≠ []) ∧
    ∀ s ∈ [Demo.source], ∀ n ∈ s.file.messages.map Msg.name ++ s.file.services.map ServiceD.name ++ s.file.enums, ¬ FalseWord n := by
  refine ⟨by simp [Demo.source_ok], .inl rfl, ⟨Demo.source, by simp, .inl (by simp [Demo.source])⟩, ?_⟩
  simp only [← isOff_iff]
  decide

/-- What is expected for it: the nested message has no files. -/
example : generatedFiles { multi := true } [(Demo.source.path, Demo.source.text)] =
    some [['a', '/', 'b', '/', 'm', 'm', '.', 'h'],
      ['a', '/', 'b', '/', 'm', 'm', '.', 'c', 'p', 'p'],
      ['a', '/', 'b', '/', 's', 'c', 'l', 'i', 'e', 'n', 't', '.', 'h'],
      ['a', '/', 'b', '/', 's', 'c', 'l', 'i', 'e', 'n', 't', '.', 'c', 'p', 'p'],
      ['g', 'l', 'o', 'b', 'a', 'l', 'e', 'n', 'u', 'm', 's', '.', 'h']] := by decide

/-! ### What is missing -/

instance (l : List Str) (path : Str) : Decidable (Listed l path) := inferInstanceAs (Decidable (∃ x ∈ l, under x = path))

/-- **C72, negation.** `globalenums.cpp` is written but is not a part of the build, in multi-file mode: the definitions for enumerations outside of messages are not compiled. -/
theorem C72_globalenums_violated : ∃ s : Source, s.path = s.file.name ∧ s.file.enums ≠ [] ∧ ∃ expected out, generatedFiles { multi := true } [(s.path, s.text)] = some expected ∧
      written (parseFromEnv (optionsString { multi := true })) [s.file] = some out ∧ Listed out ['g', 'l', 'o', 'b', 'a', 'l', 'e', 'n', 'u', 'm', 's', '.', 'c', 'p', 'p'] ∧ ¬ Listed expected ['g', 'l', 'o', 'b', 'a', 'l', 'e', 'n', 'u', 'm', 's', '.', 'c', 'p', 'p'] := by
  refine ⟨{ path := ['f', '.', 'p', 'r', 'o', 't', 'o'], text := ['e', 'n', 'u', 'm', ' ', 'E', ' ', '{', ' ', 'X', ' ', '=', ' ', '0', ';', ' ', '}', '\n', 'm', 'e', 's', 's', 'a', 'g', 'e', ' ', 'A', ' ', '{', '\n', '}', '\n'],
            file := { name := ['f', '.', 'p', 'r', 'o', 't', 'o'], package := [], messages := [.mk ['A'] [] [] false], enums := [['E']], services := [], deps := [] } }, rfl, by simp, _, _, rfl, rfl, by decide, by decide⟩

/-- **C72, negation.** A project that declares only enumerations is refused in multi-file mode, though the generator writes files for them. -/
theorem C72_enums_only_violated : ∃ s : Source, s.path = s.file.name ∧ generatedFiles { multi := true } [(s.path, s.text)] = none ∧
    ∃ out, written (parseFromEnv (optionsString { multi := true })) [s.file] = some out ∧ out ≠ [] := by
  refine ⟨{ path := ['f', '.', 'p', 'r', 'o', 't', 'o'], text := ['e', 'n', 'u', 'm', ' ', 'E', ' ', '{', ' ', 'X', ' ', '=', ' ', '0', ';', ' ', '}', '\n'],
            file := { name := ['f', '.', 'p', 'r', 'o', 't', 'o'], package := [], messages := [], enums := [['E']], services := [], deps := [] } }, rfl, by decide, _, rfl, by decide⟩

/-- **C72, negation.** A file whose only message is called `Off` has no files in the build, in single-file mode. -/
theorem C72_false_name_violated : ∃ s : Source, s.path = s.file.name ∧ ∃ expected out, generatedFiles { multi := false } [(s.path, s.text)] = some expected ∧
      written (parseFromEnv (optionsString { multi := false })) [s.file] = some out ∧ Listed out ['f', '.', 'q', 'p', 'b', '.', 'h'] ∧ ¬ Listed expected ['f', '.', 'q', 'p', 'b', '.', 'h'] := by
  refine ⟨{ path := ['f', '.', 'p', 'r', 'o', 't', 'o'], text := ['m', 'e', 's', 's', 'a', 'g', 'e', ' ', 'O', 'f', 'f', ' ', '{', '\n', '}', '\n', 's', 'e', 'r', 'v', 'i', 'c', 'e', ' ', 'S', ' ', '{', '\n', '}', '\n'],
            file := { name := ['f', '.', 'p', 'r', 'o', 't', 'o'], package := [], messages := [.mk ['O', 'f', 'f'] [] [] false], enums := [], services := [⟨['S'], []⟩], deps := [] } }, rfl, _, _, rfl, rfl, by decide, by decide⟩

/-- **C72, negation.** A square bracket in a comment hides the declarations after it. -/
theorem C72_bracket_violated : ∃ s : Source, s.path = s.file.name ∧ ∃ expected out, generatedFiles { multi := true } [(s.path, s.text)] = some expected ∧
      written (parseFromEnv (optionsString { multi := true })) [s.file] = some out ∧ Listed out ['b', '.', 'h'] ∧ ¬ Listed expected ['b', '.', 'h'] := by
  refine ⟨{ path := ['f', '.', 'p', 'r', 'o', 't', 'o'], text := ['m', 'e', 's', 's', 'a', 'g', 'e', ' ', 'A', ' ', '{', '\n', '}', '\n', '/', '/', ' ', '[', '\n', 'm', 'e', 's', 's', 'a', 'g', 'e', ' ', 'B', ' ', '{', '\n', '}', '\n'],
            file := { name := ['f', '.', 'p', 'r', 'o', 't', 'o'], package := [], messages := [.mk ['A'] [] [] false, .mk ['B'] [] [] false], enums := [], services := [], deps := [] } }, rfl, _, _, rfl, rfl, by decide, by decide⟩

/-- **C72, negation.** A line of a comment that begins with `message` makes the build expect files that are never written. -/
theorem C72_comment_violated : ∃ s : Source, s.path = s.file.name ∧ ∃ expected out, generatedFiles { multi := true } [(s.path, s.text)] = some expected ∧
      written (parseFromEnv (optionsString { multi := true })) [s.file] = some out ∧ Listed expected ['i', 'n', '.', 'h'] ∧ ¬ Listed out ['i', 'n', '.', 'h'] := by
  refine ⟨{ path := ['f', '.', 'p', 'r', 'o', 't', 'o'], text := ['/', '*', '\n', 'm', 'e', 's', 's', 'a', 'g', 'e', ' ', 'i', 'n', ' ', 'a', ' ', 'b', 'o', 't', 't', 'l', 'e', '\n', '*', '/', '\n', 'm', 'e', 's', 's', 'a', 'g', 'e', ' ', 'A', ' ', '{', '\n', '}', '\n'],
            file := { name := ['f', '.', 'p', 'r', 'o', 't', 'o'], package := [], messages := [.mk ['A'] [] [] false], enums := [], services := [], deps := [] } }, rfl, _, _, rfl, rfl, by decide, by decide⟩

/-- **C72, negation.** After two opening braces on one line a nested message is taken for one of the file. -/
theorem C72_braces_violated : ∃ s : Source, s.path = s.file.name ∧ ∃ expected out, generatedFiles { multi := true } [(s.path, s.text)] = some expected ∧
      written (parseFromEnv (optionsString { multi := true })) [s.file] = some out ∧ Listed expected ['b', '.', 'h'] ∧ ¬ Listed out ['b', '.', 'h'] := by
  refine ⟨{ path := ['f', '.', 'p', 'r', 'o', 't', 'o'], text := ['m', 'e', 's', 's', 'a', 'g', 'e', ' ', 'A', ' ', '{', ' ', 'o', 'n', 'e', 'o', 'f', ' ', 'o', ' ', '{', '\n', ' ', ' ', 'b', 'o', 'o', 'l', ' ', 'x', ' ', '=', ' ', '1', ';', '\n', ' ', ' ', '}', '\n', ' ', ' ', 'm', 'e', 's', 's', 'a', 'g', 'e', ' ', 'B', ' ', '{', '\n', ' ', ' ', '}', '\n', '}', '\n'],
            file := { name := ['f', '.', 'p', 'r', 'o', 't', 'o'], package := [], messages := [.mk ['A'] [] [.mk ['B'] [] [] false] false], enums := [], services := [], deps := [] } }, rfl, _, _, rfl, rfl, by decide, by decide⟩

/-- **C72, negation.** The second of two messages on one line has no files in the build. -/
theorem C72_one_line_violated : ∃ s : Source, s.path = s.file.name ∧ ∃ expected out, generatedFiles { multi := true } [(s.path, s.text)] = some expected ∧
      written (parseFromEnv (optionsString { multi := true })) [s.file] = some out ∧ Listed out ['b', '.', 'h'] ∧ ¬ Listed expected ['b', '.', 'h'] := by
  refine ⟨{ path := ['f', '.', 'p', 'r', 'o', 't', 'o'], text := ['m', 'e', 's', 's', 'a', 'g', 'e', ' ', 'A', ' ', '{', '}', ' ', 'm', 'e', 's', 's', 'a', 'g', 'e', ' ', 'B', ' ', '{', '}', '\n'],
            file := { name := ['f', '.', 'p', 'r', 'o', 't', 'o'], package := [], messages := [.mk ['A'] [] [] false, .mk ['B'] [] [] false], enums := [], services := [], deps := [] } }, rfl, _, _, rfl, rfl, by decide, by decide⟩

end QtPb.Pre
