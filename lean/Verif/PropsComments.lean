import Verif.GenComments
import Verif.SpecComments
/-
Property C82: comments of the proto file become comments of the generated code.
-/
namespace QtPb.Gen.Comments
open QtPb.Gen

/-! ### Pairs of characters -/

/-- The two characters stand next to each other. -/
def hasPair (x y : Char) : Str → Bool
  | [] => false
  | [_] => false
  | a :: b :: s => (a == x && b == y) || hasPair x y (b :: s)

theorem hasPair_iff (x y : Char) (s : Str) : hasPair x y s = true ↔ Occurs [x, y] s := by
  induction s with
  | nil => simp [hasPair, Occurs]
  | cons a s ih =>
    cases s with
    | nil =>
      simp only [hasPair, Bool.false_eq_true, false_iff]
      rintro ⟨p, q, h⟩
      have := congrArg List.length h
      simp at this
      omega
    | cons b s =>
      simp only [hasPair, Bool.or_eq_true, Bool.and_eq_true, beq_iff_eq, ih]
      constructor
      · rintro (⟨rfl, rfl⟩ | ⟨p, q, h⟩)
        · exact ⟨[], s, rfl⟩
        · exact ⟨a :: p, q, by rw [h]; simp⟩
      · rintro ⟨p, q, h⟩
        cases p with
        | nil =>
          simp only [List.nil_append, List.cons_append, List.cons.injEq] at h
          exact .inl ⟨h.1, h.2.1⟩
        | cons c p =>
          simp only [List.cons_append, List.cons.injEq] at h
          exact .inr ⟨p, q, by rw [h.2]⟩

theorem hasPair_cons (x y a : Char) (s : Str) : hasPair x y (a :: s) = ((a == x && s.head? == some y) || hasPair x y s) := by
  cases s with
  | nil => simp [hasPair]
  | cons b s => simp [hasPair]

theorem hasPair_append (x y : Char) (s t : Str) :
    hasPair x y (s ++ t) = (hasPair x y s || (s.getLast? == some x && t.head? == some y) || hasPair x y t) := by
  induction s with
  | nil => simp [hasPair]
  | cons a s ih =>
    rw [List.cons_append, hasPair_cons, ih, hasPair_cons]
    cases s with
    | nil => simp [hasPair]
    | cons b s => simp [List.getLast?_cons_cons, Bool.or_assoc]

/-! ### Trimming -/

theorem isSpace_iff (c : Char) : isSpace c = true ↔ c = ' ' ∨ c = '\t' ∨ c = '\n' ∨ c = '\r' ∨ c = '\x0c' ∨ c = '\x0b' := by
  simp [isSpace, or_assoc]

theorem dropWhile_blank (a s : Str) (ha : Blank a) : (a ++ s).dropWhile isSpace = s.dropWhile isSpace := by
  induction a with
  | nil => rfl
  | cons x a ih =>
    rw [List.cons_append, List.dropWhile_cons_of_pos]
    · exact ih fun y hy => ha y (List.mem_cons_of_mem _ hy)
    · exact (isSpace_iff x).mpr (ha x List.mem_cons_self)

theorem dropWhile_self (t : Str) (h : ∀ x r, t = x :: r → ¬ Blank [x]) : t.dropWhile isSpace = t := by
  cases t with
  | nil => rfl
  | cons x r =>
    rw [List.dropWhile_cons_of_neg]
    intro hs
    refine h x r rfl fun y hy => ?_
    rw [List.mem_singleton.mp hy]
    exact (isSpace_iff x).mp hs

theorem trim_eq {c t : Str} (h : Trimmed c t) : trim c = t := by
  obtain ⟨a, b, rfl, ha, hb, hf, hl⟩ := h
  have hr : rtrim (a ++ t ++ b) = rtrim (a ++ t) := by
    simp only [rtrim, List.reverse_append (as := a ++ t)]
    rw [dropWhile_blank b.reverse _ fun x hx => hb x (List.mem_reverse.mp hx)]
  rw [trim, hr]
  by_cases ht : t = []
  · subst ht
    have : rtrim (a ++ []) = [] := by
      simp only [rtrim, List.append_nil]
      have := dropWhile_blank a.reverse [] fun x hx => ha x (List.mem_reverse.mp hx)
      rw [List.append_nil] at this
      rw [this]
      rfl
    rw [this]
    rfl
  · have : rtrim (a ++ t) = a ++ t := by
      obtain ⟨r, x, rfl⟩ : ∃ r x, t = r ++ [x] := ⟨t.dropLast, t.getLast ht, (List.dropLast_concat_getLast ht).symm⟩
      simp only [rtrim]
      rw [dropWhile_self]
      · simp
      · intro y q hq
        have : y = x := by
          simp at hq
          exact hq.1.symm
        rw [this]
        exact hl x r rfl
    rw [this, ltrim, dropWhile_blank a t ha, dropWhile_self t hf]

/-! ### The Printer -/

theorem substitute_plain (s : Str) (h : '$' ∉ s) : ∀ n, s.length < n → substitute n s = some s := by
  induction s with
  | nil =>
    intro n hn
    cases n <;> rfl
  | cons c s ih =>
    intro n hn
    cases n with
    | zero => simp at hn
    | succ n =>
      have hc : c ≠ '$' := fun he => h (by rw [he]; exact List.mem_cons_self)
      rw [substitute, if_neg hc, ih (fun hm => h (List.mem_cons_of_mem _ hm)) n (by simp at hn; omega)]
      rfl

theorem printText_plain (s : Str) (h : '$' ∉ s) : printText s = some s := substitute_plain s h _ (by omega)

theorem printAll_plain (l : List Str) (h : ∀ s ∈ l, '$' ∉ s) : printAll l = some l.flatten := by
  induction l with
  | nil => rfl
  | cons s l ih =>
    rw [printAll, printText_plain s (h s List.mem_cons_self), ih fun x hx => h x (List.mem_cons_of_mem _ hx)]
    rfl

/-- The state of the writer of lines behind a text. -/
def after : Bool → Str → Bool
  | st, [] => st
  | _, c :: s => after (c = '\n') s

theorem emit_append (n : Nat) (s t : Str) : ∀ st, emit n st (s ++ t) = emit n st s ++ emit n (after st s) t := by
  induction s with
  | nil => intro st; rfl
  | cons c s ih =>
    intro st
    simp only [List.cons_append, emit, after]
    by_cases hc : c = '\n'
    · simp [hc, ih]
    · simp [hc, ih]

theorem emit_true_head (n : Nat) (s : Str) (hs : s.head? ≠ some '/') : ∀ st, (emit n st s).head? ≠ some '/' := by
  intro st
  cases s with
  | nil => simp [emit]
  | cons c s =>
    simp only [emit]
    by_cases hc : c = '\n'
    · simp [hc]
    · rw [if_neg hc]
      cases st with
      | false => simpa using hs
      | true =>
        cases n with
        | zero => simpa using hs
        | succ n => simp [List.replicate_succ]

theorem hasPair_spaces (n : Nat) (s : Str) : hasPair '*' '/' (List.replicate n ' ' ++ s) = hasPair '*' '/' s := by
  induction n with
  | zero => rfl
  | succ n ih => rw [List.replicate_succ, List.cons_append, hasPair_cons, ih]; simp

/-- Indentation neither makes nor breaks an end of a comment. -/
theorem hasPair_emit (n : Nat) (s : Str) : ∀ st, hasPair '*' '/' (emit n st s) = hasPair '*' '/' s := by
  induction s with
  | nil => intro st; rfl
  | cons c s ih =>
    intro st
    simp only [emit]
    by_cases hc : c = '\n'
    · rw [if_pos hc, hasPair_cons, ih, hasPair_cons, hc]
      simp
    · rw [if_neg hc]
      have key : hasPair '*' '/' (c :: emit n false s) = hasPair '*' '/' (c :: s) := by
        rw [hasPair_cons, ih, hasPair_cons]
        have : (emit n false s).head? = s.head? := by
          cases s with
          | nil => rfl
          | cons d s =>
            simp only [emit]
            by_cases hd : d = '\n'
            · simp [hd]
            · simp [hd]
        rw [this]
      cases st with
      | false => simpa using key
      | true =>
        rw [if_pos rfl, hasPair_spaces, key]

/-! ### Newlines followed by an asterisk -/

/-- `utils::replace` with these arguments, by characters. -/
def stars (s : Str) : Str := s.flatMap fun c => if c = '\n' then ['\n', ' ', '*'] else [c]

theorem replace_stars (s : Str) : replace ['\n'] ['\n', ' ', '*'] s = stars s := by
  rw [replace, stars]
  induction s with
  | nil => rfl
  | cons c s ih =>
    rw [replaceFrom, List.flatMap_cons]
    by_cases hc : c = '\n'
    · subst hc
      simp only [List.isPrefixOf, BEq.rfl, Bool.true_and, if_true, List.length_singleton, Nat.sub_self]
      rw [ih]
    · have : (['\n'].isPrefixOf (c :: s)) = false := by
        simp only [List.isPrefixOf, Bool.and_true]
        exact beq_eq_false_iff_ne.mpr (Ne.symm hc)
      rw [this]
      simp only [Bool.false_eq_true, if_false, hc]
      rw [ih]
      rfl

theorem stars_head (s : Str) : (stars s).head? = s.head? := by
  cases s with
  | nil => rfl
  | cons c s =>
    simp only [stars, List.flatMap_cons]
    by_cases hc : c = '\n' <;> simp [hc]

theorem hasPair_stars (s : Str) : hasPair '*' '/' (stars s) = (hasPair '*' '/' s || hasPair '\n' '/' s) := by
  induction s with
  | nil => rfl
  | cons c s ih =>
    have hs : stars (c :: s) = (if c = '\n' then ['\n', ' ', '*'] else [c]) ++ stars s := by simp [stars]
    rw [hs]
    by_cases hc : c = '\n'
    · rw [if_pos hc, hasPair_append, stars_head, ih, hasPair_cons '*' '/' c s, hasPair_cons '\n' '/' c s, hc]
      simp [hasPair]
      cases hasPair '*' '/' s <;> cases hasPair '\n' '/' s <;> simp
    · rw [if_neg hc, List.singleton_append, hasPair_cons, stars_head, ih, hasPair_cons '*', hasPair_cons '\n']
      have : (c == '\n') = false := beq_eq_false_iff_ne.mpr hc
      rw [this]
      simp [Bool.or_assoc]

theorem stars_plain {s : Str} (h : '$' ∉ s) : '$' ∉ stars s := by
  simp only [stars, List.mem_flatMap, not_exists, not_and]
  intro c hc hm
  by_cases hn : c = '\n'
  · simp [hn] at hm
  · rw [if_neg hn] at hm
    rw [List.mem_singleton.mp hm] at h
    exact h hc

/-! ### The body -/

theorem body_noPair {t : Str} (ht : t ≠ []) (hw : ∀ x r, t = x :: r → ¬ Blank [x]) :
    hasPair '*' '/' ((bodyText t).flatten) = (hasPair '*' '/' t || hasPair '\n' '/' t) ∧ (bodyText t).flatten.head? ≠ some '/' ∧
      (bodyText t).flatten.getLast? ≠ none ∧ ('$' ∉ t → ∀ s ∈ bodyText t, '$' ∉ s) := by
  obtain ⟨c, r, rfl⟩ := List.exists_cons_of_ne_nil ht
  have hnotnl : ∀ s : Str, '\n' ∉ s → hasPair '\n' '/' s = false := by
    intro s hs
    cases h : hasPair '\n' '/' s with
    | false => rfl
    | true =>
      obtain ⟨a, b, hab⟩ := (hasPair_iff _ _ _).mp h
      exact absurd (by rw [hab]; simp) hs
  -- the text with its beginning
  have hpre : ∀ p : Str, (p = [' '] ∨ p = ['\n', ' '] ∨ p = []) →
      hasPair '*' '/' (p ++ c :: r) = hasPair '*' '/' (c :: r) ∧ hasPair '\n' '/' (p ++ c :: r) = hasPair '\n' '/' (c :: r) := by
    rintro p (rfl | rfl | rfl)
    · constructor
      · rw [hasPair_append]; simp [hasPair]
      · rw [hasPair_append]; simp [hasPair]
    · constructor
      · rw [hasPair_append]; simp [hasPair]
      · rw [hasPair_append]; simp [hasPair]
    · simp
  have hhead : ∀ p : Str, (p = [' '] ∨ p = ['\n', ' '] ∨ (p = [] ∧ (c = '!' ∨ c = '*' ∨ c = ' '))) → (p ++ c :: r).head? ≠ some '/' := by
    rintro p (rfl | rfl | ⟨rfl, rfl | rfl | rfl⟩) <;> simp
  by_cases hnl : '\n' ∈ c :: r
  · have hsingle : (c :: r).contains '\n' = true := by simpa using hnl
    obtain ⟨p, hp, hb⟩ : ∃ p : Str, (p = [' '] ∨ p = ['\n', ' '] ∨ (p = [] ∧ (c = '!' ∨ c = '*' ∨ c = ' '))) ∧
        (bodyText (c :: r) = [stars (p ++ c :: r), ['\n']] ∨ bodyText (c :: r) = [stars (p ++ c :: r)]) := by
      simp only [bodyText, hsingle, Bool.not_true, Bool.false_eq_true, if_false, replace_stars]
      by_cases hc : c ≠ '!' ∧ c ≠ '*' ∧ c ≠ ' '
      · refine ⟨['\n', ' '], .inr (.inl rfl), ?_⟩
        simp only [if_pos hc, List.cons_append, List.nil_append]
        split
        · exact .inl rfl
        · exact .inr rfl
      · refine ⟨[], .inr (.inr ⟨rfl, ?_⟩), ?_⟩
        · by_cases h1 : c = '!'
          · exact .inl h1
          · by_cases h2 : c = '*'
            · exact .inr (.inl h2)
            · by_cases h3 : c = ' '
              · exact .inr (.inr h3)
              · exact absurd ⟨h1, h2, h3⟩ hc
        · simp only [if_neg hc, List.nil_append]
          split
          · exact .inl rfl
          · exact .inr rfl
    have hp' : p = [' '] ∨ p = ['\n', ' '] ∨ p = [] := by
      rcases hp with h | h | h
      · exact .inl h
      · exact .inr (.inl h)
      · exact .inr (.inr h.1)
    have hd : '$' ∉ c :: r → '$' ∉ stars (p ++ c :: r) := by
      intro hn
      apply stars_plain
      intro hm
      rcases List.mem_append.mp hm with h | h
      · rcases hp' with rfl | rfl | rfl <;> simp at h
      · exact hn h
    obtain ⟨e1, e2⟩ := hpre p hp'
    have hne : stars (p ++ c :: r) ≠ [] := by
      intro h
      have := stars_head (p ++ c :: r)
      rw [h] at this
      rcases hp' with rfl | rfl | rfl <;> simp at this
    rcases hb with hb | hb
    · rw [hb]
      refine ⟨?_, ?_, ?_, ?_⟩
      · simp only [List.flatten_cons, List.flatten_nil, List.append_nil]
        rw [hasPair_append, hasPair_stars, e1, e2]
        simp [hasPair]
      · simp only [List.flatten_cons, List.flatten_nil, List.append_nil]
        rw [List.head?_append, Option.or_of_isSome (by rw [List.isSome_head?]; simpa using hne), stars_head]
        exact hhead p hp
      · simp
      · intro hn s hs
        simp only [List.mem_cons, List.not_mem_nil, or_false] at hs
        rcases hs with rfl | rfl
        · exact hd hn
        · simp
    · rw [hb]
      refine ⟨?_, ?_, ?_, ?_⟩
      · simp only [List.flatten_cons, List.flatten_nil, List.append_nil]
        rw [hasPair_stars, e1, e2]
      · simp only [List.flatten_cons, List.flatten_nil, List.append_nil]
        rw [stars_head]
        exact hhead p hp
      · simpa using hne
      · intro hn s hs
        rw [List.mem_singleton.mp hs]
        exact hd hn
  · have hsingle : (c :: r).contains '\n' = false := by
      simpa using hnl
    obtain ⟨p, hp, hb⟩ : ∃ p : Str, (p = [' '] ∨ p = ['\n', ' '] ∨ (p = [] ∧ (c = '!' ∨ c = '*' ∨ c = ' '))) ∧
        bodyText (c :: r) = [p ++ c :: r] := by
      simp only [bodyText, hsingle, Bool.not_false, if_true, List.nil_append]
      by_cases hc : c ≠ '!' ∧ c ≠ '*' ∧ c ≠ ' '
      · exact ⟨[' '], .inl rfl, by simp only [if_pos hc]; rfl⟩
      · refine ⟨[], .inr (.inr ⟨rfl, ?_⟩), by simp only [if_neg hc]; rfl⟩
        by_cases h1 : c = '!'
        · exact .inl h1
        · by_cases h2 : c = '*'
          · exact .inr (.inl h2)
          · by_cases h3 : c = ' '
            · exact .inr (.inr h3)
            · exact absurd ⟨h1, h2, h3⟩ hc
    have hp' : p = [' '] ∨ p = ['\n', ' '] ∨ p = [] := by
      rcases hp with h | h | h
      · exact .inl h
      · exact .inr (.inl h)
      · exact .inr (.inr h.1)
    rw [hb]
    refine ⟨?_, ?_, ?_, ?_⟩
    · simp only [List.flatten_cons, List.flatten_nil, List.append_nil]
      rw [(hpre p hp').1, hnotnl _ hnl, Bool.or_false]
    · simp only [List.flatten_cons, List.flatten_nil, List.append_nil]
      exact hhead p hp
    · simp
    · intro hn s hs
      rw [List.mem_singleton.mp hs]
      intro hm
      rcases List.mem_append.mp hm with h | h
      · rcases hp' with rfl | rfl | rfl <;> simp at h
      · exact hn h

/-! ### The property -/

theorem open_unique {w w' b b' : Str} (h : w ++ ['/', '*'] ++ b = w' ++ ['/', '*'] ++ b') (h1 : ∀ c ∈ w, c = ' ' ∨ c = '\n')
    (h2 : ∀ c ∈ w', c = ' ' ∨ c = '\n') : w = w' ∧ b = b' := by
  induction w generalizing w' with
  | nil =>
    cases w' with
    | nil => simpa using h
    | cons c w' =>
      simp only [List.nil_append, List.cons_append, List.cons.injEq] at h
      have := h2 c List.mem_cons_self
      rw [← h.1] at this
      simp at this
  | cons c w ih =>
    cases w' with
    | nil =>
      simp only [List.nil_append, List.cons_append, List.cons.injEq] at h
      have := h1 c List.mem_cons_self
      rw [h.1] at this
      simp at this
    | cons d w' =>
      simp only [List.cons_append, List.cons.injEq] at h
      obtain ⟨rfl, h⟩ := h
      have := ih (w' := w') h (fun x hx => h1 x (List.mem_cons_of_mem _ hx)) (fun x hx => h2 x (List.mem_cons_of_mem _ hx))
      exact ⟨by rw [this.1], this.2⟩

theorem after_space (st : Bool) (B : Str) : after st (B ++ [' ']) = false := by
  induction B generalizing st with
  | nil => simp [after]
  | cons d B ih => exact ih _

/-- C82, exactly. For every comment without a dollar sign, at every indentation: what is printed is one comment of C++ if and only if
the comment contains neither `*/` nor, behind its first line, a line that begins with a slash. -/
theorem C82_exactly (indent : Nat) (start : Bool) (c t : Str) (ht : Trimmed c t) (hne : t ≠ []) (hd : '$' ∉ c) :
    ∃ s, printComments true indent start c = some s ∧ (OneComment s ↔ Harmless t) := by
  have htd : '$' ∉ t := by
    obtain ⟨a, b, rfl, _⟩ := ht
    intro h
    exact hd (by simp [h])
  have hfirst : ∀ x r, t = x :: r → ¬ Blank [x] := by
    obtain ⟨a, b, _, _, _, h, _⟩ := ht
    exact h
  obtain ⟨hpair, hhd, hlast, hplain⟩ := body_noPair hne hfirst
  have hcalls : printCalls true c = [kOpen] ++ bodyText t ++ [kClose] := by
    simp only [printCalls, Bool.not_true, Bool.false_eq_true, if_false, trim_eq ht, if_neg hne]
  have hall : printAll (printCalls true c) = some (kOpen ++ (bodyText t).flatten ++ kClose) := by
    rw [hcalls, printAll_plain]
    · simp
    · intro s hs
      simp only [List.mem_append, List.mem_singleton] at hs
      rcases hs with (rfl | hs) | rfl
      · simp [kOpen]
      · exact hplain htd s hs
      · simp [kClose]
  refine ⟨emit indent start (kOpen ++ (bodyText t).flatten ++ kClose), by rw [printComments, hall]; rfl, ?_⟩
  generalize hB : (bodyText t).flatten = B at hpair hhd hlast
  -- the printed text
  obtain ⟨w, hw⟩ : ∃ w : Str, (∀ x ∈ w, x = ' ' ∨ x = '\n') ∧
      emit indent start (kOpen ++ B ++ kClose) = w ++ ['/', '*'] ++ (emit indent false (B ++ [' '])) ++ ['*', '/'] := by
    refine ⟨'\n' :: List.replicate indent ' ', ?_, ?_⟩
    · intro x hx
      rcases List.mem_cons.mp hx with rfl | hx
      · exact .inr rfl
      · exact .inl (List.eq_of_mem_replicate hx)
    · have e : emit indent false (B ++ kClose) = emit indent false (B ++ [' ']) ++ ['*', '/'] := by
        have : B ++ kClose = B ++ [' '] ++ ['*', '/'] := by simp [kClose]
        rw [this, emit_append]
        congr 1
        rw [after_space]
        rfl
      have : kOpen ++ B ++ kClose = '\n' :: '/' :: '*' :: (B ++ kClose) := by simp [kOpen]
      rw [this]
      simp only [emit, if_true]
      rw [if_neg (by decide), if_neg (by decide), e]
      simp
  obtain ⟨hwb, hE⟩ := hw
  have hfree : hasPair '*' '/' (emit indent false (B ++ [' ']) ++ ['*']) = (hasPair '*' '/' t || hasPair '\n' '/' t) := by
    rw [hasPair_append, hasPair_emit, hasPair_append, hpair]
    simp [hasPair]
  have hH : Harmless t ↔ (hasPair '*' '/' t || hasPair '\n' '/' t) = false := by
    rw [Harmless, ← hasPair_iff, ← hasPair_iff]
    simp
  rw [hE, hH]
  constructor
  · rintro ⟨w', b', h, hw', hb'⟩
    have h' : w ++ ['/', '*'] ++ (emit indent false (B ++ [' ']) ++ ['*', '/']) = w' ++ ['/', '*'] ++ (b' ++ ['*', '/']) := by
      simpa using h
    have := (open_unique h' hwb hw').2
    have hb : emit indent false (B ++ [' ']) = b' := List.append_cancel_right this
    rw [← hb, ← hasPair_iff, hfree] at hb'
    simpa using hb'
  · intro h
    refine ⟨w, _, rfl, hwb, ?_⟩
    rw [← hasPair_iff, hfree, h]
    simp

/-- C82 for harmless comments without a dollar sign. Missing: the others, which end the comment of C++ too early or stop the
generator. -/
theorem C82_comment_partial (indent : Nat) (start : Bool) (c t : Str) (ht : Trimmed c t) (hne : t ≠ []) (hd : '$' ∉ c) (hh : Harmless t) :
    ∃ s, printComments true indent start c = some s ∧ OneComment s := by
  obtain ⟨s, hs, h⟩ := C82_exactly indent start c t ht hne hd
  exact ⟨s, hs, h.mpr hh⟩

/-- C82. Without the option, and for a comment of white space, nothing is printed. -/
theorem C82_nothing (enabled : Bool) (indent : Nat) (start : Bool) (c : Str) (h : enabled = false ∨ Trimmed c []) :
    printComments enabled indent start c = some [] := by
  rcases h with rfl | h
  · rfl
  · cases enabled with
    | false => rfl
    | true => simp [printComments, printCalls, trim_eq h, printAll, emit]

/-- No part of the comment is lost: every piece of a line is in what is printed. -/
theorem C82_text (indent : Nat) (start : Bool) (c t l : Str) (ht : Trimmed c t) (hne : t ≠ []) (hd : '$' ∉ c) (hl : Occurs l t) (hn : '\n' ∉ l) :
    ∃ s, printComments true indent start c = some s ∧ Occurs l s := by
  have htd : '$' ∉ t := by
    obtain ⟨a, b, rfl, _⟩ := ht
    intro h
    exact hd (by simp [h])
  have hfirst : ∀ x r, t = x :: r → ¬ Blank [x] := by
    obtain ⟨a, b, _, _, _, h, _⟩ := ht
    exact h
  obtain ⟨_, _, _, hplain⟩ := body_noPair hne hfirst
  have hcalls : printCalls true c = [kOpen] ++ bodyText t ++ [kClose] := by
    simp only [printCalls, Bool.not_true, Bool.false_eq_true, if_false, trim_eq ht, if_neg hne]
  have hall : printAll (printCalls true c) = some (kOpen ++ (bodyText t).flatten ++ kClose) := by
    rw [hcalls, printAll_plain]
    · simp
    · intro s hs
      simp only [List.mem_append, List.mem_singleton] at hs
      rcases hs with (rfl | hs) | rfl
      · simp [kOpen]
      · exact hplain htd s hs
      · simp [kClose]
  refine ⟨_, by rw [printComments, hall]; rfl, ?_⟩
  have starsl : stars l = l := by
    clear hl
    induction l with
    | nil => rfl
    | cons d l ih =>
      have hd' : d ≠ '\n' := fun e => hn (by rw [e]; exact List.mem_cons_self)
      simp only [stars, List.flatMap_cons, if_neg hd', List.singleton_append, List.cons.injEq, true_and]
      exact ih fun h => hn (List.mem_cons_of_mem _ h)
  have emitl : ∀ st, Occurs l (emit indent st l) := by
    intro st
    have plain : ∀ l : Str, '\n' ∉ l → emit indent false l = l := by
      intro l hn
      induction l with
      | nil => rfl
      | cons d l ih =>
        have hd' : d ≠ '\n' := fun e => hn (by rw [e]; exact List.mem_cons_self)
        simp only [emit, if_neg hd', Bool.false_eq_true, if_false, List.nil_append]
        rw [ih fun h => hn (List.mem_cons_of_mem _ h)]
    cases l with
    | nil => exact ⟨[], [], rfl⟩
    | cons d l =>
      have hd' : d ≠ '\n' := fun e => hn (by rw [e]; exact List.mem_cons_self)
      simp only [emit, if_neg hd', plain l fun h => hn (List.mem_cons_of_mem _ h)]
      exact ⟨_, [], (List.append_nil _).symm⟩
  have occ : ∀ (x y : Str), Occurs l (emit indent start (x ++ l ++ y)) := by
    intro x y
    rw [emit_append, emit_append]
    obtain ⟨a, b, h⟩ := emitl (after start x)
    rw [h]
    exact ⟨emit indent start x ++ a, b ++ emit indent (after start (x ++ l)) y, by simp⟩
  have body : Occurs l (bodyText t).flatten := by
    obtain ⟨a, b, hab⟩ := hl
    have pre : ∀ p : Str, Occurs l (p ++ t) := fun p => ⟨p ++ a, b, by rw [hab]; simp⟩
    have star : ∀ s : Str, Occurs l s → Occurs l (stars s) := by
      rintro s ⟨x, y, rfl⟩
      refine ⟨stars x, stars y, ?_⟩
      have : stars (x ++ l ++ y) = stars x ++ stars l ++ stars y := by simp [stars]
      rw [this, starsl]
    obtain ⟨p, hp⟩ : ∃ p : Str, (bodyText t).flatten = p ++ t ∨ (∃ q, (bodyText t).flatten = stars (p ++ t) ++ q) := by
      cases t with
      | nil => exact absurd rfl hne
      | cons d r =>
        simp only [bodyText, replace_stars]
        by_cases hc : d ≠ '!' ∧ d ≠ '*' ∧ d ≠ ' '
        · simp only [if_pos hc]
          cases hs : (d :: r).contains '\n' with
          | false => exact ⟨[' '], .inl (by simp)⟩
          | true =>
            refine ⟨['\n', ' '], .inr ?_⟩
            simp only [Bool.not_true, Bool.false_eq_true, if_false, List.cons_append, List.nil_append]
            split
            · exact ⟨['\n'], by simp⟩
            · exact ⟨[], by simp⟩
        · simp only [if_neg hc]
          cases hs : (d :: r).contains '\n' with
          | false => exact ⟨[], .inl (by simp)⟩
          | true =>
            refine ⟨[], .inr ?_⟩
            simp only [Bool.not_true, Bool.false_eq_true, if_false, List.nil_append]
            split
            · exact ⟨['\n'], by simp⟩
            · exact ⟨[], by simp⟩
    rcases hp with hp | ⟨q, hp⟩
    · rw [hp]; exact pre p
    · rw [hp]
      obtain ⟨x, y, h⟩ := star _ (pre p)
      exact ⟨x, y ++ q, by rw [h]; simp⟩
  obtain ⟨x, y, h⟩ := body
  rw [h]
  have := occ (kOpen ++ x) (y ++ kClose)
  simpa using this

/-! ### Comments that are none -/

/-- A harmless comment of two lines, in front of a field. -/
example : printComments true 4 false [' ', 'A', '\n', ' ', 'B', '\n'] =
    some ("\n    /*\n     * A\n     * B\n     */".toList) := by decide +kernel

/-- It meets the hypotheses. -/
example : Trimmed [' ', 'A', '\n', ' ', 'B', '\n'] ['A', '\n', ' ', 'B'] ∧ Harmless ['A', '\n', ' ', 'B'] := by
  refine ⟨⟨[' '], ['\n'], rfl, ?_, ?_, ?_, ?_⟩, ?_, ?_⟩
  · simp [Blank]
  · simp [Blank]
  · rintro x r h
    simp only [List.cons.injEq] at h
    simp [Blank, ← h.1]
  · intro x r h
    have : x = 'B' := by
      have := congrArg List.getLast? h
      simpa using this.symm
    simp [Blank, this]
  · rw [← hasPair_iff]; decide
  · rw [← hasPair_iff]; decide

/-- C82 is violated: of a comment of two lines, each introduced by three slashes,
`/// First` and `/// Second`, the second line ends the comment of C++; what follows in this line is taken for code. -/
theorem C82_triple_slash_violated :
    ∃ s, printComments true 0 true ("/ A\n/ B\n".toList) = some s ∧ s = "\n/*\n * / A\n */ B\n */".toList ∧ ¬ OneComment s := by
  have ht : Trimmed ("/ A\n/ B\n".toList) ("/ A\n/ B".toList) := by
    refine ⟨[], ['\n'], by decide, ?_, ?_, ?_, ?_⟩
    · simp [Blank]
    · simp [Blank]
    · rintro x r h
      have : x = '/' := by
        have := congrArg List.head? h
        simpa using this.symm
      simp [Blank, this]
    · intro x r h
      have : x = 'B' := by
        have := congrArg List.getLast? h
        simpa using this.symm
      simp [Blank, this]
  obtain ⟨s, hs, h⟩ := C82_exactly 0 true _ _ ht (by decide) (by decide)
  refine ⟨s, hs, ?_, ?_⟩
  · have : printComments true 0 true ("/ A\n/ B\n".toList) = some "\n/*\n * / A\n */ B\n */".toList := by decide +kernel
    rw [hs] at this
    exact Option.some.inj this
  · rw [h, Harmless, ← hasPair_iff, ← hasPair_iff]
    decide

/-- C82 is violated: `*/` in a comment that is introduced by two slashes ends the comment of C++. -/
theorem C82_end_violated (indent : Nat) (start : Bool) :
    ∃ s, printComments true indent start ("see src/*/a.h".toList) = some s ∧ ¬ OneComment s := by
  have ht : Trimmed ("see src/*/a.h".toList) ("see src/*/a.h".toList) := by
    refine ⟨[], [], by decide, ?_, ?_, ?_, ?_⟩
    · simp [Blank]
    · simp [Blank]
    · rintro x r h
      have : x = 's' := by
        have := congrArg List.head? h
        simpa using this.symm
      simp [Blank, this]
    · intro x r h
      have : x = 'h' := by
        have := congrArg List.getLast? h
        simpa using this.symm
      simp [Blank, this]
  obtain ⟨s, hs, h⟩ := C82_exactly indent start _ _ ht (by decide) (by decide)
  refine ⟨s, hs, ?_⟩
  rw [h, Harmless, ← hasPair_iff, ← hasPair_iff]
  decide

/-- C82 is violated: the comment is printed as a template, so that a dollar sign begins the name of a variable, which does not
exist. -/
theorem C82_dollar_violated (indent : Nat) (start : Bool) : printComments true indent start ("price in $".toList) = none := by
  have : printAll (printCalls true ("price in $".toList)) = none := by decide +kernel
  rw [printComments, this]
  rfl

/-- C82 is violated: two dollar signs in a comment become one, so that what the comment says is changed. -/
theorem C82_two_dollars_violated (indent : Nat) :
    printComments true indent false ("$$HOME".toList) = some ("\n".toList ++ List.replicate indent ' ' ++ "/* $HOME */".toList) ∧
      Occurs "$$HOME".toList "$$HOME".toList ∧ ¬ Occurs "$$".toList ("\n".toList ++ List.replicate indent ' ' ++ "/* $HOME */".toList) := by
  have h : printAll (printCalls true ("$$HOME".toList)) = some "\n/* $HOME */".toList := by decide +kernel
  refine ⟨?_, ⟨[], [], by simp⟩, ?_⟩
  · rw [printComments, h]
    simp [emit]
  · rintro ⟨a, b, hab⟩
    have hc : ∀ s : List Char, (s.filter (· = '$')).length = 1 → ¬ ∃ a b, s = a ++ "$$".toList ++ b := by
      rintro s hs ⟨a, b, rfl⟩
      simp at hs
      omega
    refine hc _ ?_ ⟨a, b, hab⟩
    have hr : (List.replicate indent ' ').filter (· = '$') = [] := by simp
    rw [List.filter_append, List.filter_append, hr]
    decide

end QtPb.Gen.Comments
