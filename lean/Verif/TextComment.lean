import Verif.TextRead
import Verif.PropsComments
/-
Comments in the printed text. (Helpers for the theorems about generated text.)
-/
namespace QtPb.TextProof
open QtPb.Gen QtPb.Gen.Text QtPb.SpecCpp

theorem tokens_plain : ∀ {s : Str}, '$' ∉ s → tokens none s = some (s.map Tok.ch)
  | [], _ => rfl
  | a :: s, h => by
    have ha : a ≠ '$' := fun e => h (by simp [e])
    have := tokens_plain (s := s) fun hs => h (by simp [hs])
    simp [tokens, ha, this]

theorem emitToks_plain (vars : Vars) (n : Nat) : ∀ (s : Str) (start : Bool),
    emitToks vars n start (s.map Tok.ch) = some (Comments.emit n start s, Comments.after start s)
  | [], start => rfl
  | a :: s, start => by
    rw [List.map_cons, emitToks, emitTok]
    by_cases ha : a = '\n'
    · simp [ha, emitToks_plain vars n s true, Comments.emit, Comments.after]
    · simp [ha, emitToks_plain vars n s false, Comments.emit, Comments.after, margin]

theorem after_append : ∀ (s t : Str) (start : Bool), Comments.after start (s ++ t) = Comments.after (Comments.after start s) t
  | [], _, _ => rfl
  | _ :: s, t, _ => after_append s t _

theorem run_plain (n : Nat) : ∀ (l : List Str) (start : Bool), (∀ s ∈ l, '$' ∉ s) →
    run n start (l.map (Op.print [])) = some (Comments.emit n start l.flatten, n, Comments.after start l.flatten)
  | [], start, _ => rfl
  | s :: l, start, h => by
    rw [List.map_cons, run]
    simp only [tokens_plain (h s (by simp)), emitToks_plain, run_plain n l _ fun x hx => h x (by simp [hx])]
    rw [List.flatten_cons, Comments.emit_append]
    rw [after_append]

theorem lex_inside : ∀ (b : Str) (l : Lex), l = .block ∨ l = .star → (l = .star → b.head? ≠ some '/') → Comments.hasPair '*' '/' b = false →
    ∃ l', lexFrom l b = some ([], l') ∧ (l' = .block ∨ l' = .star) ∧ (b.getLast? = some '*' → l' = .star)
  | [], l, hl, _, _ => ⟨l, rfl, hl, by simp⟩
  | a :: b, l, hl, hs, hp => by
    rw [Comments.hasPair_cons, Bool.or_eq_false_iff] at hp
    have hstep : ∃ l', step l a = some ([], l') ∧ (l' = .block ∨ l' = .star) ∧ (a = '*' → l' = .star) ∧ (l' = .star → a = '*') := by
      rcases hl with rfl | rfl
      · by_cases ha : a = '*'
        · exact ⟨.star, by simp [step, ha], by simp, by simp, by simp [ha]⟩
        · exact ⟨.block, by simp [step, ha], by simp, by simp [ha], by simp⟩
      · have hne : a ≠ '/' := fun e => hs rfl (by simp [e])
        by_cases ha : a = '*'
        · exact ⟨.star, by simp [step, ha], by simp, by simp, by simp [ha]⟩
        · exact ⟨.block, by simp [step, ha, hne], by simp, by simp [ha], by simp⟩
    obtain ⟨l1, h1, h2, h3, h4⟩ := hstep
    obtain ⟨l2, g1, g2, g3⟩ := lex_inside b l1 h2 (fun e hb => by
      have := hp.1
      simp [h4 e, hb] at this) hp.2
    refine ⟨l2, by simp [lexFrom, h1, g1], g2, fun hlast => ?_⟩
    cases b with
    | nil =>
      simp at hlast
      simp [lexFrom] at g1
      rw [← g1]; exact h3 hlast
    | cons x b => exact g3 (by simpa using hlast)

theorem lex_blank : ∀ (w : Str), (∀ c ∈ w, c = ' ' ∨ c = '\n') → lexFrom (.code []) w = some ([], .code [])
  | [], _ => rfl
  | a :: w, h => by
    have ih := lex_blank w fun c hc => h c (by simp [hc])
    rcases h a (by simp) with rfl | rfl
    · have : step (.code []) ' ' = some ([], .code []) := by decide
      simp [lexFrom, this, ih]
    · have : step (.code []) '\n' = some ([], .code []) := by decide
      simp [lexFrom, this, ih]

theorem lex_comment {s : Str} (h : Comments.OneComment s) : lexFrom (.code []) s = some ([], .code []) := by
  obtain ⟨w, b, rfl, hw, hb⟩ := h
  rw [← Comments.hasPair_iff, Bool.not_eq_true] at hb
  obtain ⟨l', h1, -, h3⟩ := lex_inside (b ++ ['*']) .block (Or.inl rfl) (by simp) hb
  have hl := h3 (by simp)
  subst hl
  have e : w ++ ['/', '*'] ++ b ++ ['*', '/'] = w ++ (['/', '*'] ++ ((b ++ ['*']) ++ ['/'])) := by simp
  have h2 : lexFrom (.code []) ['/', '*'] = some ([], .block) := by decide
  have h4 : lexFrom .star ['/'] = some ([], .code []) := by decide
  rw [e, lexFrom_append_some (lex_blank w hw), lexFrom_append_some h2, lexFrom_append_some h1, h4]
  rfl

/-- A comment that is one comment of C++. -/
theorem comment_eff {out : Bool} {o : Options} {s : Str} (h : o.comments = true → '$' ∉ s ∧ ∃ t, Comments.Trimmed s t ∧ Comments.Harmless t) :
    Eff out false false (printComments o s) [] [] (fun _ => []) := by
  intro n start l hl
  obtain ⟨w, rfl, hw, -, -⟩ := hl
  have hw := hw rfl
  subst hw
  by_cases hc : o.comments = true
  · obtain ⟨hd, t, ht, hh⟩ := h hc
    by_cases hne : t = []
    · have hcalls : Comments.printCalls o.comments s = [] := by
        rw [hne] at ht
        simp [Comments.printCalls, hc, Comments.trim_eq ht]
      refine ⟨[], start, [], .code [], ?_, rfl, ⟨[], rfl, fun _ => rfl, by decide, fun _ => rfl⟩, fun st found last _ => ⟨last, ?_⟩⟩
      · simp [printComments, hcalls, run]
      · simp [readAll]
    · obtain ⟨text, h1, h2⟩ := Comments.C82_comment_partial n start s t ht hne hd hh
      have hcalls : ∀ x ∈ Comments.printCalls o.comments s, '$' ∉ x := by
        have hfirst : ∀ x r, t = x :: r → ¬ Comments.Blank [x] := by
          obtain ⟨a, b, _, _, _, h, _⟩ := ht
          exact h
        have htd : '$' ∉ t := by
          obtain ⟨a, b, rfl, _⟩ := ht
          exact fun h => hd (by simp [h])
        have := (Comments.body_noPair hne hfirst).2.2.2 htd
        intro x hx
        simp only [Comments.printCalls, hc, Comments.trim_eq ht, Bool.not_true, Bool.false_eq_true, if_false, hne, List.mem_append,
          List.mem_singleton] at hx
        rcases hx with (rfl | hx) | rfl
        · decide
        · exact this x hx
        · decide
      have hr := run_plain n (Comments.printCalls o.comments s) start hcalls
      have he : Comments.emit n start (Comments.printCalls o.comments s).flatten = text := by
        rw [Comments.printComments, ← hc, Comments.printAll_plain _ hcalls] at h1
        exact Option.some.inj h1
      rw [he] at hr
      exact ⟨text, _, [], .code [], hr, lex_comment h2, ⟨[], rfl, fun _ => rfl, by decide, fun _ => rfl⟩,
        fun st found last _ => ⟨last, by simp [readAll]⟩⟩
  · have : Comments.printCalls o.comments s = [] := by simp [Comments.printCalls, hc]
    refine ⟨[], start, [], .code [], ?_, rfl, ⟨[], rfl, fun _ => rfl, by decide, fun _ => rfl⟩, fun st found last _ => ⟨last, ?_⟩⟩
    · simp [printComments, this, run]
    · simp [readAll]

end QtPb.TextProof
