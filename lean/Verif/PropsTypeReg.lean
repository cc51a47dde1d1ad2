import Verif.TypeReg
/-
C29: type registration functions run exactly once, in order. C50: several threads.
-/
namespace QtPb.TypeReg

/-! ### Lemmas -/

theorem qRegister_again {body : Nat → List Act} {n : Nat} {s s' : State} (hr : s.registred = true)
    (h : qRegister body n s = .ok s') : s' = s := by
  cases n with
  | zero => simp [qRegister] at h
  | succ n => simp [qRegister, hr] at h; exact h.symm

theorem runBody_keeps {body : Nat → List Act} {n : Nat} {as : List Act} {s s' : State}
    (hr : s.registred = true) (h : runBody (qRegister body n) as s = .ok s') :
    s'.registred = true ∧ s'.log = s.log ∧ (∃ more, s'.functions = s.functions ++ more) ∧
      ((∀ f, Act.append f ∉ as) → s' = s) := by
  induction as generalizing s with
  | nil =>
    simp only [runBody, Res.ok.injEq] at h
    subst h
    exact ⟨hr, rfl, ⟨[], by simp⟩, fun _ => rfl⟩
  | cons a as ih =>
    cases a with
    | other =>
      obtain ⟨h1, h2, h3, h4⟩ := ih hr h
      exact ⟨h1, h2, h3, fun hno => h4 fun f hm => hno f (List.mem_cons_of_mem _ hm)⟩
    | callAgain =>
      simp only [runBody, Res.bind_eq_ok] at h
      obtain ⟨s1, h1, h2⟩ := h
      have := qRegister_again hr h1
      subst this
      obtain ⟨h1, h2, h3, h4⟩ := ih hr h2
      exact ⟨h1, h2, h3, fun hno => h4 fun f hm => hno f (List.mem_cons_of_mem _ hm)⟩
    | append f =>
      obtain ⟨h1, h2, ⟨more, h3⟩, _⟩ := ih (s := append s f) hr h
      refine ⟨h1, h2, ⟨f :: more, ?_⟩, fun hno => absurd (List.mem_cons_self ..) (hno f)⟩
      rw [h3]; simp [append]

theorem loop_runs {body : Nat → List Act} {m n i : Nat} {s s' : State} (hr : s.registred = true)
    (h : loop body (qRegister body m) n i s = .ok s') :
    s'.registred = true ∧ (∃ more, s'.functions = s.functions ++ more) ∧
      s'.log = s.log ++ (s'.functions.drop i).map .fn ∧
      ((∀ f ∈ s.functions, ∀ g, Act.append g ∉ body f) → s'.functions = s.functions) := by
  induction n generalizing i s with
  | zero => simp [loop] at h
  | succ n ih =>
    simp only [loop] at h
    split at h
    · rename_i hi
      simp only [Res.ok.injEq] at h
      subst h
      refine ⟨hr, ⟨[], by simp⟩, ?_, fun _ => rfl⟩
      rw [List.drop_eq_nil_of_le (List.getElem?_eq_none_iff.mp hi)]
      simp
    · rename_i f hi
      simp only [Res.bind_eq_ok] at h
      obtain ⟨s1, h1, h2⟩ := h
      obtain ⟨r1, l1, ⟨more1, f1⟩, k1⟩ := runBody_keeps (s := { s with log := s.log ++ [.fn f] }) hr h1
      obtain ⟨r2, ⟨more2, f2⟩, l2, k2⟩ := ih r1 h2
      simp only at l1 f1
      refine ⟨r2, ⟨more1 ++ more2, by rw [f2, f1]; simp⟩, ?_, ?_⟩
      · rw [l2, l1]
        obtain ⟨hlt, hget⟩ := List.getElem?_eq_some_iff.mp hi
        have hlt' : i < s'.functions.length := by rw [f2, f1]; simp; omega
        have hf : s'.functions[i] = f := by
          have : s'.functions[i]? = some f := by
            rw [f2, f1, List.append_assoc, List.getElem?_append_left hlt]
            exact hi
          rw [List.getElem?_eq_getElem hlt'] at this
          exact Option.some.inj this
        rw [List.drop_eq_getElem_cons hlt', hf]
        simp
      · intro hno
        have e1 := k1 (hno f (List.mem_of_getElem? hi))
        rw [k2 (by rw [e1]; exact hno), e1]

theorem run_calls {body : Nat → List Act} {n k : Nat} {s s' : State} (hr : s.registred = true)
    (h : run body n (List.replicate k .call) s = .ok s') : s' = s := by
  induction k generalizing s with
  | zero => simp [run] at h; exact h.symm
  | succ k ih =>
    simp only [List.replicate_succ, run, Res.bind_eq_ok] at h
    obtain ⟨s1, h1, h2⟩ := h
    have := qRegister_again hr h1
    subst this
    exact ih hr h2

theorem run_appends {body : Nat → List Act} {n : Nat} (fs : List Nat) (es : List Ev) (s : State) :
    run body n (fs.map .append ++ es) s = run body n es { s with functions := s.functions ++ fs } := by
  induction fs generalizing s with
  | nil => simp
  | cons f fs ih =>
    simp only [List.map_cons, List.cons_append, run, append]
    rw [ih]
    simp

theorem loop_returns {body : Nat → List Act} (hno : ∀ f g, Act.append g ∉ body f) {m : Nat} (hm : 0 < m)
    {n i : Nat} {s : State} (hr : s.registred = true) (hi : i ≤ s.functions.length)
    (hn : s.functions.length < i + n) : ∃ s', loop body (qRegister body m) n i s = .ok s' := by
  have hbody : ∀ (as : List Act) (s : State), (∀ g, Act.append g ∉ as) → s.registred = true →
      runBody (qRegister body m) as s = .ok s := by
    intro as
    induction as with
    | nil => intro s _ _; rfl
    | cons a as ih =>
      intro s hno hr
      have hno' : ∀ g, Act.append g ∉ as := fun g hm => hno g (List.mem_cons_of_mem _ hm)
      cases a with
      | other => exact ih s hno' hr
      | callAgain =>
        cases m with
        | zero => omega
        | succ m =>
          simp only [runBody, qRegister, hr, if_true, Res.bind]
          exact ih s hno' hr
      | append f => exact absurd (List.mem_cons_self ..) (hno f)
  induction n generalizing i s with
  | zero => omega
  | succ n ih =>
    simp only [loop]
    split
    · exact ⟨s, rfl⟩
    · rename_i f hf
      rw [hbody _ { s with log := s.log ++ [.fn f] } (hno f) hr]
      have := (List.getElem?_eq_some_iff.mp hf).1
      exact ih hr (by simp only; omega) (by simp only; omega)

/-! ### C29 -/

/-- C29: however often `qRegisterProtobufTypes()` is called after static initialisation (which appended
the functions `fs`), the built-in types are registered once and then every function in the list has run
exactly once, in order. This holds whatever the functions do; if none of them appends further functions
the list is `fs`. -/
theorem C29_once (body : Nat → List Act) (fs : List Nat) {n k : Nat} {s : State}
    (h : run body n (fs.map .append ++ List.replicate (k + 1) .call) start = .ok s) :
    s.log = .builtin :: s.functions.map .fn ∧ (∃ more, s.functions = fs ++ more) ∧
      ((∀ f ∈ fs, ∀ g, Act.append g ∉ body f) → s.functions = fs) := by
  rw [run_appends] at h
  simp only [start, List.nil_append, List.replicate_succ, run, Res.bind_eq_ok] at h
  obtain ⟨s1, h1, h2⟩ := h
  cases n with
  | zero => simp [qRegister] at h1
  | succ n =>
    simp only [qRegister, Bool.false_eq_true, if_false, List.nil_append] at h1
    obtain ⟨r1, f1, l1, k1⟩ := loop_runs (s := ⟨fs, true, [.builtin]⟩) rfl h1
    have := run_calls r1 h2
    subst this
    exact ⟨by rw [l1]; simp, f1, k1⟩

/-- C29: if no function appends further functions, every call returns, also those made by the functions
themselves. -/
theorem C29_returns (body : Nat → List Act) (hno : ∀ f g, Act.append g ∉ body f) (fs : List Nat) (k : Nat) :
    ∃ n s, run body n (fs.map .append ++ List.replicate k .call) start = .ok s := by
  refine ⟨fs.length + 2, ?_⟩
  rw [run_appends]
  cases k with
  | zero => exact ⟨_, rfl⟩
  | succ k =>
    obtain ⟨s1, h1⟩ := loop_returns hno (m := fs.length + 1) (by omega) (n := fs.length + 1) (i := 0)
      (s := ⟨fs, true, [.builtin]⟩) rfl (by simp) (by simp)
    have hr := (loop_runs (s := ⟨fs, true, [.builtin]⟩) rfl h1).1
    refine ⟨s1, ?_⟩
    have hq : qRegister body (fs.length + 2) { start with functions := start.functions ++ fs } = .ok s1 := by
      rw [qRegister]
      simpa only [start, List.nil_append, Bool.false_eq_true, if_false] using h1
    simp only [List.replicate_succ, run, hq, Res.bind]
    clear h1 hq
    induction k with
    | zero => rfl
    | succ k ih => simp only [List.replicate_succ, run, qRegister, hr, if_true, Res.bind]; exact ih

/-- Three functions, the second of which calls `qRegisterProtobufTypes()` again. -/
def demoBody : Nat → List Act
  | 7 => [.other, .callAgain, .other]
  | _ => [.other]

/-- The hypotheses of `C29_once` and `C29_returns` are met by a program with a re-entrant function. -/
example : run demoBody 9 ([3, 7, 5].map .append ++ List.replicate 3 .call) start =
    .ok ⟨[3, 7, 5], true, [.builtin, .fn 3, .fn 7, .fn 5]⟩ := rfl

example : ∀ f g, Act.append g ∉ demoBody f := by
  intro f g
  unfold demoBody
  split <;> simp

/-- C29 does not extend to functions that are appended after the first call (a library that is loaded
later): whatever the functions do, they never run, however often `qRegisterProtobufTypes()` is called. -/
theorem C29_late_violated (body : Nat → List Act) (fs late : List Nat) {n k m : Nat} {s : State}
    (h : run body n (fs.map .append ++ List.replicate (k + 1) .call ++
      (late.map .append ++ List.replicate m .call)) start = .ok s) :
    ∃ t, run body n (fs.map .append ++ List.replicate (k + 1) .call) start = .ok t ∧
      s.log = t.log ∧ s.functions = t.functions ++ late := by
  have hsplit : ∀ (as bs : List Ev) (s0 s' : State), run body n (as ++ bs) s0 = .ok s' →
      ∃ t, run body n as s0 = .ok t ∧ run body n bs t = .ok s' := by
    intro as
    induction as with
    | nil => intro bs s0 s' h; exact ⟨s0, rfl, h⟩
    | cons a as ih =>
      intro bs s0 s' h
      cases a with
      | append f => exact ih _ _ _ h
      | call =>
        simp only [List.cons_append, run, Res.bind_eq_ok] at h
        obtain ⟨s1, h1, h2⟩ := h
        obtain ⟨t, h3, h4⟩ := ih _ _ _ h2
        exact ⟨t, by simp only [run, h1, Res.bind]; exact h3, h4⟩
  obtain ⟨t, h1, h2⟩ := hsplit _ _ _ _ h
  refine ⟨t, h1, ?_⟩
  have hr : t.registred = true := by
    rw [run_appends] at h1
    simp only [start, List.nil_append, List.replicate_succ, run, Res.bind_eq_ok] at h1
    obtain ⟨s1, h3, h4⟩ := h1
    cases n with
    | zero => simp [qRegister] at h3
    | succ n =>
      simp only [qRegister, Bool.false_eq_true, if_false] at h3
      have r1 := (loop_runs (s := ⟨fs, true, _⟩) rfl h3).1
      rw [run_calls r1 h4]
      exact r1
  rw [run_appends] at h2
  rw [run_calls (s := { t with functions := t.functions ++ late }) hr h2]
  exact ⟨rfl, rfl⟩

/-! ### C50: several threads -/

/-- C50 is violated: one thread's call has returned while no registration function has run yet, because
another thread has set the flag and has not begun the loop. -/
theorem C50_early_return_violated :
    ∃ s, Reachable 2 [4] s ∧ s.pcs[1]? = some .returned ∧ s.log = [] := by
  refine ⟨⟨[.running 0, .returned], true, [4], []⟩, ?_, rfl, rfl⟩
  have h0 : Reachable 2 [4] ⟨[.idle, .idle], false, [4], []⟩ := .init
  have h1 := h0.step (.call (i := 0) rfl)
  have h2 := h1.step (.unknown (i := 0) rfl rfl)
  have h3 := h2.step (.set (i := 0) rfl)
  have h4 := h3.step (.call (i := 1) rfl)
  exact h4.step (.known (i := 1) rfl rfl)

/-- C50 is violated: two threads that both read the flag before either sets it run every registration
function twice. -/
theorem C50_twice_violated :
    ∃ s, Reachable 2 [4] s ∧ s.log = [.fn 4, .fn 4] := by
  refine ⟨⟨[.running 1, .running 1], true, [4], [.fn 4, .fn 4]⟩, ?_, rfl⟩
  have h0 : Reachable 2 [4] ⟨[.idle, .idle], false, [4], []⟩ := .init
  have h1 := h0.step (.call (i := 0) rfl)
  have h2 := h1.step (.call (i := 1) rfl)
  have h3 := h2.step (.unknown (i := 0) rfl rfl)
  have h4 := h3.step (.unknown (i := 1) rfl rfl)
  have h5 := h4.step (.set (i := 0) rfl)
  have h6 := h5.step (.set (i := 1) rfl)
  have h7 := h6.step (.run (i := 0) (k := 0) (f := 4) rfl rfl)
  exact h7.step (.run (i := 1) (k := 0) (f := 4) rfl rfl)

/-- C50, proved part: a single thread (all other threads never call) runs every function exactly once and in order
before its call returns. -/
theorem C50_single_partial (functions : List Nat) {s : Threads} (h : Reachable 1 functions s)
    (hret : s.pcs[0]? = some .returned) : s.log = functions.map .fn := by
  have inv : s.functions = functions ∧ ((s.pcs = [.idle] ∨ s.pcs = [.check] ∨ s.pcs = [.set]) ∧ s.registred = false ∧
      s.log = [] ∨ (∃ k, s.pcs = [.running k] ∧ k ≤ functions.length ∧ s.log = (functions.take k).map .fn) ∧ s.registred = true ∨
      s.pcs = [.returned] ∧ s.log = functions.map .fn) := by
    clear hret
    induction h with
    | init => exact ⟨rfl, .inl ⟨.inl rfl, rfl, rfl⟩⟩
    | @step s s' i _ hs ih =>
      obtain ⟨hf, ih⟩ := ih
      have hi : ∀ {p : Pc} {q : Pc}, s.pcs = [p] → s.pcs[i]? = some q → i = 0 ∧ p = q := by
        intro p q hp hq
        rw [hp] at hq
        cases i with
        | zero => simpa using hq
        | succ i => simp at hq
      cases hs with
      | call hp =>
        rcases ih with ⟨h | h | h, hr, hl⟩ | ⟨⟨k, h, _⟩, _⟩ | ⟨h, _⟩ <;> obtain ⟨rfl, he⟩ := hi h hp <;> cases he
        exact ⟨hf, .inl ⟨.inr (.inl (by simp [h])), hr, hl⟩⟩
      | known hp hk =>
        rcases ih with ⟨h | h | h, hr, hl⟩ | ⟨⟨k, h, _⟩, _⟩ | ⟨h, _⟩ <;> obtain ⟨rfl, he⟩ := hi h hp <;> cases he
        rw [hk] at hr; cases hr
      | unknown hp hk =>
        rcases ih with ⟨h | h | h, hr, hl⟩ | ⟨⟨k, h, _⟩, _⟩ | ⟨h, _⟩ <;> obtain ⟨rfl, he⟩ := hi h hp <;> cases he
        exact ⟨hf, .inl ⟨.inr (.inr (by simp [h])), hr, hl⟩⟩
      | set hp =>
        rcases ih with ⟨h | h | h, hr, hl⟩ | ⟨⟨k, h, _⟩, _⟩ | ⟨h, _⟩ <;> obtain ⟨rfl, he⟩ := hi h hp <;> cases he
        exact ⟨hf, .inr (.inl ⟨⟨0, by simp [h], by simp, by simp [hl]⟩, rfl⟩)⟩
      | @run k f hp hk =>
        rcases ih with ⟨h | h | h, hr, hl⟩ | ⟨⟨j, h, hle, hl⟩, hr⟩ | ⟨h, _⟩ <;> obtain ⟨rfl, he⟩ := hi h hp <;> cases he
        rw [hf] at hk
        have hlt := (List.getElem?_eq_some_iff.mp hk).1
        refine ⟨hf, .inr (.inl ⟨⟨k + 1, by simp [h], hlt, ?_⟩, hr⟩)⟩
        simp only [hl]
        rw [List.take_add_one, hk]
        simp
      | done hp hk =>
        rcases ih with ⟨h | h | h, hr, hl⟩ | ⟨⟨j, h, hle, hl⟩, hr⟩ | ⟨h, _⟩ <;> obtain ⟨rfl, he⟩ := hi h hp <;> cases he
        rw [hf] at hk
        have hge := List.getElem?_eq_none_iff.mp hk
        refine ⟨hf, .inr (.inr ⟨by simp [h], ?_⟩)⟩
        simp only [hl]
        rw [List.take_of_length_le hge]
  obtain ⟨_, ⟨h | h | h, _⟩ | ⟨⟨k, h, _⟩, _⟩ | ⟨_, h⟩⟩ := inv
  · rw [h] at hret; simp at hret
  · rw [h] at hret; simp at hret
  · rw [h] at hret; simp at hret
  · rw [h] at hret; simp at hret
  · exact h

/-- The returned state of `C50_single_partial` is reachable. -/
example : Reachable 1 [4] ⟨[.returned], true, [4], [.fn 4]⟩ := by
  have h0 : Reachable 1 [4] ⟨[.idle], false, [4], []⟩ := .init
  have h1 := h0.step (.call (i := 0) rfl)
  have h2 := h1.step (.unknown (i := 0) rfl rfl)
  have h3 := h2.step (.set (i := 0) rfl)
  have h4 := h3.step (.run (i := 0) (k := 0) (f := 4) rfl rfl)
  exact h4.step (.done (i := 0) (k := 1) rfl rfl)

end QtPb.TypeReg
