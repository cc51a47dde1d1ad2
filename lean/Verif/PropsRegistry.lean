import Verif.RegistryLemmas
/-
C27 and C28: the registry of serialization handlers under all interleavings of any number of threads.
-/
namespace QtPb.Registry

variable {H : Type}

/-! ### C27 -/

/-- C27: while a thread changes the map no other thread changes or reads it. -/
theorem C27_exclusive {n : Nat} {s : State H} (h : Reachable H n s) {i j : Nat} (hi : Writing s i) :
    (Writing s j → j = i) ∧ ¬ Reading s j := by
  have hs := reachable_inv h
  obtain ⟨ty, hd, old, hi⟩ := hi
  constructor
  · rintro ⟨ty', hd', old', hj⟩
    apply Classical.byContradiction
    intro hne
    have := exclusive hs (Ne.symm hne) hi hj
    simp [permits, maxThreads] at this
  · rintro ⟨ty', hj⟩
    by_cases hne : i = j
    · subst hne; rw [hi] at hj; simp at hj
    · have := exclusive hs hne hi hj
      simp [permits, maxThreads] at this

/-- C27: no thread ever accesses torn contents. -/
theorem C27_never_torn {n : Nat} {s : State H} (h : Reachable H n s) : s.broken = false :=
  (reachable_inv h).ok

/-- C27: every history is linearizable: each operation takes effect at one instant between its
invocation and its return, and each lookup returns what was registered last at that instant. -/
theorem C27_linearizable {n : Nat} {s : State H} (h : Reachable H n s) : Linearizable s.trace := by
  have hs := reachable_inv h
  refine ⟨fun i => ?_, hs.correct⟩
  cases hi : s.pcs[i]? with
  | none => exact ⟨_, hs.nobody i hi⟩
  | some pc => exact ⟨_, hs.status i pc hi⟩

/-- C27, in terms of invocations and returns only: consider a lookup of `ty` that was invoked after a
registration of `ty` with handlers `h` had returned. If no other registration of `ty` was under way when
that one was invoked and none was invoked later (up to the return of the lookup), then the lookup
returned `h`. (The history is written newest event first.) -/
theorem C27_last_registration {n : Nat} {s : State H} (hr : Reachable H n s) {i j ty : Nat} {h : H}
    {r r' : Option H} {newer during between inside before : List (Ev H)}
    (htr : s.trace = newer ++ .ret i (.look ty) r :: during ++ .inv i (.look ty) :: between ++
      .ret j (.reg ty h) r' :: inside ++ .inv j (.reg ty h) :: before)
    (hown : ∀ op, Ev.inv i op ∉ during) (hownj : ∀ op, Ev.inv j op ∉ inside)
    (h1 : NoneInvoked ty during) (h2 : NoneInvoked ty between) (h3 : NoneInvoked ty inside)
    (h4 : ∀ k, ¬ Pending before k ty) : r = some h := by
  obtain ⟨hst, hc⟩ := C27_linearizable hr
  rw [htr] at hst hc
  simp only [List.append_assoc, List.cons_append] at hst hc
  -- the lookup took effect in `during`
  obtain ⟨d1, d2, rfl⟩ : ∃ a b, during = a ++ .effect i (.look ty) r :: b := by
    obtain ⟨st, hi⟩ := hst i
    obtain ⟨st', hi'⟩ := status_older hi
    cases hi' with
    | ret hi' => exact (effect_between hi' hown).2
    | otherRet hne _ => exact absurd rfl hne
  -- the registration took effect in `inside`
  obtain ⟨b1, b2, rfl⟩ : ∃ a b, inside = a ++ .effect j (.reg ty h) r' :: b := by
    obtain ⟨st, hj⟩ := hst j
    have hj2 : ∃ st', HasStatus j (.ret j (.reg ty h) r' :: (inside ++ .inv j (.reg ty h) :: before))
        st' := by
      refine status_older (a := st)
        (new := newer ++ .ret i (.look ty) r :: (d1 ++ .effect i (.look ty) r :: d2) ++
          .inv i (.look ty) :: between) ?_
      simpa using hj
    obtain ⟨st', hj'⟩ := hj2
    cases hj' with
    | ret hj' => exact (effect_between hj' hownj).2
    | otherRet hne _ => exact absurd rfl hne
  -- what the lookup found
  have hr : r = lastRegistered ty (d2 ++ .inv i (.look ty) :: (between ++
      .ret j (.reg ty h) r' :: (b1 ++ .effect j (.reg ty h) r' :: (b2 ++ .inv j (.reg ty h) :: before)))) := by
    have : LookupsCorrect (.effect i (.look ty) r :: (d2 ++ .inv i (.look ty) :: (between ++
      .ret j (.reg ty h) r' :: (b1 ++ .effect j (.reg ty h) r' ::
        (b2 ++ .inv j (.reg ty h) :: before))))) := by
      refine correct_older (new := newer ++ .ret i (.look ty) r :: d1) ?_
      simpa using hc
    exact this.1
  -- no other registration of the type took effect in between
  have hstx : ∀ k, ∃ st, HasStatus k (d2 ++ .inv i (.look ty) :: (between ++
      .ret j (.reg ty h) r' :: b1) ++ .effect j (.reg ty h) r' :: (b2 ++ .inv j (.reg ty h) :: before))
      st := by
    intro k
    obtain ⟨st, hk⟩ := hst k
    refine status_older (a := st)
      (new := newer ++ .ret i (.look ty) r :: (d1 ++ [.effect i (.look ty) r])) ?_
    simpa using hk
  have hnone : ∀ k h' r'', Ev.effect k (.reg ty h') r'' ∉ d2 ++ .inv i (.look ty) :: (between ++
      .ret j (.reg ty h) r' :: b1) := by
    intro k h' r'' hm
    obtain ⟨x, y, hxy⟩ := List.append_of_mem hm
    obtain ⟨st, hk⟩ := hstx k
    rw [hxy] at hk
    have hk2 : ∃ st', HasStatus k (.effect k (.reg ty h') r'' ::
        (y ++ [.effect j (.reg ty h) r'] ++ b2) ++ .inv j (.reg ty h) :: before) st' := by
      refine status_older (a := st) (new := x) ?_
      simpa using hk
    obtain ⟨st', hk2⟩ := hk2
    have hsub : ∀ e, e ∈ y → e ∈ d2 ++ .inv i (.look ty) :: (between ++
        .ret j (.reg ty h) r' :: b1) := by
      intro e he; rw [hxy]; simp [he]
    have hno : NoneInvoked ty (y ++ [.effect j (.reg ty h) r'] ++ b2) := by
      intro k' h'' hm'
      simp only [List.mem_append, List.mem_singleton] at hm'
      rcases hm' with (hm' | hm') | hm'
      · have := hsub _ hm'
        simp only [List.mem_append, List.mem_cons] at this
        rcases this with this | this | this | this | this
        · exact h1 k' h'' (by simp [this])
        · simp at this
        · exact h2 k' h'' this
        · simp at this
        · exact h3 k' h'' (by simp [this])
      · simp at hm'
      · exact h3 k' h'' (by simp [hm'])
    have hpre := effect_invoked hk2 hno
    by_cases hkj : k = j
    · subst hkj
      -- the thread of the registration has no pending registration twice
      have hj3 : ∃ st', HasStatus k (.effect k (.reg ty h') r'' ::
          y ++ .effect k (.reg ty h) r' :: (b2 ++ .inv k (.reg ty h) :: before)) st' := by
        refine status_older (a := st) (new := x) ?_
        simpa using hk
      obtain ⟨st', hj3⟩ := hj3
      have hy : NoneInvoked ty y := fun k' h'' hm' => hno k' h'' (by simp [hm'])
      have hz := effect_invoked hj3 hy
      cases hz with
      | otherEffect hne _ => exact absurd rfl hne
    · cases hpre with
      | otherInv _ hpre => exact h4 k ⟨h', Or.inl hpre⟩
      | inv _ => exact absurd rfl hkj
  rw [hr]
  have e : d2 ++ Ev.inv i (Op.look ty) :: (between ++ Ev.ret j (Op.reg ty h) r' :: (b1 ++
      Ev.effect j (Op.reg ty h) r' :: (b2 ++ Ev.inv j (Op.reg ty h) :: before))) =
    (d2 ++ .inv i (.look ty) :: (between ++ .ret j (.reg ty h) r' :: b1)) ++
      (.effect j (.reg ty h) r' :: (b2 ++ .inv j (.reg ty h) :: before)) := by simp
  rw [e, lastRegistered_skip hnone]
  simp [lastRegistered]

/-- C27: a lookup of a type that nobody has tried to register finds the empty handlers. -/
theorem C27_unregistered {n : Nat} {s : State H} (hr : Reachable H n s) {i ty : Nat}
    {r : Option H} {newer older : List (Ev H)}
    (htr : s.trace = newer ++ .ret i (.look ty) r :: older) (hno : NoneInvoked ty older) :
    r = none := by
  obtain ⟨hst, hc⟩ := C27_linearizable hr
  rw [htr] at hst hc
  have key : ∀ {tr : List (Ev H)} {st : Status H}, HasStatus i tr st → LookupsCorrect tr →
      (∀ k, ∃ st, HasStatus k tr st) → NoneInvoked ty tr →
      (∀ k h r, Ev.effect k (.reg ty h) r ∉ tr) ∧ (∀ r, st = .effected (.look ty) r → r = none) := by
    intro tr
    induction tr with
    | nil =>
      intro st h _ _ _
      cases h
      exact ⟨by simp, by simp⟩
    | cons e tr ih =>
      intro st h hc hst hno
      have hst' : ∀ k, ∃ st, HasStatus k tr st := by
        intro k
        obtain ⟨st, hk⟩ := hst k
        exact status_older (new := [e]) hk
      have hno' : NoneInvoked ty tr := fun k h hm => hno k h (List.mem_cons_of_mem _ hm)
      have hc' : LookupsCorrect tr := correct_older (new := [e]) hc
      obtain ⟨st', h'⟩ := hst' i
      obtain ⟨i1, i2⟩ := ih h' hc' hst' hno'
      refine ⟨fun k hd r hm => ?_, fun r hr => ?_⟩
      · rcases List.mem_cons.mp hm with hm | hm
        · subst hm
          obtain ⟨st'', hk⟩ := hst k
          have := effect_invoked (new := tr) (tr := []) (by simpa using hk) hno'
          cases this
        · exact i1 k hd r hm
      · subst hr
        cases h with
        | effect _ =>
          have h1 : r = lastRegistered ty tr := hc.1
          have h2 := lastRegistered_skip (tr := []) i1
          simp only [List.append_nil] at h2
          rw [h1, h2]
          rfl
        | otherInv _ h => exact i2 r (status_unique h' h)
        | otherEffect _ h => exact i2 r (status_unique h' h)
        | otherRet _ h => exact i2 r (status_unique h' h)
  have hst2 : ∀ k, ∃ st, HasStatus k older st := by
    intro k
    obtain ⟨st, hk⟩ := hst k
    exact status_older (new := newer ++ [.ret i (.look ty) r]) (by simpa using hk)
  obtain ⟨st, hi⟩ := hst i
  obtain ⟨st', hi'⟩ := status_older hi
  cases hi' with
  | ret hi' =>
    exact (key hi' (correct_older (new := newer ++ [.ret i (.look ty) r]) (by simpa using hc))
      hst2 hno).2 r rfl
  | otherRet hne _ => exact absurd rfl hne

/-! ### C28 -/

/-- C28: as long as some thread is inside an operation, some thread inside an operation can take a
step. -/
theorem C28_no_deadlock {n : Nat} {s : State H} (h : Reachable H n s) (hb : ¬ AllIdle s) :
    ∃ i s', Step i s s' :=
  progress (reachable_inv h) hb

/-- C28: without new invocations, `n` threads take at most `7 n` steps, and when no step is possible
all operations have returned. -/
theorem C28_bounded {n : Nat} {s : State H} (h : Reachable H n s) {k : Nat} {s' : State H}
    (hs : Steps k s s') : k ≤ 7 * n ∧ ((∀ i s'', ¬ Step i s' s'') → AllIdle s') := by
  have hr : Reachable H n s' := steps_reachable hs h
  refine ⟨?_, fun hno => ?_⟩
  · have h1 := steps_bound hs
    have h2 := left_sum_le s.pcs
    rw [reachable_length h] at h2
    omega
  · apply Classical.byContradiction
    intro hb
    obtain ⟨i, s'', h''⟩ := C28_no_deadlock hr hb
    exact hno i s'' h''

/-- C28: an operation takes at most 7 steps of its own thread: `left` counts them down, and steps of
other threads do not change the count. -/
theorem C28_own_steps {s s' : State H} {i : Nat} (h : Step i s s') :
    (∀ pc pc', s.pcs[i]? = some pc → s'.pcs[i]? = some pc' → left pc' < left pc ∧ left pc ≤ 7) ∧
    ∀ j, j ≠ i → s'.pcs[j]? = s.pcs[j]? := by
  obtain ⟨pc, pc', h1, h2, h3⟩ := step_left h
  have hi : i < s.pcs.length := (List.getElem?_eq_some_iff.mp h1).1
  refine ⟨fun q q' hq hq' => ?_, fun j hj => ?_⟩
  · rw [h2] at hq'
    rw [h1] at hq
    simp only [Option.some.injEq, List.getElem?_set_self hi] at hq hq'
    subst hq hq'
    exact ⟨h3, by cases pc <;> simp [left]⟩
  · rw [h2, List.getElem?_set_ne (Ne.symm hj)]

/-- C28: operations return what they acquired: when all threads are outside, the mutex is free and all
permits are available. -/
theorem C28_all_returned {n : Nat} {s : State H} (h : Reachable H n s) (hi : AllIdle s) :
    s.mutex = none ∧ s.sem = maxThreads := by
  have hs := reachable_inv h
  constructor
  · cases hm : s.mutex with
    | none => rfl
    | some i =>
      obtain ⟨pc, h1, h2⟩ := hs.held i hm
      rw [hi i pc h1] at h2
      simp [locks] at h2
  · have hz : (s.pcs.map permits).sum = 0 := by
      apply Classical.byContradiction
      intro hne
      obtain ⟨i, pc, h1, h2⟩ := exists_permit (l := s.pcs) (by omega)
      rw [hi i pc h1] at h2
      simp [permits] at h2
    have := hs.count
    omega

/-! ### A concrete interleaving -/

/-- Execute the next statement of thread `i`. -/
def advance (s : State H) (i : Nat) : Option (State H) :=
  match s.pcs[i]? with
  | some (.regLock ty h) =>
    match s.mutex with
    | none => some { s.goto i (.regAcquire ty h) with mutex := some i }
    | some _ => none
  | some (.regAcquire ty h) =>
    if maxThreads ≤ s.sem then some { s.goto i (.regWrite ty h) with sem := s.sem - maxThreads }
    else none
  | some (.regWrite ty h) =>
    match s.store with
    | .whole f => some { s.goto i (.regWriting ty h f) with store := .torn }
    | .torn => none
  | some (.regWriting ty h old) =>
    some { s.goto i (.regRelease ty h) with
      store := .whole (assign old ty h), trace := .effect i (.reg ty h) none :: s.trace }
  | some (.regRelease ty h) => some { s.goto i (.regUnlock ty h) with sem := s.sem + maxThreads }
  | some (.regUnlock ty h) => some { s.goto i (.regReturn ty h) with mutex := none }
  | some (.regReturn ty h) => some { s.goto i .idle with trace := .ret i (.reg ty h) none :: s.trace }
  | some (.lookLock ty) =>
    match s.mutex with
    | none => some { s.goto i (.lookAcquire ty) with mutex := some i }
    | some _ => none
  | some (.lookAcquire ty) =>
    if 1 ≤ s.sem then some { s.goto i (.lookUnlock ty) with sem := s.sem - 1 } else none
  | some (.lookUnlock ty) => some { s.goto i (.lookRead ty) with mutex := none }
  | some (.lookRead ty) => some (s.goto i (.lookReading ty))
  | some (.lookReading ty) =>
    match s.store with
    | .whole f => some { s.goto i (.lookRelease ty (f ty)) with
        trace := .effect i (.look ty) (f ty) :: s.trace }
    | .torn => none
  | some (.lookRelease ty r) => some { s.goto i (.lookReturn ty r) with sem := s.sem + 1 }
  | some (.lookReturn ty r) => some { s.goto i .idle with trace := .ret i (.look ty) r :: s.trace }
  | _ => none

theorem advance_step {s s' : State H} {i : Nat} (h : advance s i = some s') : Step i s s' := by
  unfold advance at h
  split at h
  · split at h
    · cases h; exact .regLock (by assumption) (by assumption)
    · simp at h
  · split at h
    · cases h; exact .regAcquire (by assumption) (by assumption)
    · simp at h
  · split at h
    · cases h; exact .regWrite (by assumption) (by assumption)
    · simp at h
  · cases h; exact .regWriting (by assumption)
  · cases h; exact .regRelease (by assumption)
  · cases h; exact .regUnlock (by assumption)
  · cases h; exact .regReturn (by assumption)
  · split at h
    · cases h; exact .lookLock (by assumption) (by assumption)
    · simp at h
  · split at h
    · cases h; exact .lookAcquire (by assumption) (by assumption)
    · simp at h
  · cases h; exact .lookUnlock (by assumption)
  · cases h; exact .lookRead (by assumption)
  · split at h
    · cases h; exact .lookReading (by assumption) (by assumption)
    · simp at h
  · cases h; exact .lookRelease (by assumption)
  · cases h; exact .lookReturn (by assumption)
  · simp at h

/-- Invoke an operation. -/
def invoke (s : State H) (i : Nat) (op : Op H) : Option (State H) :=
  match s.pcs[i]?, op with
  | some .idle, .reg ty h =>
    some { s.goto i (.regLock ty h) with trace := .inv i (.reg ty h) :: s.trace }
  | some .idle, .look ty =>
    some { s.goto i (.lookLock ty) with trace := .inv i (.look ty) :: s.trace }
  | _, _ => none

theorem invoke_call {s s' : State H} {i : Nat} {op : Op H} (h : invoke s i op = some s') :
    Call i s s' := by
  unfold invoke at h
  split at h
  · cases h; exact .reg _ _ (by assumption)
  · cases h; exact .look _ (by assumption)
  · simp at h

/-- Follow a schedule: the thread that goes on, and the operation it invokes if it is idle. -/
def follow : State H → List (Nat × Option (Op H)) → Option (State H)
  | s, [] => some s
  | s, (i, some op) :: l => (invoke s i op).bind fun s => follow s l
  | s, (i, none) :: l => (advance s i).bind fun s => follow s l

theorem follow_reachable {n : Nat} {l : List (Nat × Option (Op H))} {s s' : State H}
    (hs : Reachable H n s) (h : follow s l = some s') : Reachable H n s' := by
  induction l generalizing s with
  | nil => simp only [follow, Option.some.injEq] at h; subst h; exact hs
  | cons x l ih =>
    obtain ⟨i, o⟩ := x
    cases o with
    | none =>
      simp only [follow, Option.bind_eq_some_iff] at h
      obtain ⟨s1, h1, h2⟩ := h
      exact ih (.step hs (advance_step h1)) h2
    | some op =>
      simp only [follow, Option.bind_eq_some_iff] at h
      obtain ⟨s1, h1, h2⟩ := h
      exact ih (.call hs (invoke_call h1)) h2

/-- A schedule of three threads: thread 1 starts a lookup of type 5 and holds a permit when thread 0
wants to register it; thread 0 owns the mutex and waits until thread 1 is done; thread 2 looks the type
up after the registration. -/
def demoSchedule : List (Nat × Option (Op Nat)) :=
  [(1, some (.look 5)), (1, none), (1, none), (1, none), (0, some (.reg 5 42)), (0, none), (1, none),
   (1, none), (1, none), (1, none), (0, none), (0, none), (0, none), (0, none), (0, none), (0, none),
   (2, some (.look 5)), (2, none), (2, none), (2, none), (2, none), (2, none), (2, none), (2, none)]

/-- The state in the middle, in which thread 0 is blocked, is reachable and not idle (hypotheses of
C27_exclusive for a later state, C28_no_deadlock, C28_bounded). -/
example : ∃ s, Reachable Nat 3 s ∧ ¬ AllIdle s ∧ s.sem = 63 ∧ s.mutex = some 0 := by
  refine ⟨_, follow_reachable (l := demoSchedule.take 6) .start rfl, fun h => ?_, rfl, rfl⟩
  have := h 0 _ rfl
  simp at this

example : ∃ s, Reachable Nat 3 s ∧ Writing s 0 :=
  ⟨_, follow_reachable (l := demoSchedule.take 12) .start rfl, 5, 42, _, rfl⟩

/-- The hypotheses of C27_last_registration are met by this schedule: thread 2 finds 42. (Thread 1, whose
lookup was under way when thread 0 invoked the registration, found nothing.) -/
example : ∃ s, Reachable Nat 3 s ∧ AllIdle s ∧ s.trace =
    [.ret 2 (.look 5) (some 42), .effect 2 (.look 5) (some 42), .inv 2 (.look 5),
     .ret 0 (.reg 5 42) none, .effect 0 (.reg 5 42) none,
     .ret 1 (.look 5) none, .effect 1 (.look 5) none, .inv 0 (.reg 5 42), .inv 1 (.look 5)] := by
  refine ⟨_, follow_reachable (l := demoSchedule) .start rfl, ?_, rfl⟩
  intro i pc h
  match i, h with
  | 0, h => exact (Option.some.inj h).symm
  | 1, h => exact (Option.some.inj h).symm
  | 2, h => exact (Option.some.inj h).symm
  | n + 3, h => exact absurd h (by simp [State.goto, start])

/-- The hypotheses of C27_unregistered are met after another type was registered. -/
example : ∃ s older, Reachable Nat 3 s ∧ s.trace = [] ++ .ret 1 (.look 6) none :: older ∧
    NoneInvoked 6 older ∧ older.length = 11 := by
  refine ⟨_, [.effect 1 (.look 6) none, .inv 1 (.look 6),
    .ret 2 (.look 5) (some 42), .effect 2 (.look 5) (some 42), .inv 2 (.look 5),
    .ret 0 (.reg 5 42) none, .effect 0 (.reg 5 42) none,
    .ret 1 (.look 5) none, .effect 1 (.look 5) none, .inv 0 (.reg 5 42), .inv 1 (.look 5)],
    follow_reachable (l := demoSchedule ++ [(1, some (.look 6)), (1, none), (1, none),
    (1, none), (1, none), (1, none), (1, none), (1, none)]) .start rfl, rfl, ?_, rfl⟩
  intro k h hm
  simp at hm

end QtPb.Registry
