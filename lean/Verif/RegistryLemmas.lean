import Verif.SpecRegistry
/-
Invariant of the handler registry.
-/
namespace QtPb.Registry

variable {H : Type}

/-- The thread owns the mutex. -/
def locks : Pc H → Bool
  | .regAcquire .. | .regWrite .. | .regWriting .. | .regRelease .. | .regUnlock ..
  | .lookAcquire .. | .lookUnlock .. => true
  | _ => false

/-- Permits of the semaphore held by the thread. -/
def permits : Pc H → Nat
  | .regWrite .. | .regWriting .. | .regRelease .. => maxThreads
  | .lookUnlock .. | .lookRead .. | .lookReading .. | .lookRelease .. => 1
  | _ => 0

/-- Status that belongs to a program counter. -/
def statusOf : Pc H → Status H
  | .idle => .idle
  | .regLock ty h | .regAcquire ty h | .regWrite ty h | .regWriting ty h _ => .invoked (.reg ty h)
  | .regRelease ty h | .regUnlock ty h | .regReturn ty h => .effected (.reg ty h) none
  | .lookLock ty | .lookAcquire ty | .lookUnlock ty | .lookRead ty | .lookReading ty =>
    .invoked (.look ty)
  | .lookRelease ty r | .lookReturn ty r => .effected (.look ty) r

/-- The thread is changing the map. -/
def writes : Pc H → Bool
  | .regWriting .. => true
  | _ => false

structure Inv (s : State H) : Prop where
  own : ∀ (i : Nat) (pc : Pc H), s.pcs[i]? = some pc → locks pc = true → s.mutex = some i
  held : ∀ i, s.mutex = some i → ∃ pc, s.pcs[i]? = some pc ∧ locks pc = true
  count : s.sem + (s.pcs.map permits).sum = maxThreads
  whole : ∀ f, s.store = .whole f → (∀ ty, f ty = lastRegistered ty s.trace) ∧
    ∀ (i : Nat) (pc : Pc H), s.pcs[i]? = some pc → writes pc = false
  torn : s.store = .torn → ∃ (i : Nat) (pc : Pc H), s.pcs[i]? = some pc ∧ writes pc = true
  old : ∀ (i ty : Nat) (h : H) (f : Nat → Option H), s.pcs[i]? = some (.regWriting ty h f) → ∀ t, f t = lastRegistered t s.trace
  ok : s.broken = false
  correct : LookupsCorrect s.trace
  status : ∀ (i : Nat) (pc : Pc H), s.pcs[i]? = some pc → HasStatus i s.trace (statusOf pc)
  nobody : ∀ (i : Nat), s.pcs[i]? = none → HasStatus i s.trace .idle

theorem sum_set {l : List (Pc H)} {i : Nat} {pc new : Pc H} (h : l[i]? = some pc) :
    ((l.set i new).map permits).sum + permits pc = (l.map permits).sum + permits new := by
  induction l generalizing i with
  | nil => simp at h
  | cons x l ih =>
    cases i with
    | zero => simp at h; subst h; simp; omega
    | succ i =>
      simp only [List.getElem?_cons_succ] at h
      have := ih h
      simp only [List.set_cons_succ, List.map_cons, List.sum_cons]
      omega

theorem permits_le {l : List (Pc H)} {i : Nat} {pc : Pc H} (h : l[i]? = some pc) :
    permits pc ≤ (l.map permits).sum := by
  induction l generalizing i with
  | nil => simp at h
  | cons x l ih =>
    cases i with
    | zero => simp at h; subst h; simp
    | succ i =>
      simp only [List.getElem?_cons_succ] at h
      have := ih h
      simp only [List.map_cons, List.sum_cons]
      omega

theorem permits_two {l : List (Pc H)} {i j : Nat} {pc pc' : Pc H} (hij : i ≠ j)
    (hi : l[i]? = some pc) (hj : l[j]? = some pc') :
    permits pc + permits pc' ≤ (l.map permits).sum := by
  have h1 := sum_set (new := .idle) hi
  have h2 : permits pc' ≤ ((l.set i .idle).map permits).sum :=
    permits_le (i := j) (by rw [List.getElem?_set_ne hij]; exact hj)
  simp only [show permits (.idle : Pc H) = 0 from rfl] at h1
  omega

theorem goto_get {s : State H} {i j : Nat} {pc pc0 : Pc H} (h : s.pcs[i]? = some pc0) :
    (s.goto i pc).pcs[j]? = if j = i then some pc else s.pcs[j]? := by
  obtain ⟨hi, _⟩ := List.getElem?_eq_some_iff.mp h
  by_cases e : j = i
  · subst e; simp [State.goto, hi]
  · simp [State.goto, e, List.getElem?_set_ne (Ne.symm e)]

theorem inv_start (n : Nat) : Inv (start H n) := by
  have hpc : ∀ (i : Nat) (pc : Pc H), (start H n).pcs[i]? = some pc → pc = .idle := by
    intro i pc h
    simp only [start, List.getElem?_replicate] at h
    split at h <;> simp_all
  refine ⟨?_, ?_, ?_, ?_, ?_, ?_, rfl, trivial, ?_, fun _ _ => .start⟩
  · intro i pc h hl; rw [hpc i pc h] at hl; simp [locks] at hl
  · intro i h; simp [start] at h
  · simp [start, permits]
  · intro f hf
    simp only [start, Store.whole.injEq] at hf
    subst hf
    exact ⟨fun _ => rfl, fun i pc h => by rw [hpc i pc h]; rfl⟩
  · intro h; simp [start] at h
  · intro i ty h f hi; simpa using hpc i _ hi
  · intro i pc h; rw [hpc i pc h]; exact .start

/-- Events of a thread do not change the status of the others. -/
theorem status_other {i j : Nat} (hne : j ≠ i) {e : Ev H}
    (he : (∃ op, e = .inv j op) ∨ (∃ op r, e = .effect j op r) ∨ ∃ op r, e = .ret j op r)
    {tr : List (Ev H)} {st : Status H} (h : HasStatus i tr st) : HasStatus i (e :: tr) st := by
  rcases he with ⟨op, rfl⟩ | ⟨op, r, rfl⟩ | ⟨op, r, rfl⟩
  · exact .otherInv hne h
  · exact .otherEffect hne h
  · exact .otherRet hne h

/-- Common part of all steps: mutex, semaphore and statuses. `b` and `b'` tell whether the thread owns
the mutex before and after. -/
theorem inv_step {s s' : State H} (hs : Inv s) {i : Nat} {pc pc' : Pc H}
    (hpc : s.pcs[i]? = some pc) (hpcs : s'.pcs = s.pcs.set i pc')
    (hmutex : (locks pc = locks pc' ∧ s'.mutex = s.mutex) ∨
      (locks pc = false ∧ locks pc' = true ∧ s.mutex = none ∧ s'.mutex = some i) ∨
      (locks pc = true ∧ locks pc' = false ∧ s'.mutex = none))
    (hsem : s'.sem + permits pc' = s.sem + permits pc)
    (hwhole : ∀ f, s'.store = .whole f → (∀ ty, f ty = lastRegistered ty s'.trace) ∧
      writes pc' = false ∧ ∀ (j : Nat) (q : Pc H), j ≠ i → s.pcs[j]? = some q → writes q = false)
    (htorn : s'.store = .torn → writes pc' = true ∨
      ∃ (j : Nat) (q : Pc H), j ≠ i ∧ s.pcs[j]? = some q ∧ writes q = true)
    (hold : ∀ ty h f, pc' = .regWriting ty h f → ∀ t, f t = lastRegistered t s'.trace)
    (hlast : (∀ t, lastRegistered t s'.trace = lastRegistered t s.trace) ∨ s'.store ≠ .torn)
    (hok : s'.broken = false) (hcorrect : LookupsCorrect s'.trace)
    (hst : HasStatus i s'.trace (statusOf pc'))
    (hoth : ∀ j st, j ≠ i → HasStatus j s.trace st → HasStatus j s'.trace st) : Inv s' := by
  have hi : i < s.pcs.length := (List.getElem?_eq_some_iff.mp hpc).1
  have hget : ∀ j, s'.pcs[j]? = if j = i then some pc' else s.pcs[j]? := by
    intro j
    rw [hpcs]
    by_cases e : j = i
    · subst e; simp [hi]
    · simp [e, List.getElem?_set_ne (Ne.symm e)]
  refine ⟨?_, ?_, ?_, ?_, ?_, ?_, hok, hcorrect, ?_, ?_⟩
  · intro j q hj hl
    rw [hget] at hj
    split at hj
    · rename_i e; subst e
      simp only [Option.some.injEq] at hj; subst hj
      rcases hmutex with ⟨h1, h2⟩ | ⟨_, _, _, h2⟩ | ⟨_, h1, _⟩
      · rw [h2]; exact hs.own j pc hpc (h1.trans hl)
      · exact h2
      · rw [h1] at hl; simp at hl
    · rename_i e
      have hm := hs.own j q hj hl
      rcases hmutex with ⟨h1, h2⟩ | ⟨_, _, h3, _⟩ | ⟨h1, _, _⟩
      · rw [h2]; exact hm
      · rw [h3] at hm; simp at hm
      · have := hs.own i pc hpc h1
        rw [this] at hm
        simp only [Option.some.injEq] at hm
        exact absurd hm.symm e
  · intro j hj
    rw [hget]
    rcases hmutex with ⟨h1, h2⟩ | ⟨_, h1, _, h2⟩ | ⟨_, _, h2⟩
    · rw [h2] at hj
      obtain ⟨q, hq, hl⟩ := hs.held j hj
      split
      · rename_i e; subst e
        rw [hpc] at hq; simp only [Option.some.injEq] at hq; subst hq
        exact ⟨pc', rfl, by rw [← h1]; exact hl⟩
      · exact ⟨q, hq, hl⟩
    · rw [h2] at hj
      simp only [Option.some.injEq] at hj
      subst hj
      exact ⟨pc', by simp, h1⟩
    · rw [h2] at hj; simp at hj
  · rw [hpcs]
    have h1 := sum_set (new := pc') hpc
    have h2 := hs.count
    omega
  · intro f hf
    obtain ⟨h1, h2, h3⟩ := hwhole f hf
    refine ⟨h1, fun j q hj => ?_⟩
    rw [hget] at hj
    split at hj
    · simp only [Option.some.injEq] at hj; subst hj; exact h2
    · rename_i e; exact h3 j q e hj
  · intro ht
    rcases htorn ht with h | ⟨j, q, h1, h2, h3⟩
    · exact ⟨i, pc', by rw [hget]; simp, h⟩
    · exact ⟨j, q, by rw [hget, if_neg h1]; exact h2, h3⟩
  · intro j ty h f hj
    rw [hget] at hj
    split at hj
    · simp only [Option.some.injEq] at hj; exact hold ty h f hj
    · rename_i e
      intro t
      rcases hlast with hl | hl
      · rw [hl]; exact hs.old j ty h f hj t
      · cases hst' : s'.store with
        | torn => exact absurd hst' hl
        | whole g => have := (hwhole g hst').2.2 j _ e hj; simp [writes] at this
  · intro j q hj
    rw [hget] at hj
    split at hj
    · rename_i e; subst e; simp only [Option.some.injEq] at hj; subst hj; exact hst
    · rename_i e; exact hoth j _ e (hs.status j q hj)
  · intro j hj
    rw [hget] at hj
    split at hj
    · simp at hj
    · rename_i e; exact hoth j _ e (hs.nobody j hj)

/-- Threads that write hold all permits. -/
theorem exclusive {s : State H} (hs : Inv s) {i j : Nat} {pc q : Pc H} (hij : i ≠ j)
    (hi : s.pcs[i]? = some pc) (hj : s.pcs[j]? = some q) : permits pc + permits q ≤ maxThreads := by
  have := permits_two hij hi hj
  have := hs.count
  omega

theorem writes_permits {q : Pc H} (h : writes q = true) : permits q = maxThreads := by
  cases q <;> simp_all [writes, permits]

theorem not_writes {s : State H} (hs : Inv s) {i j : Nat} {pc q : Pc H} (hij : j ≠ i)
    (hi : s.pcs[i]? = some pc) (hj : s.pcs[j]? = some q) (hp : 0 < permits pc) : writes q = false := by
  cases h : writes q with
  | false => rfl
  | true =>
    have := exclusive hs (Ne.symm hij) hi hj
    rw [writes_permits h] at this
    omega

/-- A thread holding a permit and not writing sees whole contents. -/
theorem not_torn {s : State H} (hs : Inv s) {i : Nat} {pc : Pc H} (hi : s.pcs[i]? = some pc)
    (hp : 0 < permits pc) (hw : writes pc = false) : s.store ≠ .torn := by
  intro ht
  obtain ⟨j, q, hj, hq⟩ := hs.torn ht
  by_cases e : j = i
  · subst e; rw [hi] at hj; simp only [Option.some.injEq] at hj; subst hj; rw [hw] at hq; simp at hq
  · have := not_writes hs e hi hj hp
    rw [this] at hq; simp at hq

/-- Steps that touch neither the map nor the history. -/
theorem inv_quiet {s s' : State H} (hs : Inv s) {i : Nat} {pc pc' : Pc H}
    (hpc : s.pcs[i]? = some pc) (hpcs : s'.pcs = s.pcs.set i pc')
    (hmutex : (locks pc = locks pc' ∧ s'.mutex = s.mutex) ∨
      (locks pc = false ∧ locks pc' = true ∧ s.mutex = none ∧ s'.mutex = some i) ∨
      (locks pc = true ∧ locks pc' = false ∧ s'.mutex = none))
    (hsem : s'.sem + permits pc' = s.sem + permits pc)
    (hw : writes pc = false) (hw' : writes pc' = false)
    (hstore : s'.store = s.store) (hbroken : s'.broken = s.broken)
    (hsame : statusOf pc' = statusOf pc) (htr : s'.trace = s.trace) : Inv s' := by
  refine inv_step hs hpc hpcs hmutex hsem ?_ ?_ ?_ (Or.inl (by simp [htr])) (hbroken.trans hs.ok)
    (by rw [htr]; exact hs.correct) (by rw [htr, hsame]; exact hs.status i pc hpc)
    (fun j st _ h => by rw [htr]; exact h)
  · intro f hf
    rw [hstore] at hf
    rw [htr]
    obtain ⟨h1, h2⟩ := hs.whole f hf
    exact ⟨h1, hw', fun j q _ hj => h2 j q hj⟩
  · intro ht
    rw [hstore] at ht
    obtain ⟨j, q, hj, hq⟩ := hs.torn ht
    refine Or.inr ⟨j, q, fun e => ?_, hj, hq⟩
    subst e; rw [hpc] at hj; simp only [Option.some.injEq] at hj; subst hj
    rw [hw] at hq; simp at hq
  · intro ty h f e; rw [e] at hw'; simp [writes] at hw'

/-- Steps that only add an event other than a registration to the history. -/
theorem inv_event {s s' : State H} (hs : Inv s) {i : Nat} {pc pc' : Pc H} {e : Ev H}
    (hpc : s.pcs[i]? = some pc) (hpcs : s'.pcs = s.pcs.set i pc')
    (hmutex : locks pc = locks pc' ∧ s'.mutex = s.mutex)
    (hsem : s'.sem + permits pc' = s.sem + permits pc)
    (hw : writes pc = false) (hw' : writes pc' = false)
    (hstore : s'.store = s.store) (hbroken : s'.broken = s.broken)
    (htr : s'.trace = e :: s.trace)
    (he : (∃ op, e = .inv i op) ∨ (∃ op r, e = .effect i op r) ∨ ∃ op r, e = .ret i op r)
    (hl : ∀ t, lastRegistered t (e :: s.trace) = lastRegistered t s.trace)
    (hcorrect : LookupsCorrect (e :: s.trace))
    (hst : HasStatus i (e :: s.trace) (statusOf pc')) : Inv s' := by
  refine inv_step hs hpc hpcs (Or.inl hmutex) hsem ?_ ?_ ?_ (Or.inl (by rw [htr]; exact hl))
    (hbroken.trans hs.ok) (by rw [htr]; exact hcorrect) (by rw [htr]; exact hst)
    (fun j st hj h => by rw [htr]; exact status_other (Ne.symm hj) he h)
  · intro f hf
    rw [hstore] at hf
    rw [htr]
    obtain ⟨h1, h2⟩ := hs.whole f hf
    exact ⟨fun ty => (h1 ty).trans (hl ty).symm, hw', fun j q _ hj => h2 j q hj⟩
  · intro ht
    rw [hstore] at ht
    obtain ⟨j, q, hj, hq⟩ := hs.torn ht
    refine Or.inr ⟨j, q, fun e => ?_, hj, hq⟩
    subst e; rw [hpc] at hj; simp only [Option.some.injEq] at hj; subst hj
    rw [hw] at hq; simp at hq
  · intro ty h f e; rw [e] at hw'; simp [writes] at hw'

theorem inv_call {s s' : State H} {i : Nat} (hs : Inv s) (h : Call i s s') : Inv s' := by
  cases h with
  | reg ty h hpc =>
    exact inv_event hs hpc rfl ⟨rfl, rfl⟩ rfl rfl rfl rfl rfl rfl (Or.inl ⟨_, rfl⟩) (fun _ => rfl)
      hs.correct (.inv (hs.status i _ hpc))
  | look ty hpc =>
    exact inv_event hs hpc rfl ⟨rfl, rfl⟩ rfl rfl rfl rfl rfl rfl (Or.inl ⟨_, rfl⟩) (fun _ => rfl)
      hs.correct (.inv (hs.status i _ hpc))

theorem inv_next {s s' : State H} {i : Nat} (hs : Inv s) (h : Step i s s') : Inv s' := by
  cases h with
  | regLock hpc hm =>
    exact inv_quiet hs hpc rfl (Or.inr (Or.inl ⟨rfl, rfl, hm, rfl⟩)) rfl rfl rfl rfl rfl rfl rfl
  | regAcquire hpc hsem =>
    exact inv_quiet hs hpc rfl (Or.inl ⟨rfl, rfl⟩)
      (by simp only [permits] <;> omega) rfl rfl rfl rfl rfl rfl
  | @regWrite ty h f hpc hstore =>
    refine inv_step hs hpc rfl (Or.inl ⟨rfl, rfl⟩) rfl ?_ ?_ ?_ (Or.inl fun _ => rfl) hs.ok hs.correct
      (show HasStatus i s.trace (statusOf (.regWrite ty h)) from hs.status i _ hpc) (fun _ _ _ h => h)
    · intro f hf; simp at hf
    · intro _; exact Or.inl rfl
    · intro ty' h' f' e
      simp only [Pc.regWriting.injEq] at e
      obtain ⟨_, _, rfl⟩ := e
      exact (hs.whole f hstore).1
  | regBroken hpc hstore => exact absurd hstore (not_torn hs hpc (by simp [permits, maxThreads]) rfl)
  | @regWriting ty h old hpc =>
    refine inv_step hs hpc rfl (Or.inl ⟨rfl, rfl⟩) rfl ?_ ?_ ?_ (Or.inr (by simp)) hs.ok
      hs.correct (.effect (hs.status i _ hpc)) (fun j st hj h => .otherEffect (Ne.symm hj) h)
    · intro f hf
      simp only [Store.whole.injEq] at hf
      subst hf
      refine ⟨fun t => ?_, rfl, fun j q hj hq => not_writes hs hj hpc hq (by simp [permits, maxThreads])⟩
      simp only [assign, lastRegistered]
      by_cases e : t = ty
      · simp [e]
      · simp [e, Ne.symm e, hs.old i _ _ _ hpc t]
    · intro ht; simp at ht
    · intro ty' h' f' e; simp at e
  | regRelease hpc =>
    exact inv_quiet hs hpc rfl (Or.inl ⟨rfl, rfl⟩)
      (by simp only [permits] <;> omega) rfl rfl rfl rfl rfl rfl
  | regUnlock hpc =>
    exact inv_quiet hs hpc rfl (Or.inr (Or.inr ⟨rfl, rfl, rfl⟩)) rfl rfl rfl rfl rfl rfl rfl
  | regReturn hpc =>
    exact inv_event hs hpc rfl ⟨rfl, rfl⟩ rfl rfl rfl rfl rfl rfl (Or.inr (Or.inr ⟨_, _, rfl⟩))
      (fun _ => rfl) hs.correct (.ret (hs.status i _ hpc))
  | lookLock hpc hm =>
    exact inv_quiet hs hpc rfl (Or.inr (Or.inl ⟨rfl, rfl, hm, rfl⟩)) rfl rfl rfl rfl rfl rfl rfl
  | lookAcquire hpc hsem =>
    exact inv_quiet hs hpc rfl (Or.inl ⟨rfl, rfl⟩)
      (by simp only [permits] <;> omega) rfl rfl rfl rfl rfl rfl
  | lookUnlock hpc =>
    exact inv_quiet hs hpc rfl (Or.inr (Or.inr ⟨rfl, rfl, rfl⟩)) rfl rfl rfl rfl rfl rfl rfl
  | lookRead hpc => exact inv_quiet hs hpc rfl (Or.inl ⟨rfl, rfl⟩) rfl rfl rfl rfl rfl rfl rfl
  | @lookReading ty f hpc hstore =>
    refine inv_event hs hpc rfl ⟨rfl, rfl⟩ rfl rfl rfl rfl rfl rfl (Or.inr (Or.inl ⟨_, _, rfl⟩))
      (fun _ => rfl) ⟨(hs.whole f hstore).1 ty, hs.correct⟩ (.effect (hs.status i _ hpc))
  | lookBroken hpc hstore => exact absurd hstore (not_torn hs hpc (by simp [permits, maxThreads]) rfl)
  | lookRelease hpc =>
    exact inv_quiet hs hpc rfl (Or.inl ⟨rfl, rfl⟩)
      (by simp only [permits] <;> omega) rfl rfl rfl rfl rfl rfl
  | lookReturn hpc =>
    exact inv_event hs hpc rfl ⟨rfl, rfl⟩ rfl rfl rfl rfl rfl rfl (Or.inr (Or.inr ⟨_, _, rfl⟩))
      (fun _ => rfl) hs.correct (.ret (hs.status i _ hpc))

theorem reachable_inv {n : Nat} {s : State H} (h : Reachable H n s) : Inv s := by
  induction h with
  | start => exact inv_start n
  | call _ hc ih => exact inv_call ih hc
  | step _ hst ih => exact inv_next ih hst

/-! ### Progress -/

/-- Steps left in the operation. -/
def left : Pc H → Nat
  | .idle => 0
  | .regLock .. => 7
  | .regAcquire .. => 6
  | .regWrite .. => 5
  | .regWriting .. => 4
  | .regRelease .. => 3
  | .regUnlock .. => 2
  | .regReturn .. => 1
  | .lookLock .. => 7
  | .lookAcquire .. => 6
  | .lookUnlock .. => 5
  | .lookRead .. => 4
  | .lookReading .. => 3
  | .lookRelease .. => 2
  | .lookReturn .. => 1

/-- A thread that needs neither the mutex nor permits can go on. -/
theorem free_step {s : State H} {i : Nat} {pc : Pc H} (hpc : s.pcs[i]? = some pc)
    (h : match pc with
      | .idle | .regLock .. | .lookLock .. | .regAcquire .. | .lookAcquire .. => False
      | _ => True) : ∃ s', Step i s s' := by
  cases pc with
  | idle => exact h.elim
  | regLock => exact h.elim
  | lookLock => exact h.elim
  | regAcquire => exact h.elim
  | lookAcquire => exact h.elim
  | regWrite ty hd =>
    cases hs : s.store with
    | whole f => exact ⟨_, .regWrite hpc hs⟩
    | torn => exact ⟨_, .regBroken hpc hs⟩
  | regWriting => exact ⟨_, .regWriting hpc⟩
  | regRelease => exact ⟨_, .regRelease hpc⟩
  | regUnlock => exact ⟨_, .regUnlock hpc⟩
  | regReturn => exact ⟨_, .regReturn hpc⟩
  | lookUnlock => exact ⟨_, .lookUnlock hpc⟩
  | lookRead => exact ⟨_, .lookRead hpc⟩
  | lookReading ty =>
    cases hs : s.store with
    | whole f => exact ⟨_, .lookReading hpc hs⟩
    | torn => exact ⟨_, .lookBroken hpc hs⟩
  | lookRelease => exact ⟨_, .lookRelease hpc⟩
  | lookReturn => exact ⟨_, .lookReturn hpc⟩

theorem exists_permit {l : List (Pc H)} (h : 0 < (l.map permits).sum) :
    ∃ (i : Nat) (pc : Pc H), l[i]? = some pc ∧ 0 < permits pc := by
  induction l with
  | nil => simp at h
  | cons x l ih =>
    by_cases hx : 0 < permits x
    · exact ⟨0, x, rfl, hx⟩
    · obtain ⟨i, pc, h1, h2⟩ := ih (by simp only [List.map_cons, List.sum_cons] at h; omega)
      exact ⟨i + 1, pc, by simpa using h1, h2⟩

theorem permit_step {s : State H} {i : Nat} {pc : Pc H} (hpc : s.pcs[i]? = some pc)
    (h : 0 < permits pc) : ∃ s', Step i s s' :=
  free_step hpc (by cases pc <;> simp_all [permits])

theorem progress {s : State H} (hs : Inv s) (h : ¬ AllIdle s) : ∃ i s', Step i s s' := by
  have hsem : s.sem < maxThreads → ∃ i s', Step i s s' := by
    intro hlt
    have := hs.count
    obtain ⟨i, pc, h1, h2⟩ := exists_permit (l := s.pcs) (by omega)
    exact ⟨i, permit_step h1 h2⟩
  cases hm : s.mutex with
  | some i =>
    obtain ⟨pc, h1, h2⟩ := hs.held i hm
    by_cases hlt : s.sem < maxThreads
    · exact hsem hlt
    · cases pc with
      | regAcquire => exact ⟨i, _, .regAcquire h1 (by omega)⟩
      | lookAcquire => exact ⟨i, _, .lookAcquire h1 (by simp only [maxThreads] at hlt; omega)⟩
      | idle => simp [locks] at h2
      | regLock => simp [locks] at h2
      | lookLock => simp [locks] at h2
      | _ => exact ⟨i, free_step h1 trivial⟩
  | none =>
    have : ∃ (i : Nat) (pc : Pc H), s.pcs[i]? = some pc ∧ pc ≠ .idle := by
      apply Classical.byContradiction
      intro hc
      refine h fun i pc hi => ?_
      apply Classical.byContradiction
      intro hne
      exact hc ⟨i, pc, hi, hne⟩
    obtain ⟨i, pc, h1, h2⟩ := this
    have hl : locks pc = false := by
      cases hl : locks pc with
      | false => rfl
      | true => have := hs.own i pc h1 hl; rw [hm] at this; simp at this
    cases pc with
    | idle => exact absurd rfl h2
    | regLock => exact ⟨i, _, .regLock h1 hm⟩
    | lookLock => exact ⟨i, _, .lookLock h1 hm⟩
    | regAcquire => simp [locks] at hl
    | lookAcquire => simp [locks] at hl
    | _ => exact ⟨i, free_step h1 trivial⟩

theorem step_left {s s' : State H} {i : Nat} (h : Step i s s') :
    ∃ pc pc', s.pcs[i]? = some pc ∧ s'.pcs = s.pcs.set i pc' ∧ left pc' < left pc := by
  cases h with
  | regLock h | regAcquire h | regWrite h | regBroken h | regWriting h | regRelease h | regUnlock h
  | regReturn h | lookLock h | lookAcquire h | lookUnlock h | lookRead h | lookReading h | lookBroken h
  | lookRelease h | lookReturn h =>
    exact ⟨_, _, h, rfl, by simp [left]⟩

theorem left_sum_set {l : List (Pc H)} {i : Nat} {pc new : Pc H} (h : l[i]? = some pc) :
    ((l.set i new).map left).sum + left pc = (l.map left).sum + left new := by
  induction l generalizing i with
  | nil => simp at h
  | cons x l ih =>
    cases i with
    | zero => simp at h; subst h; simp; omega
    | succ i =>
      simp only [List.getElem?_cons_succ] at h
      have := ih h
      simp only [List.set_cons_succ, List.map_cons, List.sum_cons]
      omega

theorem steps_bound {k : Nat} {s s' : State H} (h : Steps k s s') :
    k + (s'.pcs.map left).sum ≤ (s.pcs.map left).sum := by
  induction h with
  | refl => omega
  | next hst _ ih =>
    obtain ⟨pc, pc', h1, h2, h3⟩ := step_left hst
    rw [h2] at ih
    have := left_sum_set (new := pc') h1
    omega

theorem left_sum_le (l : List (Pc H)) : (l.map left).sum ≤ 7 * l.length := by
  induction l with
  | nil => simp
  | cons x l ih =>
    have : left x ≤ 7 := by cases x <;> simp [left]
    simp only [List.map_cons, List.sum_cons, List.length_cons]
    omega

theorem reachable_length {n : Nat} {s : State H} (h : Reachable H n s) : s.pcs.length = n := by
  induction h with
  | start => simp [start]
  | call _ hc ih => cases hc <;> simp [State.goto, ih]
  | step _ hst ih =>
    obtain ⟨pc, pc', _, h2, _⟩ := step_left hst
    rw [h2]; simp [ih]

theorem steps_reachable {n k : Nat} {s s' : State H} (hs : Steps k s s') (h : Reachable H n s) :
    Reachable H n s' := by
  induction hs with
  | refl => exact h
  | next hst _ ih => exact ih (.step h hst)

/-! ### Histories -/

theorem status_unique {i : Nat} {tr : List (Ev H)} {a b : Status H} (ha : HasStatus i tr a)
    (hb : HasStatus i tr b) : a = b := by
  induction ha generalizing b with
  | start => cases hb; rfl
  | inv _ ih => cases hb with
    | inv h => rfl
    | otherInv hne _ => exact absurd rfl hne
  | effect _ ih => cases hb with
    | effect h => rfl
    | otherEffect hne _ => exact absurd rfl hne
  | ret _ ih => cases hb with
    | ret h => rfl
    | otherRet hne _ => exact absurd rfl hne
  | otherInv hne _ ih => cases hb with
    | inv h => exact absurd rfl hne
    | otherInv _ h => exact ih h
  | otherEffect hne _ ih => cases hb with
    | effect h => exact absurd rfl hne
    | otherEffect _ h => exact ih h
  | otherRet hne _ ih => cases hb with
    | ret h => exact absurd rfl hne
    | otherRet _ h => exact ih h

/-- An initial piece of a history has a status too. -/
theorem status_older {i : Nat} {new tr : List (Ev H)} {a : Status H}
    (h : HasStatus i (new ++ tr) a) : ∃ b, HasStatus i tr b := by
  induction new generalizing a with
  | nil => exact ⟨a, h⟩
  | cons e new ih =>
    cases h with
    | inv h => exact ih h
    | effect h => exact ih h
    | ret h => exact ih h
    | otherInv _ h => exact ih h
    | otherEffect _ h => exact ih h
    | otherRet _ h => exact ih h

/-- Between the last invocation and the return the operation took effect. -/
theorem effect_between {i : Nat} {op op' : Op H} {r : Option H} {new tr : List (Ev H)}
    (h : HasStatus i (new ++ .inv i op' :: tr) (.effected op r))
    (hno : ∀ op, Ev.inv i op ∉ new) :
    op = op' ∧ ∃ a b, new = a ++ .effect i op r :: b := by
  have key : ∀ {st : Status H}, HasStatus i (new ++ .inv i op' :: tr) st →
      (st = .invoked op' ∨ st = .idle) ∨
      (∃ r, st = .effected op' r ∧ ∃ a b, new = a ++ .effect i op' r :: b) := by
    clear h
    induction new with
    | nil =>
      intro st h
      cases h with
      | inv _ => exact Or.inl (Or.inl rfl)
      | otherInv hne _ => exact absurd rfl hne
    | cons e new ih =>
      have hno' : ∀ op, Ev.inv i op ∉ new := fun op hm => hno op (List.mem_cons_of_mem _ hm)
      intro st h
      cases h with
      | inv _ => exact absurd (List.mem_cons_self ..) (hno _)
      | @effect _ op1 r1 h =>
        rcases ih hno' h with (h | h) | ⟨r2, h, _⟩
        · simp only [Status.invoked.injEq] at h; subst h
          exact Or.inr ⟨r1, rfl, [], new, rfl⟩
        · simp at h
        · simp at h
      | ret _ => exact Or.inl (Or.inr rfl)
      | otherInv _ h => 
        rcases ih hno' h with h | ⟨r2, h, a, b, e⟩
        · exact Or.inl h
        · exact Or.inr ⟨r2, h, _ :: a, b, by rw [e]; rfl⟩
      | otherEffect _ h =>
        rcases ih hno' h with h | ⟨r2, h, a, b, e⟩
        · exact Or.inl h
        · exact Or.inr ⟨r2, h, _ :: a, b, by rw [e]; rfl⟩
      | otherRet _ h =>
        rcases ih hno' h with h | ⟨r2, h, a, b, e⟩
        · exact Or.inl h
        · exact Or.inr ⟨r2, h, _ :: a, b, by rw [e]; rfl⟩
  rcases key h with (h | h) | ⟨r2, h, h2⟩
  · simp at h
  · simp at h
  · simp only [Status.effected.injEq] at h
    obtain ⟨rfl, rfl⟩ := h
    exact ⟨rfl, h2⟩

/-- A registration that takes effect was invoked since, or pending before. -/
theorem effect_invoked {k ty : Nat} {h : H} {r : Option H} {new tr : List (Ev H)}
    {st : Status H} (hst : HasStatus k (.effect k (.reg ty h) r :: new ++ tr) st)
    (hno : NoneInvoked ty new) : HasStatus k tr (.invoked (.reg ty h)) := by
  have h0 : HasStatus k (new ++ tr) (.invoked (.reg ty h)) := by
    rw [List.cons_append] at hst
    cases hst with
    | effect h => exact h
    | otherEffect hne _ => exact absurd rfl hne
  clear hst
  induction new with
  | nil => exact h0
  | cons e new ih =>
    have hno' : NoneInvoked ty new := fun k h hm => hno k h (List.mem_cons_of_mem _ hm)
    rw [List.cons_append] at h0
    cases h0 with
    | inv _ => exact absurd (List.mem_cons_self ..) (hno _ _)
    | otherInv _ h => exact ih hno' h
    | otherEffect _ h => exact ih hno' h
    | otherRet _ h => exact ih hno' h

/-- If no registration of `ty` takes effect in the newer part, the older part decides. -/
theorem lastRegistered_skip {ty : Nat} {new tr : List (Ev H)}
    (h : ∀ k h r, Ev.effect k (.reg ty h) r ∉ new) :
    lastRegistered ty (new ++ tr) = lastRegistered ty tr := by
  induction new with
  | nil => rfl
  | cons e new ih =>
    have h' : ∀ k h r, Ev.effect k (.reg ty h) r ∉ new :=
      fun k x r hm => h k x r (List.mem_cons_of_mem _ hm)
    rw [List.cons_append]
    cases e with
    | inv => exact ih h'
    | ret => exact ih h'
    | effect i op r =>
      cases op with
      | look => exact ih h'
      | reg t x =>
        have : t ≠ ty := fun e => h i x r (by subst e; exact List.mem_cons_self ..)
        simp only [lastRegistered, this, if_false]
        exact ih h'

theorem correct_older {new tr : List (Ev H)} (h : LookupsCorrect (new ++ tr)) : LookupsCorrect tr := by
  induction new with
  | nil => exact h
  | cons e new ih =>
    rw [List.cons_append] at h
    apply ih
    cases e with
    | inv => exact h
    | ret => exact h
    | effect i op r =>
      cases op with
      | look => exact h.2
      | reg => exact h

end QtPb.Registry
