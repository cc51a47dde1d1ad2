import Verif.Handlers
/-
C74: reading and aborting replies returns, whatever the slots connected to errors do.
-/
namespace QtPb.Handlers
open Http2

variable {R : Type}

/-! ### Specification -/

/-- The bytes are a message for the serializer. -/
def Spec.Decodes (env : Env R) (data : Bytes) : Prop := ∃ deser, env.deser = some deser ∧ (deser env.fresh data).2 = none

/-- No code is running: nothing is locked. -/
def Spec.Idle (s : State R) : Prop := ∀ i, s.locked i = false

/-- The slots of the client's errors only read operations that hold messages (the empty text is one), and the user's slots of
errors of operations abort nothing. -/
structure Spec.Careful (env : Env R) (s : State R) : Prop where
  client : ∀ a ∈ env.onClientError, ∃ i, a = .read i ∧ Decodes env (s.data i) ∧ Decodes env []
  error : ∀ i, ∀ a ∈ env.onError i, ∃ j, a = .read j

open Spec

/-! ### Lemmas -/

theorem tryDeserialize_decodes {env : Env R} {data : Bytes} (h : Decodes env data) :
    ∃ v st, Call.tryDeserialize env.deser env.fresh data = (v, st, []) ∧ ∀ d, env.deser = some d → v = (d env.fresh data).1 := by
  obtain ⟨deser, h1, h2⟩ := h
  rw [h1, Call.tryDeserialize]
  cases hd : deser env.fresh data with
  | mk v t =>
    rw [hd] at h2
    simp only at h2
    subst h2
    refine ⟨v, _, rfl, ?_⟩
    intro d hd'
    rw [← Option.some.inj hd', hd]

theorem tryDeserialize_fails {env : Env R} {data : Bytes} (h : ¬ Decodes env data) :
    ∃ v st, Call.tryDeserialize env.deser env.fresh data = (v, st, [st]) ∧ st.code ≠ Status.Aborted ∧
      ∀ d, env.deser = some d → v = (d env.fresh data).1 := by
  cases hd : env.deser with
  | none => exact ⟨_, _, rfl, by simp [Status.Aborted, Status.Unknown], by simp⟩
  | some deser =>
    cases he : deser env.fresh data with
    | mk v t =>
      cases t with
      | none => exact absurd ⟨deser, hd, by rw [he]⟩ h
      | some t => cases t <;> (simp only [Call.tryDeserialize, he]; exact ⟨_, _, rfl, by decide, fun d hd' => by rw [← Option.some.inj hd', he]⟩)

/-- The slots of the client's errors return if what they read is not locked; they only read. -/
theorem handlers_return {env : Env R} (n : Nat) : ∀ (as : List Act) (s : State R),
    (∀ a ∈ as, ∃ i, a = .read i ∧ Decodes env (s.data i) ∧ s.locked i = false) →
    ∃ vs, seq (act env (n + 1)) s as = .returned { s with values := s.values ++ vs }
  | [], s, _ => ⟨[], by simp [seq]⟩
  | a :: as, s, h => by
    obtain ⟨i, rfl, hd, hl⟩ := h a (by simp)
    obtain ⟨v, st, hv, -⟩ := tryDeserialize_decodes hd
    have e : act env (n + 1) s (.read i) = .returned { s with values := s.values ++ [(i, v)] } := by
      rw [act, if_neg (by rw [hl]; simp), hv]
    obtain ⟨vs, hvs⟩ := handlers_return n as { s with values := s.values ++ [(i, v)] } (fun b hb => h b (by simp [hb]))
    refine ⟨(i, v) :: vs, ?_⟩
    rw [seq, e, Out.bind, hvs]
    simp

/-- A read by code that runs while nothing is locked. -/
theorem read_returns {env : Env R} {s : State R} (hi : Idle s) (hc : Careful env s) (n i : Nat) :
    ∃ vs v es, act env (n + 2) s (.read i) = .returned { s with values := s.values ++ vs ++ [(i, v)], errors := s.errors ++ es } ∧
      (∀ d, env.deser = some d → v = (d env.fresh (s.data i)).1) ∧ (Decodes env (s.data i) → es = [] ∧ vs = []) ∧
      (¬ Decodes env (s.data i) → es.length = 1) ∧ Status.Aborted ∉ es := by
  by_cases hd : Decodes env (s.data i)
  · obtain ⟨v, st, hv, hval⟩ := tryDeserialize_decodes hd
    refine ⟨[], v, [], ?_, hval, fun _ => ⟨rfl, rfl⟩, fun h => absurd hd h, by simp⟩
    rw [act, if_neg (by rw [hi i]; simp), hv]
    simp
  · obtain ⟨v, st, hv, hab, hval⟩ := tryDeserialize_fails hd
    have hh : ∀ a ∈ env.onClientError, ∃ j, a = .read j ∧
        Decodes env (({ s with locked := set s.locked i true, errors := s.errors ++ [st.code] } : State R).data j) ∧
        ({ s with locked := set s.locked i true, errors := s.errors ++ [st.code] } : State R).locked j = false := by
      intro a ha
      obtain ⟨j, rfl, hj, -⟩ := hc.client a ha
      refine ⟨j, rfl, hj, ?_⟩
      have : j ≠ i := by rintro rfl; exact hd hj
      simp only [set, if_neg this, hi j]
    obtain ⟨vs, hvs⟩ := handlers_return n env.onClientError _ hh
    refine ⟨vs, v, [st.code], ?_, hval, fun h => absurd h hd, fun _ => rfl, by simpa using fun h => hab h.symm⟩
    rw [act, if_neg (by rw [hi i]; simp), hv]
    simp only
    rw [hvs]
    simp only [Out.bind]
    have hl : set (set s.locked i true) i false = s.locked := by
      funext j
      simp only [set]
      split
      · rename_i h; rw [h, hi i]
      · rfl
    rw [hl]

theorem reads_return {env : Env R} (n : Nat) : ∀ (as : List Act) (s : State R), Idle s → Careful env s → (∀ a ∈ as, ∃ i, a = .read i) →
    ∃ vs es, seq (act env (n + 2)) s as = .returned { s with values := s.values ++ vs, errors := s.errors ++ es } ∧ Status.Aborted ∉ es
  | [], s, _, _, _ => ⟨[], [], by simp [seq]⟩
  | a :: as, s, hi, hc, h => by
    obtain ⟨i, rfl⟩ := h a (by simp)
    obtain ⟨vs, v, es, h1, -, -, -, ha⟩ := read_returns hi hc n i
    obtain ⟨vs', es', h2, ha'⟩ := reads_return n as { s with values := s.values ++ vs ++ [(i, v)], errors := s.errors ++ es } hi
      ⟨hc.client, hc.error⟩ (fun b hb => h b (by simp [hb]))
    refine ⟨vs ++ [(i, v)] ++ vs', es ++ es', ?_, by simp [ha, ha']⟩
    rw [seq, h1, Out.bind, h2]
    simp

theorem abort_returns {env : Env R} {s : State R} (hi : Idle s) (hc : Careful env s) (n i : Nat) :
    ∃ vs es, act env (n + 3) s (.abort i) = .returned { s with values := s.values ++ vs, errors := s.errors ++ es, data := set s.data i [], connected := set s.connected i false } ∧ es.count Status.Aborted = (if s.connected i then 1 else 0) := by
  have hdata : ∀ j, Decodes env (s.data j) → Decodes env [] → Decodes env (set s.data i [] j) := by
    intro j h1 h2
    simp only [set]
    split
    · exact h2
    · exact h1
  rw [act, if_neg (by rw [hi i]; simp)]
  by_cases hcon : s.connected i = true
  · simp only [if_pos hcon]
    obtain ⟨vs, hvs⟩ := handlers_return (n + 1) env.onClientError { s with data := set s.data i [], errors := s.errors ++ [Status.Aborted] } (by
      intro a ha
      obtain ⟨j, rfl, hj, he⟩ := hc.client a ha
      exact ⟨j, rfl, hdata j hj he, hi j⟩)
    rw [hvs]
    simp only [Out.bind]
    obtain ⟨vs', es', h2, ha⟩ := reads_return n (env.onError i)
      { s with data := set s.data i [], errors := s.errors ++ [Status.Aborted], values := s.values ++ vs, connected := set s.connected i false }
      hi ⟨fun a ha => by obtain ⟨j, rfl, hj, he⟩ := hc.client a ha; exact ⟨j, rfl, hdata j hj he, he⟩, hc.error⟩ (hc.error i)
    refine ⟨vs ++ vs', Status.Aborted :: es', ?_, by simp [hcon, List.count_eq_zero_of_not_mem ha]⟩
    rw [h2]
    simp
  · simp only [if_neg hcon, Out.bind]
    obtain ⟨vs', es', h2, ha⟩ := reads_return n (env.onError i) { s with data := set s.data i [] }
      hi ⟨fun a ha => by obtain ⟨j, rfl, hj, he⟩ := hc.client a ha; exact ⟨j, rfl, hdata j hj he, he⟩, hc.error⟩ (hc.error i)
    refine ⟨vs', es', ?_, by simp [hcon, List.count_eq_zero_of_not_mem ha]⟩
    rw [h2]
    have : set s.connected i false = s.connected := by
      funext j
      simp only [set]
      split
      · rename_i h; rw [h]; simpa using hcon
      · rfl
    rw [this]

/-! ### Properties -/

/-- **C74.** Every program that reads and aborts operations in any order returns, with nothing locked, if the slots of errors are
careful. -/
theorem C74_returns_partial {env : Env R} : ∀ (as : List Act) (s : State R), Idle s → Careful env s →
    ∃ n s', run env n s as = .returned s' ∧ Idle s' ∧ Careful env s' := by
  suffices h : ∀ (as : List Act) (s : State R), Idle s → Careful env s → ∃ s', run env 3 s as = .returned s' ∧ Idle s' ∧ Careful env s' from
    fun as s h1 h2 => ⟨3, h as s h1 h2⟩
  intro as
  induction as with
  | nil => exact fun s hi hc => ⟨s, rfl, hi, hc⟩
  | cons a as ih =>
    intro s hi hc
    cases a with
    | read i =>
      obtain ⟨vs, v, es, h1, -⟩ := read_returns hi hc 1 i
      obtain ⟨s', h2, h3⟩ := ih { s with values := s.values ++ vs ++ [(i, v)], errors := s.errors ++ es } hi ⟨hc.client, hc.error⟩
      refine ⟨s', ?_, h3⟩
      rw [run, seq, h1, Out.bind]
      exact h2
    | abort i =>
      obtain ⟨vs, es, h1, -⟩ := abort_returns hi hc 0 i
      obtain ⟨s', h2, h3⟩ := ih { s with values := s.values ++ vs, errors := s.errors ++ es, data := set s.data i [], connected := set s.connected i false } hi
        ⟨fun a ha => by
          obtain ⟨j, rfl, hj, he⟩ := hc.client a ha
          refine ⟨j, rfl, ?_, he⟩
          simp only [set]
          split
          · exact he
          · exact hj, hc.error⟩
      refine ⟨s', ?_, h3⟩
      rw [run, seq, h1, Out.bind]
      exact h2

open Classical in
/-- **C74.** A read then returns what the serializer makes of the data, and reports one error if and only if it fails. -/
theorem C74_value_partial {env : Env R} {s : State R} (hi : Idle s) (hc : Careful env s) (i : Nat) :
    ∃ n s' v, run env n s [.read i] = .returned s' ∧ s'.values.getLast? = some (i, v) ∧
      (∀ d, env.deser = some d → v = (d env.fresh (s.data i)).1) ∧
      s'.errors.length = s.errors.length + (if Decodes env (s.data i) then 0 else 1) := by
  obtain ⟨vs, v, es, h1, h2, h3, h4, -⟩ := read_returns hi hc 0 i
  refine ⟨2, _, v, by rw [run, seq, h1]; rfl, by simp, h2, ?_⟩
  by_cases hd : Decodes env (s.data i)
  · simp [hd, (h3 hd).1]
  · simp [hd, h4 hd]

/-- **C74.** Aborting clears the data and tells the client once. -/
theorem C74_abort_partial {env : Env R} {s : State R} (hi : Idle s) (hc : Careful env s) (i : Nat) :
    ∃ n s', run env n s [.abort i] = .returned s' ∧ s'.data i = [] ∧ s'.connected i = false ∧
      s'.errors.count Status.Aborted = s.errors.count Status.Aborted + (if s.connected i then 1 else 0) := by
  obtain ⟨vs, es, h1, h2⟩ := abort_returns hi hc 0 i
  exact ⟨3, _, by rw [run, seq, h1]; rfl, by simp [set], by simp [set], by simp [h2]⟩

/-- A serializer that takes every text but a single zero byte. -/
def demoDeser : Call.Deserialize Nat := fun _ data => if data = [0] then (7, some .invalidArgument) else (data.length, none)

example : Idle (⟨fun i => if i = 0 then [0] else [1, 2], fun _ => false, fun _ => true, [], []⟩ : State Nat) ∧
    Careful (⟨some demoDeser, 0, [.read 1], fun _ => [.read 0]⟩ : Env Nat) ⟨fun i => if i = 0 then [0] else [1, 2], fun _ => false, fun _ => true, [], []⟩ := by
  refine ⟨fun _ => rfl, ⟨?_, ?_⟩⟩
  · intro a ha
    exact ⟨1, by simpa using ha, ⟨demoDeser, rfl, rfl⟩, ⟨demoDeser, rfl, rfl⟩⟩
  · intro i a ha
    exact ⟨0, by simpa using ha⟩

/-- **C74, negation.** If the data of an operation is no message and the first slot of the client's errors reads the operation again, or
aborts it, `read()` waits for ever for the lock it holds. -/
theorem C74_handler_violated {env : Env R} {s : State R} {i : Nat} (hi : Idle s) (hd : ¬ Decodes env (s.data i)) {rest : List Act}
    (h : env.onClientError = .read i :: rest ∨ env.onClientError = .abort i :: rest) (n : Nat) : run env (n + 2) s [.read i] = .hangs := by
  obtain ⟨v, st, hv, -, -⟩ := tryDeserialize_fails hd
  have e : act env (n + 2) s (.read i) = .hangs := by
    rw [act, if_neg (by rw [hi i]; simp), hv]
    simp only
    rcases h with h | h <;> (rw [h, seq, act, if_pos (by simp [set])]; rfl)
  rw [run, seq, e]
  rfl

example : ∃ (env : Env Nat) (s : State Nat), Idle s ∧ ¬ Decodes env (s.data 0) ∧ env.onClientError = [.abort 0] := by
  refine ⟨⟨some demoDeser, 0, [.abort 0], fun _ => []⟩, ⟨fun _ => [0], fun _ => false, fun _ => true, [], []⟩, fun _ => rfl, ?_, rfl⟩
  rintro ⟨d, h1, h2⟩
  rw [← Option.some.inj h1] at h2
  simp [demoDeser] at h2

/-- **C74, negation.** If the first slot of the client's errors aborts a call that is not over, aborting it never ends: the slot is called
again before the client disconnects from the call. -/
theorem C74_abort_violated {env : Env R} {i : Nat} {rest : List Act} (h : env.onClientError = .abort i :: rest) :
    ∀ (n : Nat) (s : State R), Idle s → s.connected i = true → run env n s [.abort i] = .fuel := by
  suffices hs : ∀ (n : Nat) (s : State R), Idle s → s.connected i = true → act env n s (.abort i) = .fuel by
    intro n s h1 h2
    rw [run, seq, hs n s h1 h2]; rfl
  intro n
  induction n with
  | zero => intro s _ _; rfl
  | succ n ih =>
    intro s hi hcon
    rw [act, if_neg (by rw [hi i]; simp)]
    simp only [if_pos hcon]
    rw [h, seq, ih { s with data := set s.data i [], errors := s.errors ++ [Status.Aborted] } hi hcon]
    rfl

end QtPb.Handlers
