import Verif.ThreadLemmas
/-
C88: calls of clients from several threads and from inside waiting calls.
-/
namespace QtPb.Threads

/-! ### Specification -/

/-- The call was made and has not returned. -/
def Outstanding (w : World) (k : Nat) : Prop := k < w.calls.length ∧ ∀ r, (k, r) ∉ w.returned

/-- The request of the call was sent to the server: some thread waits for the answer. -/
def Sent (w : World) (k : Nat) : Prop := ∃ th, .wait k ∈ w.stack th

/-- The answer of the server to the call has arrived. -/
def Answered (w : World) (k : Nat) : Prop := ∃ d, w.answers k = some d

/-- A thread can go on: it can handle a posted call, or its innermost event loop can end. -/
def CanHandle (w : World) (th : Nat) : Prop := w.free th = true ∧ w.queue th ≠ []
def CanReturn (w : World) (th : Nat) : Prop := ∃ k rest d, w.stack th = .wait k :: rest ∧ w.answers k = some d

/-- The threads can be ranked such that calls of other threads go upwards only. In particular no two threads call each other. -/
def Upwards (es : List Ev) : Prop := ∃ rank : Nat → Nat, ∀ caller home quick, Ev.call caller home quick ∈ es → caller ≠ home →
  rank caller < rank home

/-! ### Returns -/

/-- No call returns twice. -/
theorem C88_once (es : List Ev) : ((start.run es).returned.map (·.1)).Nodup := (Inv.start.run es).once

theorem answers_from (es : List Ev) (w : World) (k : Nat) (d : Bytes) (h : (w.run es).answers k = some d) :
    w.answers k = some d ∨ Ev.answer k d ∈ es := by
  induction es generalizing w with
  | nil => exact .inl h
  | cons e es ih =>
    rcases ih (w.step e) h with h | h
    · cases e with
      | call caller home quick =>
        simp only [World.step] at h
        split at h
        · left
          unfold World.makeCall at h
          simp only at h
          split at h
          · split at h <;> exact h
          · exact h
        · exact .inl h
      | answer j x =>
        simp only [World.step] at h
        split at h
        · split at h
          · simp only [upd_apply] at h
            split at h
            · rename_i he; rw [Option.some.injEq] at h; rw [he, ← h]; right; exact List.mem_cons_self
            · exact .inl h
          · exact .inl h
        · exact .inl h
      | dispatch th =>
        simp only [World.step] at h
        split at h
        · split at h
          · exact .inl h
          · split at h
            · split at h <;> exact .inl h
            · exact .inl h
        · exact .inl h
      | ret th =>
        simp only [World.step] at h
        split at h
        · split at h
          · split at h
            · split at h <;> exact .inl h
            · exact .inl h
          · exact .inl h
        · exact .inl h
    · exact .inr (List.mem_cons_of_mem _ h)

/-- What a call returns is what the server answered to that call, whichever threads are involved and however many other calls were
made meanwhile; a call that does not wait for an answer returns without one. -/
theorem C88_result {es : List Ev} {k : Nat} {r : Option Bytes} (h : (k, r) ∈ (start.run es).returned) :
    ∃ c, (start.run es).calls[k]? = some c ∧
      (c.quick = true ∧ r = none ∨ c.quick = false ∧ ∃ d, r = some d ∧ Ev.answer k d ∈ es) := by
  obtain ⟨c, hc, hr⟩ := (Inv.start.run es).result k r h
  refine ⟨c, hc, hr.imp id ?_⟩
  rintro ⟨hq, d, rfl, hd⟩
  refine ⟨hq, d, rfl, ?_⟩
  rcases answers_from es start k d hd with h | h
  · cases h
  · exact h

/-! ### Everything returns if calls go upwards -/

theorem calls_from (es : List Ev) (w : World) (c : Call) (h : c ∈ (w.run es).calls) :
    c ∈ w.calls ∨ Ev.call c.caller c.home c.quick ∈ es := by
  induction es generalizing w with
  | nil => exact .inl h
  | cons e es ih =>
    rcases ih (w.step e) h with h | h
    · cases e with
      | call caller home quick =>
        simp only [World.step] at h
        split at h
        · have : (w.makeCall caller home quick).calls = w.calls ++ [⟨caller, home, quick⟩] := by
            unfold World.makeCall
            simp only
            split
            · split <;> rfl
            · rfl
          rw [this, List.mem_append, List.mem_singleton] at h
          rcases h with h | rfl
          · exact .inl h
          · right; exact List.mem_cons_self
        · exact .inl h
      | answer j x =>
        simp only [World.step] at h
        split at h
        · split at h <;> exact .inl h
        · exact .inl h
      | dispatch th =>
        simp only [World.step] at h
        split at h
        · split at h
          · exact .inl h
          · split at h
            · split at h <;> exact .inl h
            · exact .inl h
        · exact .inl h
      | ret th =>
        simp only [World.step] at h
        split at h
        · split at h
          · split at h
            · split at h <;> exact .inl h
            · exact .inl h
          · exact .inl h
        · exact .inl h
    · exact .inr (List.mem_cons_of_mem _ h)

theorem bound_of {l : List Call} (f : Call → Nat) : ∃ b, ∀ c ∈ l, f c ≤ b := by
  induction l with
  | nil => exact ⟨0, by simp⟩
  | cons x l ih =>
    obtain ⟨b, hb⟩ := ih
    refine ⟨b + f x, ?_⟩
    intro c hc
    rcases List.mem_cons.mp hc with rfl | hc
    · omega
    · have := hb c hc; omega

/-- Some thread at or above the home of an outstanding call can go on. -/
theorem Inv.progress {w : World} (h : Inv w) {rank : Nat → Nat} {b : Nat}
    (hup : ∀ c ∈ w.calls, c.caller ≠ c.home → rank c.caller < rank c.home) (hb : ∀ c ∈ w.calls, rank c.home ≤ b)
    (hans : ∀ k, Sent w k → w.answers k ≠ none) :
    ∀ n th, b < rank th + n → (w.queue th ≠ [] ∨ w.stack th ≠ []) → ∃ x, CanHandle w x ∨ CanReturn w x := by
  intro n
  induction n with
  | zero =>
    intro th hn hth
    -- no call goes to or from a thread above the bound
    cases hs : w.stack th with
    | nil =>
      cases hq : w.queue th with
      | nil => simp [hq, hs] at hth
      | cons k rest => exact ⟨th, .inl ⟨by simp [World.free, hs], by simp [hq]⟩⟩
    | cons f rest =>
      cases f with
      | wait k =>
        cases ha : w.answers k with
        | none => exact absurd ha (hans k ⟨th, by rw [hs]; exact List.mem_cons_self⟩)
        | some d => exact ⟨th, .inr ⟨k, rest, d, hs, ha⟩⟩
      | blocked k =>
        obtain ⟨c, hc, h1, h2, -, -⟩ := h.blocked th k (by rw [hs]; exact List.mem_cons_self)
        have hm : c ∈ w.calls := List.mem_of_getElem? hc
        have := hup c hm (by rw [h1]; exact fun e => h2 e.symm)
        have := hb c hm
        rw [h1] at *
        omega
  | succ n ih =>
    intro th hn hth
    cases hs : w.stack th with
    | nil =>
      cases hq : w.queue th with
      | nil => simp [hq, hs] at hth
      | cons k rest => exact ⟨th, .inl ⟨by simp [World.free, hs], by simp [hq]⟩⟩
    | cons f rest =>
      cases f with
      | wait k =>
        cases ha : w.answers k with
        | none => exact absurd ha (hans k ⟨th, by rw [hs]; exact List.mem_cons_self⟩)
        | some d => exact ⟨th, .inr ⟨k, rest, d, hs, ha⟩⟩
      | blocked k =>
        obtain ⟨c, hc, h1, h2, -, h3⟩ := h.blocked th k (by rw [hs]; exact List.mem_cons_self)
        have hm : c ∈ w.calls := List.mem_of_getElem? hc
        have := hup c hm (by rw [h1]; exact fun e => h2 e.symm)
        refine ih c.home (by rw [h1] at this; omega) ?_
        rcases h3 with h3 | h3
        · left; intro he; rw [he] at h3; cases h3
        · right; intro he; rw [he] at h3; cases h3

/-- If calls go upwards and every request that was sent has been answered, then as long as a call is outstanding some thread can go
on: there is no deadlock. -/
theorem C88_progress_partial {es : List Ev} (hup : Upwards es) {k : Nat} (hk : Outstanding (start.run es) k)
    (hans : ∀ j, Sent (start.run es) j → Answered (start.run es) j) :
    ∃ th, CanHandle (start.run es) th ∨ CanReturn (start.run es) th := by
  obtain ⟨rank, hup⟩ := hup
  have h := Inv.start.run es
  have hcalls : ∀ c ∈ (start.run es).calls, c.caller ≠ c.home → rank c.caller < rank c.home := by
    intro c hc hn
    rcases calls_from es start c hc with hc | hc
    · cases hc
    · exact hup _ _ _ hc hn
  obtain ⟨b, hb⟩ := bound_of (l := (start.run es).calls) (fun c => rank c.home)
  obtain ⟨hlt, hnr⟩ := hk
  obtain ⟨c, hc⟩ : ∃ c, (start.run es).calls[k]? = some c := ⟨_, List.getElem?_eq_getElem hlt⟩
  have hnr' : k ∉ (start.run es).returned.map (·.1) := by
    intro hm
    obtain ⟨⟨j, r⟩, hj, rfl⟩ := List.mem_map.mp hm
    exact hnr r hj
  have hcov := h.cover k c hc hnr'
  refine h.progress hcalls hb (fun j hj => ?_) (b + 1) (if c.caller = c.home then c.home else c.caller) (by omega) ?_
  · obtain ⟨d, hd⟩ := hans j hj; rw [hd]; simp
  · right
    intro he
    split at hcov
    · rename_i hq; rw [if_pos hq] at he; rw [he] at hcov; cases hcov
    · rename_i hq; rw [if_neg hq] at he; rw [he] at hcov; cases hcov

/-! ### Work is bounded -/

/-- The event is a step of a thread that is possible in the state. -/
def possible (w : World) : Ev → Bool
  | .dispatch th => w.free th && !(w.queue th).isEmpty
  | .ret th => match w.stack th with
    | .wait k :: _ => (w.answers k).isSome
    | _ => false
  | _ => false

/-- The number of steps of threads in a history that were possible when they were taken. -/
def steps (w : World) : List Ev → Nat
  | [] => 0
  | e :: es => (if possible w e then 1 else 0) + steps (w.step e) es

/-- What is left to do for a call: 2 before it waits for its answer, 1 while it waits, 0 when it has returned. -/
def weight (w : World) (k : Nat) : Nat :=
  if k ∈ w.returned.map (·.1) then 0
  else match w.calls[k]? with
    | some c => if Frame.wait k ∈ w.stack c.home then 1 else 2
    | none => 2

def total (f : Nat → Nat) : Nat → Nat
  | 0 => 0
  | n + 1 => total f n + f n

theorem total_le {f g : Nat → Nat} {n : Nat} (h : ∀ k, k < n → g k ≤ f k) : total g n ≤ total f n := by
  induction n with
  | zero => exact Nat.le_refl _
  | succ n ih =>
    have := ih fun k hk => h k (by omega)
    have := h n (by omega)
    simp only [total]; omega

theorem total_lt {f g : Nat → Nat} {n k : Nat} (hk : k < n) (h : ∀ j, j < n → g j ≤ f j) (hlt : g k < f k) :
    total g n < total f n := by
  induction n with
  | zero => omega
  | succ n ih =>
    simp only [total]
    by_cases he : k = n
    · subst he
      have := total_le (f := f) (g := g) (n := k) fun j hj => h j (by omega)
      omega
    · have := ih (by omega) fun j hj => h j (by omega)
      have := h n (by omega)
      omega

theorem weight_le (w : World) (k : Nat) : weight w k ≤ 2 := by
  unfold weight
  split
  · omega
  · split
    · split <;> omega
    · omega

/-- What a return does to the weights. -/
theorem done_weight {w w' : World} {k : Nat} {r : Option Bytes} (hd : Done w w' k r) (hn : k ∉ w.returned.map (·.1))
    (hk : k < w.calls.length) : (∀ j, weight w' j ≤ weight w j) ∧ weight w' k < weight w k := by
  have hret : ∀ j, j ∈ w'.returned.map (·.1) ↔ j ∈ w.returned.map (·.1) ∨ j = k := by
    intro j; rw [hd.returned]; simp
  have hk' : weight w' k = 0 := by
    unfold weight; rw [if_pos ((hret k).mpr (.inr rfl))]
  constructor
  · intro j
    by_cases hj : j = k
    · subst hj; omega
    · unfold weight
      by_cases hr : j ∈ w.returned.map (·.1)
      · rw [if_pos ((hret j).mpr (.inl hr))]; omega
      · rw [if_neg hr, if_neg (by rw [hret]; exact fun e => e.elim hr hj), hd.calls]
        split
        · rename_i c hc
          by_cases hm : Frame.wait j ∈ w.stack c.home
          · rw [if_pos hm, if_pos ((hd.mem _ _).mpr ⟨hm, by simpa using hj, by simp⟩)]; omega
          · rw [if_neg hm]; split <;> omega
        · omega
  · rw [hk']
    unfold weight
    rw [if_neg hn]
    split
    · split <;> omega
    · omega

/-- Remaining work plus the possible steps taken never exceeds two for each call. -/
theorem Inv.work {w : World} (h : Inv w) (e : Ev) :
    total (weight (w.step e)) (w.step e).calls.length + (if possible w e then 1 else 0) + 2 * w.calls.length ≤
      total (weight w) w.calls.length + 2 * (w.step e).calls.length := by
  have ret : ∀ (w' : World) k r, Done w w' k r → k ∉ w.returned.map (·.1) → k < w.calls.length →
      total (weight w') w'.calls.length + 1 + 2 * w.calls.length ≤ total (weight w) w.calls.length + 2 * w'.calls.length := by
    intro w' k r hd hn hk
    obtain ⟨h1, h2⟩ := done_weight hd hn hk
    have := total_lt (n := w.calls.length) hk (fun j _ => h1 j) h2
    rw [hd.calls]; omega
  cases e with
  | call caller home quick =>
    simp only [World.step, possible]
    by_cases hf : w.free caller = true
    · rw [if_pos hf]
      have hc : (w.makeCall caller home quick).calls = w.calls ++ [⟨caller, home, quick⟩] := by
        unfold World.makeCall
        simp only
        split
        · split <;> rfl
        · rfl
      have hle : ∀ j, j < w.calls.length → weight (w.makeCall caller home quick) j ≤ weight w j := by
        intro j hj
        have hret : ∀ i, i ∈ w.returned.map (·.1) → i ∈ (w.makeCall caller home quick).returned.map (·.1) := by
          intro i hi
          unfold World.makeCall
          simp only
          split
          · split
            · simp only [List.map_append, List.mem_append]; exact .inl hi
            · exact hi
          · exact hi
        have hst : ∀ th i, Frame.wait i ∈ w.stack th → Frame.wait i ∈ (w.makeCall caller home quick).stack th := by
          intro th i hi
          unfold World.makeCall
          simp only
          split
          · split
            · exact hi
            · exact mem_push.mpr (.inl hi)
          · exact mem_push.mpr (.inl hi)
        unfold weight
        by_cases hr : j ∈ w.returned.map (·.1)
        · rw [if_pos (hret j hr)]; omega
        · rw [if_neg hr]
          rw [hc, List.getElem?_append_left hj]
          obtain ⟨c, hcj⟩ : ∃ c, w.calls[j]? = some c := ⟨_, List.getElem?_eq_getElem hj⟩
          simp only [hcj]
          by_cases hm : Frame.wait j ∈ w.stack c.home
          · rw [if_pos hm, if_pos (hst _ _ hm)]; split <;> omega
          · rw [if_neg hm]; split
            · omega
            · split <;> omega
      have h1 := total_le (n := w.calls.length) hle
      have h2 := weight_le (w.makeCall caller home quick) w.calls.length
      rw [hc]
      simp only [List.length_append, List.length_singleton, total, Bool.false_eq_true, if_false]
      omega
    · rw [if_neg hf]; simp
  | answer k d =>
    simp only [World.step, possible, Bool.false_eq_true, if_false]
    split
    · split
      · exact Nat.le_refl _
      · exact Nat.le_refl _
    · exact Nat.le_refl _
  | dispatch th =>
    simp only [World.step, possible]
    by_cases hf : w.free th = true
    · simp only [hf, if_true, Bool.true_and]
      cases hq : w.queue th with
      | nil => simp
      | cons k rest =>
        have hk : k ∈ w.queue th := by rw [hq]; exact List.mem_cons_self
        obtain ⟨c, hc, hh, -, hnr, -, hnw⟩ := h.queue th k hk
        simp only [hc, List.isEmpty_cons, Bool.not_false, if_true]
        cases hqk : c.quick with
        | true => exact ret _ k none (h.doneQuick hq hc hqk) hnr (getElem?_lt hc)
        | false =>
          simp only [Bool.false_eq_true, if_false]
          have hlt : total (weight { w with queue := upd w.queue th rest, stack := upd w.stack th (.wait k :: w.stack th) })
              w.calls.length < total (weight w) w.calls.length := by
            refine total_lt (getElem?_lt hc) ?_ ?_
            · intro j hj
              unfold weight
              by_cases hr : j ∈ w.returned.map (·.1)
              · rw [if_pos hr, if_pos hr]; omega
              · rw [if_neg hr, if_neg hr]
                obtain ⟨c', hc'⟩ : ∃ c', w.calls[j]? = some c' := ⟨_, List.getElem?_eq_getElem hj⟩
                simp only [hc']
                by_cases hm : Frame.wait j ∈ w.stack c'.home
                · rw [if_pos hm, if_pos (mem_push.mpr (.inl hm))]; omega
                · rw [if_neg hm]; split <;> omega
            · unfold weight
              rw [if_neg hnr, if_neg hnr]
              simp only [hc]
              rw [if_pos (mem_push.mpr (.inr ⟨hh, rfl⟩)), if_neg (by rw [hh]; exact hnw)]
              omega
          omega
    · simp [hf]
  | ret th =>
    by_cases hp : possible w (.ret th) = true
    · rw [if_pos hp]
      simp only [possible] at hp
      split at hp
      · rename_i k rest hs
        have hk : .wait k ∈ w.stack th := by rw [hs]; exact List.mem_cons_self
        obtain ⟨c, hc, -, hqk, hnr, -, -⟩ := h.wait th k hk
        obtain ⟨d, hd⟩ := Option.isSome_iff_exists.mp hp
        simp only [World.step, hs, hd, hc]
        by_cases hcal : c.caller = th
        · rw [if_pos hcal]; exact ret _ k (some d) (h.doneOwn hs hc hcal) hnr (getElem?_lt hc)
        · rw [if_neg hcal]; exact ret _ k (some d) (h.doneOther hs hc hcal) hnr (getElem?_lt hc)
      · cases hp
    · rw [if_neg hp]
      have : w.step (.ret th) = w := by
        simp only [World.step]
        split
        · rename_i k rest hs
          simp only [possible, hs, Bool.not_eq_true, Option.isSome_eq_false_iff, Option.isNone_iff_eq_none] at hp
          simp only [hp]
        · rfl
      rw [this]; omega

theorem Inv.steps {es : List Ev} : ∀ {w : World}, Inv w →
    total (weight (w.run es)) (w.run es).calls.length + steps w es + 2 * w.calls.length ≤
      total (weight w) w.calls.length + 2 * (w.run es).calls.length := by
  induction es with
  | nil => intro w _; simp only [World.run, List.foldl_nil, Threads.steps]; omega
  | cons e es ih =>
    intro w h
    have h1 := h.work e
    have h2 := ih (h.step e)
    simp only [World.run, List.foldl_cons, Threads.steps] at h2 ⊢
    omega

/-- In every history, however it interleaves the threads, at most two steps of threads are taken for each call: one that starts to
handle it and one that ends it. With C88_progress_partial: if no further calls are made and the server answers, all calls have
returned after finitely many steps, whatever the order in which the threads take them. -/
theorem C88_work (es : List Ev) : steps start es ≤ 2 * (start.run es).calls.length := by
  have := Inv.start.steps (es := es)
  have h0 : start.calls.length = 0 := rfl
  rw [h0] at this
  simp only [total] at this
  omega

/-! ### What is missing -/

theorem calls_step {w : World} {k : Nat} {c : Call} (h : w.calls[k]? = some c) (e : Ev) : (w.step e).calls[k]? = some c := by
  cases e with
  | call caller home quick =>
    simp only [World.step]
    split
    · unfold World.makeCall
      simp only
      split
      · split <;> exact getElem?_snoc h
      · exact getElem?_snoc h
    · exact h
  | answer j d =>
    simp only [World.step]
    split
    · split <;> exact h
    · exact h
  | dispatch th =>
    simp only [World.step]
    split
    · split
      · exact h
      · split
        · split <;> exact h
        · exact h
    · exact h
  | ret th =>
    simp only [World.step]
    split
    · split
      · split
        · split <;> exact h
        · exact h
      · exact h
    · exact h

/-- A step changes the stack of thread `x` only if `x` is free, or if the call it is blocked in ends. -/
theorem stack_step {w : World} (h : Inv w) (e : Ev) (x : Nat) (hb : w.free x = false)
    (hk : ∀ k rest c, w.stack x = .blocked k :: rest → w.calls[k]? = some c → w.free c.home = false) :
    (w.step e).stack x = w.stack x := by
  have hcaller : ∀ k c, w.calls[k]? = some c → w.free c.home = true → .blocked k ∈ w.stack c.caller → c.caller ≠ x := by
    rintro k c hc hf hm rfl
    have := hk k _ c (h.blocked_top hm) hc
    rw [hf] at this; cases this
  cases e with
  | call caller home quick =>
    simp only [World.step]
    split
    · rename_i hf
      have hx : x ≠ caller := by rintro rfl; rw [hb] at hf; cases hf
      unfold World.makeCall
      simp only
      split
      · split
        · rfl
        · exact upd_ne hx
      · exact upd_ne hx
    · rfl
  | answer k d =>
    simp only [World.step]
    split
    · split <;> rfl
    · rfl
  | dispatch th =>
    simp only [World.step]
    split
    · rename_i hf
      have hx : x ≠ th := by rintro rfl; rw [hb] at hf; cases hf
      split
      · rfl
      · rename_i k rest hq
        obtain ⟨c, hc, hh, hcal, -, hbl, -⟩ := h.queue th k (by rw [hq]; exact List.mem_cons_self)
        simp only [hc]
        split
        · exact upd_ne (Ne.symm (hcaller k c hc (by rw [hh]; exact hf) hbl))
        · exact upd_ne hx
    · rfl
  | ret th =>
    simp only [World.step]
    split
    · rename_i k rest hs
      have hf : w.free th = true := by simp [World.free, hs]
      have hx : x ≠ th := by rintro rfl; rw [hb] at hf; cases hf
      obtain ⟨c, hc, hh, hqk, hnr, -, hbl⟩ := h.wait th k (by rw [hs]; exact List.mem_cons_self)
      simp only [hc]
      split
      · split
        · exact upd_ne hx
        · rename_i hcal
          simp only [World.release, upd_ne (Ne.symm (hcaller k c hc (by rw [hh]; exact hf) (hbl hcal))), upd_ne hx]
      · rfl
    · rfl

/-- Two threads that call a client of each other at the same time wait for each other forever: whatever happens then, neither call
returns. -/
theorem C88_deadlock_violated (fs : List Ev) (r : Option Bytes) :
    (0, r) ∉ (start.run ([.call 0 1 false, .call 1 0 false] ++ fs)).returned ∧
    (1, r) ∉ (start.run ([.call 0 1 false, .call 1 0 false] ++ fs)).returned := by
  have key : ∀ (fs : List Ev) (w : World), Inv w → w.calls[0]? = some ⟨0, 1, false⟩ → w.calls[1]? = some ⟨1, 0, false⟩ →
      w.stack 0 = [.blocked 0] → w.stack 1 = [.blocked 1] →
      Inv (w.run fs) ∧ (w.run fs).stack 0 = [.blocked 0] ∧ (w.run fs).stack 1 = [.blocked 1] := by
    intro fs
    induction fs with
    | nil => intro w h _ _ h0 h1; exact ⟨h, h0, h1⟩
    | cons e fs ih =>
      intro w h c0 c1 h0 h1
      have f0 : w.free 0 = false := by simp [World.free, h0]
      have f1 : w.free 1 = false := by simp [World.free, h1]
      refine ih (w.step e) (h.step e) (calls_step c0 e) (calls_step c1 e) ?_ ?_
      · rw [stack_step h e 0 f0, h0]
        intro k rest c hs hc
        rw [h0] at hs; cases hs
        rw [c0] at hc; cases hc
        exact f1
      · rw [stack_step h e 1 f1, h1]
        intro k rest c hs hc
        rw [h1] at hs; cases hs
        rw [c1] at hc; cases hc
        exact f0
  have hrun : start.run ([.call 0 1 false, .call 1 0 false] ++ fs) =
      (start.run [.call 0 1 false, .call 1 0 false]).run fs := by
    simp only [World.run, List.foldl_append]
  rw [hrun]
  obtain ⟨h, h0, h1⟩ := key fs (start.run [.call 0 1 false, .call 1 0 false]) (Inv.start.run _) rfl rfl rfl rfl
  obtain ⟨_, _, _, _, n0, _⟩ := h.blocked 0 0 (by rw [h0]; exact List.mem_cons_self)
  obtain ⟨_, _, _, _, n1, _⟩ := h.blocked 1 1 (by rw [h1]; exact List.mem_cons_self)
  exact ⟨fun hm => n0 (List.mem_map.mpr ⟨_, hm, rfl⟩), fun hm => n1 (List.mem_map.mpr ⟨_, hm, rfl⟩)⟩

/-- A call that waits for its answer, with the calls that were waiting in the same thread when it was made. -/
def Under (w : World) (th j : Nat) (m : List Frame) : Prop := (∃ l, w.stack th = l ++ .wait j :: m) ∧ w.answers j = none

theorem push_under {st : Nat → List Frame} {th j x : Nat} {m : List Frame} {f : Frame} (h : ∃ l, st th = l ++ .wait j :: m) :
    ∃ l, upd st x (f :: st x) th = l ++ .wait j :: m := by
  obtain ⟨l, hl⟩ := h
  by_cases hx : th = x
  · subst hx; exact ⟨f :: l, by simp [hl]⟩
  · exact ⟨l, by rw [upd_ne hx, hl]⟩

theorem pop_blocked {st : Nat → List Frame} {th j x k : Nat} {m : List Frame} (h : ∃ l, st th = l ++ .wait j :: m)
    (hx : st x = .blocked k :: (st x).tail) : ∃ l, upd st x (st x).tail th = l ++ .wait j :: m := by
  obtain ⟨l, hl⟩ := h
  by_cases he : th = x
  · subst he
    cases l with
    | nil => rw [hl] at hx; simp at hx
    | cons f l => exact ⟨l, by rw [upd_self, hl]; rfl⟩
  · exact ⟨l, by rw [upd_ne he, hl]⟩

theorem Under.step {w : World} (h : Inv w) {th j : Nat} {m : List Frame} (hu : Under w th j m) {e : Ev}
    (he : ∀ d, e ≠ .answer j d) : Under (w.step e) th j m := by
  obtain ⟨hl, ha⟩ := hu
  cases e with
  | call caller home quick =>
    simp only [World.step]
    split
    · unfold World.makeCall
      simp only
      split
      · split
        · exact ⟨hl, ha⟩
        · exact ⟨push_under hl, ha⟩
      · exact ⟨push_under hl, ha⟩
    · exact ⟨hl, ha⟩
  | answer k d =>
    simp only [World.step]
    split
    · split
      · refine ⟨hl, ?_⟩
        have : j ≠ k := by rintro rfl; exact he d rfl
        simp only [upd_ne this]; exact ha
      · exact ⟨hl, ha⟩
    · exact ⟨hl, ha⟩
  | dispatch x =>
    simp only [World.step]
    split
    · split
      · exact ⟨hl, ha⟩
      · rename_i k rest hq
        obtain ⟨c, hc, hh, hcal, -, hbl, -⟩ := h.queue x k (by rw [hq]; exact List.mem_cons_self)
        simp only [hc]
        split
        · exact ⟨pop_blocked hl (h.blocked_top hbl), ha⟩
        · exact ⟨push_under hl, ha⟩
    · exact ⟨hl, ha⟩
  | ret x =>
    simp only [World.step]
    split
    · rename_i k rest hs
      obtain ⟨c, hc, hh, hqk, hnr, -, hbl⟩ := h.wait x k (by rw [hs]; exact List.mem_cons_self)
      simp only [hc]
      split
      · rename_i d hd
        have hpop : ∃ l, upd w.stack x rest th = l ++ .wait j :: m := by
          obtain ⟨l, hl⟩ := hl
          by_cases hx : th = x
          · subst hx
            rw [hs] at hl
            cases l with
            | nil =>
              simp only [List.nil_append, List.cons.injEq, Frame.wait.injEq] at hl
              rw [hl.1, ha] at hd; cases hd
            | cons f l =>
              simp only [List.cons_append, List.cons.injEq] at hl
              exact ⟨l, by rw [upd_self, hl.2]⟩
          · exact ⟨l, by rw [upd_ne hx, hl]⟩
        split
        · exact ⟨hpop, ha⟩
        · rename_i hcal
          refine ⟨?_, ha⟩
          have htop := h.blocked_top (hbl hcal)
          have := pop_blocked (st := upd w.stack x rest) (x := c.caller) (k := k) hpop (by rw [upd_ne hcal]; exact htop)
          exact this
      · exact ⟨hl, ha⟩
    · exact ⟨hl, ha⟩

/-- A call made while others wait in the same thread holds them up: until the server has answered it none of them returns, whatever
else happens and although their own answers may have arrived long ago. -/
theorem C88_held_up {es fs : List Ev} {th j k : Nat} {l m : List Frame} (hs : (start.run es).stack th = l ++ .wait j :: m)
    (hk : .wait k ∈ m) (ha : (start.run es).answers j = none) (hf : ∀ d, Ev.answer j d ∉ fs) (r : Option Bytes) :
    (k, r) ∉ (start.run (es ++ fs)).returned := by
  have key : ∀ (fs : List Ev) (w : World), Inv w → Under w th j m → (∀ d, Ev.answer j d ∉ fs) →
      Inv (w.run fs) ∧ Under (w.run fs) th j m := by
    intro fs
    induction fs with
    | nil => intro w h hu _; exact ⟨h, hu⟩
    | cons e fs ih =>
      intro w h hu hn
      exact ih (w.step e) (h.step e) (hu.step h fun d hd => hn d (by rw [hd]; exact List.mem_cons_self))
        fun d hd => hn d (List.mem_cons_of_mem _ hd)
  have hrun : start.run (es ++ fs) = (start.run es).run fs := by simp only [World.run, List.foldl_append]
  rw [hrun]
  obtain ⟨h, ⟨l', hl'⟩, -⟩ := key fs _ (Inv.start.run es) ⟨⟨l, hs⟩, ha⟩ hf
  obtain ⟨_, _, _, _, hn, _⟩ := h.wait th k (by rw [hl']; simp [hk])
  exact fun hm => hn (List.mem_map.mpr ⟨_, hm, rfl⟩)

/-- In particular a call does not return when its answer arrives: a handler that runs while it waits makes a second call; the answer
to the first one arrives; as long as the second one is not answered, the first one does not return. -/
theorem C88_nested_violated (d : Bytes) (fs : List Ev) (hf : ∀ x, Ev.answer 1 x ∉ fs) (r : Option Bytes) :
    Answered (start.run [.call 0 0 false, .call 0 0 false, .answer 0 d]) 0 ∧
    (0, r) ∉ (start.run ([.call 0 0 false, .call 0 0 false, .answer 0 d] ++ fs)).returned :=
  ⟨⟨d, rfl⟩, C88_held_up (l := []) (m := [.wait 0]) (th := 0) (j := 1) rfl List.mem_cons_self rfl hf r⟩

/-! ### Examples -/

/-- Thread 0 and thread 1 call clients of thread 2, thread 2 calls one of thread 3 while it waits: calls go upwards. -/
def demo : List Ev := [.call 0 2 false, .call 1 2 true, .dispatch 2, .call 2 3 false, .answer 0 [7], .dispatch 3, .answer 2 [9]]

/-- Call 1 waits behind the blocked thread 2, call 0 is answered but held up; everything that was sent is answered, so some thread can go
on (thread 3), and three steps later all calls have returned. -/
example : Upwards demo ∧ Outstanding (start.run demo) 1 ∧ (∀ j, Sent (start.run demo) j → Answered (start.run demo) j) ∧
    (start.run demo).returned = [] ∧
    (start.run (demo ++ [.ret 3, .dispatch 2, .ret 2])).returned = [(2, some [9]), (1, none), (0, some [7])] ∧
    steps start (demo ++ [.ret 3, .dispatch 2, .ret 2]) = 5 := by
  refine ⟨⟨id, ?_⟩, ⟨by decide +kernel, ?_⟩, ?_, by decide +kernel, by decide +kernel, by decide +kernel⟩
  · intro a b q h hn
    simp only [demo, List.mem_cons, Ev.call.injEq, reduceCtorEq, List.not_mem_nil, or_false, false_or] at h
    rcases h with ⟨rfl, rfl, _⟩ | ⟨rfl, rfl, _⟩ | ⟨rfl, rfl, _⟩ <;> decide
  · have : (start.run demo).returned = [] := by decide +kernel
    intro r; rw [this]; simp
  · rintro j ⟨th, hj⟩
    obtain ⟨c, hc, -, hq, -⟩ := (Inv.start.run demo).wait th j hj
    have hcalls : (start.run demo).calls = [⟨0, 2, false⟩, ⟨1, 2, true⟩, ⟨2, 3, false⟩] := by decide +kernel
    rw [hcalls] at hc
    match j, hc with
    | 0, _ => exact ⟨[7], by decide +kernel⟩
    | 1, hc => simp at hc; subst hc; cases hq
    | 2, _ => exact ⟨[9], by decide +kernel⟩

end QtPb.Threads
