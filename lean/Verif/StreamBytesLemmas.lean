import Verif.SpecStreamBytes
import Verif.StreamLemmas2
import Verif.Http2Lemmas
/-
Lemmas about overlapping streams over HTTP/2.
-/
namespace QtPb.StreamBytes
open Http2 Stream Stream.Spec Spec

/-- Nothing is passed on and nothing ends; the attempts that there were keep their kind. -/
structure Mild (c c' : Client) (o : List Obs) : Prop where
  more : c.nAttempts ≤ c'.nAttempts
  kind : ∀ a, a < c.nAttempts → (c'.attempts a).kind = (c.attempts a).kind
  recv : ∀ a d, Obs.recv a d ∉ o
  closed : ∀ a, Obs.closed a ∉ o
  stream : ∀ a, a < c.nAttempts → (c'.attempts a).stream = (c.attempts a).stream
  started : ∀ a s k, Obs.started a s k ∈ o → a < c'.nAttempts ∧ (c'.attempts a).stream = s ∧ (c'.attempts a).kind = k

theorem Mild.refl (c : Client) : Mild c c [] := ⟨Nat.le_refl _, fun _ _ => rfl, by simp, by simp, fun _ _ => rfl, by simp⟩

theorem Mild.trans {c c' c'' : Client} {o o' : List Obs} (h : Mild c c' o) (h' : Mild c' c'' o') : Mild c c'' (o ++ o') := by
  refine ⟨Nat.le_trans h.more h'.more, fun a ha => ?_, fun a d hm => ?_, fun a hm => ?_, fun a ha => ?_, fun a s k hm => ?_⟩
  · rw [h'.kind a (Nat.lt_of_lt_of_le ha h.more), h.kind a ha]
  · rcases List.mem_append.1 hm with hm | hm
    · exact h.recv a d hm
    · exact h'.recv a d hm
  · rcases List.mem_append.1 hm with hm | hm
    · exact h.closed a hm
    · exact h'.closed a hm
  · rw [h'.stream a (Nat.lt_of_lt_of_le ha h.more), h.stream a ha]
  · rcases List.mem_append.1 hm with hm | hm
    · obtain ⟨k1, k2, k3⟩ := h.started a s k hm
      exact ⟨Nat.lt_of_lt_of_le k1 h'.more, (h'.stream a k1).trans k2, (h'.kind a k1).trans k3⟩
    · exact h'.started a s k hm

theorem Mild.start (c : Client) (s : Nat) (k : Kind) : Mild c (c.start s k).1 (c.start s k).2 := by
  refine ⟨by simp [Client.start], fun a ha => ?_, by simp [Client.start], by simp [Client.start], fun a ha => ?_, fun a s k hm => ?_⟩
  · simp [Client.start, update_ne (Nat.ne_of_lt ha)]
  · simp [Client.start, update_ne (Nat.ne_of_lt ha)]
  · simp only [Client.start, List.mem_singleton] at hm
    cases hm
    simp [Client.start, update]

theorem Mild.emitFinished (c : Client) (s : Nat) : Mild c (c.emitFinished s).1 (c.emitFinished s).2 := by
  refine ⟨by simp [Client.emitFinished, Client.onAbort, onFinished_nAttempts], fun a ha => ?_, by simp [Client.emitFinished], by simp [Client.emitFinished], fun a ha => ?_, by simp [Client.emitFinished]⟩ <;>
  · simp only [Client.emitFinished, Client.onAbort, onFinished_attempts]
    split <;> rfl

theorem Mild.emitError (c : Client) (s : Nat) (code : StatusCode) : Mild c (c.emitError s code).1 (c.emitError s code).2 := by
  unfold Client.emitError
  split <;> exact ⟨Nat.le_refl _, fun _ _ => rfl, by simp, by simp, fun _ _ => rfl, by simp⟩

theorem Mild.abortAll : ∀ (fuel : Nat) {c c' : Client} {o : List Obs} {it : Nat}, c.abortAll it fuel = some (c', o) → Mild c c' o
  | 0, c, c', o, it, h => by cases h; exact Mild.refl c
  | fuel + 1, c, c', o, it, h => by
    simp only [Client.abortAll] at h
    cases hs : c.active[it]? with
    | none => rw [hs] at h; cases h
    | some s =>
      rw [hs] at h
      simp only [Option.map_eq_some_iff] at h
      obtain ⟨q, h1, h2⟩ := h
      cases h2
      exact (Mild.emitFinished c s).trans (Mild.abortAll fuel h1)

theorem Mild.attach {c c' : Client} {o : List Obs} {k : Kind} {ct cur : Nat} (h : c.attachChannel k ct cur = some (c', o)) : Mild c c' o := by
  unfold Client.attachChannel at h
  split at h
  · cases h
    exact ⟨Nat.le_refl _, fun _ _ => rfl, by simp, by simp, fun _ _ => rfl, by simp⟩
  · simp only [Option.bind_eq_some_iff, Option.map_eq_some_iff] at h
    obtain ⟨r, h1, q, h2, h3⟩ := h
    cases h3
    have a1 := Mild.abortAll _ h1
    have a2 := Mild.abortAll _ h2
    have a1' : Mild c { r.1 with channel := some k } r.2 := ⟨a1.more, a1.kind, a1.recv, a1.closed, a1.stream, a1.started⟩
    exact a1'.trans a2

theorem Mild.subscribe (c : Client) (m : String) (arg : Bytes) (h : Option Nat) : Mild c (c.subscribe m arg h).1 (c.subscribe m arg h).2 := by
  unfold Client.subscribe
  cases c.channel with
  | none => exact ⟨Nat.le_refl _, fun _ _ => rfl, by simp, by simp, fun _ _ => rfl, by simp⟩
  | some k =>
    dsimp only
    split
    · exact ⟨Nat.le_refl _, fun _ _ => rfl, by simp, by simp, fun _ _ => rfl, by simp⟩
    · refine ⟨by simp [Client.start], fun a ha => ?_, by simp [Client.start], by simp [Client.start], fun a ha => ?_, fun a s k' hm => ?_⟩
      · simp [Client.start, update_ne (Nat.ne_of_lt ha)]
      · simp [Client.start, update_ne (Nat.ne_of_lt ha)]
      · simp only [Client.start, List.mem_cons, List.not_mem_nil, or_false] at hm
        rcases hm with hm | hm <;> cases hm
        simp [Client.start, update]

theorem Mild.fire {c c' : Client} {o : List Obs} {s : Nat} (h : c.fire s = some (c', o)) : Mild c c' o := by
  unfold Client.fire at h
  split at h
  · dsimp only at h
    split at h
    · split at h
      · cases h
      · rename_i k _
        cases h
        have := Mild.start { c with timers := c.timers.erase s } s k
        exact ⟨this.more, this.kind, this.recv, this.closed, this.stream, this.started⟩
    · cases h
      exact ⟨Nat.le_refl _, fun _ _ => rfl, by simp, by simp, fun _ _ => rfl, by simp⟩
  · cases h
    exact Mild.refl c

/-- What one event of the client does to attempts over HTTP/2. -/
structure Facts (c c' : Client) (e : Ev) (o : List Obs) : Prop where
  more : c.nAttempts ≤ c'.nAttempts
  kind : ∀ a, a < c.nAttempts → (c'.attempts a).kind = (c.attempts a).kind
  recv : ∀ a d, Obs.recv a d ∈ o → a < c.nAttempts ∧ ((c.attempts a).kind = .http2 → e = .net a (.data d))
  closed : ∀ a, Obs.closed a ∈ o → (c.attempts a).kind = .http2 → erases c e = some a
  erased : ∀ a, erases c e = some a → Obs.closed a ∈ o
  stream : ∀ a, a < c.nAttempts → (c'.attempts a).stream = (c.attempts a).stream
  started : ∀ a s k, Obs.started a s k ∈ o → a < c'.nAttempts ∧ (c'.attempts a).stream = s ∧ (c'.attempts a).kind = k

theorem Facts.ofMild {c c' : Client} {e : Ev} {o : List Obs} (h : Mild c c' o) (he : erases c e = none) : Facts c c' e o :=
  ⟨h.more, h.kind, fun a d hm => absurd hm (h.recv a d), fun a hm => absurd hm (h.closed a), fun a hm => (by rw [he] at hm; cases hm), h.stream, h.started⟩

theorem close_mild (c : Client) (a : Nat) (cause : Close) : ∃ o, (c.close a cause).2 = .closed a :: o ∧ Mild c (c.close a cause).1 o := by
  refine ⟨_, rfl, ?_⟩
  have h1 : ∀ c1 : Client, c1 = { c with attempts := update c.attempts a { c.attempts a with connected := false } } → Mild c c1 [] := by
    rintro c1 rfl
    refine ⟨Nat.le_refl _, fun b hb => ?_, by simp, by simp, fun b hb => ?_, by simp⟩ <;>
    · dsimp only
      rw [update_apply]
      split
      · rename_i h; rw [h]
      · rfl
  dsimp only [Client.close]
  split
  · exact (h1 _ rfl).trans (Mild.start _ _ _)
  · exact (h1 _ rfl).trans (Mild.emitError _ _ _)
  · split
    · exact (h1 _ rfl).trans (Mild.emitFinished _ _)
    · exact (h1 _ rfl).trans (Mild.emitError _ _ _)
  · split
    · exact h1 _ rfl
    · exact (h1 _ rfl).trans (Mild.emitError _ _ _)
  · exact h1 _ rfl

theorem handler_facts (c : Client) (s : Nat) (d : Bytes) : (c.handler s d).1.nAttempts = c.nAttempts ∧ (c.handler s d).1.attempts = c.attempts ∧
    (∀ a d', Obs.recv a d' ∉ (c.handler s d).2) ∧ ∀ a, Obs.closed a ∉ (c.handler s d).2 := by
  simp [Client.handler]

theorem Facts.step {c c' : Client} {t o : List Obs} {e : Ev} (hr : Rel c t) (h : c.step e = some (c', o)) (hb : isBytes c e = false) : Facts c c' e o := by
  cases e with
  | attach k ct cur => exact .ofMild (Mild.attach h) rfl
  | subscribe m arg x =>
    simp only [Client.step, Option.some.injEq] at h
    have := Mild.subscribe c m arg x
    rw [h] at this
    exact .ofMild this rfl
  | timer s => exact .ofMild (Mild.fire h) rfl
  | abort s =>
    simp only [Client.step] at h
    split at h <;> simp only [Option.some.injEq] at h
    · have := Mild.emitFinished c s
      rw [h] at this
      exact .ofMild this rfl
    · cases h; exact .ofMild (Mild.refl c) rfl
  | drop s =>
    simp only [Client.step] at h
    split at h <;> cases h <;> exact .ofMild ⟨Nat.le_refl _, fun _ _ => rfl, by simp, by simp, fun _ _ => rfl, by simp⟩ rfl
  | reap s =>
    simp only [Client.step] at h
    split at h <;> cases h <;> exact .ofMild ⟨Nat.le_refl _, fun _ _ => rfl, by simp, by simp, fun _ _ => rfl, by simp⟩ rfl
  | net a i =>
    simp only [Client.step] at h
    by_cases ha : a < c.nAttempts
    · rw [if_pos ha] at h
      simp only [Option.some.injEq] at h
      cases i with
      | data d =>
        have hk : (c.attempts a).kind = .native := by
          simp only [isBytes, decide_eq_false_iff_not] at hb
          cases hk : (c.attempts a).kind with
          | http2 => exact absurd hk hb
          | native => rfl
        simp only [Client.net, hk] at h
        split at h <;> cases h
        · refine .ofMild ⟨Nat.le_refl _, fun b hb => ?_, by simp, by simp, fun b hb => ?_, by simp⟩ rfl <;>
          · dsimp only
            rw [update_apply]
            split
            · rename_i h; simp only [h, hk]
            · rfl
        · exact .ofMild (Mild.refl c) rfl
      | close cause =>
        cases hk : (c.attempts a).kind with
        | http2 =>
          simp only [Client.net, hk] at h
          by_cases hl : ((c.attempts a).connected && !(c.streams (c.attempts a).stream).deleted) = true
          · rw [if_pos hl] at h
            obtain ⟨o', e1, m⟩ := close_mild c a cause
            rw [h] at e1 m
            dsimp only at e1 m
            subst e1
            have he : erases c (.net a (.close cause)) = some a := by
              simp only [Bool.and_eq_true] at hl
              simp [erases, listens, ha, hk, hl.1]
              simpa using hl.2
            refine ⟨m.more, m.kind, fun b d hm => ?_, fun b hm _ => ?_, fun b hm => ?_, m.stream, fun b s k hm => ?_⟩
            · rcases List.mem_cons.1 hm with hm | hm
              · cases hm
              · exact absurd hm (m.recv b d)
            · rcases List.mem_cons.1 hm with hm | hm
              · cases hm; exact he
              · exact absurd hm (m.closed b)
            · rw [he] at hm
              cases hm
              exact List.mem_cons_self
            · rcases List.mem_cons.1 hm with hm | hm
              · cases hm
              · exact m.started b s k hm
          · rw [if_neg hl] at h
            cases h
            refine .ofMild (Mild.refl c) ?_
            have : listens c a = false := by
              simp only [Bool.not_eq_true] at hl
              simp only [listens, Bool.and_assoc, hl, Bool.and_false]
            simp [erases, this]
        | native =>
          simp only [Client.net, hk] at h
          cases h
          refine .ofMild ⟨Nat.le_refl _, fun b hb => ?_, by simp, by simp, fun b hb => ?_, by simp⟩ (by simp [erases, listens, hk]) <;>
          · dsimp only
            rw [update_apply]
            split
            · rename_i h; simp only [h, hk]
            · rfl
    · rw [if_neg ha] at h
      cases h
      refine .ofMild (Mild.refl c) ?_
      cases i <;> simp [erases, listens, ha]
  | loop a =>
    simp only [Client.step] at h
    by_cases ha : a < c.nAttempts
    · rw [if_pos ha] at h
      simp only [Option.some.injEq] at h
      cases hk : (c.attempts a).kind with
      | http2 =>
        have := (hr.queueHttp2 a hk).1
        simp only [Client.loop, this] at h
        cases h
        exact .ofMild (Mild.refl c) rfl
      | native =>
        unfold Client.loop at h
        dsimp only at h
        have hq : ∀ (rest : List Item), ∀ b, b < c.nAttempts → (update c.attempts a { c.attempts a with queue := rest } b).kind = (c.attempts b).kind := by
          intro rest b _
          rw [update_apply]
          split
          · rename_i h; rw [h]
          · rfl
        have hq' : ∀ (rest : List Item), ∀ b, b < c.nAttempts → (update c.attempts a { c.attempts a with queue := rest } b).stream = (c.attempts b).stream := by
          intro rest b _
          rw [update_apply]
          split
          · rename_i h; rw [h]
          · rfl
        split at h
        · cases h; exact .ofMild (Mild.refl c) rfl
        · rename_i i rest hi
          have hm1 : Mild c { c with attempts := update c.attempts a { c.attempts a with queue := rest } } [] :=
            ⟨Nat.le_refl _, hq rest, by simp, by simp, hq' rest, by simp⟩
          cases i with
          | data d =>
            dsimp only at h
            split at h
            · cases h
              obtain ⟨f1, f2, f3, f4⟩ := handler_facts { c with attempts := update c.attempts a { c.attempts a with queue := rest } } (c.attempts a).stream d
              refine ⟨Nat.le_of_eq f1.symm, fun b hb => ?_, fun b d' hm => ?_, fun b hm => ?_, fun b hm => by simp [erases] at hm, fun b hb => ?_, by simp [Client.handler]⟩
              · rw [f2]; exact hq rest b hb
              · rcases List.mem_cons.1 hm with hm | hm
                · cases hm; exact ⟨ha, fun hk' => by rw [hk] at hk'; cases hk'⟩
                · exact absurd hm (f3 b d')
              · rcases List.mem_cons.1 hm with hm | hm
                · cases hm
                · exact absurd hm (f4 b)
              · rw [f2]; exact hq' rest b hb
            · cases h; exact .ofMild hm1 rfl
          | close cause =>
            dsimp only at h
            split at h
            · obtain ⟨o', e1, m⟩ := close_mild { c with attempts := update c.attempts a { c.attempts a with queue := rest } } a cause
              rw [h] at e1 m
              dsimp only at e1 m
              subst e1
              have m' := hm1.trans m
              rw [List.nil_append] at m'
              refine ⟨m'.more, m'.kind, fun b d hm => ?_, fun b hm hk' => ?_, fun b hm => by simp [erases] at hm, m'.stream, fun b s k hm => ?_⟩
              · rcases List.mem_cons.1 hm with hm | hm
                · cases hm
                · exact absurd hm (m'.recv b d)
              · rcases List.mem_cons.1 hm with hm | hm
                · cases hm; rw [hk] at hk'; cases hk'
                · exact absurd hm (m'.closed b)
              · rcases List.mem_cons.1 hm with hm | hm
                · cases hm
                · exact m'.started b s k hm
            · cases h; exact .ofMild hm1 rfl
    · rw [if_neg ha] at h
      cases h
      exact .ofMild (Mild.refl c) rfl

/-! ### Observations -/

theorem obsOf_append (t u : List Seen) : obsOf (t ++ u) = obsOf t ++ obsOf u := by simp [obsOf]

theorem obsOf_map (o : List Obs) : obsOf (o.map .obs) = o := by
  induction o with
  | nil => rfl
  | cons x o ih => simp only [List.map_cons, obsOf, List.filterMap_cons] at ih ⊢; rw [ih]

theorem obsOf_read (a : Nat) (d : Bytes) (t : List Seen) : obsOf (.read a d :: t) = obsOf t := rfl

theorem readFrom_append (a : Nat) (t u : List Seen) : readFrom a (t ++ u) = readFrom a t ++ readFrom a u := by simp [readFrom]

theorem readFrom_map (a : Nat) (o : List Obs) : readFrom a (o.map .obs) = [] := by
  induction o with
  | nil => rfl
  | cons x o ih => simp only [List.map_cons, readFrom, List.filterMap_cons] at ih ⊢; exact ih

theorem readFrom_read (a b : Nat) (d : Bytes) (t : List Seen) : readFrom a (.read b d :: t) = if b = a then d :: readFrom a t else readFrom a t := by
  simp only [readFrom, List.filterMap_cons]
  split <;> (rename_i h; split at h <;> simp_all)

theorem over_mono (o : List Obs) : ∀ (v : View) (a : Nat), v.over a = true → (o.foldl View.see v).over a = true := by
  induction o with
  | nil => exact fun _ _ h => h
  | cons x o ih =>
    intro v a h
    refine ih _ a ?_
    cases x with
    | subscribed m arg y s => cases y <;> exact h
    | closed b => simp [View.see, h]
    | cancelled b => simp [View.see, h]
    | _ => exact h

theorem over_of_closed {o : List Obs} {a : Nat} (h : Obs.closed a ∈ o) : (view o).over a = true := by
  obtain ⟨pre, post, rfl⟩ := List.append_of_mem h
  rw [view_append, List.foldl_cons]
  exact over_mono post _ a (by simp [View.see])

theorem over_append {o : List Obs} (o' : List Obs) {a : Nat} (h : (view o).over a = true) : (view (o ++ o')).over a = true := by
  rw [view_append]
  exact over_mono o' _ a h

theorem owner_started (o : List Obs) : ∀ (v : View) (a s : Nat) (k : Kind), (o.foldl View.see v).owner a = some (s, k) → v.owner a = some (s, k) ∨ Obs.started a s k ∈ o := by
  induction o with
  | nil => exact fun _ _ _ _ h => .inl h
  | cons x o ih =>
    intro v a s k h
    rcases ih _ a s k h with h | h
    · cases x with
      | started b s' k' =>
        simp only [View.see] at h
        split at h
        · rename_i hb
          cases h
          subst hb
          exact .inr List.mem_cons_self
        · exact .inl h
      | subscribed m arg y s => cases y <;> exact .inl h
      | _ => exact .inl h
    · exact .inr (List.mem_cons_of_mem _ h)

theorem owner_mono (o : List Obs) : ∀ (v : View) (a : Nat), v.owner a ≠ none → (o.foldl View.see v).owner a ≠ none := by
  induction o with
  | nil => exact fun _ _ h => h
  | cons x o ih =>
    intro v a h
    refine ih _ a ?_
    cases x with
    | subscribed m arg y s => cases y <;> exact h
    | started b s k =>
      simp only [View.see]
      split
      · simp
      · exact h
    | _ => exact h

theorem owner_of_started {o : List Obs} {a s : Nat} {k : Kind} (h : Obs.started a s k ∈ o) : (view o).owner a ≠ none := by
  obtain ⟨pre, post, rfl⟩ := List.append_of_mem h
  rw [view_append, List.foldl_cons]
  exact owner_mono post _ a (by simp [View.see])

theorem mem_obsOf {o : Obs} {t : List Seen} : o ∈ obsOf t ↔ .obs o ∈ t := by
  simp only [obsOf, List.mem_filterMap]
  constructor
  · rintro ⟨x, hx, h⟩
    cases x with
    | read => cases h
    | obs o' => cases h; exact hx
  · intro h
    exact ⟨_, h, rfl⟩

theorem apart_init {entry : Nat → Nat} {t u : List Seen} (h : Apart entry (t ++ u)) : Apart entry t := by
  intro pre post b s k e
  exact h pre (post ++ u) b s k (by rw [e]; simp)

theorem unsoiled_init {entry : Nat → Nat} {t u : List Seen} {a : Nat} (h : Unsoiled entry (t ++ u) a) : Unsoiled entry t a := by
  intro pre post s k e
  exact h pre (post ++ u) s k (by rw [e]; simp)

/-! ### The messages of a chunk -/

theorem pass_facts : ∀ (ms : List Bytes) (c : Client) {t : List Obs} {a : Nat}, Rel c t → listens c a = true →
    Rel (pass c a ms).1 (t ++ (pass c a ms).2) ∧ (pass c a ms).1.nAttempts = c.nAttempts ∧ (pass c a ms).1.attempts = c.attempts ∧
    listens (pass c a ms).1 a = true ∧ (∀ b, passedOn b (pass c a ms).2 = if b = a then ms else []) ∧ (∀ b, Obs.closed b ∉ (pass c a ms).2) ∧ (∀ b d, Obs.recv b d ∈ (pass c a ms).2 → b = a) ∧
    (∀ b s k, Obs.started b s k ∉ (pass c a ms).2) ∧
    ∃ es, c.run es = some (pass c a ms)
  | [], c, t, a, hr, hl => ⟨by simpa [pass] using hr, rfl, rfl, hl, by simp [pass, passedOn], by simp [pass], by simp [pass], by simp [pass], [], rfl⟩
  | m :: ms, c, t, a, hr, hl => by
    have hl' := hl
    simp only [listens, Bool.and_eq_true, decide_eq_true_eq, Bool.not_eq_true'] at hl'
    obtain ⟨⟨⟨h1, h2⟩, h3⟩, h4⟩ := hl'
    have e1 : c.net a (.data m) = ((c.handler (c.attempts a).stream m).1, .emitted a m :: .recv a m :: (c.handler (c.attempts a).stream m).2) := by
      simp [Client.net, h2, h3, h4]
    have hr1 := hr.net h1 (.data m)
    have hl1 : listens (c.net a (.data m)).1 a = true := by
      rw [e1]
      simp [listens, Client.handler, h1, h2, h3, h4]
    obtain ⟨k1, k2, k3, k4, k5, k6, k8, k9, es, k7⟩ := pass_facts ms _ hr1 hl1
    simp only [pass]
    refine ⟨by rw [← List.append_assoc]; exact k1, ?_, ?_, k4, fun b => ?_, fun b hm => ?_, fun b d hm => ?_, fun b s k hm => ?_, .net a (.data m) :: es, ?_⟩
    · rw [k2, e1]; rfl
    · rw [k3, e1]; rfl
    · rw [passedOn_append, k5, e1]
      have : passedOn b (Obs.emitted a m :: Obs.recv a m :: (c.handler (c.attempts a).stream m).2) = if b = a then [m] else [] := by
        have hn : passedOn b (c.handler (c.attempts a).stream m).2 = [] := by
          simp [Client.handler, passedOn, List.filterMap_map]
        have he : (Obs.emitted a m :: Obs.recv a m :: (c.handler (c.attempts a).stream m).2) = [Obs.emitted a m, Obs.recv a m] ++ (c.handler (c.attempts a).stream m).2 := rfl
        rw [he, passedOn_append, hn]
        by_cases hb : b = a
        · subst hb; simp [passedOn]
        · simp [passedOn, hb, Ne.symm hb]
      rw [this]
      split <;> simp
    · rcases List.mem_append.1 hm with hm | hm
      · rw [e1] at hm
        simp [Client.handler] at hm
      · exact k6 b hm
    · rcases List.mem_append.1 hm with hm | hm
      · rw [e1] at hm
        simp [Client.handler] at hm
        exact hm.1
      · exact k8 b d hm
    · rcases List.mem_append.1 hm with hm | hm
      · rw [e1] at hm
        simp [Client.handler] at hm
      · exact k9 b s k hm
    · simp only [Client.run, Client.step, if_pos h1, Option.bind_some, k7, Option.map_some]

theorem client_run_append : ∀ (es : List Ev) {es' : List Ev} {c c1 c2 : Client} {o o' : List Obs}, c.run es = some (c1, o) → c1.run es' = some (c2, o') →
    c.run (es ++ es') = some (c2, o ++ o')
  | [], es', c, c1, c2, o, o', h, h' => by cases h; exact h'
  | e :: es, es', c, c1, c2, o, o', h, h' => by
    simp only [Client.run, Option.bind_eq_some_iff, Option.map_eq_some_iff] at h
    obtain ⟨r, h1, q, h2, h3⟩ := h
    cases h3
    have := client_run_append es h2 h'
    simp only [List.cons_append, Client.run, h1, Option.bind_some, this, Option.map_some, List.append_assoc]

theorem receive_snoc (n : Nat) : ∀ (cs : List Bytes) {r r1 : Option ExpectedData} {out : List Bytes} (d : Bytes), receive n r cs = .ok (out, r1) →
    receive n r (cs ++ [d]) = (readyRead n false r1 d).bind fun q => .ok (out ++ q.1, q.2)
  | [], r, r1, out, d, h => by
    cases h
    simp only [List.nil_append, receive, Res.bind_eq]
    cases readyRead n false r d <;> simp [Res.bind]
  | c :: cs, r, r1, out, d, h => by
    simp only [receive, Res.bind_eq, Res.bind_eq_ok] at h
    obtain ⟨q, h1, q2, h2, h3⟩ := h
    cases h3
    have := receive_snoc n cs d h2
    simp only [List.cons_append, receive, Res.bind_eq, h1, Res.bind, this]
    cases readyRead n false q2.2 d <;> simp

end QtPb.StreamBytes
