import Verif.StreamLemmas
/-
Further lemmas on streams: what later events can do to a stream that has finished.
-/
namespace QtPb.Stream
open Spec

theorem Rel.open_iff {c : Client} {t : List Obs} (h : Rel c t) (s : Nat) : Open t s ↔ s ∈ c.active := by
  rw [h.activeIff]
  constructor
  · rintro ⟨⟨m, a, x, hm⟩, hf⟩
    have hlt : s < c.nStreams := by
      by_cases hx : s < c.nStreams
      · exact hx
      · exact absurd hm ((h.fresh s (by omega)).2.2.2.2.2 m a x)
    exact (h.finished s hlt).mpr hf
  · intro hc
    have hlt : s < c.nStreams := by
      by_cases hx : s < c.nStreams
      · exact hx
      · rw [(h.fresh s (by omega)).1] at hc; cases hc
    obtain ⟨x, hx⟩ := h.subscribed s hlt
    exact ⟨⟨_, _, x, hx⟩, (h.finished s hlt).mp hc⟩

theorem Rel.running_iff {c : Client} {t : List Obs} (h : Rel c t) (a s : Nat) :
    Running t a s ↔ (c.attempts a).connected = true ∧ (c.attempts a).stream = s ∧ a < c.nAttempts := by
  by_cases ha : a < c.nAttempts
  · obtain ⟨h1, h2, h3⟩ := h.owner a ha
    constructor
    · rintro ⟨k, hk, ho⟩
      rw [h1] at hk
      simp only [Option.some.injEq, Prod.mk.injEq] at hk
      rw [h3] at ho
      exact ⟨by simpa using ho, hk.1, ha⟩
    · rintro ⟨hc, hs, _⟩
      exact ⟨_, by rw [h1, hs], by rw [h3, hc]; rfl⟩
  · obtain ⟨_, _, h1, _⟩ := h.freshAttempt a (by omega)
    constructor
    · rintro ⟨k, hk, _⟩; rw [h1] at hk; cases hk
    · rintro ⟨_, _, hx⟩; exact absurd hx ha

theorem Rel.active_lt {c : Client} {t : List Obs} (h : Rel c t) {s : Nat} (hs : s ∈ c.active) : s < c.nStreams := by
  by_cases hx : s < c.nStreams
  · exact hx
  · have := (h.fresh s (by omega)).1
    rw [(h.activeIff s).mp hs] at this; cases this

theorem Rel.active_not_deleted {c : Client} {t : List Obs} (h : Rel c t) {s : Nat} (hs : s ∈ c.active) :
    (c.streams s).deleted = false := by
  cases hd : (c.streams s).deleted with
  | false => rfl
  | true =>
    have := h.deleted s (h.active_lt hs) hd
    simp [Client.alive, (h.activeIff s).mp hs] at this

/-! #### Projections that single operations leave alone -/

theorem emitFinished_active {c : Client} {t : List Obs} (h : Rel c t) {s : Nat} (hs : s ∈ c.active) :
    (c.emitFinished s).1.active = c.active.erase s := by
  simp only [Client.emitFinished, Client.onAbort, Client.onFinished, if_pos ((h.activeIff s).mp hs)]
  exact eraseP_same h hs

theorem emitFinished_channel (c : Client) (s : Nat) : (c.emitFinished s).1.channel = c.channel := by
  simp only [Client.emitFinished, Client.onAbort, Client.onFinished]
  split <;> rfl

theorem emitFinished_timers (c : Client) (s : Nat) : (c.emitFinished s).1.timers = c.timers := by
  simp only [Client.emitFinished, Client.onAbort, Client.onFinished]
  split <;> rfl

theorem emitFinished_nStreams (c : Client) (s : Nat) : (c.emitFinished s).1.nStreams = c.nStreams := by
  simp only [Client.emitFinished, Client.onAbort, Client.onFinished]
  split <;> rfl

theorem emitFinished_attempts (c : Client) (s a : Nat) :
    (c.emitFinished s).1.attempts a =
      if (c.attempts a).stream = s then { c.attempts a with connected := false } else c.attempts a := by
  simp only [Client.emitFinished, Client.onAbort, onFinished_attempts]

theorem emitFinished_streams (c : Client) (s x : Nat) :
    (c.emitFinished s).1.streams x =
      if x = s then { c.streams s with connected := false } else c.streams x := by
  simp only [Client.emitFinished, Client.onAbort, Client.onFinished]
  split
  · rfl
  · rename_i hc
    split
    · rename_i hx
      subst hx
      cases ho : c.streams x
      rw [ho] at hc
      simp only [Bool.not_eq_true] at hc
      subst hc
      rfl
    · rfl

/-- The client has nothing to do with stream `s` any more: it has no connection of its own, no attempt of
the stream is connected, and a timer, if there is one, will have no effect. With `q` also no message of the
stream is waiting in the event loop. -/
structure Idle (q : Prop) (c : Client) (s : Nat) : Prop where
  lt : s < c.nStreams
  disconnected : (c.streams s).connected = false
  noAttempt : ∀ a, a < c.nAttempts → (c.attempts a).stream = s → (c.attempts a).connected = false
  noTimer : s ∉ c.timers ∨ (c.streams s).held = 0
  noMessage : q → ∀ a, a < c.nAttempts → (c.attempts a).stream = s → Item.datas (c.attempts a).queue = []

/-- Observations that an idle stream cannot cause. -/
def Concerns (q : Prop) (s : Nat) : Obs → Prop
  | .started _ x _ | .failed x _ => x = s
  | .subscribed _ _ _ x => x = s
  | .handled x _ _ => q ∧ x = s
  | _ => False

theorem Idle.start {q : Prop} {c : Client} {s x : Nat} (h : Idle q c s) (k : Kind) (hx : x ≠ s) :
    Idle q (c.start x k).1 s ∧ ∀ o ∈ (c.start x k).2, ¬ Concerns q s o := by
  refine ⟨⟨h.lt, h.disconnected, ?_, h.noTimer, ?_⟩, ?_⟩
  · intro a ha
    simp only [Client.start] at ha ⊢
    by_cases he : a = c.nAttempts
    · subst he; rw [update_self]; intro hs; exact absurd hs hx
    · rw [update_ne he]; exact h.noAttempt a (by omega)
  · intro hq a ha
    simp only [Client.start] at ha ⊢
    by_cases he : a = c.nAttempts
    · subst he; rw [update_self]; intro hs; exact absurd hs hx
    · rw [update_ne he]; exact h.noMessage hq a (by omega)
  · simp [Client.start, Concerns, hx]

theorem Idle.emitFinished {q : Prop} {c : Client} {s : Nat} (h : Idle q c s) (x : Nat) :
    Idle q (c.emitFinished x).1 s ∧ ∀ o ∈ (c.emitFinished x).2, ¬ Concerns q s o := by
  have hn : (c.emitFinished x).1.nAttempts = c.nAttempts := by
    simp only [Client.emitFinished, Client.onAbort, onFinished_nAttempts]
  refine ⟨⟨?_, ?_, ?_, ?_, ?_⟩, ?_⟩
  · rw [emitFinished_nStreams]; exact h.lt
  · rw [emitFinished_streams]
    split
    · rfl
    · exact h.disconnected
  · intro a ha hs
    rw [hn] at ha
    rw [emitFinished_attempts] at hs ⊢
    split
    · rfl
    · rename_i hne
      rw [if_neg hne] at hs
      exact h.noAttempt a ha hs
  · rw [emitFinished_timers, emitFinished_streams]
    rcases h.noTimer with ht | hh
    · exact .inl ht
    · right
      split
      · rename_i e; subst e; exact hh
      · exact hh
  · intro hq a ha hs
    rw [hn] at ha
    rw [emitFinished_attempts] at hs ⊢
    split
    · rename_i e
      rw [if_pos e] at hs
      exact h.noMessage hq a ha hs
    · rename_i hne
      rw [if_neg hne] at hs
      exact h.noMessage hq a ha hs
  · intro o ho
    simp only [Client.emitFinished, List.mem_cons, List.mem_map] at ho
    rcases ho with rfl | ⟨a, _, rfl⟩ <;> simp [Concerns]

theorem Idle.emitError {q : Prop} {c : Client} {s x : Nat} (h : Idle q c s) (hx : x ≠ s) (code : Http2.StatusCode) :
    Idle q (c.emitError x code).1 s ∧ ∀ o ∈ (c.emitError x code).2, ¬ Concerns q s o := by
  unfold Client.emitError
  split
  · refine ⟨⟨h.lt, h.disconnected, h.noAttempt, ?_, h.noMessage⟩, ?_⟩
    · rcases h.noTimer with ht | hh
      · left
        simp only [List.mem_append, List.mem_singleton, not_or]
        exact ⟨ht, fun e => hx e.symm⟩
      · exact .inr hh
    · simp [Concerns, hx]
  · exact ⟨h, by simp [Concerns, hx]⟩

/-- Changing an attempt without making it connected or posting messages. -/
theorem Idle.setAttempt {q : Prop} {c : Client} {s : Nat} (h : Idle q c s) (a : Nat) (n : Attempt)
    (hs : n.stream = (c.attempts a).stream) (hc : n.connected = true → (c.attempts a).connected = true)
    (hd : n.stream = s → a < c.nAttempts → q → Item.datas n.queue = []) :
    Idle q { c with attempts := update c.attempts a n } s := by
  refine ⟨h.lt, h.disconnected, ?_, h.noTimer, ?_⟩
  · intro b hb
    simp only at hb ⊢
    by_cases he : b = a
    · subst he; rw [update_self]; intro hx
      rw [hs] at hx
      have := h.noAttempt b hb hx
      cases hn : n.connected with
      | false => rfl
      | true => rw [hc hn] at this; cases this
    · rw [update_ne he]; exact h.noAttempt b hb
  · intro hq b hb
    simp only at hb ⊢
    by_cases he : b = a
    · subst he; rw [update_self]; intro hx; exact hd hx hb hq
    · rw [update_ne he]; exact h.noMessage hq b hb

theorem Idle.close {q : Prop} {c : Client} {s : Nat} (h : Idle q c s) {a : Nat} (ha : a < c.nAttempts) (cause : Close)
    (hc : (c.attempts a).connected = true) :
    Idle q (c.close a cause).1 s ∧ ∀ o ∈ (c.close a cause).2, ¬ Concerns q s o := by
  have hx : (c.attempts a).stream ≠ s := by
    intro e; rw [h.noAttempt a ha e] at hc; cases hc
  have h1 : Idle q { c with attempts := update c.attempts a { c.attempts a with connected := false } } s := by
    refine h.setAttempt a _ rfl (by intro hx; cases hx) ?_
    intro hs; exact absurd hs hx
  have key : ∀ r : Client × List Obs, (Idle q r.1 s ∧ ∀ o ∈ r.2, ¬ Concerns q s o) →
      Idle q r.1 s ∧ ∀ o ∈ Obs.closed a :: r.2, ¬ Concerns q s o := by
    intro r hr
    refine ⟨hr.1, ?_⟩
    intro o ho
    simp only [List.mem_cons] at ho
    rcases ho with rfl | ho
    · simp [Concerns]
    · exact hr.2 o ho
  simp only [Client.close]
  apply key
  split
  · exact h1.start _ hx
  · exact h1.emitError hx _
  · split
    · exact h1.emitFinished _
    · exact h1.emitError hx _
  · split
    · exact ⟨h1, by simp⟩
    · exact h1.emitError hx _
  · exact ⟨h1, by simp⟩

theorem Idle.setStream {q : Prop} {c : Client} {s : Nat} (h : Idle q c s) (x : Nat) (n : Obj)
    (hn : x = s → n.connected = false ∧ ((c.streams s).held = 0 → n.held = 0)) :
    Idle q { c with streams := update c.streams x n } s := by
  by_cases hx : s = x
  · have hn := hn hx.symm
    refine ⟨h.lt, ?_, h.noAttempt, ?_, h.noMessage⟩
    · simp only [← hx, update_self]; exact hn.1
    · simp only [← hx, update_self]
      rcases h.noTimer with ht | hh
      · exact .inl ht
      · exact .inr (hn.2 hh)
  · refine ⟨h.lt, ?_, h.noAttempt, ?_, h.noMessage⟩
    · simp only [update_ne hx]; exact h.disconnected
    · simp only [update_ne hx]; exact h.noTimer

theorem Idle.handler {q : Prop} {c : Client} {s : Nat} (h : Idle q c s) (x : Nat) (d : Bytes) (hx : q → x ≠ s) :
    Idle q (c.handler x d).1 s ∧ ∀ o ∈ (c.handler x d).2, ¬ Concerns q s o := by
  refine ⟨h.setStream x _ ?_, ?_⟩
  · intro e; subst e; exact ⟨h.disconnected, fun hh => hh⟩
  · intro o ho
    simp only [Client.handler, List.mem_append, List.mem_map, List.mem_singleton] at ho
    rcases ho with ⟨y, _, rfl⟩ | rfl
    · simp only [Concerns]; exact fun hh => hx hh.1 hh.2
    · simp [Concerns]

theorem notConcerns_cons {q : Prop} {s : Nat} {o : Obs} {l : List Obs} (ho : ¬ Concerns q s o) (hl : ∀ x ∈ l, ¬ Concerns q s x) :
    ∀ x ∈ o :: l, ¬ Concerns q s x := by
  intro x hx
  simp only [List.mem_cons] at hx
  rcases hx with rfl | hx
  · exact ho
  · exact hl x hx

theorem notConcerns_append {q : Prop} {s : Nat} {l l' : List Obs} (ho : ∀ x ∈ l, ¬ Concerns q s x) (hl : ∀ x ∈ l', ¬ Concerns q s x) :
    ∀ x ∈ l ++ l', ¬ Concerns q s x := by
  intro x hx
  rcases List.mem_append.mp hx with hx | hx
  · exact ho x hx
  · exact hl x hx

theorem Idle.abortAll {q : Prop} {c c' : Client} {s : Nat} {o : List Obs} (h : Idle q c s) (it n : Nat)
    (hf : c.abortAll it n = some (c', o)) : Idle q c' s ∧ ∀ x ∈ o, ¬ Concerns q s x := by
  induction n generalizing c o it with
  | zero => simp only [Client.abortAll] at hf; cases hf; exact ⟨h, by simp⟩
  | succ n ih =>
    simp only [Client.abortAll] at hf
    split at hf
    · cases hf
    · rename_i y hy
      simp only [Option.map_eq_some_iff] at hf
      obtain ⟨⟨c2, o2⟩, h2, he⟩ := hf
      cases he
      have h1 := h.emitFinished y
      have h3 := ih h1.1 _ h2
      exact ⟨h3.1, notConcerns_append h1.2 h3.2⟩

theorem Idle.step {q : Prop} {c c' : Client} {t o : List Obs} {s : Nat} (hr : Rel c t) (h : Idle q c s) {e : Ev}
    (hf : c.step e = some (c', o)) : Idle q c' s ∧ ∀ x ∈ o, ¬ Concerns q s x := by
  have hact : s ∉ c.active := by
    intro hx; have := (hr.activeIff s).mp hx; rw [h.disconnected] at this; cases this
  cases e with
  | attach k ct cur =>
    simp only [Client.step, Client.attachChannel] at hf
    split at hf
    · cases hf; exact ⟨h, by simp [Concerns]⟩
    · simp only [Option.bind_eq_some_iff, Option.map_eq_some_iff] at hf
      obtain ⟨⟨c1, o1⟩, h1, ⟨c2, o2⟩, h2, he⟩ := hf
      cases he
      have g1 := h.abortAll 0 _ h1
      have g2 : Idle q { c1 with channel := some k } s :=
        ⟨g1.1.lt, g1.1.disconnected, g1.1.noAttempt, g1.1.noTimer, g1.1.noMessage⟩
      have g3 := g2.abortAll 0 _ h2
      exact ⟨g3.1, notConcerns_append g1.2 g3.2⟩
  | subscribe m a x =>
    simp only [Client.step, Option.some.injEq] at hf
    have key : Idle q (c.subscribe m a x).1 s ∧ ∀ y ∈ (c.subscribe m a x).2, ¬ Concerns q s y := by
      unfold Client.subscribe
      split
      · exact ⟨h, by simp [Concerns]⟩
      · rename_i k hk
        split
        · rename_i y hy
          have hy := List.mem_of_find?_eq_some hy
          have hne : y ≠ s := fun e => hact (e ▸ hy)
          exact ⟨h.setStream y _ (fun e => absurd e hne), by simp [Concerns, hne]⟩
        · have hne : c.nStreams ≠ s := by have := h.lt; omega
          have h1 : Idle q
              { c with
                streams := update c.streams c.nStreams ⟨m, a, addHandler [] x, [], true, 1, false⟩
                nStreams := c.nStreams + 1 } s := by
            have := h.setStream c.nStreams ⟨m, a, addHandler [] x, [], true, 1, false⟩ (fun e => absurd e hne)
            exact ⟨Nat.lt_succ_of_lt h.lt, this.disconnected, this.noAttempt, this.noTimer, this.noMessage⟩
          have h2 := h1.start k hne
          refine ⟨⟨h2.1.lt, h2.1.disconnected, h2.1.noAttempt, h2.1.noTimer, h2.1.noMessage⟩, ?_⟩
          exact notConcerns_cons (by simp [Concerns, hne]) h2.2
    rw [hf] at key
    exact key
  | net a i =>
    simp only [Client.step] at hf
    split at hf
    · rename_i ha
      have key : Idle q (c.net a i).1 s ∧ ∀ y ∈ (c.net a i).2, ¬ Concerns q s y := by
        have hcon : (c.attempts a).connected = true → (c.attempts a).stream ≠ s := by
          intro hc e; rw [h.noAttempt a ha e] at hc; cases hc
        unfold Client.net
        simp only
        split
        · split
          · rename_i d hk hc
            simp only [Bool.and_eq_true] at hc
            have h1 := h.handler (c.attempts a).stream d (fun _ => hcon hc.1)
            exact ⟨h1.1, notConcerns_cons (by simp [Concerns]) (notConcerns_cons (by simp [Concerns]) h1.2)⟩
          · exact ⟨h, by simp⟩
        · split
          · rename_i hk hc
            simp only [Bool.and_eq_true] at hc
            exact h.close ha _ hc.1
          · exact ⟨h, by simp⟩
        · split
          · rename_i d hk hc
            simp only [Bool.and_eq_true] at hc
            refine ⟨h.setAttempt a _ rfl (fun hx => hx) ?_, by simp [Concerns]⟩
            intro hs; exact absurd hs (hcon hc.1)
          · exact ⟨h, by simp⟩
        · refine ⟨h.setAttempt a _ rfl (fun hx => hx) ?_, by simp⟩
          intro hs _ hq
          have := h.noMessage hq a ha hs
          simp only [Item.datas, List.filterMap_append, List.filterMap_cons, List.filterMap_nil, List.append_nil] at this ⊢
          exact this
      rw [Option.some.inj hf] at key
      exact key
    · cases hf; exact ⟨h, by simp⟩
  | loop a =>
    simp only [Client.step] at hf
    split at hf
    · rename_i ha
      have key : Idle q (c.loop a).1 s ∧ ∀ y ∈ (c.loop a).2, ¬ Concerns q s y := by
        have hcon : (c.attempts a).connected = true → (c.attempts a).stream ≠ s := by
          intro hc e; rw [h.noAttempt a ha e] at hc; cases hc
        unfold Client.loop
        simp only
        split
        · exact ⟨h, by simp⟩
        · rename_i i rest hq
          have h1 : Idle q { c with attempts := update c.attempts a { c.attempts a with queue := rest } } s := by
            refine h.setAttempt a _ rfl (fun hx => hx) ?_
            intro hs _ hqq
            have := h.noMessage hqq a ha hs
            rw [hq] at this
            cases i <;> simp_all [Item.datas]
          split
          · rename_i d
            split
            · have hne : q → (c.attempts a).stream ≠ s := by
                intro hqq e
                have := h.noMessage hqq a ha e
                rw [hq] at this
                simp [Item.datas] at this
              have h2 := h1.handler (c.attempts a).stream d hne
              exact ⟨h2.1, notConcerns_cons (by simp [Concerns]) h2.2⟩
            · exact ⟨h1, by simp⟩
          · split
            · rename_i hc
              simp only [Bool.and_eq_true] at hc
              exact h1.close ha _ (by simpa using hc.1)
            · exact ⟨h1, by simp⟩
      rw [Option.some.inj hf] at key
      exact key
    · cases hf; exact ⟨h, by simp⟩
  | timer x =>
    simp only [Client.step, Client.fire] at hf
    split at hf
    · rename_i hm
      have h1 : Idle q { c with timers := c.timers.erase x } s := by
        refine ⟨h.lt, h.disconnected, h.noAttempt, ?_, h.noMessage⟩
        rcases h.noTimer with ht | hh
        · exact .inl (fun hx => ht (List.mem_of_mem_erase hx))
        · exact .inr hh
      split at hf
      · rename_i hal
        have hne : x ≠ s := by
          intro e
          subst e
          rcases h.noTimer with ht | hh
          · exact ht hm
          · simp [Client.alive, h.disconnected, hh] at hal
        split at hf
        · cases hf
        · rename_i k hk
          have := h1.start k hne
          rw [Option.some.inj hf] at this
          exact this
      · cases hf; exact ⟨h1, by simp⟩
    · cases hf; exact ⟨h, by simp⟩
  | abort x =>
    simp only [Client.step] at hf
    split at hf
    · have := h.emitFinished x
      rw [Option.some.inj hf] at this
      exact this
    · cases hf; exact ⟨h, by simp⟩
  | drop x =>
    simp only [Client.step] at hf
    split at hf
    · cases hf
      refine ⟨h.setStream x _ ?_, by simp⟩
      intro e; subst e; exact ⟨h.disconnected, by intro hh; simp [hh]⟩
    · cases hf; exact ⟨h, by simp⟩
  | reap x =>
    simp only [Client.step] at hf
    split at hf
    · cases hf
      refine ⟨h.setStream x _ ?_, by simp [Concerns]⟩
      intro e; subst e; exact ⟨h.disconnected, fun hh => hh⟩
    · cases hf; exact ⟨h, by simp⟩

theorem Idle.run {q : Prop} {c c' : Client} {t o : List Obs} {s : Nat} (hr : Rel c t) (h : Idle q c s) {es : List Ev}
    (hf : c.run es = some (c', o)) : ∀ x ∈ o, ¬ Concerns q s x := by
  induction es generalizing c t o with
  | nil => simp only [Client.run] at hf; cases hf; simp
  | cons e es ih =>
    simp only [Client.run, Option.bind_eq_some_iff, Option.map_eq_some_iff] at hf
    obtain ⟨⟨c1, o1⟩, h1, ⟨c2, o2⟩, h2, he⟩ := hf
    cases he
    have g := h.step hr h1
    exact notConcerns_append g.2 (ih (hr.step h1) g.1 h2)

/-! #### Retries -/

theorem close_failed {c : Client} {a s : Nat} {cause : Close} {code : Http2.StatusCode}
    (hf : Obs.failed s code ∈ (c.close a cause).2) :
    (s = (c.attempts a).stream ∧ (c.close a cause).1.nStreams = c.nStreams) ∧
    (s ∈ (c.close a cause).1.timers ∨ ((c.close a cause).1.streams s).connected = false) := by
  simp only [Client.close] at hf ⊢
  simp only [List.mem_cons] at hf
  rcases hf with hf | hf
  · cases hf
  · have err : ∀ (c1 : Client) x cd, Obs.failed s code ∈ (c1.emitError x cd).2 →
        (s = x ∧ (c1.emitError x cd).1.nStreams = c1.nStreams) ∧
        (s ∈ (c1.emitError x cd).1.timers ∨ ((c1.emitError x cd).1.streams s).connected = false) := by
      intro c1 x cd h
      unfold Client.emitError at h ⊢
      split at h
      · rename_i hc
        rw [if_pos hc]
        simp only [List.mem_cons, Obs.failed.injEq, List.not_mem_nil, or_false] at h
        rcases h with h | h
        · exact ⟨⟨h.1, rfl⟩, by left; simp [h.1]⟩
        · cases h
      · rename_i hc
        rw [if_neg hc]
        simp only [List.mem_cons, Obs.failed.injEq, List.not_mem_nil, or_false] at h
        exact ⟨⟨h.1, rfl⟩, by right; rw [h.1]; simpa using hc⟩
    revert hf
    split
    · simp [Client.start]
    · exact err _ _ _
    · split
      · simp [Client.emitFinished]
      · exact err _ _ _
    · split
      · simp
      · exact err _ _ _
    · simp

theorem abortAll_failed {c c' : Client} {o : List Obs} (it n : Nat) (hf : c.abortAll it n = some (c', o)) (s : Nat)
    (code : Http2.StatusCode) : Obs.failed s code ∉ o := by
  induction n generalizing c o it with
  | zero => simp only [Client.abortAll] at hf; cases hf; simp
  | succ n ih =>
    simp only [Client.abortAll] at hf
    split at hf
    · cases hf
    · rename_i y hy
      simp only [Option.map_eq_some_iff] at hf
      obtain ⟨⟨c2, o2⟩, h2, he⟩ := hf
      cases he
      simp only [List.mem_append, not_or]
      exact ⟨by simp [Client.emitFinished], ih _ h2⟩

theorem abortAll_timers {c c' : Client} {o : List Obs} (it n : Nat) (hf : c.abortAll it n = some (c', o)) :
    c'.timers = c.timers := by
  induction n generalizing c o it with
  | zero => simp only [Client.abortAll] at hf; cases hf; rfl
  | succ n ih =>
    simp only [Client.abortAll] at hf
    split at hf
    · cases hf
    · rename_i y hy
      simp only [Option.map_eq_some_iff] at hf
      obtain ⟨⟨c2, o2⟩, h2, he⟩ := hf
      cases he
      rw [ih _ h2, emitFinished_timers]

/-- A stream that reports an error is to be restarted, unless the client has dropped it. -/
theorem step_failed {c c' : Client} {t o : List Obs} (hr : Rel c t) {e : Ev} {s : Nat} {code : Http2.StatusCode}
    (hf : c.step e = some (c', o)) (ho : Obs.failed s code ∈ o) :
    s < c'.nStreams ∧ (s ∈ c'.timers ∨ (c'.streams s).connected = false) := by
  have cl : ∀ (c1 : Client) (a : Nat) (cause : Close), (c1.attempts a).stream < c1.nStreams →
      Obs.failed s code ∈ (c1.close a cause).2 → s < (c1.close a cause).1.nStreams ∧
      (s ∈ (c1.close a cause).1.timers ∨ ((c1.close a cause).1.streams s).connected = false) := by
    intro c1 a cause hlt h
    obtain ⟨⟨h1, h2⟩, h3⟩ := close_failed h
    exact ⟨by rw [h2, h1]; exact hlt, h3⟩
  cases e with
  | attach k ct cur =>
    simp only [Client.step, Client.attachChannel] at hf
    split at hf
    · cases hf; simp at ho
    · simp only [Option.bind_eq_some_iff, Option.map_eq_some_iff] at hf
      obtain ⟨⟨c1, o1⟩, h1, ⟨c2, o2⟩, h2, he⟩ := hf
      cases he
      rcases List.mem_append.mp ho with ho | ho
      · exact absurd ho (abortAll_failed _ _ h1 _ _)
      · exact absurd ho (abortAll_failed _ _ h2 _ _)
  | subscribe m a x =>
    simp only [Client.step, Option.some.injEq] at hf
    have : Obs.failed s code ∉ (c.subscribe m a x).2 := by
      unfold Client.subscribe
      split
      · simp
      · split <;> simp [Client.start]
    rw [hf] at this
    exact absurd ho this
  | net a i =>
    simp only [Client.step] at hf
    split at hf
    · rename_i hlt
      have key : Obs.failed s code ∈ (c.net a i).2 → s < (c.net a i).1.nStreams ∧
          (s ∈ (c.net a i).1.timers ∨ ((c.net a i).1.streams s).connected = false) := by
        unfold Client.net
        simp only
        split
        · split <;> simp [Client.handler]
        · split
          · exact cl _ _ _ (hr.owner a hlt).2.1
          · simp
        · split <;> simp
        · simp
      rw [Option.some.inj hf] at key
      exact key ho
    · cases hf; simp at ho
  | loop a =>
    simp only [Client.step] at hf
    split at hf
    · rename_i hlt
      have key : Obs.failed s code ∈ (c.loop a).2 → s < (c.loop a).1.nStreams ∧
          (s ∈ (c.loop a).1.timers ∨ ((c.loop a).1.streams s).connected = false) := by
        unfold Client.loop
        simp only
        split
        · simp
        · split
          · split <;> simp [Client.handler]
          · split
            · exact cl _ _ _ (by simpa using (hr.owner a hlt).2.1)
            · simp
      rw [Option.some.inj hf] at key
      exact key ho
    · cases hf; simp at ho
  | timer x =>
    simp only [Client.step, Client.fire] at hf
    split at hf
    · split at hf
      · split at hf
        · cases hf
        · cases hf; simp at ho
      · cases hf; simp at ho
    · cases hf; simp at ho
  | abort x =>
    simp only [Client.step] at hf
    split at hf
    · cases hf; simp at ho
    · cases hf; simp at ho
  | drop x =>
    simp only [Client.step] at hf
    split at hf <;> (cases hf; simp at ho)
  | reap x =>
    simp only [Client.step] at hf
    split at hf <;> (cases hf; simp at ho)

theorem close_timers (c : Client) (a : Nat) (cause : Close) (s : Nat) (h : s ∈ c.timers) :
    s ∈ (c.close a cause).1.timers := by
  have err : ∀ (c1 : Client) x cd, s ∈ c1.timers → s ∈ (c1.emitError x cd).1.timers := by
    intro c1 x cd h
    unfold Client.emitError
    split
    · simp [h]
    · exact h
  simp only [Client.close]
  split
  · exact h
  · exact err _ _ _ h
  · split
    · rw [emitFinished_timers]; exact h
    · exact err _ _ _ h
  · split
    · exact h
    · exact err _ _ _ h
  · exact h

/-- A pending timer stays until it fires; then the stream is started, unless nobody refers to it. -/
theorem step_timers {c c' : Client} {o : List Obs} {e : Ev} {s : Nat}
    (hf : c.step e = some (c', o)) (hs : s ∈ c.timers) :
    s ∈ c'.timers ∨ (∃ a k, Obs.started a s k ∈ o) ∨ (c'.streams s).connected = false := by
  cases e with
  | attach k ct cur =>
    simp only [Client.step, Client.attachChannel] at hf
    split at hf
    · cases hf; exact .inl hs
    · simp only [Option.bind_eq_some_iff, Option.map_eq_some_iff] at hf
      obtain ⟨⟨c1, o1⟩, h1, ⟨c2, o2⟩, h2, he⟩ := hf
      cases he
      left
      rw [abortAll_timers _ _ h2]
      simp only
      rw [abortAll_timers _ _ h1]
      exact hs
  | subscribe m a x =>
    simp only [Client.step, Option.some.injEq] at hf
    have : (c.subscribe m a x).1.timers = c.timers := by
      unfold Client.subscribe
      split
      · rfl
      · split <;> rfl
    rw [hf] at this
    left; simp only at this; rw [this]; exact hs
  | net a i =>
    simp only [Client.step] at hf
    split at hf
    · have key : s ∈ (c.net a i).1.timers := by
        unfold Client.net
        simp only
        split
        · split <;> exact hs
        · split
          · exact close_timers _ _ _ _ hs
          · exact hs
        · split <;> exact hs
        · exact hs
      rw [Option.some.inj hf] at key
      exact .inl key
    · cases hf; exact .inl hs
  | loop a =>
    simp only [Client.step] at hf
    split at hf
    · have key : s ∈ (c.loop a).1.timers := by
        unfold Client.loop
        simp only
        split
        · exact hs
        · split
          · split <;> exact hs
          · split
            · exact close_timers _ _ _ _ hs
            · exact hs
      rw [Option.some.inj hf] at key
      exact .inl key
    · cases hf; exact .inl hs
  | timer x =>
    simp only [Client.step, Client.fire] at hf
    by_cases hx : x = s
    · subst hx
      rw [if_pos hs] at hf
      split at hf
      · split at hf
        · cases hf
        · rename_i k _
          cases hf; exact .inr (.inl ⟨c.nAttempts, k, by simp⟩)
      · rename_i ha
        cases hf
        simp [Client.alive] at ha
        exact .inr (.inr ha.1)
    · have he : s ∈ c.timers.erase x := (List.mem_erase_of_ne (fun e => hx e.symm)).mpr hs
      split at hf
      · split at hf
        · split at hf
          · cases hf
          · cases hf; exact .inl he
        · cases hf; exact .inl he
      · cases hf; exact .inl hs
  | abort x =>
    simp only [Client.step] at hf
    split at hf
    · cases hf; left
      exact (emitFinished_timers c x) ▸ hs
    · cases hf; exact .inl hs
  | drop x =>
    simp only [Client.step] at hf
    split at hf <;> (cases hf; exact .inl hs)
  | reap x =>
    simp only [Client.step] at hf
    split at hf <;> (cases hf; exact .inl hs)

/-- The last thing heard of the stream is an error, it was not started again. -/
def Awaiting (t : List Obs) (s : Nat) : Prop :=
  ∃ pre code post, t = pre ++ Obs.failed s code :: post ∧ ∀ a k, Obs.started a s k ∉ post

theorem awaiting_append {t o : List Obs} {s : Nat} (h : Awaiting (t ++ o) s) :
    (Awaiting t s ∧ ∀ a k, Obs.started a s k ∉ o) ∨ ∃ code, Obs.failed s code ∈ o := by
  obtain ⟨pre, code, post, he, hp⟩ := h
  rw [List.append_eq_append_iff] at he
  rcases he with ⟨l, h1, h2⟩ | ⟨l, h1, h2⟩
  · right; exact ⟨code, by rw [h2]; simp⟩
  · cases l with
    | nil => right; exact ⟨code, by simp at h2; rw [← h2]; simp⟩
    | cons y l =>
      simp only [List.cons_append, List.cons.injEq] at h2
      obtain ⟨rfl, rfl⟩ := h2
      left
      refine ⟨⟨pre, code, l, h1, fun a k hm => hp a k (List.mem_append_left _ hm)⟩, fun a k hm => hp a k (List.mem_append_right _ hm)⟩

theorem awaiting_timer {c c' : Client} {t o : List Obs} {s : Nat} (hr : Rel c t) {es : List Ev}
    (h0 : Awaiting t s → s ∈ c.timers ∨ Obs.finished s ∈ t)
    (hf : c.run es = some (c', o)) (ha : Awaiting (t ++ o) s) : s ∈ c'.timers ∨ Obs.finished s ∈ t ++ o := by
  induction es generalizing c t o with
  | nil => simp only [Client.run] at hf; cases hf; simpa using h0 (by simpa using ha)
  | cons e es ih =>
    simp only [Client.run, Option.bind_eq_some_iff, Option.map_eq_some_iff] at hf
    obtain ⟨⟨c1, o1⟩, h1, ⟨c2, o2⟩, h2, he⟩ := hf
    cases he
    have hr1 := hr.step h1
    rw [← List.append_assoc] at ha ⊢
    refine ih hr1 ?_ h2 ha
    have hfin : s < c1.nStreams → (c1.streams s).connected = false → Obs.finished s ∈ t ++ o1 := by
      intro hlt hc
      by_cases hx : Obs.finished s ∈ t ++ o1
      · exact hx
      · rw [(hr1.finished s hlt).mpr hx] at hc; cases hc
    intro hw
    rcases awaiting_append hw with ⟨hw, hns⟩ | ⟨code, hw⟩
    · rcases h0 hw with hm | hd
      · rcases step_timers h1 hm with h | ⟨a, k, h⟩ | h
        · exact .inl h
        · exact absurd h (hns a k)
        · right
          by_cases hlt : s < c1.nStreams
          · exact hfin hlt h
          · have hlt0 : s < c.nStreams := by
              by_cases hx : s < c.nStreams
              · exact hx
              · exact absurd hm (hr.fresh s (by omega)).2.2.1
            obtain ⟨x, hx⟩ := hr.subscribed s hlt0
            exact absurd (List.mem_append_left _ hx) ((hr1.fresh s (by omega)).2.2.2.2.2 _ _ _)
      · exact .inr (List.mem_append_left _ hd)
    · obtain ⟨hlt, h | h⟩ := step_failed hr h1 hw
      · exact .inl h
      · exact .inr (hfin hlt h)

/-! #### Streams without attempt and timer -/

/-- The stream is active, but nothing will ever happen to it. -/
structure Dead (c : Client) (s : Nat) : Prop where
  connected : (c.streams s).connected = true
  noAttempt : ∀ a, a < c.nAttempts → (c.attempts a).stream = s →
    (c.attempts a).connected = false ∧ Item.datas (c.attempts a).queue = []
  noTimer : s ∉ c.timers

/-- Observations about a stream other than subscriptions. -/
def About (s : Nat) : Obs → Prop
  | .started _ x _ | .failed x _ | .finished x | .handled x _ _ => x = s
  | _ => False

theorem Dead.start {c : Client} {s x : Nat} (h : Dead c s) (k : Kind) (hx : x ≠ s) :
    Dead (c.start x k).1 s ∧ ∀ o ∈ (c.start x k).2, ¬ About s o := by
  refine ⟨⟨h.connected, ?_, h.noTimer⟩, by simp [Client.start, About, hx]⟩
  intro a ha
  simp only [Client.start] at ha ⊢
  by_cases he : a = c.nAttempts
  · subst he; rw [update_self]; intro hs; exact absurd hs hx
  · rw [update_ne he]; exact h.noAttempt a (by omega)

theorem Dead.emitFinished {c : Client} {s : Nat} (h : Dead c s) {x : Nat} (hx : x ≠ s) :
    Dead (c.emitFinished x).1 s ∧ ∀ o ∈ (c.emitFinished x).2, ¬ About s o := by
  have hn : (c.emitFinished x).1.nAttempts = c.nAttempts := by
    simp only [Client.emitFinished, Client.onAbort, onFinished_nAttempts]
  refine ⟨⟨?_, ?_, ?_⟩, ?_⟩
  · rw [emitFinished_streams, if_neg (fun e => hx e.symm)]; exact h.connected
  · intro a ha hs
    rw [hn] at ha
    rw [emitFinished_attempts] at hs ⊢
    split
    · rename_i e
      rw [if_pos e] at hs
      exact ⟨rfl, (h.noAttempt a ha hs).2⟩
    · rename_i hne
      rw [if_neg hne] at hs
      exact h.noAttempt a ha hs
  · rw [emitFinished_timers]; exact h.noTimer
  · intro o ho
    simp only [Client.emitFinished, List.mem_cons, List.mem_map] at ho
    rcases ho with rfl | ⟨a, _, rfl⟩ <;> simp [About, hx]

theorem Dead.emitError {c : Client} {s x : Nat} (h : Dead c s) (hx : x ≠ s) (code : Http2.StatusCode) :
    Dead (c.emitError x code).1 s ∧ ∀ o ∈ (c.emitError x code).2, ¬ About s o := by
  unfold Client.emitError
  split
  · refine ⟨⟨h.connected, h.noAttempt, ?_⟩, by simp [About, hx]⟩
    simp only [List.mem_append, List.mem_singleton, not_or]
    exact ⟨h.noTimer, fun e => hx e.symm⟩
  · exact ⟨h, by simp [About, hx]⟩

theorem Dead.setAttempt {c : Client} {s : Nat} (h : Dead c s) (a : Nat) (n : Attempt)
    (hs : n.stream = (c.attempts a).stream)
    (hc : a < c.nAttempts → n.stream = s → n.connected = false ∧ Item.datas n.queue = []) :
    Dead { c with attempts := update c.attempts a n } s := by
  refine ⟨h.connected, ?_, h.noTimer⟩
  intro b hb
  simp only at hb ⊢
  by_cases he : b = a
  · subst he; rw [update_self]; exact hc hb
  · rw [update_ne he]; exact h.noAttempt b hb

theorem Dead.close {c : Client} {s : Nat} (h : Dead c s) {a : Nat} (ha : a < c.nAttempts) (cause : Close)
    (hc : (c.attempts a).connected = true) :
    Dead (c.close a cause).1 s ∧ ∀ o ∈ (c.close a cause).2, ¬ About s o := by
  have hx : (c.attempts a).stream ≠ s := by
    intro e; rw [(h.noAttempt a ha e).1] at hc; cases hc
  have h1 : Dead { c with attempts := update c.attempts a { c.attempts a with connected := false } } s :=
    h.setAttempt a _ rfl (fun _ hs => absurd hs hx)
  have key : ∀ r : Client × List Obs, (Dead r.1 s ∧ ∀ o ∈ r.2, ¬ About s o) →
      Dead r.1 s ∧ ∀ o ∈ Obs.closed a :: r.2, ¬ About s o := by
    intro r hr
    refine ⟨hr.1, ?_⟩
    intro o ho
    simp only [List.mem_cons] at ho
    rcases ho with rfl | ho
    · simp [About]
    · exact hr.2 o ho
  simp only [Client.close]
  apply key
  split
  · exact h1.start _ hx
  · exact h1.emitError hx _
  · split
    · exact h1.emitFinished hx
    · exact h1.emitError hx _
  · split
    · exact ⟨h1, by simp⟩
    · exact h1.emitError hx _
  · exact ⟨h1, by simp⟩

theorem Dead.setStream {c : Client} {s : Nat} (h : Dead c s) (x : Nat) (n : Obj)
    (hn : x = s → n.connected = true) :
    Dead { c with streams := update c.streams x n } s := by
  refine ⟨?_, h.noAttempt, h.noTimer⟩
  simp only
  by_cases hx : s = x
  · rw [hx, update_self]; exact hn hx.symm
  · rw [update_ne hx]; exact h.connected

theorem Dead.handler {c : Client} {s : Nat} (h : Dead c s) {x : Nat} (d : Bytes) (hx : x ≠ s) :
    Dead (c.handler x d).1 s ∧ ∀ o ∈ (c.handler x d).2, ¬ About s o := by
  refine ⟨h.setStream x _ (fun e => absurd e hx), ?_⟩
  intro o ho
  simp only [Client.handler, List.mem_append, List.mem_map, List.mem_singleton] at ho
  rcases ho with ⟨y, _, rfl⟩ | rfl <;> simp [About, hx]

theorem notAbout_cons {s : Nat} {o : Obs} {l : List Obs} (ho : ¬ About s o) (hl : ∀ x ∈ l, ¬ About s x) :
    ∀ x ∈ o :: l, ¬ About s x := by
  intro x hx
  simp only [List.mem_cons] at hx
  rcases hx with rfl | hx
  · exact ho
  · exact hl x hx

/-- The events that end a stream from the client's side: `abort` and `attachChannel`. -/
def Ev.ends (s : Nat) : Ev → Prop
  | .abort x => x = s
  | .attach _ ct cur => ct = cur
  | _ => False

theorem Dead.step {c c' : Client} {t o : List Obs} {s : Nat} (hr : Rel c t) (h : Dead c s) {e : Ev} (he : ¬ e.ends s)
    (hf : c.step e = some (c', o)) : Dead c' s ∧ ∀ x ∈ o, ¬ About s x := by
  have hlt : s < c.nStreams := hr.active_lt ((hr.activeIff s).mpr h.connected)
  cases e with
  | attach k ct cur =>
    simp only [Client.step, Client.attachChannel] at hf
    rw [if_pos (show ct ≠ cur from he)] at hf
    cases hf; exact ⟨h, by simp [About]⟩
  | subscribe m a x =>
    simp only [Client.step, Option.some.injEq] at hf
    have key : Dead (c.subscribe m a x).1 s ∧ ∀ y ∈ (c.subscribe m a x).2, ¬ About s y := by
      unfold Client.subscribe
      split
      · exact ⟨h, by simp [About]⟩
      · rename_i k hk
        split
        · rename_i y hy
          exact ⟨h.setStream y _ (fun e => by subst e; exact h.connected), by simp [About]⟩
        · have hne : c.nStreams ≠ s := by omega
          have h1 : Dead
              { c with
                streams := update c.streams c.nStreams ⟨m, a, addHandler [] x, [], true, 1, false⟩
                nStreams := c.nStreams + 1 } s := by
            have := h.setStream c.nStreams ⟨m, a, addHandler [] x, [], true, 1, false⟩ (fun e => absurd e hne)
            exact ⟨this.connected, this.noAttempt, this.noTimer⟩
          have h2 := h1.start k hne
          exact ⟨⟨h2.1.connected, h2.1.noAttempt, h2.1.noTimer⟩, notAbout_cons (by simp [About]) h2.2⟩
    rw [hf] at key
    exact key
  | net a i =>
    simp only [Client.step] at hf
    split at hf
    · rename_i ha
      have key : Dead (c.net a i).1 s ∧ ∀ y ∈ (c.net a i).2, ¬ About s y := by
        have hcon : (c.attempts a).connected = true → (c.attempts a).stream ≠ s := by
          intro hc e; rw [(h.noAttempt a ha e).1] at hc; cases hc
        unfold Client.net
        simp only
        split
        · split
          · rename_i d hk hc
            simp only [Bool.and_eq_true] at hc
            have h1 := h.handler d (hcon hc.1)
            exact ⟨h1.1, notAbout_cons (by simp [About]) (notAbout_cons (by simp [About]) h1.2)⟩
          · exact ⟨h, by simp⟩
        · split
          · rename_i hk hc
            simp only [Bool.and_eq_true] at hc
            exact h.close ha _ hc.1
          · exact ⟨h, by simp⟩
        · split
          · rename_i d hk hc
            simp only [Bool.and_eq_true] at hc
            refine ⟨h.setAttempt a _ rfl ?_, by simp [About]⟩
            intro _ hs; exact absurd hs (hcon hc.1)
          · exact ⟨h, by simp⟩
        · refine ⟨h.setAttempt a _ rfl ?_, by simp⟩
          intro _ hs
          have := h.noAttempt a ha hs
          refine ⟨this.1, ?_⟩
          have := this.2
          simp only [Item.datas, List.filterMap_append, List.filterMap_cons, List.filterMap_nil, List.append_nil] at this ⊢
          exact this
      rw [Option.some.inj hf] at key
      exact key
    · cases hf; exact ⟨h, by simp⟩
  | loop a =>
    simp only [Client.step] at hf
    split at hf
    · rename_i ha
      have key : Dead (c.loop a).1 s ∧ ∀ y ∈ (c.loop a).2, ¬ About s y := by
        unfold Client.loop
        simp only
        split
        · exact ⟨h, by simp⟩
        · rename_i i rest hq
          have h1 : Dead { c with attempts := update c.attempts a { c.attempts a with queue := rest } } s := by
            refine h.setAttempt a _ rfl ?_
            intro _ hs
            have := h.noAttempt a ha hs
            refine ⟨this.1, ?_⟩
            have := this.2
            rw [hq] at this
            cases i <;> simp_all [Item.datas]
          split
          · rename_i d
            split
            · have hne : (c.attempts a).stream ≠ s := by
                intro e
                have := (h.noAttempt a ha e).2
                rw [hq] at this
                simp [Item.datas] at this
              have h2 := h1.handler d hne
              exact ⟨h2.1, notAbout_cons (by simp [About]) h2.2⟩
            · exact ⟨h1, by simp⟩
          · split
            · rename_i hc
              simp only [Bool.and_eq_true] at hc
              exact h1.close ha _ (by simpa using hc.1)
            · exact ⟨h1, by simp⟩
      rw [Option.some.inj hf] at key
      exact key
    · cases hf; exact ⟨h, by simp⟩
  | timer x =>
    simp only [Client.step, Client.fire] at hf
    split at hf
    · rename_i hm
      have hne : x ≠ s := by intro e; subst e; exact h.noTimer hm
      have h1 : Dead { c with timers := c.timers.erase x } s :=
        ⟨h.connected, h.noAttempt, fun hx => h.noTimer (List.mem_of_mem_erase hx)⟩
      split at hf
      · split at hf
        · cases hf
        · rename_i k hk
          have := h1.start k hne
          rw [Option.some.inj hf] at this
          exact this
      · cases hf; exact ⟨h1, by simp⟩
    · cases hf; exact ⟨h, by simp⟩
  | abort x =>
    simp only [Client.step] at hf
    split at hf
    · have := h.emitFinished (x := x) he
      rw [Option.some.inj hf] at this
      exact this
    · cases hf; exact ⟨h, by simp⟩
  | drop x =>
    simp only [Client.step] at hf
    split at hf
    · cases hf
      refine ⟨h.setStream x _ ?_, by simp⟩
      intro e; subst e; exact h.connected
    · cases hf; exact ⟨h, by simp⟩
  | reap x =>
    simp only [Client.step] at hf
    split at hf
    · cases hf
      refine ⟨h.setStream x _ ?_, by simp [About]⟩
      intro e; subst e; exact h.connected
    · cases hf; exact ⟨h, by simp⟩

theorem Dead.run {c c' : Client} {t o : List Obs} {s : Nat} (hr : Rel c t) (h : Dead c s) {es : List Ev}
    (he : ∀ e ∈ es, ¬ e.ends s)
    (hf : c.run es = some (c', o)) : Dead c' s ∧ ∀ x ∈ o, ¬ About s x := by
  induction es generalizing c t o with
  | nil => simp only [Client.run] at hf; cases hf; exact ⟨h, by simp⟩
  | cons e es ih =>
    simp only [Client.run, Option.bind_eq_some_iff, Option.map_eq_some_iff] at hf
    obtain ⟨⟨c1, o1⟩, h1, ⟨c2, o2⟩, h2, heq⟩ := hf
    cases heq
    have g := h.step hr (he e (by simp)) h1
    have g2 := ih (hr.step h1) g.1 (fun x hx => he x (by simp [hx])) h2
    refine ⟨g2.1, ?_⟩
    intro x hx
    rcases List.mem_append.mp hx with hx | hx
    · exact g.2 x hx
    · exact g2.2 x hx

/-! #### Attaching a channel -/

/-- Going through more elements than are left ends behind the end. -/
theorem abortAll_none {c : Client} {t : List Obs} (h : Rel c t) (it n : Nat) (h1 : it + n > c.active.length)
    (h2 : 1 ≤ n) : c.abortAll it n = none := by
  induction n generalizing c t it with
  | zero => omega
  | succ n ih =>
    simp only [Client.abortAll]
    split
    · rfl
    · rename_i s hs
      have hmem := List.mem_of_getElem? hs
      have hlen : (c.emitFinished s).1.active.length = c.active.length - 1 := by
        rw [emitFinished_active h hmem, List.length_erase_of_mem hmem]
      have hit : it < c.active.length := by
        by_cases hx : it < c.active.length
        · exact hx
        · rw [List.getElem?_eq_none (by omega)] at hs; cases hs
      by_cases hn : n = 0
      · subst hn; omega
      · rw [ih (h.emitFinished (h.active_lt hmem)) (it + 1) (by omega) (by omega)]
        rfl

theorem abortAll_two {c : Client} {t : List Obs} (h : Rel c t) (h2 : 2 ≤ c.active.length) :
    c.abortAll 0 c.active.length = none := by
  match hn : c.active.length with
  | 0 => omega
  | n + 1 =>
    simp only [Client.abortAll]
    split
    · rfl
    · rename_i s hs
      have hmem := List.mem_of_getElem? hs
      have hlen : (c.emitFinished s).1.active.length = c.active.length - 1 := by
        rw [emitFinished_active h hmem, List.length_erase_of_mem hmem]
      rw [abortAll_none (h.emitFinished (h.active_lt hmem)) 1 n (by omega) (by omega)]
      rfl

/-! #### The state after `finished` -/

/-- No attempt of the stream is connected. -/
def Stopped (c : Client) (s : Nat) : Prop := ∀ a, (c.attempts a).stream = s → (c.attempts a).connected = false

theorem Stopped.emitFinished {c : Client} {s : Nat} (x : Nat) (h : x = s ∨ Stopped c s) :
    Stopped (c.emitFinished x).1 s := by
  intro a hs
  rw [emitFinished_attempts] at hs ⊢
  split
  · rfl
  · rename_i hne
    rw [if_neg hne] at hs
    rcases h with rfl | h
    · exact absurd hs hne
    · exact h a hs

theorem Stopped.abortAll {c c' : Client} {o : List Obs} {s : Nat} (it n : Nat) (hf : c.abortAll it n = some (c', o))
    (h : Obs.finished s ∈ o ∨ Stopped c s) : Stopped c' s := by
  induction n generalizing c o it with
  | zero =>
    simp only [Client.abortAll] at hf; cases hf
    rcases h with h | h
    · cases h
    · exact h
  | succ n ih =>
    simp only [Client.abortAll] at hf
    split at hf
    · cases hf
    · rename_i y hy
      simp only [Option.map_eq_some_iff] at hf
      obtain ⟨⟨c2, o2⟩, h2, he⟩ := hf
      cases he
      refine ih _ h2 ?_
      rcases h with h | h
      · rcases List.mem_append.mp h with h | h
        · right
          apply Stopped.emitFinished
          left
          simp only [Client.emitFinished, List.mem_cons, Obs.finished.injEq, List.mem_map] at h
          rcases h with h | ⟨_, _, h⟩
          · exact h.symm
          · cases h
        · exact .inl h
      · exact .inr (Stopped.emitFinished y (.inr h))

theorem close_finished {c : Client} {a s : Nat} {cause : Close} (hf : Obs.finished s ∈ (c.close a cause).2) :
    Stopped (c.close a cause).1 s ∧ (c.close a cause).1.timers = c.timers := by
  simp only [Client.close] at hf ⊢
  simp only [List.mem_cons] at hf
  rcases hf with hf | hf
  · cases hf
  · have err : ∀ (c1 : Client) x cd, Obs.finished s ∉ (c1.emitError x cd).2 := by
      intro c1 x cd
      unfold Client.emitError
      split <;> simp
    revert hf
    split
    · simp [Client.start]
    · intro hf; exact absurd hf (err _ _ _)
    · split
      · intro hf
        simp only [Client.emitFinished, List.mem_cons, Obs.finished.injEq, List.mem_map] at hf
        rcases hf with hf | ⟨_, _, hf⟩
        · exact ⟨Stopped.emitFinished _ (.inl hf.symm), emitFinished_timers _ _⟩
        · cases hf
      · intro hf; exact absurd hf (err _ _ _)
    · split
      · simp
      · intro hf; exact absurd hf (err _ _ _)
    · simp

theorem step_finished {c c' : Client} {o : List Obs} {e : Ev} {s : Nat}
    (hf : c.step e = some (c', o)) (ho : Obs.finished s ∈ o) : Stopped c' s ∧ c'.timers = c.timers := by
  cases e with
  | attach k ct cur =>
    simp only [Client.step, Client.attachChannel] at hf
    split at hf
    · cases hf; simp at ho
    · simp only [Option.bind_eq_some_iff, Option.map_eq_some_iff] at hf
      obtain ⟨⟨c1, o1⟩, h1, ⟨c2, o2⟩, h2, he⟩ := hf
      cases he
      refine ⟨?_, by rw [abortAll_timers _ _ h2]; simp only; rw [abortAll_timers _ _ h1]⟩
      rcases List.mem_append.mp ho with ho | ho
      · have : Stopped c1 s := Stopped.abortAll _ _ h1 (.inl ho)
        exact Stopped.abortAll _ _ h2 (.inr this)
      · exact Stopped.abortAll _ _ h2 (.inl ho)
  | subscribe m a x =>
    simp only [Client.step, Option.some.injEq] at hf
    have : Obs.finished s ∉ (c.subscribe m a x).2 := by
      unfold Client.subscribe
      split
      · simp
      · split <;> simp [Client.start]
    rw [hf] at this
    exact absurd ho this
  | net a i =>
    simp only [Client.step] at hf
    split at hf
    · have key : Obs.finished s ∈ (c.net a i).2 → Stopped (c.net a i).1 s ∧ (c.net a i).1.timers = c.timers := by
        unfold Client.net
        simp only
        split
        · split <;> simp [Client.handler]
        · split
          · exact close_finished
          · simp
        · split <;> simp
        · simp
      rw [Option.some.inj hf] at key
      exact key ho
    · cases hf; simp at ho
  | loop a =>
    simp only [Client.step] at hf
    split at hf
    · have key : Obs.finished s ∈ (c.loop a).2 → Stopped (c.loop a).1 s ∧ (c.loop a).1.timers = c.timers := by
        unfold Client.loop
        simp only
        split
        · simp
        · split
          · split <;> simp [Client.handler]
          · split
            · exact close_finished
            · simp
      rw [Option.some.inj hf] at key
      exact key ho
    · cases hf; simp at ho
  | timer x =>
    simp only [Client.step, Client.fire] at hf
    split at hf
    · split at hf
      · split at hf
        · cases hf
        · cases hf; simp at ho
      · cases hf; simp at ho
    · cases hf; simp at ho
  | abort x =>
    simp only [Client.step] at hf
    split at hf
    · cases hf
      simp only [List.mem_cons, Obs.finished.injEq, List.mem_map] at ho
      rcases ho with ho | ⟨_, _, ho⟩
      · exact ⟨Stopped.emitFinished x (.inl ho.symm), emitFinished_timers _ _⟩
      · cases ho
    · cases hf; simp at ho
  | drop x =>
    simp only [Client.step] at hf
    split at hf <;> (cases hf; simp at ho)
  | reap x =>
    simp only [Client.step] at hf
    split at hf <;> (cases hf; simp at ho)

/-- State after an event in which stream `s` finished. -/
theorem idle_after {c c' : Client} {t o : List Obs} {e : Ev} {s : Nat} (hr : Rel c t) (hf : c.step e = some (c', o))
    (ho : Obs.finished s ∈ o) (q : Prop)
    (hq : q → ∀ a, (view (t ++ o)).owner a ≠ some (s, .native))
    (ht : s ∉ c.timers ∨ (c'.streams s).held = 0) : Idle q c' s := by
  have hr' := hr.step hf
  have hfin : Obs.finished s ∈ t ++ o := List.mem_append_right _ ho
  have hlt : s < c'.nStreams := by
    by_cases hx : s < c'.nStreams
    · exact hx
    · exact absurd hfin (hr'.fresh s (by omega)).2.2.2.2.1
  obtain ⟨h1, h2⟩ := step_finished hf ho
  refine ⟨hlt, ?_, fun a _ hs => h1 a hs, ht.imp (by rw [h2]; exact id) id, ?_⟩
  · cases hc : (c'.streams s).connected with
    | false => rfl
    | true => exact absurd hfin ((hr'.finished s hlt).mp hc)
  · intro hqq a ha hs
    have ho := (hr'.owner a ha).1
    cases hk : (c'.attempts a).kind with
    | http2 => rw [(hr'.queueHttp2 a hk).1]; rfl
    | native => rw [hs, hk] at ho; exact absurd ho (hq hqq a)

end QtPb.Stream
