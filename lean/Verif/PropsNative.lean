import Verif.SpecNative
/-
C70: asynchronous calls over the native channel. C71: synchronous calls wait for the answer.
-/
namespace QtPb.Native
open Http2

theorem appendSlices_eq (d : Bytes) (ss : List Bytes) : appendSlices d ss = d ++ ss.flatten := by
  induction ss generalizing d with
  | nil => simp [appendSlices]
  | cons s ss ih => simp [appendSlices, ih]

theorem outcome_means {a : Answer} {c : StatusCode} {d : Bytes} (h : Means a c d) : outcome a = (c, d) := by
  cases h with
  | failed h => simp [outcome, Status.Ok, h]
  | unreadable h1 h2 => simp [outcome, Status.Ok, h1, h2]
  | good h1 h2 => simp [outcome, Status.Ok, h1, h2, appendSlices_eq]

theorem run_cons {s s' : State} {e : Ev} {es : List Ev} (h : run s (e :: es) = .ok s') :
    ∃ v, step s e = .ok v ∧ run v es = .ok s' := by
  have h' : (do let v ← step s e; run v es) = Res.ok s' := h
  cases hv : step s e with
  | ok v => rw [hv] at h'; exact ⟨v, rfl, h'⟩
  | ub => rw [hv] at h'; cases h'
  | throw x => rw [hv] at h'; cases h'
  | fuel => rw [hv] at h'; cases h'

theorem run_append (s : State) (a b : List Ev) : run s (a ++ b) = (do let v ← run s a; run v b) := by
  induction a generalizing s with
  | nil => rfl
  | cons e a ih =>
    show (do let v ← step s e; run v (a ++ b)) = (do let v ← (do let v ← step s e; run v a); run v b)
    cases step s e with
    | ok v => exact ih v
    | ub => rfl
    | throw x => rfl
    | fuel => rfl

/-- Nothing has been signalled. -/
structure Open (s : State) : Prop where
  reply : s.reply = true
  call : s.call = true
  pend : s.deletePending = false
  conn : s.connection = true
  abort : s.abortConnection = true
  client : s.client = true
  data : s.data = []
  signals : s.signals = []
  errors : s.clientErrors = []
  posted : s.posted = true ↔ ∃ c r, s.thread = .ended c r

/-- The channel and the client are done with the call. -/
structure Over (s : State) : Prop where
  conn : s.connection = false
  abort : s.abortConnection = false
  client : s.client = false
  once : (s.signals.filter (· ≠ Call.Signal.aborted)).length ≤ 1
  errors : s.clientErrors.length ≤ 1
  thread : s.call = false → ∃ c r, s.thread = .ended c r

theorem open_start : Open start :=
  ⟨rfl, rfl, rfl, rfl, rfl, rfl, rfl, rfl, rfl, ⟨(nomatch ·), fun ⟨_, _, h⟩ => by cases h⟩⟩

theorem onFinished_over {s : State} (h : Open s) {c : StatusCode} {r : Bytes} :
    Over (onFinished { s with posted := false } c r) ∧
    (onFinished { s with posted := false } c r).signals = (if c = 0 then [.finished] else [.error c]) ∧
    (onFinished { s with posted := false } c r).data = (if c = 0 then r else []) ∧
    (onFinished { s with posted := false } c r).clientErrors = (if c = 0 then [] else [c]) := by
  by_cases h0 : c = 0
  · subst h0
    have e : onFinished { s with posted := false } 0 r =
        { s with posted := false, data := r, signals := s.signals ++ [.finished], client := false, connection := false,
                 abortConnection := false, deletePending := true } := rfl
    rw [e]
    refine ⟨⟨rfl, rfl, rfl, ?_, ?_, ?_⟩, ?_, ?_, ?_⟩
    · simp only [h.signals]; decide
    · simp only [h.errors]; decide
    · intro hc; simp only at hc; rw [h.call] at hc; cases hc
    · simp only [h.signals]; rfl
    · rfl
    · simp only [h.errors]; rfl
  · have hne : c ≠ Status.Ok := h0
    have e : onFinished { s with posted := false } c r =
        { s with posted := false, data := [], signals := s.signals ++ [.error c], clientErrors := s.clientErrors ++ [c],
                 client := false, connection := false, abortConnection := false, deletePending := true } := by
      unfold onFinished onError
      simp only [hne, if_false, h.client, if_true, h.abort]
      split <;> rfl
    rw [e]
    refine ⟨⟨rfl, rfl, rfl, ?_, ?_, ?_⟩, ?_, ?_, ?_⟩
    · simp only [h.signals]; exact Nat.le_refl 1
    · simp only [h.errors]; exact Nat.le_refl 1
    · intro hc; simp only at hc; rw [h.call] at hc; cases hc
    · simp only [h.signals, h0]; rfl
    · simp only [h0]; rfl
    · simp only [h.errors, h0]; rfl

theorem destroyCall_ok {s s' : State} (h : destroyCall s = .ok s') :
    s'.connection = false ∧ s'.abortConnection = false ∧ s'.client = s.client ∧ s'.signals = s.signals ∧ s'.data = s.data ∧
      s'.clientErrors = s.clientErrors ∧ (∃ c r, s'.thread = .ended c r) ∧ s'.reply = s.reply ∧ s'.channel = s.channel := by
  unfold destroyCall at h
  split at h
  · split at h
    · cases h; exact ⟨rfl, rfl, rfl, rfl, rfl, rfl, ⟨_, _, rfl⟩, rfl, rfl⟩
    · cases h
  · cases h; exact ⟨rfl, rfl, rfl, rfl, rfl, rfl, ⟨_, _, rfl⟩, rfl, rfl⟩
  · rename_i c r ht
    cases h; exact ⟨rfl, rfl, rfl, rfl, rfl, rfl, ⟨c, r, ht⟩, rfl, rfl⟩

/-- The call after an abort by the user. -/
theorem abort_open {s : State} (h : Open s) :
    onError { s with data := [], signals := s.signals ++ [.aborted] } Status.Aborted =
      { s with data := [], signals := [.aborted], clientErrors := [Status.Aborted], client := false, connection := false,
               abortConnection := false, deletePending := true } := by
  unfold onError
  simp [h.client, h.abort, h.signals, h.errors]

theorem step_open {s s' : State} {e : Ev} (h : Open s) (hs : step s e = .ok s') : Open s' ∨ Over s' := by
  cases e with
  | threadBegin =>
    simp only [step] at hs
    split at hs
    · rename_i ht
      split at hs
      · cases hs
        refine .inl { h with posted := ⟨fun hp => ?_, fun ⟨_, _, hh⟩ => by cases hh⟩ }
        obtain ⟨c, r, hc⟩ := h.posted.1 hp
        rw [ht] at hc; cases hc
      · cases hs
    · cases hs; exact .inl h
  | threadEnd a =>
    simp only [step] at hs
    split at hs
    · cases hs
      exact .inl { h with posted := ⟨fun _ => ⟨_, _, rfl⟩, fun _ => rfl⟩ }
    · cases hs; exact .inl h
  | deliver =>
    simp only [step] at hs
    split at hs
    · rename_i hp
      obtain ⟨c, r, hc⟩ := h.posted.1 hp
      simp only [hc] at hs
      rw [if_pos h.conn] at hs
      cases hs
      have := (onFinished_over h (c := c) (r := r)).1
      rw [hc] at this
      exact .inr this
    · cases hs; exact .inl h
  | abort =>
    simp only [step] at hs
    rw [if_pos h.reply, abort_open h] at hs
    cases hs
    exact .inr ⟨rfl, rfl, rfl, Nat.zero_le 1, Nat.le_refl 1, fun hc => by simp only at hc; rw [h.call] at hc; cases hc⟩
  | deleteCall =>
    simp only [step, h.pend] at hs
    cases hs; exact .inl h
  | destroyReply =>
    simp only [step, h.reply, if_true, h.call] at hs
    obtain ⟨h1, h2, h3, h4, _, h6, h7, _⟩ := destroyCall_ok hs
    refine .inr ⟨h1, h2, h3, ?_, ?_, fun _ => h7⟩
    · rw [h4]; simp only [h.signals]; decide
    · rw [h6]; simp only [h.errors]; decide
  | destroyChannel =>
    simp only [step, Res.ok.injEq] at hs
    subst hs; exact .inl { h with }

theorem step_over {s s' : State} {e : Ev} (h : Over s) (hs : step s e = .ok s') : Over s' := by
  cases e with
  | threadBegin =>
    simp only [step] at hs
    split at hs
    · rename_i ht
      split at hs
      · cases hs
        refine { h with thread := fun hc => ?_ }
        obtain ⟨c, r, hh⟩ := h.thread hc
        rw [ht] at hh; cases hh
      · cases hs
    · cases hs; exact h
  | threadEnd a =>
    simp only [step] at hs
    split at hs
    · cases hs; exact { h with thread := fun _ => ⟨_, _, rfl⟩ }
    · cases hs; exact h
  | deliver =>
    simp only [step] at hs
    split at hs
    · split at hs
      · rw [if_neg (by simp [h.conn])] at hs; cases hs; exact { h with }
      · cases hs; exact { h with }
    · cases hs; exact h
  | abort =>
    simp only [step] at hs
    split at hs
    · have e : onError { s with data := [], signals := s.signals ++ [.aborted] } Status.Aborted =
          { s with data := [], signals := s.signals ++ [.aborted] } := by
        unfold onError; simp [h.client, h.abort]
      rw [e] at hs
      cases hs
      refine { h with once := ?_ }
      have : (s.signals ++ [Call.Signal.aborted]).filter (· ≠ Call.Signal.aborted) = s.signals.filter (· ≠ Call.Signal.aborted) := by
        simp
      simp only [this]
      exact h.once
    · cases hs
  | deleteCall =>
    simp only [step] at hs
    split at hs
    · obtain ⟨h1, h2, h3, h4, _, h6, h7, _⟩ := destroyCall_ok hs
      exact ⟨h1, h2, h3.trans h.client, by rw [h4]; exact h.once, by rw [h6]; exact h.errors, fun _ => h7⟩
    · cases hs; exact h
  | destroyReply =>
    simp only [step] at hs
    split at hs
    · split at hs
      · obtain ⟨h1, h2, h3, h4, _, h6, h7, _⟩ := destroyCall_ok hs
        exact ⟨h1, h2, h3, by rw [h4]; exact h.once, by rw [h6]; exact h.errors, fun _ => h7⟩
      · cases hs; exact { h with client := rfl }
    · cases hs
  | destroyChannel =>
    simp only [step, Res.ok.injEq] at hs
    subst hs; exact { h with }

theorem run_shapes : ∀ (es : List Ev) (s s' : State), Open s ∨ Over s → run s es = .ok s' → Open s' ∨ Over s' := by
  intro es
  induction es with
  | nil => intro s s' h hr; cases hr; exact h
  | cons e es ih =>
    intro s s' h hr
    obtain ⟨v, hv, hrest⟩ := run_cons hr
    refine ih v s' ?_ hrest
    rcases h with h | h
    · exact step_open h hv
    · exact .inr (step_over h hv)

/-- **C70**: in every history of the thread, the event loop, the user and the channel, the channel emits at most one signal for a call,
and the client reports at most one error. -/
theorem C70_once {es : List Ev} {s : State} (h : run start es = .ok s) :
    (s.signals.filter (· ≠ Call.Signal.aborted)).length ≤ 1 ∧ s.clientErrors.length ≤ 1 := by
  rcases run_shapes es _ s (.inl open_start) h with h | h
  · rw [h.signals, h.errors]; decide
  · exact ⟨h.once, h.errors⟩

/-- **C70**: when the call object is gone its thread has ended. -/
theorem C70_no_thread_left {es : List Ev} {s : State} (h : run start es = .ok s) (hc : s.call = false) :
    ∃ code response, s.thread = .ended code response := by
  rcases run_shapes es _ s (.inl open_start) h with h | h
  · rw [h.call] at hc; cases hc
  · exact h.thread hc

/-! ### Delivery -/

/-- A delivered call without interference keeps what it has. -/
theorem settled : ∀ (es : List Ev) (s s' : State), Over s → Undisturbed es → run s es = .ok s' →
    s'.signals = s.signals ∧ s'.data = s.data ∧ s'.clientErrors = s.clientErrors := by
  intro es
  induction es with
  | nil => intro s s' _ _ hr; cases hr; exact ⟨rfl, rfl, rfl⟩
  | cons e es ih =>
    intro s s' h hu hr
    obtain ⟨v, hv, hrest⟩ := run_cons hr
    have hu' : Undisturbed es := ⟨fun hm => hu.1 (List.mem_cons_of_mem _ hm), fun hm => hu.2 (List.mem_cons_of_mem _ hm)⟩
    obtain ⟨i1, i2, i3⟩ := ih v s' (step_over h hv) hu' hrest
    rw [i1, i2, i3]
    cases e with
    | threadBegin =>
      simp only [step] at hv
      split at hv
      · split at hv
        · cases hv; exact ⟨rfl, rfl, rfl⟩
        · cases hv
      · cases hv; exact ⟨rfl, rfl, rfl⟩
    | threadEnd a =>
      simp only [step] at hv
      split at hv <;> cases hv <;> exact ⟨rfl, rfl, rfl⟩
    | deliver =>
      simp only [step, h.conn] at hv
      split at hv
      · split at hv <;> cases hv <;> exact ⟨rfl, rfl, rfl⟩
      · cases hv; exact ⟨rfl, rfl, rfl⟩
    | abort => exact absurd List.mem_cons_self hu.1
    | deleteCall =>
      simp only [step] at hv
      split at hv
      · obtain ⟨_, _, _, h4, h5, h6, _⟩ := destroyCall_ok hv
        exact ⟨h4, h5, h6⟩
      · cases hv; exact ⟨rfl, rfl, rfl⟩
    | destroyReply => exact absurd List.mem_cons_self hu.2
    | destroyChannel => simp only [step, Res.ok.injEq] at hv; subst hv; exact ⟨rfl, rfl, rfl⟩

theorem settled_thread {s s' : State} {e : Ev} (h : Open s) (hs : step s e = .ok s') {c : StatusCode} {r : Bytes}
    (ht : s.thread = .ended c r) (hu : e ≠ .abort ∧ e ≠ .destroyReply) :
    (Open s' ∧ s'.thread = .ended c r ∧ e ≠ .deliver) ∨
    (Over s' ∧ e = .deliver ∧ s'.signals = (if c = 0 then [.finished] else [.error c]) ∧ s'.data = (if c = 0 then r else []) ∧
      s'.clientErrors = (if c = 0 then [] else [c])) := by
  have hp : s.posted = true := h.posted.2 ⟨c, r, ht⟩
  cases e with
  | threadBegin => simp [step, ht] at hs; subst hs; exact .inl ⟨h, ht, nofun⟩
  | threadEnd a => simp [step, ht] at hs; subst hs; exact .inl ⟨h, ht, nofun⟩
  | deliver =>
    simp only [step, ht] at hs
    rw [if_pos hp, if_pos h.conn] at hs
    cases hs
    have := onFinished_over h (c := c) (r := r)
    rw [ht] at this
    exact .inr ⟨this.1, rfl, this.2⟩
  | abort => exact absurd rfl hu.1
  | deleteCall => simp [step, h.pend] at hs; subst hs; exact .inl ⟨h, ht, nofun⟩
  | destroyReply => exact absurd rfl hu.2
  | destroyChannel =>
    have hs' := hs
    simp only [step, Res.ok.injEq] at hs; subst hs
    exact .inl ⟨{ h with }, ht, nofun⟩

theorem open_quiet {s s' : State} {e : Ev} (h : Open s) (hs : step s e = .ok s') (hu : e ≠ .abort ∧ e ≠ .destroyReply)
    (ht : s.posted = false) : Open s' := by
  have hne : ∀ c r, s.thread ≠ .ended c r := fun c r hc => by
    have := h.posted.2 ⟨c, r, hc⟩; rw [ht] at this; cases this
  rcases step_open h hs with ho | ho
  · exact ho
  · cases e with
    | abort => exact absurd rfl hu.1
    | destroyReply => exact absurd rfl hu.2
    | threadBegin =>
      simp only [step] at hs
      split at hs
      · split at hs
        · cases hs; have := ho.conn; simp only at this; rw [h.conn] at this; cases this
        · cases hs
      · cases hs; exact h
    | threadEnd a =>
      simp only [step] at hs
      split at hs
      · cases hs; have := ho.conn; simp only at this; rw [h.conn] at this; cases this
      · cases hs; exact h
    | deliver => simp [step, ht] at hs; subst hs; exact h
    | deleteCall => simp [step, h.pend] at hs; subst hs; exact h
    | destroyChannel =>
      simp only [step, Res.ok.injEq] at hs; subst hs
      have := ho.conn; simp only at this; rw [h.conn] at this; cases this

/-- **C70**: a call that is neither aborted nor destroyed gets the answer of the server. However the events of the thread, of the event
loop and the destruction of the channel are interleaved: after the delivery exactly one signal has been emitted. It is `finished` if the
answer is good, and then the reply holds the bytes of the answer; otherwise it is `error` with the code, which the client reports too. -/
theorem C70_delivers {es : List Ev} {a : Answer} {c : StatusCode} {d : Bytes} {s : State} (h : run start es = .ok s)
    (hu : Undisturbed es) (ha : Answered a es) (hm : Means a c d) :
    s.signals = (if c = 0 then [.finished] else [.error c]) ∧ s.data = (if c = 0 then d else []) ∧
      s.clientErrors = (if c = 0 then [] else [c]) := by
  obtain ⟨p1, p2, p3, p4, rfl, hp1, hp2⟩ := ha
  have ho := outcome_means hm
  have hmem : ∀ e, e ∈ p1 ++ .threadBegin :: p2 ++ .threadEnd a :: p3 ++ .deliver :: p4 → e ≠ .abort ∧ e ≠ .destroyReply :=
    fun e he => ⟨fun h => hu.1 (h ▸ he), fun h => hu.2 (h ▸ he)⟩
  -- before the thread begins
  have k1 : ∀ (es : List Ev) (s s' : State), Open s → s.thread = .created → (∀ e ∈ es, e ≠ .abort ∧ e ≠ .destroyReply) →
      Ev.threadBegin ∉ es → run s es = .ok s' → Open s' ∧ s'.thread = .created := by
    intro es
    induction es with
    | nil => intro s s' h ht _ _ hr; cases hr; exact ⟨h, ht⟩
    | cons e es ih =>
      intro s s' h ht hq hb hr
      obtain ⟨v, hv, hrest⟩ := run_cons hr
      have hnp : s.posted = false := by
        cases hp : s.posted with
        | false => rfl
        | true => obtain ⟨_, _, hh⟩ := h.posted.1 hp; rw [ht] at hh; cases hh
      refine ih v s' (open_quiet h hv (hq e List.mem_cons_self) hnp) ?_ (fun e he => hq e (List.mem_cons_of_mem _ he))
        (fun hh => hb (List.mem_cons_of_mem _ hh)) hrest
      cases e with
      | threadBegin => exact absurd List.mem_cons_self hb
      | threadEnd b => simp [step, ht] at hv; subst hv; exact ht
      | deliver => simp [step, hnp] at hv; subst hv; exact ht
      | abort => exact absurd rfl (hq _ List.mem_cons_self).1
      | deleteCall => simp [step, h.pend] at hv; subst hv; exact ht
      | destroyReply => exact absurd rfl (hq _ List.mem_cons_self).2
      | destroyChannel => simp only [step, Res.ok.injEq] at hv; subst hv; exact ht
  -- while it runs
  have k2 : ∀ (es : List Ev) (s s' : State), Open s → s.thread = .running → (∀ e ∈ es, e ≠ .abort ∧ e ≠ .destroyReply) →
      (∀ b, Ev.threadEnd b ∉ es) → run s es = .ok s' → Open s' ∧ s'.thread = .running := by
    intro es
    induction es with
    | nil => intro s s' h ht _ _ hr; cases hr; exact ⟨h, ht⟩
    | cons e es ih =>
      intro s s' h ht hq hb hr
      obtain ⟨v, hv, hrest⟩ := run_cons hr
      have hnp : s.posted = false := by
        cases hp : s.posted with
        | false => rfl
        | true => obtain ⟨_, _, hh⟩ := h.posted.1 hp; rw [ht] at hh; cases hh
      refine ih v s' (open_quiet h hv (hq e List.mem_cons_self) hnp) ?_ (fun e he => hq e (List.mem_cons_of_mem _ he))
        (fun b hh => hb b (List.mem_cons_of_mem _ hh)) hrest
      cases e with
      | threadBegin => simp [step, ht] at hv; subst hv; exact ht
      | threadEnd b => exact absurd List.mem_cons_self (hb b)
      | deliver => simp [step, hnp] at hv; subst hv; exact ht
      | abort => exact absurd rfl (hq _ List.mem_cons_self).1
      | deleteCall => simp [step, h.pend] at hv; subst hv; exact ht
      | destroyReply => exact absurd rfl (hq _ List.mem_cons_self).2
      | destroyChannel => simp only [step, Res.ok.injEq] at hv; subst hv; exact ht
  -- the answer is there: it is delivered once
  have k3 : ∀ (es : List Ev) (s s' : State), Open s → s.thread = .ended c d → (∀ e ∈ es, e ≠ .abort ∧ e ≠ .destroyReply) →
      Ev.deliver ∈ es → run s es = .ok s' → s'.signals = (if c = 0 then [.finished] else [.error c]) ∧ s'.data = (if c = 0 then d else []) ∧
      s'.clientErrors = (if c = 0 then [] else [c]) := by
    intro es
    induction es with
    | nil => intro s s' _ _ _ hb; cases hb
    | cons e es ih =>
      intro s s' h ht hq hb hr
      obtain ⟨v, hv, hrest⟩ := run_cons hr
      rcases settled_thread h hv ht (hq e List.mem_cons_self) with ⟨h1, h2, h3⟩ | ⟨h1, _, h3, h4, h5⟩
      · refine ih v s' h1 h2 (fun e he => hq e (List.mem_cons_of_mem _ he)) ?_ hrest
        cases hb with
        | head => exact absurd rfl h3
        | tail _ hb => exact hb
      · obtain ⟨i1, i2, i3⟩ := settled es v s' h1
          ⟨fun hh => (hq _ (List.mem_cons_of_mem _ hh)).1 rfl, fun hh => (hq _ (List.mem_cons_of_mem _ hh)).2 rfl⟩ hrest
        rw [i1, i2, i3]; exact ⟨h3, h4, h5⟩
  have split1 : p1 ++ .threadBegin :: p2 ++ .threadEnd a :: p3 ++ .deliver :: p4 =
      p1 ++ (.threadBegin :: (p2 ++ (.threadEnd a :: (p3 ++ .deliver :: p4)))) := by simp
  rw [split1] at h hmem
  rw [run_append] at h
  cases h1 : run start p1 with
  | ok s1 =>
    rw [h1] at h
    obtain ⟨o1, t1⟩ := k1 p1 start s1 open_start rfl (fun e he => hmem e (by simp [he])) hp1 h1
    obtain ⟨s2, h2, hrest⟩ := run_cons (show run s1 _ = .ok s from h)
    have hnp : s1.posted = false := by
      cases hp : s1.posted with
      | false => rfl
      | true => obtain ⟨_, _, hh⟩ := o1.posted.1 hp; rw [t1] at hh; cases hh
    have o2 := open_quiet o1 h2 ⟨nofun, nofun⟩ hnp
    have t2 : s2.thread = .running := by
      simp only [step, t1, if_true] at h2
      split at h2
      · cases h2; rfl
      · cases h2
    rw [run_append] at hrest
    cases h3 : run s2 p2 with
    | ok s3 =>
      rw [h3] at hrest
      obtain ⟨o3, t3⟩ := k2 p2 s2 s3 o2 t2 (fun e he => hmem e (by simp [he])) hp2 h3
      obtain ⟨s4, h4, hrest⟩ := run_cons (show run s3 _ = .ok s from hrest)
      have hnp3 : s3.posted = false := by
        cases hp : s3.posted with
        | false => rfl
        | true => obtain ⟨_, _, hh⟩ := o3.posted.1 hp; rw [t3] at hh; cases hh
      have o4 := open_quiet o3 h4 ⟨nofun, nofun⟩ hnp3
      have t4 : s4.thread = .ended c d := by
        simp only [step, t3, if_true, ho] at h4
        cases h4; rfl
      exact k3 (p3 ++ .deliver :: p4) s4 s o4 t4 (fun e he => hmem e (by
        rcases List.mem_append.1 he with he | he
        · simp [he]
        · simp [List.mem_cons.1 he])) (by simp) hrest
    | ub => rw [h3] at hrest; cases hrest
    | throw x => rw [h3] at hrest; cases hrest
    | fuel => rw [h3] at hrest; cases hrest
  | ub => rw [h1] at h; cases h
  | throw x => rw [h1] at h; cases h
  | fuel => rw [h1] at h; cases h

/-- **C70**: a call that is aborted before its answer is delivered: the user gets the error Aborted, once, and no data, and nothing the
server answers changes this. -/
theorem C70_aborted {pre post : List Ev} {s : State} (h : run start (pre ++ .abort :: post) = .ok s) (hd : Ev.deliver ∉ pre)
    (h1 : Undisturbed pre) (h2 : Undisturbed post) : s.signals = [.aborted] ∧ s.data = [] ∧ s.clientErrors = [Status.Aborted] := by
  have k1 : ∀ (es : List Ev) (s s' : State), Open s → Undisturbed es → Ev.deliver ∉ es → run s es = .ok s' → Open s' := by
    intro es
    induction es with
    | nil => intro s s' h _ _ hr; cases hr; exact h
    | cons e es ih =>
      intro s s' h hu hb hr
      obtain ⟨v, hv, hrest⟩ := run_cons hr
      have hu1 : e ≠ .abort ∧ e ≠ .destroyReply :=
        ⟨fun hh => hu.1 (hh ▸ List.mem_cons_self), fun hh => hu.2 (hh ▸ List.mem_cons_self)⟩
      refine ih v s' ?_ ⟨fun hh => hu.1 (List.mem_cons_of_mem _ hh), fun hh => hu.2 (List.mem_cons_of_mem _ hh)⟩
        (fun hh => hb (List.mem_cons_of_mem _ hh)) hrest
      cases hp : s.posted with
      | false => exact open_quiet h hv hu1 hp
      | true =>
        obtain ⟨c, r, ht⟩ := h.posted.1 hp
        rcases settled_thread h hv ht hu1 with ⟨ho, _⟩ | ⟨_, he, _⟩
        · exact ho
        · exact absurd (he ▸ List.mem_cons_self) hb
  rw [run_append] at h
  cases hr : run start pre with
  | ok v =>
    rw [hr] at h
    have o := k1 pre start v open_start h1 hd hr
    obtain ⟨u, hu, hrest⟩ := run_cons (show run v _ = .ok s from h)
    simp only [step] at hu
    rw [if_pos o.reply, abort_open o] at hu
    cases hu
    have ov : Over { v with data := [], signals := [.aborted], clientErrors := [Status.Aborted], client := false,
                            connection := false, abortConnection := false, deletePending := true } :=
      ⟨rfl, rfl, rfl, Nat.zero_le 1, Nat.le_refl 1, fun hc => by simp only at hc; rw [o.call] at hc; cases hc⟩
    obtain ⟨i1, i2, i3⟩ := settled post _ s ov h2 hrest
    rw [i1, i2, i3]
    exact ⟨rfl, rfl, rfl⟩
  | ub => rw [hr] at h; cases h
  | throw x => rw [hr] at h; cases h
  | fuel => rw [hr] at h; cases h

/-! ### Safety -/

theorem destroyCall_safe {s : State} (h : s.thread = .created → s.channel = true) : ∃ s', destroyCall s = .ok s' := by
  unfold destroyCall
  split
  · rename_i ht; rw [if_pos (h ht)]; exact ⟨_, rfl⟩
  · exact ⟨_, rfl⟩
  · exact ⟨_, rfl⟩

/-- **C70**, partial. Nothing undefined happens in a history in which the channel is not destroyed before the thread has begun its call
and the user does not use a reply that was destroyed. Missing: a channel that is destroyed right after the call
(`C70_channel_gone_violated`). -/
theorem C70_safe_partial (es : List Ev) (hc : ChannelLives es) (hr : ReplyLives es) : ∃ s, run start es = .ok s := by
  have main : ∀ (es : List Ev) (s : State), (s.thread = .created → s.channel = true ∧ ChannelLives es) →
      (s.reply = true ∧ ReplyLives es ∨ s.reply = false ∧ Ev.abort ∉ es ∧ Ev.destroyReply ∉ es) → ∃ s', run s es = .ok s' := by
    intro es
    induction es with
    | nil => intro s _ _; exact ⟨s, rfl⟩
    | cons e es ih =>
      intro s h1 h2
      have step1 : ∃ v, step s e = .ok v := by
        cases e with
        | threadBegin =>
          simp only [step]
          split
          · rename_i ht; rw [if_pos (h1 ht).1]; exact ⟨_, rfl⟩
          · exact ⟨_, rfl⟩
        | threadEnd a => simp only [step]; split <;> exact ⟨_, rfl⟩
        | deliver =>
          simp only [step]
          split
          · split <;> exact ⟨_, rfl⟩
          · exact ⟨_, rfl⟩
        | abort =>
          have : s.reply = true := by
            rcases h2 with h | h
            · exact h.1
            · exact absurd List.mem_cons_self h.2.1
          simp only [step, this, if_true]; exact ⟨_, rfl⟩
        | deleteCall =>
          simp only [step]
          split
          · exact destroyCall_safe fun ht => (h1 ht).1
          · exact ⟨_, rfl⟩
        | destroyReply =>
          have : s.reply = true := by
            rcases h2 with h | h
            · exact h.1
            · exact absurd List.mem_cons_self h.2.2
          simp only [step, this, if_true]
          split
          · exact destroyCall_safe fun ht => (h1 ht).1
          · exact ⟨_, rfl⟩
        | destroyChannel => exact ⟨_, rfl⟩
      obtain ⟨v, hv⟩ := step1
      have keepC : ∀ e', e' ≠ Ev.threadBegin → ChannelLives (e' :: es) → ChannelLives es := by
        intro e' hne hcl pre post heq
        have := hcl (e' :: pre) post (by rw [heq]; rfl)
        cases this with
        | head => exact absurd rfl hne
        | tail _ h => exact h
      have keepR : ∀ e', ReplyLives (e' :: es) → ReplyLives es := by
        intro e' hrl pre post heq
        exact hrl (e' :: pre) post (by rw [heq]; rfl)
      have fieldsOnError : ∀ (t : State) c, (onError t c).thread = t.thread ∧ (onError t c).channel = t.channel ∧ (onError t c).reply = t.reply := by
        intro t c
        unfold onError
        rcases t with ⟨_, _, _, _, _, _, _, ab, cl, _, _, _⟩
        cases cl <;> cases ab <;> by_cases hc : c = Status.Aborted <;> simp [hc]
      have facts : (v.thread = .created → s.thread = .created ∧ e ≠ .threadBegin ∧ (v.channel = true ∨ e = .destroyChannel ∨ s.channel = false)) ∧
          (v.reply = s.reply ∧ e ≠ .destroyReply ∨ v.reply = false ∧ e = .destroyReply) := by
        cases e with
        | threadBegin =>
          simp only [step] at hv
          split at hv
          · split at hv
            · cases hv; exact ⟨nofun, .inl ⟨rfl, nofun⟩⟩
            · cases hv
          · rename_i ht; cases hv; exact ⟨fun h => absurd h ht, .inl ⟨rfl, nofun⟩⟩
        | threadEnd a =>
          simp only [step] at hv
          split at hv
          · cases hv; exact ⟨nofun, .inl ⟨rfl, nofun⟩⟩
          · cases hv; exact ⟨fun h => ⟨h, nofun, (by cases hb : s.channel <;> simp)⟩, .inl ⟨rfl, nofun⟩⟩
        | deliver =>
          have hb : s.channel = true ∨ Ev.deliver = Ev.destroyChannel ∨ s.channel = false := by cases s.channel <;> simp
          simp only [step] at hv
          split at hv
          · split at hv
            · rename_i c r ht
              cases hv
              split
              · have e : (onFinished { s with posted := false } c r).thread = s.thread ∧
                    (onFinished { s with posted := false } c r).reply = s.reply := by
                  unfold onFinished
                  dsimp only
                  split
                  · exact ⟨rfl, rfl⟩
                  · have := fieldsOnError { s with posted := false, data := [], signals := s.signals ++ [.error c] } c
                    exact ⟨this.1, this.2.2⟩
                refine ⟨fun h => ?_, .inl ⟨e.2, nofun⟩⟩
                rw [e.1] at h
                exact absurd (ht.symm.trans h) nofun
              · exact ⟨fun h => ⟨h, nofun, hb⟩, .inl ⟨rfl, nofun⟩⟩
            · cases hv; exact ⟨fun h => ⟨h, nofun, hb⟩, .inl ⟨rfl, nofun⟩⟩
          · cases hv; exact ⟨fun h => ⟨h, nofun, hb⟩, .inl ⟨rfl, nofun⟩⟩
        | abort =>
          simp only [step] at hv
          split at hv
          · cases hv
            have := fieldsOnError { s with data := [], signals := s.signals ++ [.aborted] } Status.Aborted
            refine ⟨fun h => ⟨this.1 ▸ h, nofun, ?_⟩, .inl ⟨this.2.2, nofun⟩⟩
            rw [this.2.1]
            show s.channel = true ∨ _ ∨ s.channel = false
            cases s.channel <;> simp
          · cases hv
        | deleteCall =>
          simp only [step] at hv
          split at hv
          · obtain ⟨_, _, _, _, _, _, ⟨c, r, ht⟩, h8, _⟩ := destroyCall_ok hv
            exact ⟨fun h => (by rw [ht] at h; cases h), .inl ⟨h8, nofun⟩⟩
          · cases hv; exact ⟨fun h => ⟨h, nofun, (by cases hb : s.channel <;> simp)⟩, .inl ⟨rfl, nofun⟩⟩
        | destroyReply =>
          simp only [step] at hv
          split at hv
          · split at hv
            · obtain ⟨_, _, _, _, _, _, ⟨c, r, ht⟩, h8, _⟩ := destroyCall_ok hv
              exact ⟨fun h => (by rw [ht] at h; cases h), .inr ⟨h8, rfl⟩⟩
            · cases hv
              exact ⟨fun h => ⟨h, nofun, (by show s.channel = true ∨ _ ∨ s.channel = false; cases s.channel <;> simp)⟩, .inr ⟨rfl, rfl⟩⟩
          · cases hv
        | destroyChannel =>
          simp only [step, Res.ok.injEq] at hv; subst hv
          exact ⟨fun h => ⟨h, nofun, .inr (.inl rfl)⟩, .inl ⟨rfl, nofun⟩⟩
      obtain ⟨s', hs'⟩ := ih v (by
        intro ht
        obtain ⟨h3, h4, h5⟩ := facts.1 ht
        have h6 := h1 h3
        refine ⟨?_, keepC e h4 h6.2⟩
        rcases h5 with h | h | h
        · exact h
        · subst h
          have := h6.2 [] es rfl
          cases this
        · rw [h6.1] at h; cases h) (by
        rcases facts.2 with ⟨h3, h4⟩ | ⟨h3, h4⟩
        · rw [h3]
          rcases h2 with h | h
          · exact .inl ⟨h.1, keepR e h.2⟩
          · exact .inr ⟨h.1, fun hh => h.2.1 (List.mem_cons_of_mem _ hh), fun hh => h.2.2 (List.mem_cons_of_mem _ hh)⟩
        · subst h4
          rcases h2 with h | h
          · exact .inr ⟨h3, h.2 [] es rfl⟩
          · exact absurd List.mem_cons_self h.2.2)
      exact ⟨s', by show (do let v ← step s e; run v es) = _; rw [hv]; exact hs'⟩
  exact main es start (fun _ => ⟨rfl, hc⟩) (.inl ⟨rfl, hr⟩)

/-- **C70 violated**: the channel is destroyed after the call was made and before its thread has begun: the thread uses a channel that
does not exist, also when the user has aborted the call. -/
theorem C70_channel_gone_violated : run start [.destroyChannel, .threadBegin] = .ub ∧
    run start [.abort, .destroyChannel, .deleteCall] = .ub := ⟨rfl, rfl⟩

/-- **C70 violated**: aborting after the answer takes the data away and emits a second signal. -/
theorem C70_late_abort_violated : ∃ s s', run start [.threadBegin, .threadEnd ⟨0, .ok [[1], [2, 3]]⟩, .deliver] = .ok s ∧
    s.signals = [.finished] ∧ s.data = [1, 2, 3] ∧
    run start [.threadBegin, .threadEnd ⟨0, .ok [[1], [2, 3]]⟩, .deliver, .abort] = .ok s' ∧
    s'.signals = [.finished, .aborted] ∧ s'.data = [] := ⟨_, _, rfl, rfl, rfl, rfl, rfl, rfl⟩

/-- C70_delivers: an answer in two slices, with the channel destroyed while the call is made. -/
example : ∃ s, run start [.deliver, .threadBegin, .destroyChannel, .threadEnd ⟨0, .ok [[1], [2, 3]]⟩, .deliver, .deleteCall] = .ok s ∧
    Undisturbed [.deliver, .threadBegin, .destroyChannel, .threadEnd ⟨0, .ok [[1], [2, 3]]⟩, .deliver, .deleteCall] ∧
    Answered ⟨0, .ok [[1], [2, 3]]⟩ [.deliver, .threadBegin, .destroyChannel, .threadEnd ⟨0, .ok [[1], [2, 3]]⟩, .deliver, .deleteCall] ∧
    Means ⟨0, .ok [[1], [2, 3]]⟩ 0 [1, 2, 3] ∧ s.data = [1, 2, 3] :=
  ⟨_, rfl, ⟨by simp, by simp⟩, ⟨[.deliver], [.destroyChannel], [], [.deleteCall], rfl, by simp, by simp⟩, .good (slices := [[1], [2, 3]]) rfl rfl, rfl⟩

/-- C70_aborted: the server answers an aborted call. -/
example : ∃ s, run start ([.threadBegin] ++ .abort :: [.threadEnd ⟨0, .ok [[1]]⟩, .deliver, .deleteCall]) = .ok s ∧ s.call = false :=
  ⟨_, rfl, rfl⟩

/-- C70_safe_partial. -/
example : ChannelLives [.threadBegin, .destroyChannel, .abort, .destroyReply, .deliver] ∧
    ReplyLives [.threadBegin, .destroyChannel, .abort, .destroyReply, .deliver] := by
  constructor
  · intro pre post h
    cases pre with
    | nil => cases h
    | cons e pre => rw [← (List.cons.inj h).1]; exact List.mem_cons_self
  · intro pre post h
    match pre, h with
    | [], h => cases h
    | [_], h => cases h
    | [_, _], h => cases h
    | [_, _, _], h => cases h; simp
    | [_, _, _, _], h => cases h
    | _ :: _ :: _ :: _ :: _ :: pre, h => simp at h

/-! ### C71: synchronous calls -/

/-- **C71**, partial. A synchronous call over the native channel that returns has the answer of the server: the code of the answer, and
the bytes of the answer. It holds for every order of events in which the application does not quit and the channel is not destroyed.
Missing: an application that quits during the call, a channel that is destroyed before the thread
begins (`C71_quit_native_violated`). -/
theorem C71_native_partial (ws : List Wait) (hq : Wait.quit ∉ ws) (hd : Wait.destroyChannel ∉ ws) :
    syncCall true .created ws = .ok none ∨
    ∃ a c d, Wait.threadEnd a ∈ ws ∧ Means a c d ∧ syncCall true .created ws = .ok (some (c, d)) := by
  have means : ∀ a : Answer, Means a (outcome a).1 (outcome a).2 := by
    intro a
    rcases a with ⟨code, dump⟩
    by_cases h : code = 0
    · subst h
      cases dump with
      | error c => exact .unreadable rfl rfl
      | ok ss =>
        have : outcome ⟨0, .ok ss⟩ = (0, ss.flatten) := outcome_means (.good rfl rfl)
        rw [this]; exact .good rfl rfl
    · have : outcome ⟨code, dump⟩ = (code, []) := outcome_means (.failed h)
      rw [this]; exact .failed h
  have main : ∀ (ws : List Wait) (t : Thread), Wait.quit ∉ ws → Wait.destroyChannel ∉ ws →
      syncCall true t ws = .ok none ∨ ∃ c d, syncCall true t ws = .ok (some (c, d)) ∧
        (t = .ended c d ∨ ∃ a, Wait.threadEnd a ∈ ws ∧ outcome a = (c, d)) := by
    intro ws
    induction ws with
    | nil => intro t _ _; exact .inl rfl
    | cons e ws ih =>
      intro t hq hd
      have ih' := fun t => ih t (fun h => hq (List.mem_cons_of_mem _ h)) (fun h => hd (List.mem_cons_of_mem _ h))
      have up : ∀ {c d}, (∃ a, Wait.threadEnd a ∈ ws ∧ outcome a = (c, d)) → ∃ a, Wait.threadEnd a ∈ e :: ws ∧ outcome a = (c, d) :=
        fun ⟨a, h1, h2⟩ => ⟨a, List.mem_cons_of_mem _ h1, h2⟩
      cases e with
      | quit => exact absurd List.mem_cons_self hq
      | destroyChannel => exact absurd List.mem_cons_self hd
      | threadBegin =>
        simp only [syncCall]
        split
        · rename_i ht
          rcases ih' .running with h | ⟨c, d, h, h' | h'⟩
          · exact .inl h
          · cases h'
          · exact .inr ⟨c, d, h, .inr (up h')⟩
        · rcases ih' t with h | ⟨c, d, h, h' | h'⟩
          · exact .inl h
          · exact .inr ⟨c, d, h, .inl h'⟩
          · exact .inr ⟨c, d, h, .inr (up h')⟩
      | threadEnd a =>
        simp only [syncCall]
        split
        · rcases ih' (.ended (outcome a).1 (outcome a).2) with h | ⟨c, d, h, h' | h'⟩
          · exact .inl h
          · cases h'
            exact .inr ⟨_, _, h, .inr ⟨a, List.mem_cons_self, rfl⟩⟩
          · exact .inr ⟨c, d, h, .inr (up h')⟩
        · rcases ih' t with h | ⟨c, d, h, h' | h'⟩
          · exact .inl h
          · exact .inr ⟨c, d, h, .inl h'⟩
          · exact .inr ⟨c, d, h, .inr (up h')⟩
      | deliver =>
        cases t with
        | ended c d => exact .inr ⟨c, d, rfl, .inl rfl⟩
        | created =>
          simp only [syncCall]
          rcases ih' .created with h | ⟨c, d, h, h' | h'⟩
          · exact .inl h
          · cases h'
          · exact .inr ⟨c, d, h, .inr (up h')⟩
        | running =>
          simp only [syncCall]
          rcases ih' .running with h | ⟨c, d, h, h' | h'⟩
          · exact .inl h
          · cases h'
          · exact .inr ⟨c, d, h, .inr (up h')⟩
  rcases main ws .created hq hd with h | ⟨c, d, h, h' | ⟨a, h1, h2⟩⟩
  · exact .inl h
  · cases h'
  · refine .inr ⟨a, c, d, h1, ?_, h⟩
    have := means a
    rw [h2] at this; exact this

/-- **C71**: the synchronous call over the native channel returns: when the thread has begun, has got its first answer and the end of the
thread was delivered, the caller has the code and the bytes of that answer. -/
theorem C71_returns {p1 p2 p3 p4 : List Wait} {a : Answer} {c : StatusCode} {d : Bytes} (hm : Means a c d)
    (hp1 : Wait.threadBegin ∉ p1) (hp2 : ∀ b, Wait.threadEnd b ∉ p2)
    (hq : ∀ w ∈ p1 ++ p2 ++ p3, w ≠ .quit ∧ w ≠ .destroyChannel) :
    syncCall true .created (p1 ++ .threadBegin :: p2 ++ .threadEnd a :: p3 ++ .deliver :: p4) = .ok (some (c, d)) := by
  have ho := outcome_means hm
  have k1 : ∀ (ws rest : List Wait), Wait.threadBegin ∉ ws → (∀ w ∈ ws, w ≠ Wait.quit ∧ w ≠ .destroyChannel) →
      syncCall true .created (ws ++ rest) = syncCall true .created rest := by
    intro ws rest
    induction ws with
    | nil => intro _ _; rfl
    | cons e ws ih =>
      intro hb hq
      have ih := ih (fun h => hb (List.mem_cons_of_mem _ h)) (fun w hw => hq w (List.mem_cons_of_mem _ hw))
      cases e with
      | quit => exact absurd rfl (hq _ List.mem_cons_self).1
      | destroyChannel => exact absurd rfl (hq _ List.mem_cons_self).2
      | threadBegin => exact absurd List.mem_cons_self hb
      | threadEnd b => simpa [syncCall] using ih
      | deliver => simpa [syncCall] using ih
  have k2 : ∀ (ws rest : List Wait), (∀ b, Wait.threadEnd b ∉ ws) → (∀ w ∈ ws, w ≠ Wait.quit ∧ w ≠ .destroyChannel) →
      syncCall true .running (ws ++ rest) = syncCall true .running rest := by
    intro ws rest
    induction ws with
    | nil => intro _ _; rfl
    | cons e ws ih =>
      intro hb hq
      have ih := ih (fun b h => hb b (List.mem_cons_of_mem _ h)) (fun w hw => hq w (List.mem_cons_of_mem _ hw))
      cases e with
      | quit => exact absurd rfl (hq _ List.mem_cons_self).1
      | destroyChannel => exact absurd rfl (hq _ List.mem_cons_self).2
      | threadBegin => simpa [syncCall] using ih
      | threadEnd b => exact absurd List.mem_cons_self (hb b)
      | deliver => simpa [syncCall] using ih
  have k3 : ∀ (ws rest : List Wait), (∀ w ∈ ws, w ≠ Wait.quit ∧ w ≠ .destroyChannel) →
      syncCall true (.ended c d) (ws ++ .deliver :: rest) = .ok (some (c, d)) := by
    intro ws rest
    induction ws with
    | nil => intro _; rfl
    | cons e ws ih =>
      intro hq
      have ih := ih (fun w hw => hq w (List.mem_cons_of_mem _ hw))
      cases e with
      | quit => exact absurd rfl (hq _ List.mem_cons_self).1
      | destroyChannel => exact absurd rfl (hq _ List.mem_cons_self).2
      | threadBegin => simpa [syncCall] using ih
      | threadEnd b => simpa [syncCall] using ih
      | deliver => rfl
  have e : p1 ++ .threadBegin :: p2 ++ .threadEnd a :: p3 ++ .deliver :: p4 =
      p1 ++ (.threadBegin :: (p2 ++ (.threadEnd a :: (p3 ++ .deliver :: p4)))) := by simp
  rw [e, k1 p1 _ hp1 (fun w hw => hq w (by simp [hw]))]
  simp only [syncCall, if_true]
  rw [k2 p2 _ hp2 (fun w hw => hq w (by simp [hw]))]
  simp only [syncCall, if_true, ho]
  exact k3 p3 p4 (fun w hw => hq w (by simp [hw]))

/-- **C71**: the synchronous call over HTTP/2 returns what the finished network reply says. -/
theorem C71_returns_http2 {sofar r : Http2.Reply} {p q : List Wait2} (hp : ∀ w ∈ p, ∃ st b, w = .receive st b) :
    syncCall2 sofar (p ++ .finished r :: q) = some (processReply r) := by
  induction p generalizing sofar with
  | nil => rfl
  | cons e p ih =>
    obtain ⟨st, b, rfl⟩ := hp e List.mem_cons_self
    exact ih (fun w hw => hp w (List.mem_cons_of_mem _ hw))

/-- **C71**, partial. A synchronous call over HTTP/2 that returns has examined the finished network reply, whatever arrived before; the
application does not quit. Missing: an application that quits during the call (`C71_quit_http2_violated`). -/
theorem C71_http2_partial (sofar : Http2.Reply) (ws : List Wait2) (hq : Wait2.quit ∉ ws) :
    syncCall2 sofar ws = none ∨ ∃ r, Wait2.finished r ∈ ws ∧ syncCall2 sofar ws = some (processReply r) := by
  induction ws generalizing sofar with
  | nil => exact .inl rfl
  | cons e ws ih =>
    cases e with
    | quit => exact absurd List.mem_cons_self hq
    | finished r => exact .inr ⟨r, List.mem_cons_self, rfl⟩
    | receive st b =>
      rcases ih { sofar with grpcStatus := st, body := b } (fun h => hq (List.mem_cons_of_mem _ h)) with h | ⟨r, h1, h2⟩
      · exact .inl h
      · exact .inr ⟨r, List.mem_cons_of_mem _ h1, h2⟩

/-- **C71 violated**: the application quits while a synchronous call over the native channel waits: the call reads what its thread is
writing. The channel is destroyed (by a handler that runs in the waiting loop) before the thread has begun: the thread uses it. -/
theorem C71_quit_native_violated : syncCall true .created [.threadBegin, .quit] = .ub ∧
    syncCall true .created [.destroyChannel, .threadBegin] = .ub := ⟨rfl, rfl⟩

/-- **C71 violated**: the application quits while a synchronous call over HTTP/2 waits, before any byte of the answer has arrived: the
call returns with status Ok and an empty answer. -/
theorem C71_quit_http2_violated : syncCall2 ⟨.NoError, none, []⟩ [.quit] = some (.ok ([], Status.Ok)) ∧
    syncCall2 ⟨.NoError, none, []⟩ [.receive none [0, 0, 0, 0, 2, 7], .quit] = some (.ok ([7], Status.Ok)) := by decide +kernel

/-- A call that returns an answer in two slices; one that fails. -/
example : syncCall true .created [.deliver, .threadBegin, .threadEnd ⟨0, .ok [[1], [2]]⟩, .deliver] = .ok (some (0, [1, 2])) ∧
    syncCall true .created [.threadBegin, .threadEnd ⟨14, .ok []⟩, .deliver] = .ok (some (14, [])) ∧
    syncCall2 ⟨.NoError, none, []⟩ [.receive none [0], .finished ⟨.NoError, some [0x35], []⟩] = some (.ok ([], 5)) := by
  refine ⟨rfl, rfl, by decide +kernel⟩

end QtPb.Native
