import Verif.ClientEnd
import Verif.PropsStream
/-
C87: destroying a client.
-/
namespace QtPb.Stream
open Spec

theorem World.run_ev (c : Client) (es : List Ev) :
    World.run ⟨c, true⟩ (es.map .ev) = (c.run es).map fun r => (⟨r.1, true⟩, r.2) := by
  induction es generalizing c with
  | nil => rfl
  | cons e es ih =>
    simp only [List.map_cons, World.run, World.step, Client.run]
    cases he : c.step e with
    | none => simp
    | some r =>
      simp only [if_true, Option.map_some, Option.bind_some, ih]
      cases r.1.run es <;> simp

/-- As long as the client is not destroyed this is the program of C36 to C40. -/
theorem C87_before (thread : Nat) (es : List Ev) :
    (World.new thread).run (es.map .ev) = ((Client.new thread).run es).map fun r => (⟨r.1, true⟩, r.2) :=
  World.run_ev _ _

theorem destroy_eq {c c' : Client} {kept : Bool} {o : List Obs} (h : c.destroy kept = some (c', o)) :
    c' = (c.dropPrivate.emitDestroyed.1.dropConnections.deleteChildren).1 ∧
    o = ((List.range c.nAttempts).filter c.running).map .cancelled ++
      ((List.range c.nStreams).filter fun s => !(c.streams s).deleted).map .deleted := by
  simp only [Client.destroy] at h
  split at h
  · cases h
  · simp only [Option.some.injEq, Prod.mk.injEq] at h
    exact ⟨h.1.symm, h.2.symm⟩

theorem step_destroy {c : Client} {kept : Bool} {w : World} {o : List Obs}
    (h : World.step ⟨c, true⟩ (.destroy kept) = some (w, o)) : c.destroy kept = some (w.client, o) ∧ w.living = false := by
  simp only [World.step, if_true, Option.map_eq_some_iff] at h
  obtain ⟨⟨c', o'⟩, h1, h2⟩ := h
  cases h2
  exact ⟨h1, rfl⟩

theorem mem_cancelled {p : Nat → Bool} {q : Nat → Bool} {n m a : Nat} :
    Obs.cancelled a ∈ ((List.range n).filter p).map Obs.cancelled ++ ((List.range m).filter q).map Obs.deleted ↔
      a < n ∧ p a = true := by
  simp [List.mem_map, List.mem_filter]

theorem mem_deleted {p : Nat → Bool} {q : Nat → Bool} {n m s : Nat} :
    Obs.deleted s ∈ ((List.range n).filter p).map Obs.cancelled ++ ((List.range m).filter q).map Obs.deleted ↔
      s < m ∧ q s = true := by
  simp [List.mem_map, List.mem_filter]

theorem obs_nodup (p q : Nat → Bool) (n m : Nat) :
    (((List.range n).filter p).map Obs.cancelled ++ ((List.range m).filter q).map Obs.deleted).Nodup := by
  rw [List.nodup_append]
  refine ⟨?_, ?_, ?_⟩
  · exact List.Pairwise.map _ (fun a b h e => h (by injection e)) (List.nodup_range.filter p)
  · exact List.Pairwise.map _ (fun a b h e => h (by injection e)) (List.nodup_range.filter q)
  · intro a ha b hb hab
    subst hab
    simp only [List.mem_map] at ha hb
    obtain ⟨x, _, rfl⟩ := ha
    obtain ⟨y, _, hy⟩ := hb
    cases hy

theorem foldl_gone (t : List Obs) (v : View) (s : Nat) :
    (t.foldl View.see v).gone s = true ↔ v.gone s = true ∨ Obs.deleted s ∈ t := by
  induction t generalizing v with
  | nil => simp
  | cons x t ih =>
    rw [List.foldl_cons, ih]
    cases x with
    | subscribed m a h y => cases h <;> simp [View.see]
    | deleted y =>
      simp only [View.see, List.mem_cons]
      by_cases hy : s = y
      · simp [hy]
      · simp [hy]
    | _ => simp [View.see]

theorem view_gone (t : List Obs) (s : Nat) : (view t).gone s = true ↔ Obs.deleted s ∈ t := by
  rw [view, foldl_gone]; simp [View.new]

/-- Destroying a client stops every request of its streams that is running, each once (a request of the native channel whose stream
object was deleted before was stopped by that), deletes every stream object that exists, each once, and does nothing else: no handler
is called, no signal of a stream or of the client is emitted. -/
theorem C87_stops {th : Nat} {es : List Ev} {c : Client} {t : List Obs} (h : (Client.new th).run es = some (c, t))
    {kept : Bool} {w : World} {o : List Obs} (hd : World.step ⟨c, true⟩ (.destroy kept) = some (w, o)) :
    (∀ a s, Running t a s → Obs.cancelled a ∈ o ∨ ((view t).owner a = some (s, .native) ∧ Obs.deleted s ∈ t)) ∧
    (∀ s, (∃ m arg x, Obs.subscribed m arg x s ∈ t) → Obs.deleted s ∉ t → Obs.deleted s ∈ o) ∧
    (∀ x ∈ o, (∃ a s, x = .cancelled a ∧ Running t a s) ∨ ∃ s, x = .deleted s ∧ Obs.deleted s ∉ t) ∧
    o.Nodup := by
  have hr := Rel.reach h
  obtain ⟨-, ho⟩ := destroy_eq (step_destroy hd).1
  have hgone : ∀ s, (view t).gone s = true ↔ Obs.deleted s ∈ t := view_gone t
  have hg : ∀ s, s < c.nStreams → ((c.streams s).deleted = true ↔ Obs.deleted s ∈ t) := by
    intro s hs; rw [← hr.gone s hs, hgone]
  subst ho
  refine ⟨?_, ?_, ?_, obs_nodup ..⟩
  · intro a s hrun
    obtain ⟨h1, h2, h3⟩ := (hr.running_iff a s).mp hrun
    have ha : a < c.nAttempts := by
      by_cases ha : a < c.nAttempts
      · exact ha
      · have := (hr.freshAttempt a (by omega)).1; simp_all
    obtain ⟨h4, h5, _⟩ := hr.owner a ha
    by_cases hrn : c.running a = true
    · exact .inl (mem_cancelled.mpr ⟨ha, hrn⟩)
    · right
      simp only [Client.running, h1, Bool.true_and, Bool.or_eq_true, beq_iff_eq, Bool.not_eq_true',
        not_or, Bool.not_eq_false] at hrn
      subst h2
      refine ⟨?_, (hg _ h5).mp hrn.2⟩
      rw [h4]
      cases hk : (c.attempts a).kind with
      | http2 => exact absurd hk hrn.1
      | native => rfl
  · intro s hs hnd
    obtain ⟨m, arg, x, hs⟩ := hs
    have hlt : s < c.nStreams := by
      by_cases hlt : s < c.nStreams
      · exact hlt
      · exact absurd hs ((hr.fresh s (by omega)).2.2.2.2.2 _ _ _)
    refine mem_deleted.mpr ⟨hlt, ?_⟩
    cases hdel : (c.streams s).deleted with
    | false => rfl
    | true => exact absurd ((hg s hlt).mp hdel) hnd
  · intro x hx
    rw [List.mem_append] at hx
    simp only [List.mem_map, List.mem_filter, List.mem_range] at hx
    rcases hx with ⟨a, ⟨ha, hrn⟩, rfl⟩ | ⟨s, ⟨hs, hdel⟩, rfl⟩
    · left
      have h1 : (c.attempts a).connected = true := by
        simp only [Client.running, Bool.and_eq_true] at hrn; exact hrn.1
      obtain ⟨h4, h5, h6⟩ := hr.owner a ha
      exact ⟨a, (c.attempts a).stream, rfl, (c.attempts a).kind, h4, by rw [h6, h1]; rfl⟩
    · right
      refine ⟨s, rfl, fun hm => ?_⟩
      rw [(hg s hs).mpr hm] at hdel
      cases hdel

/-- The state after the destruction: no connection, no timer, no stream object. -/
structure Ended (w : World) : Prop where
  living : w.living = false
  timers : w.client.timers = []
  deleted : ∀ a, a < w.client.nAttempts → (w.client.streams (w.client.attempts a).stream).deleted = true
  held : ∀ s, 0 < (w.client.streams s).held → (w.client.streams s).deleted = true

theorem Ended.deleted_of_held {w : World} (h : Ended w) {s : Nat} (hs : 0 < (w.client.streams s).held) :
    (w.client.streams s).deleted = true := h.held s hs

theorem Ended.step {w w' : World} {a : Act} {o : List Obs} (h : Ended w) (hs : w.step a = some (w', o)) :
    Ended w' ∧ o = [] := by
  obtain ⟨c, l⟩ := w
  obtain ⟨h1, h2, h3, h4⟩ := h
  simp only at h1 h2 h3 h4
  subst h1
  cases a with
  | destroy k => simp [World.step] at hs
  | ev e =>
    simp only [World.step, Bool.false_eq_true, if_false, Option.map_eq_some_iff] at hs
    obtain ⟨⟨c', o'⟩, hc, he⟩ := hs
    cases he
    cases e with
    | attach k x y => simp [Client.after] at hc
    | subscribe m x y => simp [Client.after] at hc
    | net a i =>
      simp only [Client.after] at hc
      by_cases ha : a < c.nAttempts
      · simp only [ha, if_true, Option.some.injEq] at hc
        have hdel := h3 a ha
        simp only [Client.net, hdel, Bool.not_true, Bool.and_false, Bool.false_eq_true, if_false] at hc
        split at hc
        · cases hc; exact ⟨⟨rfl, h2, h3, h4⟩, rfl⟩
        · cases hc; exact ⟨⟨rfl, h2, h3, h4⟩, rfl⟩
        · cases hc; exact ⟨⟨rfl, h2, h3, h4⟩, rfl⟩
        · cases hc
          refine ⟨⟨rfl, h2, ?_, h4⟩, rfl⟩
          intro b hb
          simp only [update_apply]
          split
          · exact hdel
          · exact h3 b hb
      · simp only [ha, if_false, Option.some.injEq, Prod.mk.injEq] at hc
        obtain ⟨rfl, rfl⟩ := hc
        exact ⟨⟨rfl, h2, h3, h4⟩, rfl⟩
    | loop a =>
      simp only [Client.after] at hc
      by_cases ha : a < c.nAttempts
      · simp only [ha, if_true, Option.some.injEq] at hc
        have hdel := h3 a ha
        have hq : ∀ q, Ended ⟨{ c with attempts := update c.attempts a { c.attempts a with queue := q } }, false⟩ := by
          intro q
          refine ⟨rfl, h2, ?_, h4⟩
          intro b hb
          simp only [update_apply]
          split
          · exact hdel
          · exact h3 b hb
        simp only [Client.loop, hdel, Bool.not_true, Bool.and_false, Bool.false_eq_true, if_false] at hc
        split at hc
        · cases hc; exact ⟨⟨rfl, h2, h3, h4⟩, rfl⟩
        · split at hc
          · cases hc; exact ⟨hq _, rfl⟩
          · cases hc; exact ⟨hq _, rfl⟩
      · simp only [ha, if_false, Option.some.injEq, Prod.mk.injEq] at hc
        obtain ⟨rfl, rfl⟩ := hc
        exact ⟨⟨rfl, h2, h3, h4⟩, rfl⟩
    | timer s =>
      simp only [Client.after, Client.fire, h2, List.not_mem_nil, if_false, Option.some.injEq, Prod.mk.injEq] at hc
      obtain ⟨rfl, rfl⟩ := hc
      exact ⟨⟨rfl, h2, h3, h4⟩, rfl⟩
    | abort s =>
      simp only [Client.after] at hc
      by_cases hh : 0 < (c.streams s).held
      · simp [hh, h4 s hh] at hc
      · simp only [hh, if_false, Option.some.injEq, Prod.mk.injEq] at hc
        obtain ⟨rfl, rfl⟩ := hc
        exact ⟨⟨rfl, h2, h3, h4⟩, rfl⟩
    | drop s =>
      simp only [Client.after] at hc
      by_cases hh : 0 < (c.streams s).held
      · simp only [hh, if_true, h4 s hh, and_true] at hc
        split at hc
        · cases hc
        · simp only [Option.some.injEq, Prod.mk.injEq] at hc
          obtain ⟨rfl, rfl⟩ := hc
          refine ⟨⟨rfl, h2, ?_, ?_⟩, rfl⟩
          · intro a ha
            simp only [update_apply]
            split
            · rfl
            · exact h3 a ha
          · intro x hx
            simp only [update_apply] at hx ⊢
            split at hx
            · rename_i he; rw [if_pos he]
            · rename_i he; rw [if_neg he]; exact h4 x hx
      · simp only [hh, if_false, Option.some.injEq, Prod.mk.injEq] at hc
        obtain ⟨rfl, rfl⟩ := hc
        exact ⟨⟨rfl, h2, h3, h4⟩, rfl⟩
    | reap s =>
      simp only [Client.after, Option.some.injEq, Prod.mk.injEq] at hc
      obtain ⟨rfl, rfl⟩ := hc
      exact ⟨⟨rfl, h2, h3, h4⟩, rfl⟩

theorem destroyed_stream (c : Client) (s : Nat) :
    (c.dropPrivate.emitDestroyed.1.dropConnections.deleteChildren).1.streams s =
      if s < c.nStreams then { c.streams s with connected := false, deleted := true }
      else { c.streams s with connected := false } := rfl

theorem ended_destroy {th : Nat} {es : List Ev} {c : Client} {t : List Obs} (h : (Client.new th).run es = some (c, t))
    {kept : Bool} {w : World} {o : List Obs} (hd : World.step ⟨c, true⟩ (.destroy kept) = some (w, o)) : Ended w := by
  have hr := Rel.reach h
  obtain ⟨h1, h2⟩ := step_destroy hd
  obtain ⟨hc, -⟩ := destroy_eq h1
  refine ⟨h2, by rw [hc]; rfl, ?_, ?_⟩
  · intro a ha
    rw [hc] at ha ⊢
    have ha' : a < c.nAttempts := ha
    obtain ⟨-, h5, -⟩ := hr.owner a ha'
    have hst : (c.dropPrivate.emitDestroyed.1.attempts a).stream = (c.attempts a).stream := by
      simp only [Client.emitDestroyed]
      split <;> rfl
    rw [show (c.dropPrivate.emitDestroyed.1.dropConnections.deleteChildren.1.attempts a).stream = (c.attempts a).stream from hst,
      destroyed_stream, if_pos h5]
  · intro s hs
    rw [hc, destroyed_stream] at hs ⊢
    by_cases hlt : s < c.nStreams
    · rw [if_pos hlt]
    · rw [if_neg hlt] at hs
      have := (hr.fresh s (by omega)).2.1
      simp only at hs
      omega

theorem Ended.run {acts : List Act} : ∀ {w w' : World} {o : List Obs}, Ended w → w.run acts = some (w', o) →
    Ended w' ∧ o = [] := by
  induction acts with
  | nil => intro w w' o h hs; simp only [World.run] at hs; cases hs; exact ⟨h, rfl⟩
  | cons a as ih =>
    intro w w' o h hs
    simp only [World.run, Option.bind_eq_some_iff, Option.map_eq_some_iff] at hs
    obtain ⟨⟨w1, o1⟩, h1, ⟨w2, o2⟩, h2, he⟩ := hs
    cases he
    obtain ⟨h3, rfl⟩ := h.step h1
    obtain ⟨h4, rfl⟩ := ih h3 h2
    exact ⟨h4, rfl⟩

/-- After the destruction nothing is observed any more, whatever the network still delivers, whatever is posted in the event loop and
whatever timers were pending: no handler is called, no stream is started again, nothing is reported. -/
theorem C87_silent {th : Nat} {es : List Ev} {c : Client} {t : List Obs} (h : (Client.new th).run es = some (c, t))
    {kept : Bool} {w : World} {o : List Obs} (hd : World.step ⟨c, true⟩ (.destroy kept) = some (w, o))
    {acts : List Act} {w' : World} {o' : List Obs} (ha : w.run acts = some (w', o')) : o' = [] :=
  ((ended_destroy h hd).run ha).2

/-- Events that do not use the client or a stream: those of the network and of the event loop. -/
def Foreign : Act → Prop
  | .ev (.net ..) | .ev (.loop _) | .ev (.timer _) | .ev (.reap _) => True
  | _ => False

theorem Ended.safe {acts : List Act} : ∀ {w : World}, Ended w →
    (∀ a ∈ acts, Foreign a ∨ ∃ s, (a = .ev (.abort s) ∨ a = .ev (.drop s)) ∧ (w.client.streams s).held = 0) →
    ∃ w', w.run acts = some (w', []) := by
  induction acts with
  | nil => intro w _ _; exact ⟨w, rfl⟩
  | cons a as ih =>
    intro w h hf
    have key : ∃ w1, w.step a = some (w1, []) ∧ ∀ s, (w1.client.streams s).held = (w.client.streams s).held := by
      obtain ⟨c, l⟩ := w
      obtain ⟨h1, h2, h3, h4⟩ := h
      simp only at h1 h2 h3 h4
      subst h1
      rcases hf a List.mem_cons_self with ha | ⟨s, ha, h0⟩
      · match a, ha with
        | .ev (.net a i), _ =>
          simp only [World.step, Bool.false_eq_true, if_false, Client.after]
          by_cases ha : a < c.nAttempts
          · have hdel := h3 a ha
            simp only [ha, if_true, Client.net, hdel, Bool.not_true, Bool.and_false, Bool.false_eq_true, if_false, Option.map_some]
            split <;> exact ⟨_, rfl, fun _ => rfl⟩
          · simp only [ha, if_false, Option.map_some]
            exact ⟨_, rfl, fun _ => rfl⟩
        | .ev (.loop a), _ =>
          simp only [World.step, Bool.false_eq_true, if_false, Client.after]
          by_cases ha : a < c.nAttempts
          · have hdel := h3 a ha
            simp only [ha, if_true, Client.loop, hdel, Bool.not_true, Bool.and_false, Bool.false_eq_true, if_false, Option.map_some]
            split
            · exact ⟨_, rfl, fun _ => rfl⟩
            · split <;> exact ⟨_, rfl, fun _ => rfl⟩
          · simp only [ha, if_false, Option.map_some]
            exact ⟨_, rfl, fun _ => rfl⟩
        | .ev (.timer s), _ =>
          simp only [World.step, Bool.false_eq_true, if_false, Client.after, Client.fire, h2, List.not_mem_nil, Option.map_some]
          exact ⟨_, rfl, fun _ => rfl⟩
        | .ev (.reap s), _ =>
          simp only [World.step, Bool.false_eq_true, if_false, Client.after, Option.map_some]
          exact ⟨_, rfl, fun _ => rfl⟩
      · simp only at h0
        rcases ha with rfl | rfl
        · simp only [World.step, Bool.false_eq_true, if_false, Client.after, h0, Nat.lt_irrefl, Option.map_some]
          exact ⟨_, rfl, fun _ => rfl⟩
        · simp only [World.step, Bool.false_eq_true, if_false, Client.after, h0, Nat.lt_irrefl, Option.map_some]
          exact ⟨_, rfl, fun _ => rfl⟩
    obtain ⟨w1, hs, hh⟩ := key
    obtain ⟨w2, h2⟩ := ih (h.step hs).1 (by
      intro b hb
      rcases hf b (List.mem_cons_of_mem _ hb) with hb | ⟨s, hb, h0⟩
      · exact .inl hb
      · exact .inr ⟨s, hb, by rw [hh]; exact h0⟩)
    exact ⟨w2, by simp [World.run, hs, h2]⟩

/-- Destroying a client is always defined if somebody else holds the channel or no stream uses the native channel; and afterwards
nothing undefined happens as long as the user neither uses the client nor has kept references to streams. -/
theorem C87_safe_partial {th : Nat} {es : List Ev} {c : Client} {t : List Obs} (h : (Client.new th).run es = some (c, t))
    (kept : Bool) (hk : kept = true ∨ ∀ a s, Running t a s → (view t).owner a ≠ some (s, .native)) :
    ∃ w o, World.step ⟨c, true⟩ (.destroy kept) = some (w, o) ∧
      ∀ acts : List Act, (∀ a ∈ acts, Foreign a ∨ ∃ s, (a = .ev (.abort s) ∨ a = .ev (.drop s)) ∧ (c.streams s).held = 0) →
        ∃ w', w.run acts = some (w', []) := by
  have hr := Rel.reach h
  have hd : ∃ w o, World.step ⟨c, true⟩ (.destroy kept) = some (w, o) := by
    simp only [World.step, if_true, Client.destroy]
    rw [if_neg]
    · exact ⟨_, _, rfl⟩
    · simp only [Bool.and_eq_true, Bool.not_eq_true', List.any_eq_true, List.mem_range, not_and, not_exists]
      intro hkept a ha
      rcases hk with hk | hk
      · rw [hk] at hkept; cases hkept
      · intro hw
        simp only [Client.working, Client.running, Bool.and_eq_true, beq_iff_eq] at hw
        obtain ⟨⟨⟨h1, -⟩, h2⟩, -⟩ := hw
        obtain ⟨h4, -, h6⟩ := hr.owner a ha
        refine hk a (c.attempts a).stream ⟨_, h4, by rw [h6, h1]; rfl⟩ ?_
        rw [h4, h2]
  obtain ⟨w, o, hd⟩ := hd
  refine ⟨w, o, hd, ?_⟩
  intro acts ha
  refine (ended_destroy h hd).safe ?_
  intro a hm
  rcases ha a hm with hf | ⟨s, hs, h0⟩
  · exact .inl hf
  · refine .inr ⟨s, hs, ?_⟩
    rw [(destroy_eq (step_destroy hd).1).1, destroyed_stream]
    split <;> exact h0

/-- What is missing: a reference to a stream that the user keeps is useless after the destruction of the client. Whatever happens,
`abort()` is undefined then, and so is giving up the last reference, which does not need any further use of the stream. -/
theorem C87_reference_violated {th : Nat} {es : List Ev} {c : Client} {t : List Obs} (h : (Client.new th).run es = some (c, t))
    {kept : Bool} {w : World} {o : List Obs} (hd : World.step ⟨c, true⟩ (.destroy kept) = some (w, o)) {s : Nat}
    (hs : 0 < (c.streams s).held) :
    w.run [.ev (.abort s)] = none ∧ w.run (List.replicate (c.streams s).held (.ev (.drop s))) = none := by
  have hr := Rel.reach h
  have he := ended_destroy h hd
  have hheld : (w.client.streams s).held = (c.streams s).held := by
    rw [(destroy_eq (step_destroy hd).1).1, destroyed_stream]
    split <;> rfl
  constructor
  · simp only [World.run, World.step, he.living, Bool.false_eq_true, if_false, Client.after, hheld, hs, if_true,
      he.deleted_of_held (by rw [hheld]; exact hs), Option.map_none, Option.bind_none]
  · obtain ⟨n, hn⟩ : ∃ n, (c.streams s).held = n + 1 := ⟨(c.streams s).held - 1, by omega⟩
    rw [hn] at hheld ⊢
    clear hd hn hs hr
    induction n generalizing w with
    | zero =>
      simp only [List.replicate, World.run, World.step, he.living, Bool.false_eq_true, if_false, Client.after, hheld,
        he.deleted_of_held (by rw [hheld]; omega), if_true, and_self, Nat.zero_add, Nat.lt_add_one, Option.map_none, Option.bind_none]
    | succ n ih =>
      rw [List.replicate_succ, World.run]
      cases hs1 : w.step (.ev (.drop s)) with
      | none => rfl
      | some r =>
        obtain ⟨w1, o1⟩ := r
        have he1 := (he.step hs1).1
        have : (w1.client.streams s).held = n + 1 := by
          simp only [World.step, he.living, Bool.false_eq_true, if_false, Client.after, hheld] at hs1
          rw [if_pos (by omega), if_neg (by omega)] at hs1
          cases hs1
          simp [update]
        simp only [Option.bind_some]
        rw [ih he1 this]
        rfl

/-- The shortest such program: subscribe, destroy the client, let the returned pointer go out of scope. -/
theorem C87_scope_violated (kept : Bool) :
    (World.new 1).run [.ev (.attach .http2 1 1), .ev (.subscribe "m" [1] (some 7)), .destroy kept, .ev (.drop 0)] = none := by
  cases kept <;> decide +kernel

/-- Also missing: if only the client holds a native channel and a stream is running, the destruction itself is undefined, because the
worker thread goes on using the channel. With a channel that is held elsewhere the same program is defined. -/
theorem C87_native_channel_violated :
    (World.new 1).run [.ev (.attach .native 1 1), .ev (.subscribe "m" [1] (some 7)), .destroy false] = none ∧
    ((World.new 1).run [.ev (.attach .native 1 1), .ev (.subscribe "m" [1] (some 7)), .destroy true]).map (·.2) =
      some [.subscribed "m" [1] (some 7) 0, .started 0 0 .native, .cancelled 0, .deleted 0] := by
  constructor <;> decide +kernel

/-! ### When exactly the destruction is undefined -/

/-- The worker thread of request `a` has come to its end while the request was running: the network side ended. -/
def Spec.Reported (th : Nat) (es : List Ev) (a : Nat) : Prop :=
  ∃ es1 cause es2 c1 t1 s, es = es1 ++ .net a (.close cause) :: es2 ∧ (Client.new th).run es1 = some (c1, t1) ∧ Running t1 a s

theorem run_append (c : Client) (es es' : List Ev) :
    c.run (es ++ es') = (c.run es).bind fun r => (r.1.run es').map fun q => (q.1, r.2 ++ q.2) := by
  induction es generalizing c with
  | nil => simp [Client.run]
  | cons e es ih =>
    simp only [List.cons_append, Client.run]
    cases c.step e with
    | none => rfl
    | some r =>
      simp only [Option.bind_some, ih]
      cases r.1.run es with
      | none => rfl
      | some q =>
        simp only [Option.bind_some, Option.map_some]
        cases q.1.run es' <;> simp

/-- What a step leaves alone: requests that exist keep stream and kind, are not connected again, and, except for `b`, their queues. -/
structure Keeps (b : Option Nat) (c c' : Client) : Prop where
  attempts : c.nAttempts ≤ c'.nAttempts
  streams : c.nStreams ≤ c'.nStreams
  deleted : ∀ s, s < c.nStreams → (c.streams s).deleted = true → (c'.streams s).deleted = true
  same : ∀ a, a < c.nAttempts → (c'.attempts a).stream = (c.attempts a).stream ∧ (c'.attempts a).kind = (c.attempts a).kind ∧
    ((c'.attempts a).connected = true → (c.attempts a).connected = true)
  queue : ∀ a, a < c.nAttempts → b ≠ some a → (c'.attempts a).queue = (c.attempts a).queue
  fresh : ∀ a, c.nAttempts ≤ a → a < c'.nAttempts → (c'.attempts a).queue = []

theorem Keeps.refl (b : Option Nat) (c : Client) : Keeps b c c :=
  ⟨Nat.le_refl _, Nat.le_refl _, fun _ _ h => h, fun _ _ => ⟨rfl, rfl, id⟩, fun _ _ _ => rfl, fun a h h' => by omega⟩

theorem Keeps.trans {b : Option Nat} {c c' c'' : Client} (h : Keeps b c c') (h' : Keeps none c' c'') : Keeps b c c'' := by
  refine ⟨Nat.le_trans h.attempts h'.attempts, Nat.le_trans h.streams h'.streams, ?_, ?_, ?_, ?_⟩
  · intro s hs hd
    exact h'.deleted s (Nat.lt_of_lt_of_le hs h.streams) (h.deleted s hs hd)
  · intro a ha
    obtain ⟨x1, x2, x3⟩ := h.same a ha
    obtain ⟨y1, y2, y3⟩ := h'.same a (Nat.lt_of_lt_of_le ha h.attempts)
    exact ⟨y1.trans x1, y2.trans x2, fun hc => x3 (y3 hc)⟩
  · intro a ha hb
    rw [h'.queue a (Nat.lt_of_lt_of_le ha h.attempts) (by simp), h.queue a ha hb]
  · intro a ha ha'
    by_cases hlt : a < c'.nAttempts
    · rw [h'.queue a hlt (by simp), h.fresh a ha hlt]
    · exact h'.fresh a (by omega) ha'

theorem keeps_start (c : Client) (s : Nat) (k : Kind) : Keeps none c (c.start s k).1 := by
  refine ⟨Nat.le_succ _, Nat.le_refl _, fun _ _ h => h, ?_, ?_, ?_⟩
  · intro a ha
    simp [Client.start, update, Nat.ne_of_lt ha]
  · intro a ha _
    simp [Client.start, update, Nat.ne_of_lt ha]
  · intro a ha ha'
    simp only [Client.start] at ha'
    have : a = c.nAttempts := by omega
    simp [Client.start, update, this]

theorem keeps_emitFinished (c : Client) (s : Nat) : Keeps none c (c.emitFinished s).1 := by
  have hf : ∀ x, ((c.onFinished s).streams x).deleted = (c.streams x).deleted := by
    intro x
    simp only [Client.onFinished]
    split
    · simp only [update]
      split
      · rename_i h; rw [h]
      · rfl
    · rfl
  have h1 : (c.onFinished s).attempts = c.attempts ∧ (c.onFinished s).nAttempts = c.nAttempts ∧ (c.onFinished s).nStreams = c.nStreams := by
    simp only [Client.onFinished]
    split <;> exact ⟨rfl, rfl, rfl⟩
  obtain ⟨h1, h2, h3⟩ := h1
  refine ⟨?_, ?_, ?_, ?_, ?_, ?_⟩
  · simp [Client.emitFinished, Client.onAbort, h2]
  · simp [Client.emitFinished, Client.onAbort, h3]
  · intro x _ hd
    simp only [Client.emitFinished, Client.onAbort, hf]
    exact hd
  · intro a _
    simp only [Client.emitFinished, Client.onAbort, h1]
    split
    · exact ⟨rfl, rfl, fun h => by cases h⟩
    · exact ⟨rfl, rfl, id⟩
  · intro a _ _
    simp only [Client.emitFinished, Client.onAbort, h1]
    split <;> rfl
  · intro a ha ha'
    simp only [Client.emitFinished, Client.onAbort, h2] at ha'
    omega

theorem keeps_emitError (c : Client) (s : Nat) (code : Http2.StatusCode) : Keeps none c (c.emitError s code).1 := by
  simp only [Client.emitError]
  split
  · exact ⟨Nat.le_refl _, Nat.le_refl _, fun _ _ h => h, fun _ _ => ⟨rfl, rfl, id⟩, fun _ _ _ => rfl, fun a h h' => by simp at h'; omega⟩
  · exact Keeps.refl _ _

/-- A change of one stream object that does not bring it back. -/
theorem keeps_stream (c : Client) (s : Nat) (o : Obj) (h : (c.streams s).deleted = true → o.deleted = true) :
    Keeps none c { c with streams := update c.streams s o } := by
  refine ⟨Nat.le_refl _, Nat.le_refl _, ?_, fun _ _ => ⟨rfl, rfl, id⟩, fun _ _ _ => rfl, fun a h h' => by simp at h'; omega⟩
  intro x _ hd
  simp only [update]
  split
  · rename_i e; subst e; exact h hd
  · exact hd

theorem keeps_handler (c : Client) (s : Nat) (d : Bytes) : Keeps none c (c.handler s d).1 := keeps_stream c s _ id

theorem keeps_close (c : Client) (a : Nat) (cause : Close) (b : Option Nat) : Keeps b c (c.close a cause).1 := by
  have h0 : Keeps b c { c with attempts := update c.attempts a { c.attempts a with connected := false } } := by
    refine ⟨Nat.le_refl _, Nat.le_refl _, fun _ _ h => h, ?_, ?_, fun a h h' => by simp at h'; omega⟩
    · intro x _
      simp only [update]
      split
      · rename_i e; subst e; exact ⟨rfl, rfl, fun h => by cases h⟩
      · exact ⟨rfl, rfl, id⟩
    · intro x _ _
      simp only [update]
      split
      · rename_i e; subst e; rfl
      · rfl
  refine h0.trans ?_
  simp only [Client.close]
  cases hk : (c.attempts a).kind <;> cases cause <;> simp only
  · exact keeps_start _ _ _
  · exact keeps_emitError _ _ _
  · split
    · exact keeps_emitFinished _ _
    · exact keeps_emitError _ _ _
  · exact Keeps.refl _ _
  · exact Keeps.refl _ _
  · split
    · exact Keeps.refl _ _
    · exact keeps_emitError _ _ _

/-- A change of the queue of one request. -/
theorem keeps_queue (c : Client) (a : Nat) (q : List Item) :
    Keeps (some a) c { c with attempts := update c.attempts a { c.attempts a with queue := q } } := by
  refine ⟨Nat.le_refl _, Nat.le_refl _, fun _ _ h => h, ?_, ?_, fun a h h' => by simp at h'; omega⟩
  · intro x _
    simp only [update]
    split
    · rename_i e; subst e; exact ⟨rfl, rfl, id⟩
    · exact ⟨rfl, rfl, id⟩
  · intro x _ hx
    simp only [update]
    rw [if_neg]
    intro e; exact hx (by rw [e])

theorem keeps_abortAll (n : Nat) : ∀ (c c' : Client) (it : Nat) (o : List Obs), c.abortAll it n = some (c', o) → Keeps none c c' := by
  induction n with
  | zero => intro c c' it o h; cases h; exact Keeps.refl _ _
  | succ n ih =>
    intro c c' it o h
    simp only [Client.abortAll] at h
    split at h
    · cases h
    · rename_i s _
      obtain ⟨⟨c1, o1⟩, h1, h2⟩ := Option.map_eq_some_iff.1 h
      cases h2
      exact (keeps_emitFinished c s).trans (ih _ _ _ _ h1)

theorem keeps_channel (c : Client) (k : Option Kind) : Keeps none c { c with channel := k } :=
  ⟨Nat.le_refl _, Nat.le_refl _, fun _ _ h => h, fun _ _ => ⟨rfl, rfl, id⟩, fun _ _ _ => rfl, fun a h h' => by simp at h'; omega⟩

/-- The request whose queue an event can change. -/
def touched : Ev → Option Nat
  | .net a _ => some a
  | .loop a => some a
  | _ => none

theorem keeps_step {c c' : Client} {e : Ev} {o : List Obs} (h : c.step e = some (c', o)) : Keeps (touched e) c c' := by
  cases e with
  | attach k x y =>
    simp only [Client.step, Client.attachChannel] at h
    split at h
    · cases h; exact Keeps.refl _ _
    · obtain ⟨⟨c1, o1⟩, h1, h2⟩ := Option.bind_eq_some_iff.1 h
      obtain ⟨⟨c2, o2⟩, h3, h4⟩ := Option.map_eq_some_iff.1 h2
      cases h4
      exact ((keeps_abortAll _ _ _ _ _ h1).trans (keeps_channel _ _)).trans (keeps_abortAll _ _ _ _ _ h3)
  | subscribe m x y =>
    simp only [Client.step, Option.some.injEq] at h
    simp only [Client.subscribe] at h
    split at h
    · cases h; exact Keeps.refl _ _
    · split at h
      · cases h
        exact keeps_stream _ _ _ id
      · cases h
        have h1 : Keeps none c { c with streams := update c.streams c.nStreams ⟨m, x, addHandler [] y, [], true, 1, false⟩, nStreams := c.nStreams + 1 } := by
          refine ⟨Nat.le_refl _, Nat.le_succ _, ?_, fun _ _ => ⟨rfl, rfl, id⟩, fun _ _ _ => rfl, fun a h h' => by simp at h'; omega⟩
          intro s hs hd
          simp only [update, if_neg (Nat.ne_of_lt hs)]
          exact hd
        have h2 := h1.trans (keeps_start _ c.nStreams ‹_›)
        exact ⟨h2.attempts, h2.streams, h2.deleted, h2.same, h2.queue, h2.fresh⟩
  | net a i =>
    simp only [Client.step] at h
    split at h
    · simp only [Option.some.injEq] at h
      cases hk : (c.attempts a).kind <;> cases i <;> simp only [Client.net, hk] at h
      · split at h
        · cases h; exact (Keeps.refl (some a) c).trans (keeps_handler _ _ _)
        · cases h; exact Keeps.refl _ _
      · split at h
        · rw [← show (c.close a _).1 = c' from congrArg Prod.fst h]; exact keeps_close _ _ _ _
        · cases h; exact Keeps.refl _ _
      · split at h
        · cases h
          have := keeps_queue c a ((c.attempts a).queue ++ [.data ‹_›])
          simp only [hk] at this
          exact this
        · cases h; exact Keeps.refl _ _
      · cases h
        have := keeps_queue c a ((c.attempts a).queue ++ [.close ‹_›])
        simp only [hk] at this
        exact this
    · cases h; exact Keeps.refl _ _
  | loop a =>
    simp only [Client.step] at h
    split at h
    · simp only [Option.some.injEq, Client.loop] at h
      split at h
      · cases h; exact Keeps.refl _ _
      · split at h
        · split at h
          · cases h; exact (keeps_queue c a _).trans (keeps_handler _ _ _)
          · cases h; exact keeps_queue _ _ _
        · split at h
          · rw [← show (Client.close _ a _).1 = c' from congrArg Prod.fst h]
            exact (keeps_queue c a _).trans (keeps_close _ _ _ _)
          · cases h; exact keeps_queue _ _ _
    · cases h; exact Keeps.refl _ _
  | timer s =>
    simp only [Client.step, Client.fire] at h
    have h1 : ∀ l, Keeps none c { c with timers := l } := fun l =>
      ⟨Nat.le_refl _, Nat.le_refl _, fun _ _ h => h, fun _ _ => ⟨rfl, rfl, id⟩, fun _ _ _ => rfl, fun a h h' => by simp at h'; omega⟩
    split at h
    · split at h
      · split at h
        · cases h
        · cases h; exact (h1 _).trans (keeps_start _ _ _)
      · cases h; exact h1 _
    · cases h; exact Keeps.refl _ _
  | abort s =>
    simp only [Client.step] at h
    split at h
    · simp only [Option.some.injEq] at h
      rw [← show (c.emitFinished s).1 = c' from congrArg Prod.fst h]; exact keeps_emitFinished _ _
    · cases h; exact Keeps.refl _ _
  | drop s =>
    simp only [Client.step] at h
    split at h
    · cases h; exact keeps_stream _ _ _ id
    · cases h; exact Keeps.refl _ _
  | reap s =>
    simp only [Client.step] at h
    split at h
    · cases h; exact keeps_stream _ _ _ fun _ => rfl
    · cases h; exact Keeps.refl _ _

/-- The posted end of a worker thread. -/
def isClose : Item → Bool
  | .close _ => true
  | .data _ => false

theorem working_iff (c : Client) (a : Nat) : c.working a = true ↔ (c.attempts a).connected = true ∧ (c.attempts a).kind = .native ∧
    (c.streams (c.attempts a).stream).deleted = false ∧ (c.attempts a).queue.any isClose = false := by
  have hq : c.working a = (c.running a && (c.attempts a).kind == .native && !(c.attempts a).queue.any isClose) := by
    simp only [Client.working]
    congr 1
    generalize (c.attempts a).queue = q
    induction q with
    | nil => rfl
    | cons i q ih => cases i <;> simp [isClose, ih]
  simp only [hq, Client.running, Bool.and_eq_true, Bool.or_eq_true, beq_iff_eq, Bool.not_eq_true', Bool.not_eq_eq_eq_not,
    Bool.not_true]
  constructor
  · rintro ⟨⟨⟨h1, h2⟩, h3⟩, h4⟩
    refine ⟨h1, h3, ?_, h4⟩
    rcases h2 with h2 | h2
    · rw [h3] at h2; cases h2
    · exact h2
  · rintro ⟨h1, h2, h3, h4⟩
    exact ⟨⟨⟨h1, .inr h3⟩, h2⟩, h4⟩

theorem reported_mono {th : Nat} {es : List Ev} {a : Nat} (h : Reported th es a) (e : Ev) : Reported th (es ++ [e]) a := by
  obtain ⟨es1, cause, es2, c1, t1, s, rfl, h1, h2⟩ := h
  exact ⟨es1, cause, es2 ++ [e], c1, t1, s, by simp, h1, h2⟩

theorem reported_snoc {th : Nat} {es : List Ev} {e : Ev} {a : Nat} (h : Reported th (es ++ [e]) a) :
    Reported th es a ∨ ∃ cause c t s, e = .net a (.close cause) ∧ (Client.new th).run es = some (c, t) ∧ Running t a s := by
  obtain ⟨es1, cause, es2, c1, t1, s, he, h1, h2⟩ := h
  rcases List.eq_nil_or_concat es2 with rfl | ⟨es3, e', rfl⟩
  · right
    have := List.append_inj' he rfl
    obtain ⟨rfl, h3⟩ := this
    cases h3
    exact ⟨cause, c1, t1, s, rfl, h1, h2⟩
  · left
    have h3 : es ++ [e] = (es1 ++ .net a (.close cause) :: es3) ++ [e'] := by rw [he]; simp
    obtain ⟨rfl, h4⟩ := List.append_inj' h3 rfl
    exact ⟨es1, cause, es3, c1, t1, s, rfl, h1, h2⟩

/-- What the queue of a running request of the native channel says about the past. -/
def Posted (th : Nat) (es : List Ev) (c : Client) : Prop :=
  ∀ a, a < c.nAttempts → (c.attempts a).connected = true → (c.attempts a).kind = .native →
    (c.streams (c.attempts a).stream).deleted = false → ((c.attempts a).queue.any isClose = true ↔ Reported th es a)

theorem snoc_induction {P : List Ev → Prop} (h0 : P []) (hs : ∀ es e, P es → P (es ++ [e])) (es : List Ev) : P es := by
  have : ∀ n (es : List Ev), es.length = n → P es := by
    intro n
    induction n with
    | zero => intro es h; rw [List.length_eq_zero_iff] at h; rw [h]; exact h0
    | succ n ih =>
      intro es h
      rcases List.eq_nil_or_concat es with rfl | ⟨es', e, rfl⟩
      · cases h
      · simp only [List.concat_eq_append, List.length_append, List.length_cons, List.length_nil] at h
        rw [List.concat_eq_append]
        exact hs _ _ (ih _ (by omega))
  exact this _ _ rfl

theorem posted {th : Nat} (es : List Ev) : ∀ {c : Client} {t : List Obs}, (Client.new th).run es = some (c, t) → Posted th es c := by
  induction es using snoc_induction with
  | h0 => intro c t h a ha; simp only [Client.run] at h; cases h; simp [Client.new] at ha
  | hs es e ih =>
    intro c' t' h a ha hconn hkind hdel
    rw [run_append] at h
    obtain ⟨⟨c, t⟩, hc, h2⟩ := Option.bind_eq_some_iff.1 h
    obtain ⟨⟨c2, t2⟩, h3, h4⟩ := Option.map_eq_some_iff.1 h2
    cases h4
    simp only [Client.run, Option.bind_eq_some_iff, Option.map_eq_some_iff] at h3
    obtain ⟨⟨c3, o⟩, hstep, ⟨c4, o4⟩, h5, h6⟩ := h3
    cases h5
    cases h6
    have hr := Rel.reach hc
    have hk := keeps_step hstep
    by_cases hlt : a < c.nAttempts
    · obtain ⟨hs, hkd, hcn⟩ := hk.same a hlt
      have hcn := hcn hconn
      rw [hkd] at hkind
      have hd : (c.streams (c.attempts a).stream).deleted = false := by
        cases hd : (c.streams (c.attempts a).stream).deleted with
        | false => rfl
        | true => rw [hs, hk.deleted _ (hr.owner a hlt).2.1 hd] at hdel; cases hdel
      have hih := ih hc a hlt hcn hkind hd
      have hrun : Running t a (c.attempts a).stream := (hr.running_iff a _).mpr ⟨hcn, rfl, hlt⟩
      by_cases ht : touched e = some a
      · cases e with
        | net b i =>
          simp only [touched, Option.some.injEq] at ht
          subst ht
          simp only [Client.step, hlt, if_true, Option.some.injEq] at hstep
          cases i with
          | data d =>
            simp only [Client.net, hkind, hcn, hd, Bool.not_false, Bool.and_self, if_true] at hstep
            cases hstep
            simp only [update, if_true, List.any_append, List.any_cons, List.any_nil, isClose, Bool.or_false]
            rw [hih]
            constructor
            · exact fun h => reported_mono h _
            · intro h
              rcases reported_snoc h with h | ⟨cause, _, _, _, h, _⟩
              · exact h
              · cases h
          | close cause =>
            simp only [Client.net, hkind] at hstep
            cases hstep
            simp only [update, if_true, List.any_append, List.any_cons, isClose, Bool.true_or, Bool.or_true, true_iff]
            exact ⟨es, cause, [], c, t, _, rfl, hc, hrun⟩
        | loop b =>
          simp only [touched, Option.some.injEq] at ht
          subst ht
          have hR : Reported th (es ++ [.loop b]) b ↔ Reported th es b := by
            constructor
            · intro h
              rcases reported_snoc h with h | ⟨cause, _, _, _, h, _⟩
              · exact h
              · cases h
            · exact fun h => reported_mono h _
          rw [hR, ← hih]
          simp only [Client.step, hlt, if_true, Option.some.injEq, Client.loop] at hstep
          cases hq : (c.attempts b).queue with
          | nil => rw [hq] at hstep; cases hstep; rw [hq]
          | cons i rest =>
            rw [hq] at hstep
            cases i with
            | data d =>
              simp only [hd, Bool.not_false, if_true] at hstep
              cases hstep
              simp [Client.handler, update, isClose]
            | close cause =>
              simp only [hcn, hd, Bool.not_false, Bool.and_self, if_true] at hstep
              exfalso
              have hcl : ∀ (c0 : Client), (c0.attempts b).kind = .native → ((c0.close b cause).1.attempts b).connected = false := by
                intro c0 hk0
                simp only [Client.close, hk0]
                cases cause <;> simp only [update, if_true]
                split
                · simp
                · simp only [Client.emitError]
                  split <;> simp
              have hE := congrArg (fun r : Client × List Obs => (r.1.attempts b).connected) hstep
              simp only at hE
              rw [← hE, hcl _ (by simpa [update] using hkind)] at hconn
              cases hconn
        | _ => cases ht
      · rw [hk.queue a hlt ht, hih]
        constructor
        · exact fun h => reported_mono h _
        · intro h
          rcases reported_snoc h with h | ⟨cause, _, _, _, rfl, _⟩
          · exact h
          · exact absurd rfl ht
    · rw [hk.fresh a (by omega) ha]
      simp only [List.any_nil, Bool.false_eq_true, false_iff]
      intro hrep
      have hno : ∀ es1 cause es2 c1 t1 s, es ++ [e] = es1 ++ .net a (.close cause) :: es2 → (Client.new th).run es1 = some (c1, t1) →
          ¬ Running t1 a s := by
        intro es1 cause es2 c1 t1 s he h1 hrun
        have hlt1 := ((Rel.reach h1).running_iff a s).mp hrun |>.2.2
        have hle : c1.nAttempts ≤ c.nAttempts := by
          obtain ⟨es3, rfl⟩ : ∃ es3, es = es1 ++ es3 := by
            rcases List.eq_nil_or_concat es2 with rfl | ⟨es3, e', rfl⟩
            · obtain ⟨h, _⟩ := List.append_inj' he rfl
              exact ⟨[], by simp [h]⟩
            · have h3 : es ++ [e] = (es1 ++ .net a (.close cause) :: es3) ++ [e'] := by rw [he]; simp
              obtain ⟨h, _⟩ := List.append_inj' h3 rfl
              exact ⟨_, h⟩
          rw [run_append, h1] at hc
          simp only [Option.bind_some, Option.map_eq_some_iff] at hc
          obtain ⟨⟨c5, o5⟩, h5, h6⟩ := hc
          cases h6
          have : ∀ (es : List Ev) (c c' : Client) (o : List Obs), c.run es = some (c', o) → c.nAttempts ≤ c'.nAttempts := by
            intro es
            induction es with
            | nil => intro c c' o h; simp only [Client.run] at h; cases h; exact Nat.le_refl _
            | cons e es ih =>
              intro c c' o h
              simp only [Client.run, Option.bind_eq_some_iff, Option.map_eq_some_iff] at h
              obtain ⟨⟨c2, o2⟩, h2, ⟨c3, o3⟩, h3, h4⟩ := h
              cases h4
              exact Nat.le_trans (keeps_step h2).attempts (ih _ _ _ h3)
          exact this _ _ _ _ h5
        omega
      obtain ⟨es1, cause, es2, c1, t1, s, he, h1, h2⟩ := hrep
      exact hno _ _ _ _ _ _ he h1 h2

/-- **When exactly the destruction is undefined**: if nobody else holds the channel and there is a request of the native channel that is
running, for a stream object that exists, and whose worker thread has not come to its end. -/
theorem C87_channel {th : Nat} {es : List Ev} {c : Client} {t : List Obs} (h : (Client.new th).run es = some (c, t)) (kept : Bool) :
    World.step ⟨c, true⟩ (.destroy kept) = none ↔
      kept = false ∧ ∃ a s, Running t a s ∧ (view t).owner a = some (s, .native) ∧ Obs.deleted s ∉ t ∧ ¬ Reported th es a := by
  have hr := Rel.reach h
  have hg : ∀ s, s < c.nStreams → ((c.streams s).deleted = false ↔ Obs.deleted s ∉ t) := by
    intro s hs
    rw [← view_gone, hr.gone s hs]
    cases (c.streams s).deleted <;> simp
  have hw : (List.range c.nAttempts).any c.working = true ↔
      ∃ a s, Running t a s ∧ (view t).owner a = some (s, .native) ∧ Obs.deleted s ∉ t ∧ ¬ Reported th es a := by
    simp only [List.any_eq_true, List.mem_range, working_iff]
    constructor
    · rintro ⟨a, ha, h1, h2, h3, h4⟩
      obtain ⟨h5, h6, _⟩ := hr.owner a ha
      refine ⟨a, _, (hr.running_iff a _).mpr ⟨h1, rfl, ha⟩, by rw [h5, h2], (hg _ h6).mp h3, ?_⟩
      rw [← posted es h a ha h1 h2 h3, h4]
      simp
    · rintro ⟨a, s, h1, h2, h3, h4⟩
      obtain ⟨x1, rfl, x3⟩ := (hr.running_iff a s).mp h1
      obtain ⟨h5, h6, _⟩ := hr.owner a x3
      rw [h2, Option.some.injEq, Prod.mk.injEq] at h5
      refine ⟨a, x3, x1, h5.2.symm, (hg _ h6).mpr h3, ?_⟩
      rw [← posted es h a x3 x1 h5.2.symm ((hg _ h6).mpr h3)] at h4
      simpa using h4
  rw [← hw]
  simp only [World.step, if_true, Client.destroy, Option.map_eq_none_iff]
  cases kept <;> cases (List.range c.nAttempts).any c.working <;> simp

/-- With and without the end of the worker thread. -/
example :
    (World.new 1).run [.ev (.attach .native 1 1), .ev (.subscribe "m" [1] (some 7)), .ev (.net 0 (.data [5])), .destroy false] = none ∧
    ((World.new 1).run [.ev (.attach .native 1 1), .ev (.subscribe "m" [1] (some 7)), .ev (.net 0 (.data [5])),
        .ev (.net 0 (.close (.status Http2.Status.Ok))), .destroy false]).isSome = true := by
  constructor <;> decide +kernel

/-- An example of the hypotheses: two streams, one of them waiting for its timer, the other running with a message in the event loop;
the destruction stops the running one, deletes both, and the message, the timer and further network events have no effect. -/
example :
    ((World.new 1).run [.ev (.attach .native 1 1), .ev (.subscribe "m" [1] (some 7)), .ev (.subscribe "n" [2] (some 8)),
        .ev (.net 0 (.close (.status Http2.Status.Internal))), .ev (.loop 0), .ev (.net 1 (.data [5])), .ev (.drop 0), .ev (.drop 1)]).map (·.2) =
      some [.subscribed "m" [1] (some 7) 0, .started 0 0 .native, .subscribed "n" [2] (some 8) 1, .started 1 1 .native,
        .closed 0, .failed 0 Http2.Status.Internal, .clientFailed Http2.Status.Internal, .emitted 1 [5]] ∧
    ((World.new 1).run [.ev (.attach .native 1 1), .ev (.subscribe "m" [1] (some 7)), .ev (.subscribe "n" [2] (some 8)),
        .ev (.net 0 (.close (.status Http2.Status.Internal))), .ev (.loop 0), .ev (.net 1 (.data [5])), .ev (.drop 0), .ev (.drop 1),
        .destroy true, .ev (.loop 1), .ev (.timer 0), .ev (.net 1 (.close (.status Http2.Status.Ok))), .ev (.loop 1)]).map (·.2) =
      some [.subscribed "m" [1] (some 7) 0, .started 0 0 .native, .subscribed "n" [2] (some 8) 1, .started 1 1 .native,
        .closed 0, .failed 0 Http2.Status.Internal, .clientFailed Http2.Status.Internal, .emitted 1 [5],
        .cancelled 1, .deleted 0, .deleted 1] := by
  constructor <;> decide +kernel

end QtPb.Stream
