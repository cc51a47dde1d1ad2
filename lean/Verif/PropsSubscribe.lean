import Verif.Subscribe
/-
C89: callbacks of asynchronous calls, in whatever thread the calls are made.
-/
namespace QtPb.Subscribe
open Http2

/-! ### Specification -/

/-- What the one who subscribed has to be told about the end of a request: the callback and the data that can be read in it. -/
def Told : Outcome → Sig × Bytes
  | .ok d => (.finished, d)
  | .failed c => (.error c, [])

/-! ### Steps of one call -/

/-- What can happen to a call that is not aborted. -/
inductive Move (free : Prop) : Reply → Reply → Prop
  | same (r) : Move free r r
  | handle (r) : free → r.stage = .posted → Move free r { r with stage := .returned }
  | half (r) : r.stage = .returned → Move free r { r with stage := .half }
  | subscribed (r) : r.stage = .half → Move free r { r with stage := .subscribed }
  | finish (r o) : free → r.stage ≠ .posted → r.ended = none → Move free r (r.finish o)
  | deliver (r : Reply) (s rest) : r.stage = .subscribed → r.queue = s :: rest →
      Move free r { r with queue := rest, ran := r.ran ++ [(s, r.data)] }

theorem at_get (w : World) (i j : Nat) (f : Reply → Reply) : (w.at i f)[j]? = if i = j then (w[j]?).map f else w[j]? := by
  unfold World.at
  rw [List.getElem?_modify]
  cases w[j]? <;> by_cases h : i = j <;> simp [h]

/-- The call `j` before and after a step in which it is not aborted. -/
theorem step_at {w : World} {e : Ev} {j : Nat} {r : Reply} (he : e ≠ .abort j) (h : (step w e)[j]? = some r) :
    (w[j]? = none ∧ ∃ own, r = newReply own) ∨ ∃ r0, w[j]? = some r0 ∧ Move (busy w = false) r0 r := by
  have key : ∀ (i : Nat) (f : Reply → Reply), (∀ r0, i = j → w[j]? = some r0 → Move (busy w = false) r0 (f r0)) → (w.at i f)[j]? = some r →
      ∃ r0, w[j]? = some r0 ∧ Move (busy w = false) r0 r := by
    intro i f hf h
    rw [at_get] at h
    by_cases hij : i = j
    · rw [if_pos hij] at h
      cases hw : w[j]? with
      | none => rw [hw] at h; cases h
      | some r0 => rw [hw, Option.map_some, Option.some.injEq] at h; exact ⟨r0, rfl, h ▸ hf r0 hij hw⟩
    · rw [if_neg hij] at h; exact ⟨r, h, .same r⟩
  cases e with
  | call own =>
    simp only [step] at h
    split at h
    · exact .inr ⟨r, h, .same r⟩
    · by_cases hj : j < w.length
      · rw [List.getElem?_append_left hj] at h; exact .inr ⟨r, h, .same r⟩
      · rw [List.getElem?_append_right (Nat.le_of_not_lt hj)] at h
        cases hd : j - w.length with
        | zero => rw [hd] at h; simp only [List.getElem?_cons_zero, Option.some.injEq] at h; exact .inl ⟨List.getElem?_eq_none (Nat.le_of_not_lt hj), own, h.symm⟩
        | succ n => rw [hd] at h; simp at h
  | handle i =>
    simp only [step] at h
    cases hb : busy w with
    | true => rw [hb] at h; exact .inr ⟨r, h, .same r⟩
    | false =>
      rw [hb] at h
      have := key i _ (fun r0 _ _ => by
        by_cases hs : r0.stage = .posted
        · rw [if_pos hs]; exact .handle r0 hb hs
        · rw [if_neg hs]; exact .same r0) h
      rw [hb] at this; exact .inr this
  | connect i =>
    refine .inr (key i _ (fun r0 _ _ => ?_) h)
    cases hs : r0.stage with
    | posted => exact .same r0
    | returned => exact .half r0 hs
    | half => exact .subscribed r0 hs
    | subscribed => exact .same r0
  | answer i o =>
    simp only [step] at h
    cases hb : busy w with
    | true => rw [hb] at h; exact .inr ⟨r, h, .same r⟩
    | false =>
      rw [hb] at h
      have := key i _ (fun r0 _ _ => by
        by_cases hs : r0.stage ≠ .posted ∧ r0.ended = none
        · rw [if_pos hs]; exact .finish r0 o hb hs.1 hs.2
        · rw [if_neg hs]; exact .same r0) h
      rw [hb] at this; exact .inr this
  | abort i =>
    simp only [step] at h
    split at h
    · exact .inr ⟨r, h, .same r⟩
    · exact .inr (key i _ (fun r0 hij _ => absurd (by rw [hij]) he) h)
  | deliver i =>
    refine .inr (key i _ (fun r0 _ _ => ?_) h)
    by_cases hs : r0.stage = .subscribed
    · rw [if_pos hs]
      cases hq : r0.queue with
      | nil => exact .same r0
      | cons s rest => exact .deliver r0 s rest hs hq
    · rw [if_neg hs]; exact .same r0

/-- A call of the client's own thread that has not subscribed keeps the thread busy. -/
theorem subscribed_of_free {w : World} {j : Nat} {r : Reply} (hb : busy w = false) (h : w[j]? = some r) (ho : r.own = true) :
    r.stage = .subscribed := by
  unfold busy at hb
  rw [List.any_eq_false] at hb
  have := hb r (List.mem_of_getElem? h)
  rw [ho] at this
  simpa using this

/-- What holds of a call that is not aborted. -/
structure Good (r : Reply) : Prop where
  posted : r.stage = .posted → r.ended = none ∧ r.own = false
  /-- nothing before the end -/
  before : r.ended = none → r.queue = [] ∧ r.ran = []
  data : ∀ o, r.ended = some o → r.data = (Told o).2
  own : ∀ o, r.ended = some o → r.own = true → r.stage = .subscribed ∧ r.queue = [] ∧ r.ran = [Told o]
  other : ∀ o, r.ended = some o → r.own = false →
    (r.queue = [] ∧ r.ran = []) ∨ (r.queue = [(Told o).1] ∧ r.ran = []) ∨ (r.queue = [] ∧ r.ran = [Told o])

theorem Good.new (own : Bool) : Good (newReply own) := by
  cases own <;> constructor <;> simp [newReply]

theorem Good.move {free : Prop} {r s : Reply} (h : Good r) (hm : Move free r s) (hf : free → r.own = true → r.stage = .subscribed) :
    Good s := by
  cases hm with
  | same => exact h
  | handle hfree hs =>
    have hp := h.posted hs
    exact ⟨by simp, h.before, h.data, fun o ho hown => (by rw [hp.1] at ho; cases ho), h.other⟩
  | half hs =>
    exact ⟨by simp, h.before, h.data, fun o ho hown => (by have := (h.own o ho hown).1; rw [hs] at this; cases this), h.other⟩
  | subscribed hs =>
    exact ⟨by simp, h.before, h.data, fun o ho hown => (by have := (h.own o ho hown).1; rw [hs] at this; cases this), h.other⟩
  | finish o hfree hs he =>
    obtain ⟨hq, hr⟩ := h.before he
    cases o <;>
    · by_cases hown : r.own = true
      · have hsub := hf hfree hown
        constructor <;> simp_all [Reply.finish, Reply.setData, Reply.emit, Reply.connected, Told]
      · have hown : r.own = false := by simpa using hown
        cases hst : r.stage <;> constructor <;> simp_all [Reply.finish, Reply.setData, Reply.emit, Reply.connected, Told]
  | deliver x rest hs hq =>
    have hne : r.ended ≠ none := fun hn => by have := (h.before hn).1; rw [hq] at this; cases this
    refine ⟨fun hp => (by rw [hs] at hp; cases hp), fun hn => absurd hn hne, h.data, fun o ho hown => ?_, fun o ho hown => ?_⟩
    · have := (h.own o ho hown).2.1; rw [hq] at this; cases this
    · rcases h.other o ho hown with hx | hx | hx
      · rw [hq] at hx; cases hx.1
      · rw [hq] at hx
        obtain ⟨h1, h2⟩ := hx
        injection h1 with h1 h3
        right; right
        refine ⟨h3, ?_⟩
        show r.ran ++ [(x, r.data)] = _
        rw [h2, h.data o ho, h1]; rfl
      · rw [hq] at hx; cases hx.1

theorem Good.run {j : Nat} (es : List Ev) (w : World) (hw : ∀ r : Reply, w[j]? = some r → Good r) (hes : Ev.abort j ∉ es) :
    ∀ r : Reply, (run w es)[j]? = some r → Good r := by
  induction es generalizing w with
  | nil => exact hw
  | cons e es ih =>
    refine ih (step w e) (fun r hr => ?_) (fun h => hes (List.mem_cons_of_mem _ h))
    rcases step_at (fun h => hes (h ▸ List.mem_cons_self)) hr with ⟨_, own, rfl⟩ | ⟨r0, h0, hm⟩
    · exact Good.new own
    · exact (hw r0 h0).move hm fun hb => subscribed_of_free hb h0

theorem good {j : Nat} {es : List Ev} {r : Reply} (hes : Ev.abort j ∉ es) (h : (run [] es)[j]? = some r) : Good r :=
  Good.run es [] (fun _ h => by cases h) hes r h

/-! ### C89 -/

/-- Whatever thread a call is made in, and however the threads interleave, its subscriber is told nothing before the request has ended,
at most one thing, and nothing but the end of this request, with the data of this request. -/
theorem C89_once {j : Nat} {es : List Ev} {r : Reply} (hes : Ev.abort j ∉ es) (h : (run [] es)[j]? = some r) :
    r.ran = [] ∨ ∃ o, r.ended = some o ∧ r.ran = [Told o] := by
  have g := good hes h
  cases he : r.ended with
  | none => exact .inl (g.before he).2
  | some o =>
    cases ho : r.own with
    | true => exact .inr ⟨o, rfl, (g.own o he ho).2.2⟩
    | false =>
      rcases g.other o he ho with hx | hx | hx
      · exact .inl hx.2
      · exact .inl hx.2
      · exact .inr ⟨o, rfl, hx.2⟩

/-- **C89, what holds.** For a call made in the thread of the client the subscriber has been told about the end as soon as the request
has ended, exactly once.

What is missing: calls made in other threads, see `C89_other_partial` and `C89_lost_violated`; calls that are aborted after they have
ended (C34). -/
theorem C89_own_partial {j : Nat} {es : List Ev} {r : Reply} (hes : Ev.abort j ∉ es) (h : (run [] es)[j]? = some r)
    (hown : r.own = true) : r.ran = (match r.ended with | none => [] | some o => [Told o]) := by
  have g := good hes h
  cases he : r.ended with
  | none => exact (g.before he).2
  | some o => exact (g.own o he hown).2.2

/-- What happens to a call after its subscriber was told, or a signal for it is queued. -/
structure Late (o : Outcome) (r : Reply) : Prop where
  other : r.own = false
  sub : r.stage = .subscribed
  ended : r.ended = some o
  data : r.data = (Told o).2
  told : (r.queue = [(Told o).1] ∧ r.ran = []) ∨ (r.queue = [] ∧ r.ran = [Told o])

theorem Late.move {free : Prop} {o : Outcome} {r s : Reply} (h : Late o r) (hm : Move free r s) : Late o s := by
  cases hm with
  | same => exact h
  | handle _ hs => rw [h.sub] at hs; cases hs
  | half hs => rw [h.sub] at hs; cases hs
  | subscribed hs => rw [h.sub] at hs; cases hs
  | finish _ _ _ he => rw [h.ended] at he; cases he
  | deliver x rest hs hq =>
    refine ⟨h.other, h.sub, h.ended, h.data, ?_⟩
    rcases h.told with hx | hx
    · rw [hq] at hx
      obtain ⟨h1, h2⟩ := hx
      injection h1 with h1 h3
      right
      refine ⟨h3, ?_⟩
      show r.ran ++ [(x, r.data)] = _
      rw [h2, h.data, h1]; rfl
    · rw [hq] at hx; cases hx.1

theorem run_append (w : World) (a b : List Ev) : run w (a ++ b) = run (run w a) b := List.foldl_append

theorem length_step (w : World) (e : Ev) : w.length ≤ (step w e).length := by
  have hat : ∀ (i : Nat) (f : Reply → Reply), (w.at i f).length = w.length := fun i f => by unfold World.at; exact List.length_modify ..
  cases e <;> simp only [step] <;> (repeat' split) <;> simp [hat]

theorem length_run (w : World) (es : List Ev) : w.length ≤ (run w es).length := by
  induction es generalizing w with
  | nil => exact Nat.le_refl _
  | cons e es ih => exact Nat.le_trans (length_step w e) (ih (step w e))

/-- A property of one call that no event but an abort of it can end. -/
theorem keeps {P : Reply → Prop} (hP : ∀ (free : Prop) (r s : Reply), P r → Move free r s → P s) {j : Nat} (es : List Ev) (w : World)
    (hw : ∃ r : Reply, w[j]? = some r ∧ P r) (hes : Ev.abort j ∉ es) : ∃ r : Reply, (run w es)[j]? = some r ∧ P r := by
  induction es generalizing w with
  | nil => exact hw
  | cons e es ih =>
    obtain ⟨r0, h0, p0⟩ := hw
    refine ih (step w e) ?_ (fun h => hes (List.mem_cons_of_mem _ h))
    have hlt : j < w.length := (List.getElem?_eq_some_iff.1 h0).1
    have hlt' : j < (step w e).length := Nat.lt_of_lt_of_le hlt (length_step w e)
    refine ⟨(step w e)[j], List.getElem?_eq_getElem hlt', ?_⟩
    rcases step_at (fun h => hes (h ▸ List.mem_cons_self)) (List.getElem?_eq_getElem hlt') with ⟨hn, _⟩ | ⟨r1, h1, hm⟩
    · rw [h0] at hn; cases hn
    · rw [h0, Option.some.injEq] at h1
      subst h1
      exact hP _ _ _ p0 hm

/-- The call `j` is over by `o` in `w` and its subscriber will be told once and for all. -/
theorem late {j : Nat} {w : World} {o : Outcome} (es : List Ev) (h : ∃ r : Reply, w[j]? = some r ∧ Late o r) (hes : Ev.abort j ∉ es) :
    ∃ r : Reply, (run w es)[j]? = some r ∧ Late o r := keeps (fun _ _ _ h hm => h.move hm) es w h hes

/-- **C89, what holds for calls made in other threads.** If the request ends after the caller has subscribed, then whatever happens
afterwards, the subscriber has been told about the end exactly once, or will be by the next turn of the event loop of its thread. -/
theorem C89_other_partial {j : Nat} {es es' : List Ev} {o : Outcome} {r : Reply} (hes : Ev.abort j ∉ es) (hes' : Ev.abort j ∉ es')
    (h : (run [] es)[j]? = some r) (hown : r.own = false) (hsub : r.stage = .subscribed) (hend : r.ended = none)
    (hfree : busy (run [] es) = false) :
    ∃ s : Reply, (run [] (es ++ .answer j o :: es'))[j]? = some s ∧
      (s.ran = [Told o] ∨
        s.ran = [] ∧ ∃ t : Reply, (run [] (es ++ .answer j o :: es' ++ [.deliver j]))[j]? = some t ∧ t.ran = [Told o]) := by
  have g := (good hes h).before hend
  have h1 : (run [] (es ++ [.answer j o]))[j]? = some (r.finish o) := by
    rw [run_append]
    show (step (run [] es) (.answer j o))[j]? = _
    have hc : r.stage ≠ .posted ∧ r.ended = none := ⟨by rw [hsub]; decide, hend⟩
    simp only [step, hfree, Bool.false_eq_true, if_false, at_get, if_true, h, Option.map_some, if_pos hc]
  have h2 : Late o (r.finish o) := by
    cases o <;> constructor <;> simp_all [Reply.finish, Reply.setData, Reply.emit, Reply.connected, Told]
  obtain ⟨s, hs, hl⟩ := late es' ⟨_, h1, h2⟩ hes'
  have he : run [] (es ++ .answer j o :: es') = run (run [] (es ++ [.answer j o])) es' := by
    rw [← run_append]; congr 1; simp
  rw [he]
  refine ⟨s, hs, ?_⟩
  rcases hl.told with hx | hx
  · right
    refine ⟨hx.2, ?_⟩
    rw [run_append, he]
    refine ⟨{ s with queue := [], ran := s.ran ++ [((Told o).1, s.data)] }, ?_, ?_⟩
    · show (step _ (.deliver j))[j]? = _
      simp only [step, at_get, if_true, hs, Option.map_some, if_pos hl.sub, hx.1]
    · show s.ran ++ [((Told o).1, s.data)] = _
      rw [hx.2, hl.data]; rfl
  · exact .inl hx.2

/-- A call of another thread that has ended when nobody had subscribed: nothing is queued and no callback has run. -/
structure Lost (r : Reply) : Prop where
  ended : r.ended ≠ none
  queue : r.queue = []
  ran : r.ran = []

theorem Lost.move {free : Prop} {r s : Reply} (h : Lost r) (hm : Move free r s) : Lost s := by
  cases hm with
  | same => exact h
  | handle _ hs => exact ⟨h.ended, h.queue, h.ran⟩
  | half hs => exact ⟨h.ended, h.queue, h.ran⟩
  | subscribed hs => exact ⟨h.ended, h.queue, h.ran⟩
  | finish _ _ _ he => exact absurd he h.ended
  | deliver x rest hs hq => rw [h.queue] at hq; cases hq

/-- C89 is violated for calls made in other threads: the answer may arrive between the return of the call and the subscription. Then
the callbacks never run, whatever happens afterwards, although the caller subscribes right after the call. -/
theorem C89_lost_violated (o : Outcome) (es : List Ev) (hes : Ev.abort 0 ∉ es) :
    ∃ r : Reply, (run [] ([.call false, .handle 0, .answer 0 o, .connect 0, .connect 0] ++ es))[0]? = some r ∧
      r.ended = some o ∧ r.stage = .subscribed ∧ r.ran = [] := by
  rw [run_append]
  have h := keeps (P := fun r => Lost r ∧ r.ended = some o ∧ r.stage = .subscribed) (j := 0)
    (fun _ r s h hm => ⟨h.1.move hm, by
      cases hm with
      | same => exact h.2
      | handle _ hs => rw [h.2.2] at hs; cases hs
      | half hs => rw [h.2.2] at hs; cases hs
      | subscribed hs => rw [h.2.2] at hs; cases hs
      | finish _ _ _ he => rw [h.2.1] at he; cases he
      | deliver x rest hs hq => exact h.2⟩) es
    (run [] [.call false, .handle 0, .answer 0 o, .connect 0, .connect 0])
    (by cases o <;> exact ⟨_, rfl, ⟨Option.some_ne_none _, rfl, rfl⟩, rfl, rfl⟩) hes
  obtain ⟨r, hr, hl, h1, h2⟩ := h
  exact ⟨r, hr, h1, h2, hl.ran⟩

/-- The same for a failure that arrives between the two statements of `subscribe`: the subscriber is connected to the end of the call,
and the failure is not reported to it. -/
theorem C89_between_violated (c : StatusCode) (es : List Ev) (hes : Ev.abort 0 ∉ es) :
    ∃ r : Reply, (run [] ([.call false, .handle 0, .connect 0, .answer 0 (.failed c), .connect 0] ++ es))[0]? = some r ∧
      r.ended = some (.failed c) ∧ r.stage = .subscribed ∧ r.ran = [] := by
  rw [run_append]
  have h := keeps (P := fun r => Lost r ∧ r.ended = some (.failed c) ∧ r.stage = .subscribed) (j := 0)
    (fun _ r s h hm => ⟨h.1.move hm, by
      cases hm with
      | same => exact h.2
      | handle _ hs => rw [h.2.2] at hs; cases hs
      | half hs => rw [h.2.2] at hs; cases hs
      | subscribed hs => rw [h.2.2] at hs; cases hs
      | finish _ _ _ he => rw [h.2.1] at he; cases he
      | deliver x rest hs hq => exact h.2⟩) es
    (run [] [.call false, .handle 0, .connect 0, .answer 0 (.failed c), .connect 0])
    ⟨_, rfl, ⟨Option.some_ne_none _, rfl, rfl⟩, rfl, rfl⟩ hes
  obtain ⟨r, hr, hl, h1, h2⟩ := h
  exact ⟨r, hr, h1, h2, hl.ran⟩

/-- Even a subscriber that is told about the answer may read something else: if the call is aborted while the signal is queued, the
callback for the answer runs and `read` decodes no data, whatever the server has answered; the callback for the error runs as well. -/
theorem C89_abort_violated (d : Bytes) :
    ∃ r : Reply, (run [] [.call false, .handle 0, .connect 0, .connect 0, .answer 0 (.ok d), .abort 0, .deliver 0, .deliver 0])[0]? =
      some r ∧ r.ended = some (.ok d) ∧ r.ran = [(.finished, []), (.error Status.Aborted, [])] :=
  ⟨_, rfl, rfl, rfl⟩

/-- Two calls, one of each kind, that overlap: both subscribers are told, each about its own call. -/
example : (run [] [.call false, .call true, .connect 1, .handle 0, .connect 1, .handle 0, .connect 0, .connect 0, .answer 1 (.ok [1, 2]),
    .answer 0 (.failed Status.NotFound), .deliver 0]).map (·.ran) = [[(.error Status.NotFound, [])], [(.finished, [1, 2])]] := by
  decide

/-- Hypotheses of `C89_other_partial`. -/
example : ∃ r : Reply, (run [] [.call false, .handle 0, .connect 0, .connect 0, .call true, .connect 1, .connect 1])[0]? = some r ∧
    r.own = false ∧ r.stage = .subscribed ∧ r.ended = none ∧
    busy (run [] [.call false, .handle 0, .connect 0, .connect 0, .call true, .connect 1, .connect 1]) = false :=
  ⟨_, rfl, rfl, rfl, rfl, rfl⟩

end QtPb.Subscribe
