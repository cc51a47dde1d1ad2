import Verif.RepliesLemmas
/-
C68: life of the replies of calls. C69: callbacks of generated methods.
-/
namespace QtPb.Replies
open Http2

/-! ### C68 -/

/-- **C68**, partial. Whatever methods are called, whatever channels answer, and however the user copies, drops, reads and aborts: when
the user uses only what they hold and destroys the client after the replies they hold, nothing undefined happens, and the replies they
hold exist. Missing: a client that is destroyed first (`C68_client_first_violated`), QML methods without a channel
(`C69_qml_no_channel_violated`). -/
theorem C68_safe_partial (channel : Bool) (es : List Ev)
    (h : Follows (fun w e => CanDo w e ∧ ClientLast w e ∧ QmlNeedsChannel w e) (start channel) es) :
    ∃ w, run (start channel) es = .ok w ∧ ∀ i r, isReply w i r → 0 < r.user → r.alive = true := by
  have main : ∀ (es : List Ev) (w : World), (∀ i r, isReply w i r → Good r) →
      Follows (fun w e => CanDo w e ∧ ClientLast w e ∧ QmlNeedsChannel w e) w es →
      ∃ w', run w es = .ok w' ∧ ∀ i r, isReply w' i r → Good r := by
    intro es
    induction es with
    | nil => intro w hw _; exact ⟨w, rfl, hw⟩
    | cons e es ih =>
      intro w hw hf
      cases hf with
      | cons _ _ _ hp hrest =>
        obtain ⟨v, hv⟩ := good_progress hp.1 hp.2.2 hw
        obtain ⟨w', h1, h2⟩ := ih v (good_step hv hp.1 hp.2.1 hw) (hrest v hv)
        exact ⟨w', by show (do let v ← step w e; run v es) = _; rw [hv]; exact h1, h2⟩
  obtain ⟨w, h1, h2⟩ := main es (start channel) (by intro i r hr; simp [isReply, start] at hr) h
  refine ⟨w, h1, fun i r hr hu => ?_⟩
  cases ha : r.alive with
  | true => rfl
  | false =>
    have := (refs_zero.1 ((h2 i r hr).dead ha)).1
    omega

theorem method_kept {i : Nat} {r r' : Reply} {e : Ev} (h : Next i r r' e) : r'.method = r.method := by
  cases e <;> dsimp only [Next] at h
  case finish => split at h; exact (release_fields h).1; rw [h]
  case fail => split at h; exact (release_fields h).1; rw [h]
  case abort => split at h; exact (release_fields h.2).1; rw [h]
  case drop => split at h; exact (release_fields h).1; rw [h]
  case destroyContext => split at h; exact (release_fields h).1; rw [h]
  case copy => split at h <;> rw [h]
  case loop => split at h <;> rw [h]
  all_goals rw [h]

theorem client_kept {i : Nat} {r r' : Reply} {e : Ev} (h : Next i r r' e) (hc : r.client = false) : r'.client = false := by
  cases e <;> dsimp only [Next] at h
  case finish => split at h; exact (release_fields h).2.2.2.1; rw [h, hc]
  case fail => split at h; exact (release_fields h).2.2.2.1; rw [h, hc]
  case abort => split at h; exact (release_fields h.2).2.2.2.1; rw [h, hc]
  case drop => split at h; exact (release_fields h).2.2.2.1.trans hc; rw [h, hc]
  case destroyContext => split at h; exact (release_fields h).2.2.2.1.trans hc; rw [h, hc]
  case copy => split at h <;> rw [h]; exact hc; exact hc
  case loop => split at h <;> rw [h]; exact hc
  case destroyClient => rw [h]
  all_goals rw [h, hc]

theorem sub_kept {i : Nat} {r r' : Reply} {e : Ev} (h : Next i r r' e) (hc : r.sub = false) : r'.sub = false := by
  cases e <;> dsimp only [Next] at h
  case finish => split at h; exact (release_fields h).2.2.2.2.1.trans hc; rw [h, hc]
  case fail => split at h; exact (release_fields h).2.2.2.2.1.trans hc; rw [h, hc]
  case abort => split at h; exact (release_fields h.2).2.2.2.2.1.trans hc; rw [h, hc]
  case drop => split at h; exact (release_fields h).2.2.2.2.1.trans hc; rw [h, hc]
  case destroyContext => split at h; exact (release_fields h).2.2.2.2.1; rw [h, hc]
  case copy => split at h <;> rw [h]; exact hc; exact hc
  case loop => split at h <;> rw [h]; exact hc
  case destroyClient => rw [h]
  all_goals rw [h, hc]

/-- A reply that exists and has no owner is waiting for the event loop. -/
theorem free_kept {i : Nat} {r r' : Reply} {e : Ev} (h : Next i r r' e) (hf : r.alive = true → r.refs = 0 → r.pending = true) :
    r'.alive = true → r'.refs = 0 → r'.pending = true := by
  have rel : ∀ {q q' : Reply}, q.release = .ok q' → q'.alive = true → q'.refs = 0 → q'.pending = true :=
    fun hq _ h0 => (release_fields hq).2.2.2.2.2.2.1 h0
  cases e <;> dsimp only [Next] at h
  case finish => split at h; exact rel h; rw [h]; exact hf
  case fail => split at h; exact rel h; rw [h]; exact hf
  case abort => split at h; exact rel h.2; rw [h]; exact hf
  case drop => split at h; exact rel h; rw [h]; exact hf
  case destroyContext => split at h; exact rel h; rw [h]; exact hf
  case copy =>
    split at h
    · rw [h]; intro _ h0
      exact absurd (refs_zero.1 h0).1 (by simp)
    · rw [h]; exact hf
  case loop => split at h <;> rw [h]; exact (nomatch ·); exact hf
  case destroyClient => rw [h]; exact (nomatch ·)
  all_goals rw [h]; exact hf

/-- Existing replies keep their number. -/
theorem run_at {P : Reply → Prop} (hk : ∀ i r r' e, Next i r r' e → P r → P r') :
    ∀ es (w w' : World) i r, run w es = .ok w' → isReply w i r → P r → ∃ r', isReply w' i r' ∧ P r' := by
  intro es
  induction es with
  | nil => intro w w' i r h hr hp; cases h; exact ⟨r, hr, hp⟩
  | cons e es ih =>
    intro w w' i r h hr hp
    obtain ⟨v, hv, hrest⟩ := run_cons h
    obtain ⟨r1, h1, hn, _⟩ := step_at hv hr
    exact ih v w' i r1 hrest h1 (hk i r r1 e hn hp)

theorem start_inv {P : Reply → Prop} {channel : Bool}
    (hnew : ∀ m : Method, P ⟨m, true, false, if m = .async then 1 else 0, true, m ≠ .async, []⟩)
    (hstep : ∀ i r r' e, Next i r r' e → P r → P r') {es : List Ev} {w : World}
    (h : run (start channel) es = .ok w) : ∀ i r, isReply w i r → P r :=
  run_inv P hnew hstep es (start channel) w (by intro i r hr; simp [isReply, start] at hr) h

/-- **C68**: replies of the method without a callback are not leaked. After an answer, a failure or an abort of the call, once the
user holds no pointer to the reply, the next turn of the event loop leaves no such object. -/
theorem C68_freed {channel : Bool} {before after : List Ev} {e : Ev} {i : Nat} {w w' w'' : World} {r r' r'' : Reply}
    (h1 : run (start channel) before = .ok w) (hr : isReply w i r) (hm : r.method = .async) (he : signals i e = true)
    (h2 : run w (e :: after) = .ok w') (hr' : isReply w' i r') (hu : r'.user = 0)
    (h3 : run w' [.loop] = .ok w'') (hr'' : isReply w'' i r'') : r''.alive = false := by
  have hsub : r.sub = false := by
    have := start_inv (P := fun r => r.method = .async → r.sub = false) (fun m hm => by simp only at hm; simp [hm])
      (fun i r r' e hn hp hm => sub_kept hn (hp (by rw [← method_kept hn]; exact hm))) h1 i r hr
    exact this hm
  have hfree := start_inv (P := fun r => r.alive = true → r.refs = 0 → r.pending = true) (fun m => (good_new m).free)
    (fun i r r' e hn hp => free_kept hn hp) h1 i r hr
  have hdead := start_inv (P := fun r => r.alive = false → r.client = false) (fun m => (nomatch ·))
    (fun i r r' e hn hp => by
      intro ha
      cases hra : r.alive with
      | false => exact client_kept hn (hp hra)
      | true =>
        cases e <;> dsimp only [Next] at hn
        case finish => split at hn; exact (release_fields hn).2.2.2.1; rw [hn, hra] at ha; cases ha
        case fail => split at hn; exact (release_fields hn).2.2.2.1; rw [hn, hra] at ha; cases ha
        case abort => split at hn; exact (release_fields hn.2).2.2.2.1; rw [hn, hra] at ha; cases ha
        case drop =>
          split at hn
          · have := (release_fields hn).2.1; rw [ha] at this; simp only [hra] at this; cases this
          · rw [hn, hra] at ha; cases ha
        case destroyContext =>
          split at hn
          · have := (release_fields hn).2.1; rw [ha] at this; simp only [hra] at this; cases this
          · rw [hn, hra] at ha; cases ha
        case copy =>
          split at hn <;> rw [hn] at ha
          · simp only [hra] at ha; cases ha
          · rw [hra] at ha; cases ha
        case loop =>
          split at hn <;> rw [hn] at ha ⊢
          · rw [hra] at ha; cases ha
        case destroyClient => rw [hn]
        all_goals (rw [hn, hra] at ha; cases ha)) h1 i r hr
  obtain ⟨v, hv, hrest⟩ := run_cons h2
  obtain ⟨q, hq, hn, _⟩ := step_at hv hr
  have hqc : q.client = false := by
    cases e <;> simp only [signals, decide_eq_true_eq, Bool.false_eq_true] at he
    case finish j d k =>
      dsimp only [Next] at hn
      cases ha : r.alive with
      | true => rw [if_pos ⟨he, ha⟩] at hn; exact (release_fields hn).2.2.2.1
      | false => rw [if_neg (by rw [ha]; simp)] at hn; rw [hn]; exact hdead ha
    case fail j d =>
      dsimp only [Next] at hn
      cases ha : r.alive with
      | true => rw [if_pos ⟨he, ha⟩] at hn; exact (release_fields hn).2.2.2.1
      | false => rw [if_neg (by rw [ha]; simp)] at hn; rw [hn]; exact hdead ha
    case abort j =>
      dsimp only [Next] at hn
      rw [if_pos he] at hn; exact (release_fields hn.2).2.2.2.1
  obtain ⟨q', hq', hc, hs, hf⟩ := run_at
    (P := fun r => r.client = false ∧ r.sub = false ∧ (r.alive = true → r.refs = 0 → r.pending = true))
    (fun i r r' e hn hp => ⟨client_kept hn hp.1, sub_kept hn hp.2.1, free_kept hn hp.2.2⟩) after v w' i q hrest hq
    ⟨hqc, sub_kept hn hsub, free_kept hn hfree⟩
  have hrr : r' = q' := Option.some.inj (hr'.symm.trans hq')
  subst hrr
  obtain ⟨u, hu1, hu2⟩ := run_cons h3
  cases hu2
  obtain ⟨q2, hq2, hn2, _⟩ := step_at hu1 hr'
  rw [show w''.replies[i]? = some r'' from hr''] at hq2
  cases hq2
  dsimp only [Next] at hn2
  rw [hn2]
  cases ha : r'.alive with
  | false => split <;> simp [ha]
  | true =>
    have := hf ha (refs_zero.2 ⟨hu, hc, hs⟩)
    simp [this]

theorem sub_stays {i : Nat} {r r' : Reply} {e : Ev} (h : Next i r r' e) (he : ends i e = false)
    (hs : r.sub = true ∧ r.alive = true ∧ r.pending = false) : r'.sub = true ∧ r'.alive = true ∧ r'.pending = false := by
  have rel : ∀ {q q' : Reply}, q.release = .ok q' → q.sub = true → q.alive = true → q.pending = false →
      q'.sub = true ∧ q'.alive = true ∧ q'.pending = false := by
    intro q q' hq h1 h2 h3
    rcases release_ok hq with ⟨h0, _, _⟩ | ⟨_, rfl⟩
    · have := (refs_zero.1 h0).2.2; rw [h1] at this; cases this
    · exact ⟨h1, h2, h3⟩
  cases e <;> dsimp only [Next] at h
  case finish => split at h; exact rel h hs.1 hs.2.1 hs.2.2; rw [h]; exact hs
  case fail => split at h; exact rel h hs.1 hs.2.1 hs.2.2; rw [h]; exact hs
  case abort => split at h; exact rel h.2 hs.1 hs.2.1 hs.2.2; rw [h]; exact hs
  case drop => split at h; exact rel h hs.1 hs.2.1 hs.2.2; rw [h]; exact hs
  case destroyContext j =>
    have : ¬ (j = i ∧ r.sub = true) := by
      rintro ⟨rfl, _⟩; simp [ends] at he
    rw [if_neg this] at h; rw [h]; exact hs
  case copy => split at h <;> rw [h] <;> exact hs
  case loop => rw [if_neg (by simp [hs.2.2])] at h; rw [h]; exact hs
  case destroyClient => simp [ends] at he
  all_goals rw [h]; exact hs

theorem run_sub : ∀ es (w w' : World) i r, run w es = .ok w' → isReply w i r → (∀ e ∈ es, ends i e = false) →
    (r.sub = true ∧ r.alive = true ∧ r.pending = false) →
    ∃ r', isReply w' i r' ∧ r'.method = r.method ∧ (r'.sub = true ∧ r'.alive = true ∧ r'.pending = false) := by
  intro es
  induction es with
  | nil => intro w w' i r h hr _ hp; cases h; exact ⟨r, hr, rfl, hp⟩
  | cons e es ih =>
    intro w w' i r h hr he hp
    obtain ⟨v, hv, hrest⟩ := run_cons h
    obtain ⟨r1, h1, hn, _⟩ := step_at hv hr
    obtain ⟨r', h2, h3, h4⟩ := ih v w' i r1 hrest h1 (fun e h => he e (List.mem_cons_of_mem _ h))
      (sub_stays hn (he e List.mem_cons_self) hp)
    exact ⟨r', h2, h3.trans (method_kept hn), h4⟩

/-- From the start: a reply of a method with callbacks exists as long as the receiver and the client do. -/
theorem start_sub {channel : Bool} {es : List Ev} {w : World} {i : Nat} {r : Reply} (h : run (start channel) es = .ok w)
    (hr : isReply w i r) (hm : r.method ≠ .async) (he : ∀ e ∈ es, ends i e = false) :
    r.sub = true ∧ r.alive = true ∧ r.pending = false := by
  have main : ∀ es (w w' : World), run w es = .ok w' → (∀ e ∈ es, ends i e = false) →
      (∀ r, isReply w i r → r.method ≠ .async → r.sub = true ∧ r.alive = true ∧ r.pending = false) →
      ∀ r, isReply w' i r → r.method ≠ .async → r.sub = true ∧ r.alive = true ∧ r.pending = false := by
    intro es
    induction es with
    | nil => intro w w' h _ hp; cases h; exact hp
    | cons e es ih =>
      intro w w' h he hp
      obtain ⟨v, hv, hrest⟩ := run_cons h
      refine ih v w' hrest (fun e h => he e (List.mem_cons_of_mem _ h)) ?_
      intro r1 hr1 hm1
      cases hr : w.replies[i]? with
      | none =>
        obtain ⟨m, _, _, rfl⟩ := step_new hv hr hr1
        simp only at hm1
        simp [hm1]
      | some r =>
        obtain ⟨r2, h2, hn, _⟩ := step_at hv hr
        rw [show v.replies[i]? = some r1 from hr1] at h2
        cases h2
        exact sub_stays hn (he e List.mem_cons_self) (hp r hr (by rw [← method_kept hn]; exact hm1))
  exact main es _ w h he (by intro r hr; simp [isReply, start] at hr) r hr hm

/-- **C68 violated**: the client is destroyed while the user holds a reply. Dropping the pointer, reading and aborting are undefined,
although the user held a shared pointer all the time. -/
theorem C68_client_first_violated :
    (∃ w, run (start true) [.call .async, .destroyClient] = .ok w ∧ ∃ r, isReply w 0 r ∧ r.user = 1) ∧
    run (start true) [.call .async, .destroyClient, .drop 0] = .ub ∧
    run (start true) [.call .async, .destroyClient, .read 0] = .ub ∧
    run (start true) [.call .async, .destroyClient, .abort 0] = .ub ∧
    run (start true) [.call .async, .finish 0 [1] false, .destroyClient, .read 0] = .ub := by
  refine ⟨⟨_, rfl, _, rfl, rfl⟩, rfl, rfl, rfl, rfl⟩

/-- **C68 violated**: replies of the methods with callbacks are leaked. Whatever happens after the answer or the failure, as long
as the receiver and the client exist, the reply exists, although the user holds no pointer to it. -/
theorem C68_callback_leak_violated (m : Method) (hm : m ≠ .async) (es : List Ev) (w : World)
    (he : ∀ e ∈ es, ends 0 e = false) (h : run (start true) (.call m :: .finish 0 [1] false :: .loop :: es) = .ok w) :
    ∃ r, isReply w 0 r ∧ r.alive = true := by
  have h0 : ∃ v, run (start true) [.call m, .finish 0 [1] false, .loop] = .ok v ∧ ∃ r, isReply v 0 r ∧ r.method = m ∧ r.user = 0 := by
    cases m with
    | async => exact absurd rfl hm
    | callback => exact ⟨_, rfl, _, rfl, rfl, rfl⟩
    | qml => exact ⟨_, rfl, _, rfl, rfl, rfl⟩
  obtain ⟨v, hv, r, hr, hrm, _⟩ := h0
  have hrun : run v es = .ok w := by
    have := run_append (start true) [.call m, .finish 0 [1] false, .loop] es
    rw [hv] at this
    exact this.symm.trans h
  have hs := start_sub hv hr (by rw [hrm]; exact hm) (by simp [ends])
  obtain ⟨r', h1, _, h2⟩ := run_sub es v w 0 r hrun hr he hs
  exact ⟨r', h1, h2.2.1⟩

/-! ### C69 -/

theorem said_none {i : Nat} {r : Reply} {e : Ev} (h : signals i e = false) : said i r e = [] := by
  cases e <;> simp only [signals, decide_eq_false_iff_not] at h <;> simp [said, h]

/-- Without a signal of the call no callback of it runs. -/
theorem quiet {i : Nat} : ∀ es (w w' : World), run w es = .ok w' → (∀ e ∈ es, signals i e = false) →
    callbacksOf i w'.log = callbacksOf i w.log := by
  intro es
  induction es with
  | nil => intro w w' h _; cases h; rfl
  | cons e es ih =>
    intro w w' h he
    obtain ⟨v, hv, hrest⟩ := run_cons h
    rw [ih v w' hrest fun e h => he e (List.mem_cons_of_mem _ h)]
    have hse := he e List.mem_cons_self
    cases hr : w.replies[i]? with
    | some r =>
      obtain ⟨r1, h1, hn, hl⟩ := step_at hv hr
      rw [hl, said_none hse, List.append_nil]
    | none =>
      -- no such call yet: what is logged concerns other calls
      have put : ∀ j q l, callbacksOf i ({ w.put j q with log := w.log ++ l } : World).log = callbacksOf i w.log ++ callbacksOf i l :=
        fun j q l => callbacksOf_append i w.log l
      cases e with
      | call m =>
        simp only [step] at hv
        by_cases c1 : w.clientAlive = true
        · by_cases c2 : w.channel = true
          · simp only [c1, c2, if_true, not_true, if_false, Res.ok.injEq] at hv
            subst hv; rfl
          · by_cases c3 : m = .qml
            · simp [c1, c2, c3] at hv
            · simp [c1, c2, c3] at hv
              subst hv
              simp [callbacksOf_append, callbacksOf]
        · simp [c1] at hv
      | finish j d k =>
        simp only [signals, decide_eq_false_iff_not] at hse
        simp only [step] at hv
        cases hj : w.replies[j]? with
        | none => rw [hj] at hv; cases hv; rfl
        | some q =>
          rw [hj] at hv; simp only at hv
          by_cases ha : q.alive = true
          · rw [if_pos ha] at hv
            obtain ⟨q', _, rfl⟩ := finished_ok hv
            rw [put]
            by_cases hsub : q.sub = true <;> simp [hsub, callbacksOf, hse]
          · rw [if_neg ha] at hv; cases hv; rfl
      | fail j c =>
        simp only [signals, decide_eq_false_iff_not] at hse
        simp only [step] at hv
        cases hj : w.replies[j]? with
        | none => rw [hj] at hv; cases hv; rfl
        | some q =>
          rw [hj] at hv; simp only at hv
          by_cases ha : q.alive = true
          · rw [if_pos ha] at hv
            obtain ⟨q', _, rfl⟩ := failed_ok hv
            simp only [callbacksOf_append]
            by_cases hcl : q.client = true <;> by_cases hsub : q.sub = true ∧ q.method = .qml <;>
              simp [hsub, hcl, callbacksOf, hse]
          · rw [if_neg ha] at hv; cases hv; rfl
      | abort j =>
        simp only [signals, decide_eq_false_iff_not] at hse
        simp only [step] at hv
        cases hj : w.replies[j]? with
        | none => rw [hj] at hv; cases hv; rfl
        | some q =>
          rw [hj] at hv; simp only at hv
          by_cases ha : q.alive = true
          · rw [if_pos ha] at hv
            obtain ⟨q', _, rfl⟩ := failed_ok hv
            simp only [callbacksOf_append]
            by_cases hcl : q.client = true <;> by_cases hsub : q.sub = true ∧ q.method = .qml <;>
              simp [hsub, hcl, callbacksOf, hse]
          · rw [if_neg ha] at hv; cases hv
      | copy j =>
        simp only [step] at hv
        cases hj : w.replies[j]? with
        | none => rw [hj] at hv; cases hv; rfl
        | some q => rw [hj] at hv; cases hv; rfl
      | drop j =>
        simp only [step] at hv
        cases hj : w.replies[j]? with
        | none => rw [hj] at hv; cases hv; rfl
        | some q =>
          rw [hj] at hv
          obtain ⟨q', _, hw⟩ := bind_ok hv
          cases hw; rfl
      | read j =>
        simp only [step] at hv
        cases hj : w.replies[j]? with
        | none => rw [hj] at hv; cases hv; rfl
        | some q =>
          rw [hj] at hv; simp only at hv
          by_cases ha : q.alive = true
          · rw [if_pos ha] at hv; cases hv; rfl
          · rw [if_neg ha] at hv; cases hv
      | destroyContext j =>
        simp only [step] at hv
        cases hj : w.replies[j]? with
        | none => rw [hj] at hv; cases hv; rfl
        | some q =>
          rw [hj] at hv; simp only at hv
          by_cases hsub : q.sub = true
          · rw [if_pos hsub] at hv
            obtain ⟨q', _, hw⟩ := bind_ok hv
            cases hw; rfl
          · rw [if_neg hsub] at hv; cases hv; rfl
      | loop => simp only [step, Res.ok.injEq] at hv; subst hv; rfl
      | destroyClient =>
        simp only [step] at hv
        by_cases c1 : w.clientAlive = true
        · rw [if_pos c1] at hv; cases hv; rfl
        · rw [if_neg c1] at hv; cases hv

/-- One signal in a history: the callbacks of the call are those of this signal. -/
theorem one_signal {channel : Bool} {before after : List Ev} {e : Ev} {i : Nat} {w w' : World} {r : Reply}
    (h1 : run (start channel) before = .ok w) (hr : isReply w i r)
    (hb : ∀ e ∈ before, signals i e = false) (ha : ∀ e ∈ after, signals i e = false)
    (h2 : run w (e :: after) = .ok w') : callbacksOf i w'.log = said i r e := by
  obtain ⟨v, hv, hrest⟩ := run_cons h2
  rw [quiet after v w' hrest ha]
  obtain ⟨_, _, _, hl⟩ := step_at hv hr
  rw [hl, quiet before _ w h1 hb]
  rfl

/-- **C69**: the answer of a call made by a method with a callback, when the channel signals once (C34, C70) and receiver and client
exist until then: the callback for the answer runs exactly once, in it the reply holds the data of the answer, and the callback for
errors does not run. -/
theorem C69_answer {channel : Bool} {before after : List Ev} {i : Nat} {d : Bytes} {k : Bool} {w w' : World} {r : Reply}
    (h1 : run (start channel) before = .ok w) (hr : isReply w i r) (hm : r.method ≠ .async)
    (hb : ∀ e ∈ before, signals i e = false ∧ ends i e = false) (ha : ∀ e ∈ after, signals i e = false)
    (h2 : run w (.finish i d k :: after) = .ok w') : callbacksOf i w'.log = [.callback i d] := by
  rw [one_signal h1 hr (fun e h => (hb e h).1) ha h2]
  have hs := start_sub h1 hr hm (fun e h => (hb e h).2)
  simp [said, hs.1, hs.2.1]

/-- **C69**, partial. A failed call made by a QML method, under the same conditions: the callback for errors runs exactly once, with
the status, and the callback for the answer does not run. Missing: the method with a callback in C++ (`C69_error_violated`). -/
theorem C69_failure_partial {channel : Bool} {before after : List Ev} {i : Nat} {c : StatusCode} {w w' : World} {r : Reply}
    (h1 : run (start channel) before = .ok w) (hr : isReply w i r) (hm : r.method = .qml)
    (hb : ∀ e ∈ before, signals i e = false ∧ ends i e = false) (ha : ∀ e ∈ after, signals i e = false)
    (h2 : run w (.fail i c :: after) = .ok w') : callbacksOf i w'.log = [.errorCallback i c] := by
  rw [one_signal h1 hr (fun e h => (hb e h).1) ha h2]
  have hs := start_sub h1 hr (by rw [hm]; decide) (fun e h => (hb e h).2)
  simp [said, hs.1, hs.2.1, hm]

/-- **C69**: methods without a callback run none, and no callback runs before the call is answered. -/
theorem C69_quiet {channel : Bool} {es : List Ev} {i : Nat} {w : World} (h : run (start channel) es = .ok w)
    (he : (∀ e ∈ es, signals i e = false) ∨ ∃ r, isReply w i r ∧ r.method = .async) : callbacksOf i w.log = [] := by
  rcases he with he | ⟨r, hr, hm⟩
  · rw [quiet es _ w h he]; rfl
  · have main : ∀ es (v w : World), run v es = .ok w → (∀ j q, isReply v j q → q.method = .async → q.sub = false) →
        (v.replies[i]? = none → callbacksOf i v.log = []) →
        (∀ q, isReply v i q → q.method = .async → callbacksOf i v.log = []) → ∀ r, isReply w i r → r.method = .async → callbacksOf i w.log = [] := by
      intro es
      induction es with
      | nil => intro v w h _ _ hc; cases h; exact hc
      | cons e es ih =>
        intro v w h hs h0 hc
        obtain ⟨u, hu, hrest⟩ := run_cons h
        have kept : ∀ j q, isReply u j q → q.method = .async → q.sub = false := by
          intro j q hq hm
          cases hr : v.replies[j]? with
          | none =>
            obtain ⟨m, _, _, rfl⟩ := step_new hu hr hq
            simp only at hm; simp [hm]
          | some r =>
            obtain ⟨r2, h2, hn, _⟩ := step_at hu hr
            rw [show u.replies[j]? = some q from hq] at h2
            cases h2
            exact sub_kept hn (hs j r hr (by rw [← method_kept hn]; exact hm))
        cases hv : v.replies[i]? with
        | some q =>
          obtain ⟨q', hq', hn, hl⟩ := step_at hu hv
          refine ih u w hrest kept (by rw [hq']; exact (nomatch ·)) ?_
          intro q2 hq2 hm2
          rw [show u.replies[i]? = some q2 from hq2] at hq'
          cases hq'
          have hqm : q.method = .async := by rw [← method_kept hn]; exact hm2
          rw [hl, hc q hv hqm, List.nil_append]
          have hsub := hs i q hv hqm
          cases e <;> simp [said, hsub]
        | none =>
          have hlog : callbacksOf i u.log = [] := by
            rw [← h0 hv]
            by_cases hse : signals i e = true
            · -- a signal of a call that was not made
              cases e <;> simp only [signals, decide_eq_true_eq, Bool.false_eq_true] at hse
              all_goals
                subst hse
                simp only [step, hv, Res.ok.injEq] at hu
                subst hu; rfl
            · exact quiet [e] v u (by show (do let v ← step v e; run v []) = _; rw [hu]; rfl)
                (by intro e' he'; rw [List.mem_singleton] at he'; subst he'; simpa using hse)
          exact ih u w hrest kept (fun _ => hlog) (fun _ _ _ => hlog)
    exact main es (start channel) w h (by intro j q hq; simp [isReply, start] at hq) (fun _ => rfl) (fun _ _ _ => rfl) r hr hm

/-- **C69 violated**: a failed call made by the method with a callback in C++: no callback ever runs, whatever happens later. -/
theorem C69_error_violated (c : StatusCode) (es : List Ev) (w : World) (he : ∀ e ∈ es, signals 0 e = false)
    (h : run (start true) (.call .callback :: .fail 0 c :: es) = .ok w) : callbacksOf 0 w.log = [] := by
  have h0 : ∃ v, run (start true) [.call .callback] = .ok v ∧ ∃ r, isReply v 0 r ∧ r.method = .callback := ⟨_, rfl, _, rfl, rfl⟩
  obtain ⟨v, hv, r, hr, hm⟩ := h0
  have hrun : run v (.fail 0 c :: es) = .ok w := by
    have := run_append (start true) [.call .callback] (.fail 0 c :: es)
    rw [hv] at this
    exact this.symm.trans h
  rw [one_signal hv hr (by simp [signals]) he hrun]
  simp [said, hm]

/-- **C69 violated**: without a channel the method with a callback never runs its callback: there is no call. -/
theorem C69_no_channel_violated (es : List Ev) (w : World) (he : ∀ e ∈ es, signals 0 e = false)
    (h : run (start false) (.call .callback :: es) = .ok w) :
    w.log.head? = some (.clientError Status.Unknown) ∧ callbacksOf 0 w.log = [] := by
  refine ⟨?_, quiet _ _ w h (by simpa [signals] using he)⟩
  have grow : ∀ es (v w : World) x l, run v es = .ok w → v.log = x :: l → w.log.head? = some x := by
    intro es
    induction es with
    | nil => intro v w x l h hv; cases h; rw [hv]; rfl
    | cons e es ih =>
      intro v w x l h hv
      obtain ⟨u, hu, hrest⟩ := run_cons h
      have : ∃ l', u.log = x :: l' := by
        have app : ∀ l2, ∃ l', v.log ++ l2 = x :: l' := fun l2 => ⟨l ++ l2, by rw [hv]; rfl⟩
        cases e with
        | call m =>
          simp only [step] at hu
          by_cases c1 : v.clientAlive = true
          · by_cases c2 : v.channel = true
            · simp only [c1, c2, if_true, not_true, if_false, Res.ok.injEq] at hu
              subst hu; exact ⟨l, hv⟩
            · by_cases c3 : m = .qml
              · simp [c1, c2, c3] at hu
              · simp [c1, c2, c3] at hu
                subst hu; exact app _
          · simp [c1] at hu
        | finish j d k =>
          simp only [step] at hu
          cases hj : v.replies[j]? with
          | none => rw [hj] at hu; cases hu; exact ⟨l, hv⟩
          | some q =>
            rw [hj] at hu; simp only at hu
            by_cases ha : q.alive = true
            · rw [if_pos ha] at hu
              obtain ⟨q', _, rfl⟩ := finished_ok hu; exact app _
            · rw [if_neg ha] at hu; cases hu; exact ⟨l, hv⟩
        | fail j d =>
          simp only [step] at hu
          cases hj : v.replies[j]? with
          | none => rw [hj] at hu; cases hu; exact ⟨l, hv⟩
          | some q =>
            rw [hj] at hu; simp only at hu
            by_cases ha : q.alive = true
            · rw [if_pos ha] at hu
              obtain ⟨q', _, rfl⟩ := failed_ok hu
              simp only [List.append_assoc]; exact app _
            · rw [if_neg ha] at hu; cases hu; exact ⟨l, hv⟩
        | abort j =>
          simp only [step] at hu
          cases hj : v.replies[j]? with
          | none => rw [hj] at hu; cases hu; exact ⟨l, hv⟩
          | some q =>
            rw [hj] at hu; simp only at hu
            by_cases ha : q.alive = true
            · rw [if_pos ha] at hu
              obtain ⟨q', _, rfl⟩ := failed_ok hu
              simp only [List.append_assoc]; exact app _
            · rw [if_neg ha] at hu; cases hu
        | copy j =>
          simp only [step] at hu
          cases hj : v.replies[j]? with
          | none => rw [hj] at hu; cases hu; exact ⟨l, hv⟩
          | some q => rw [hj] at hu; cases hu; exact ⟨l, hv⟩
        | drop j =>
          simp only [step] at hu
          cases hj : v.replies[j]? with
          | none => rw [hj] at hu; cases hu; exact ⟨l, hv⟩
          | some q => rw [hj] at hu; obtain ⟨q', _, hw⟩ := bind_ok hu; cases hw; exact ⟨l, hv⟩
        | read j =>
          simp only [step] at hu
          cases hj : v.replies[j]? with
          | none => rw [hj] at hu; cases hu; exact ⟨l, hv⟩
          | some q =>
            rw [hj] at hu; simp only at hu
            by_cases ha : q.alive = true
            · rw [if_pos ha] at hu; cases hu; exact ⟨l, hv⟩
            · rw [if_neg ha] at hu; cases hu
        | destroyContext j =>
          simp only [step] at hu
          cases hj : v.replies[j]? with
          | none => rw [hj] at hu; cases hu; exact ⟨l, hv⟩
          | some q =>
            rw [hj] at hu; simp only at hu
            by_cases hsub : q.sub = true
            · rw [if_pos hsub] at hu; obtain ⟨q', _, hw⟩ := bind_ok hu; cases hw; exact ⟨l, hv⟩
            · rw [if_neg hsub] at hu; cases hu; exact ⟨l, hv⟩
        | loop => simp only [step, Res.ok.injEq] at hu; subst hu; exact ⟨l, hv⟩
        | destroyClient =>
          simp only [step] at hu
          by_cases c1 : v.clientAlive = true
          · rw [if_pos c1] at hu; cases hu; exact ⟨l, hv⟩
          · rw [if_neg c1] at hu; cases hu
      obtain ⟨l', hl'⟩ := this
      exact ih u w x l' hrest hl'
  obtain ⟨v, hv, hrest⟩ := run_cons h
  cases hv
  exact grow es _ w _ [] hrest rfl

/-- **C69 violated**: without a channel the methods for QML dereference a null pointer. -/
theorem C69_qml_no_channel_violated (es : List Ev) : run (start false) (.call .qml :: es) = .ub := rfl

/-! ### Cases that meet the hypotheses -/

/-- Three calls; the first is copied, answered, read and dropped twice, the second one fails, the third is kept by its callback. -/
def demo : List Ev :=
  [.call .async, .call .qml, .copy 0, .call .callback, .fail 1 14, .finish 0 [5] false, .read 0, .drop 0, .finish 2 [6] true, .loop, .read 2,
    .drop 0, .loop, .drop 2, .destroyClient]

example : Follows (fun w e => CanDo w e ∧ ClientLast w e ∧ QmlNeedsChannel w e) (start true) demo := by
  refine .cons _ _ _ ⟨rfl, (nomatch ·), (nomatch ·)⟩ fun w h => ?_; cases h
  refine .cons _ _ _ ⟨rfl, (nomatch ·), fun _ => rfl⟩ fun w h => ?_; cases h
  refine .cons _ _ _ ⟨⟨_, rfl, by decide⟩, (nomatch ·), (nomatch ·)⟩ fun w h => ?_; cases h
  refine .cons _ _ _ ⟨rfl, (nomatch ·), (nomatch ·)⟩ fun w h => ?_; cases h
  refine .cons _ _ _ ⟨trivial, (nomatch ·), (nomatch ·)⟩ fun w h => ?_; cases h
  refine .cons _ _ _ ⟨trivial, (nomatch ·), (nomatch ·)⟩ fun w h => ?_; cases h
  refine .cons _ _ _ ⟨⟨_, rfl, by decide⟩, (nomatch ·), (nomatch ·)⟩ fun w h => ?_; cases h
  refine .cons _ _ _ ⟨⟨_, rfl, by decide⟩, (nomatch ·), (nomatch ·)⟩ fun w h => ?_; cases h
  refine .cons _ _ _ ⟨trivial, (nomatch ·), (nomatch ·)⟩ fun w h => ?_; cases h
  refine .cons _ _ _ ⟨trivial, (nomatch ·), (nomatch ·)⟩ fun w h => ?_; cases h
  refine .cons _ _ _ ⟨⟨_, rfl, by decide⟩, (nomatch ·), (nomatch ·)⟩ fun w h => ?_; cases h
  refine .cons _ _ _ ⟨⟨_, rfl, by decide⟩, (nomatch ·), (nomatch ·)⟩ fun w h => ?_; cases h
  refine .cons _ _ _ ⟨trivial, (nomatch ·), (nomatch ·)⟩ fun w h => ?_; cases h
  refine .cons _ _ _ ⟨⟨_, rfl, by decide⟩, (nomatch ·), (nomatch ·)⟩ fun w h => ?_; cases h
  refine .cons _ _ _ ⟨rfl, fun _ i r hr => ?_, (nomatch ·)⟩ fun w h => .nil _
  match i, hr with
  | 0, hr => cases hr; rfl
  | 1, hr => cases hr; rfl
  | 2, hr => cases hr; rfl
  | n + 3, hr => cases hr

/-- C68_freed: the first call of `demo`. -/
example : ∃ w w' r r', run (start true) (demo.take 5) = .ok w ∧ isReply w 0 r ∧ r.method = .async ∧ signals 0 (.finish 0 [5] false) = true ∧
    run w ((demo.drop 5).take 7) = .ok w' ∧ isReply w' 0 r' ∧ r'.user = 0 ∧ r'.alive = true :=
  ⟨_, _, _, _, rfl, rfl, rfl, rfl, rfl, rfl, rfl, rfl⟩

/-- C69: the calls of `demo`. -/
example : ∃ w, run (start true) demo = .ok w ∧ callbacksOf 0 w.log = [] ∧ callbacksOf 1 w.log = [.errorCallback 1 14] ∧
    callbacksOf 2 w.log = [.callback 2 [6]] ∧ w.log.length = 3 := ⟨_, rfl, rfl, rfl, rfl, rfl⟩

end QtPb.Replies
