import Verif.SpecInside
/-
C114: a program may destroy a client in any slot, handler or callback that the client, its calls or its streams call.
-/
namespace QtPb.PropsInside
open QtPb.Inside QtPb.SpecInside

/-! ### What destroying a client leaves -/

theorem dropped_cases (s t : St) : dropped s t = .ok t ∨ dropped s t = .ub := by
  unfold dropped need
  cases s.opHeld <;> cases t.opHeld <;> cases s.netHeld <;> cases t.netHeld <;> cases t.op <;> cases t.net <;>
    first
    | exact Or.inl rfl
    | exact Or.inr rfl

/-- A step is well behaved: it ends or is undefined, and what it leaves satisfies `P`. -/
def Steps (r : Res St) (P : St → Prop) : Prop := r = .ub ∨ ∃ t, r = .ok t ∧ P t

theorem Steps.bind {r : Res St} {f : St → Res St} {P Q : St → Prop} (h : Steps r P) (hf : ∀ t, P t → Steps (f t) Q) : Steps (r >>= f) Q := by
  rcases h with h | ⟨t, h, hp⟩
  · rw [h]; exact Or.inl rfl
  · rw [h]; exact hf t hp

theorem Steps.ok {t : St} {P : St → Prop} (h : P t) : Steps (.ok t) P := Or.inr ⟨t, rfl, h⟩

theorem Steps.needThen {b : Bool} {f : Unit → Res St} {P : St → Prop} (h : Steps (f ()) P) : Steps (need b >>= f) P := by
  cases b
  · exact Or.inl rfl
  · exact h

theorem Steps.imp {r : Res St} {P Q : St → Prop} (h : Steps r P) (hi : ∀ t, P t → Q t) : Steps r Q := by
  rcases h with h | ⟨t, h, hp⟩
  · exact Or.inl h
  · exact Or.inr ⟨t, h, hi t hp⟩

theorem steps_dropped (s t : St) : Steps (dropped s t) (fun u => u = t) := by
  rcases dropped_cases s t with h | h
  · exact Or.inr ⟨t, h, rfl⟩
  · exact Or.inl h

theorem steps_disconnect (fs : List Fn) (s : St) : Steps (disconnect fs s) (fun u => u.op = s.op ∧ u.stream = s.stream) :=
  (steps_dropped s _).imp fun u h => by rw [h]; exact ⟨rfl, rfl⟩

theorem steps_running (f : Fn) (body : St → Res St) (s : St)
    (hb : ∀ s', s'.op = s.op → Steps (body s') (fun u => u.op = s'.op)) : Steps (running f body s) (fun u => u.op = s.op) := by
  unfold running
  refine Steps.bind (hb _ rfl) fun t ht => ?_
  exact (steps_dropped t _).imp fun u h => by rw [h]; exact ht

theorem steps_clientDestroyed (s : St) : Steps (clientDestroyed s) (fun u => u.op = s.op) := by
  unfold clientDestroyed
  cases s.kind
  · dsimp only
    by_cases hc : (s.net && s.connected .destroyed) = true
    · rw [if_pos hc]
      refine Steps.bind (steps_disconnect _ s) fun t ht => Steps.needThen (Steps.ok ?_)
      exact ht.1
    · rw [if_neg hc]; exact Steps.ok rfl
  · dsimp only
    by_cases hc : s.connected .destroyed = true
    · rw [if_pos hc]
      refine steps_running _ _ s fun s' _ => ?_
      refine Steps.bind (steps_disconnect _ s') fun t ht => Steps.needThen (Steps.ok ?_)
      exact ht.1
    · rw [if_neg hc]; exact Steps.ok rfl

theorem steps_deleteOp (s : St) : Steps (deleteOp s) (fun u => u.op = false) := by
  unfold deleteOp
  refine Steps.bind (steps_disconnect _ s) fun t _ => ?_
  by_cases hc : (decide (t.kind = .native) && t.net) = true
  · rw [if_pos hc]
    exact Steps.bind (steps_disconnect _ t) fun u _ => Steps.ok rfl
  · rw [if_neg hc]
    exact Steps.ok rfl

/-- The client and its operation are gone afterwards. -/
theorem steps_destroyClient (s : St) : Steps (destroyClient s) (fun u => u.client = false ∧ u.op = false) := by
  unfold destroyClient
  refine Steps.needThen (Steps.bind (steps_dropped s _) fun t _ => ?_)
  dsimp only
  have tail : ∀ a : St, Steps (do
      let s ← disconnect (if a.stream then [.clientError, .clientFinished, .destroyed] else [.clientError]) a
      let s ← if s.op then deleteOp s else .ok s
      .ok { s with client := false }) (fun u => u.client = false ∧ u.op = false) := by
    intro a
    refine Steps.bind (steps_disconnect _ a) fun b _ => ?_
    by_cases ho : b.op = true
    · rw [if_pos ho]
      exact Steps.bind (steps_deleteOp b) fun c hc => Steps.ok ⟨rfl, hc⟩
    · rw [if_neg ho]
      have ho : b.op = false := by simpa using ho
      exact Steps.ok ⟨rfl, ho⟩
  by_cases hc : (letChannelGo t).stream = true
  · rw [if_pos hc]
    exact Steps.bind (steps_clientDestroyed _) fun a _ => tail a
  · rw [if_neg hc]
    exact tail _

/-! ### Slots: only whether one of them destroys the client matters -/

/-- No slot, or one that destroys the client. -/
def short (b : Bool) : List Act := if b then [.destroy] else []

theorem slots_gone (sender : St → Bool) (as : List Act) (s : St) (h : sender s = false) : slots sender as s = .ok s := by
  cases as with
  | nil => rfl
  | cons a as => unfold slots; rw [h]; rfl

theorem slots_short (sender : St → Bool) (hs : ∀ t : St, t.client = false → t.op = false → sender t = false) (as : List Act) :
    slots sender as = slots sender (short (decide (Act.destroy ∈ as))) := by
  funext s
  by_cases hg : sender s = true
  · induction as generalizing s with
    | nil => rfl
    | cons a as ih =>
      cases a with
      | nothing =>
        have e : decide (Act.destroy ∈ Act.nothing :: as) = decide (Act.destroy ∈ as) := by simp
        rw [e, ← ih s hg]
        show (if sender s then slots sender as s else .ok s) = _
        rw [if_pos hg]
      | destroy =>
        have e : decide (Act.destroy ∈ Act.destroy :: as) = true := by simp
        rw [e]
        show (if sender s then (destroyClient s >>= slots sender as) else .ok s) = (if sender s then (destroyClient s >>= slots sender []) else .ok s)
        rw [if_pos hg, if_pos hg]
        rcases steps_destroyClient s with h | ⟨t, h, hc, ho⟩
        · rw [h]; rfl
        · rw [h]
          show slots sender as t = slots sender [] t
          rw [slots_gone sender as t (hs t hc ho)]
          rfl
  · have hg : sender s = false := by simpa using hg
    rw [slots_gone _ _ _ hg, slots_gone _ _ _ hg]

theorem slots_client (as : List Act) : slots St.client as = slots St.client (short (decide (Act.destroy ∈ as))) :=
  slots_short _ (fun _ h _ => h) as

theorem slots_op (as : List Act) : slots St.op as = slots St.op (short (decide (Act.destroy ∈ as))) :=
  slots_short _ (fun _ _ h => h) as

theorem handlers_none (as : List Act) (h : Act.destroy ∉ as) (s : St) (ho : s.op = true) : handlers as s = .ok s := by
  induction as with
  | nil => rfl
  | cons a as ih =>
    cases a with
    | nothing =>
      show (need s.op >>= fun _ => handlers as s) = _
      rw [ho]
      exact ih (fun hm => h (List.mem_cons_of_mem _ hm))
    | destroy => exact absurd List.mem_cons_self h

theorem handlers_gone (as : List Act) (h : Act.destroy ∈ as) (s : St) (ho : s.op = true) : Steps (handlers as s) (fun t => t.op = false) := by
  induction as with
  | nil => exact nomatch h
  | cons a as ih =>
    cases a with
    | nothing =>
      show Steps (need s.op >>= fun _ => handlers as s) _
      rw [ho]
      exact ih (by simpa using h)
    | destroy =>
      show Steps (need s.op >>= fun _ => destroyClient s >>= handlers as) _
      rw [ho]
      refine Steps.bind (steps_destroyClient s) fun t ht => ?_
      cases as with
      | nil => exact Steps.ok ht.2
      | cons b bs =>
        show Steps (need t.op >>= fun _ => _) _
        rw [ht.2]
        exact Or.inl rfl

/-- The program with no slot, or one that destroys the client, in each place. -/
def norm (p : Program) : Program :=
  { p with
    clientError := short (decide (Act.destroy ∈ p.clientError))
    error := short (decide (Act.destroy ∈ p.error))
    finished := short (decide (Act.destroy ∈ p.finished))
    handlers := short (decide (Act.destroy ∈ p.handlers))
    received := short (decide (Act.destroy ∈ p.received)) }

theorem emitClientError_norm (p : Program) : emitClientError p = emitClientError (norm p) := by
  funext s
  unfold emitClientError
  rw [slots_client p.clientError]
  rfl

theorem clientErrorFn_norm (p : Program) : clientErrorFn p = clientErrorFn (norm p) := by
  funext s
  unfold clientErrorFn
  rw [emitClientError_norm p]

theorem emitError_norm (p : Program) (ab : Bool) (s : St) : emitError p ab s = emitError (norm p) ab s := by
  unfold emitError
  rw [clientErrorFn_norm p, slots_op p.error]
  rfl

theorem emitFinished_norm (p : Program) (s : St) : emitFinished p s = emitFinished (norm p) s := by
  unfold emitFinished
  rw [slots_op p.finished]
  rfl

theorem answer_norm (p : Program) (ok : Bool) (s : St) : answer p ok s = answer (norm p) ok s := by
  unfold answer
  simp only [emitFinished_norm p, emitError_norm p]

theorem abort_norm (p : Program) (s : St) : abort p s = abort (norm p) s := by
  unfold abort
  simp only [emitFinished_norm p, emitError_norm p]

theorem streamEnd_norm (p : Program) (ok : Bool) (s : St) : streamEnd p ok s = streamEnd (norm p) ok s := by
  unfold streamEnd
  simp only [emitFinished_norm p, emitError_norm p]

theorem handler_norm (p : Program) (s : St) : handler p s = handler (norm p) s := by
  by_cases ho : s.op = true
  · unfold handler
    rw [slots_op p.received]
    by_cases h : Act.destroy ∈ p.handlers
    · have h1 := handlers_gone p.handlers h s ho
      have h2 := handlers_gone (norm p).handlers (by simp [norm, short, h]) s ho
      rcases h1 with h1 | ⟨t, h1, ht⟩ <;> rcases h2 with h2 | ⟨u, h2, hu⟩ <;> rw [h1, h2]
      · rfl
      · show (need s.op >>= fun _ => Res.ub) = (need s.op >>= fun _ => need u.op >>= fun _ => _)
        rw [hu]; rfl
      · show (need s.op >>= fun _ => need t.op >>= fun _ => _) = (need s.op >>= fun _ => Res.ub)
        rw [ht]; rfl
      · show (need s.op >>= fun _ => need t.op >>= fun _ => _) = (need s.op >>= fun _ => need u.op >>= fun _ => _)
        rw [ht, hu]; rfl
    · rw [handlers_none _ h s ho, handlers_none (norm p).handlers (by simp [norm, short, h]) s ho]
      rfl
  · have ho : s.op = false := by simpa using ho
    unfold handler
    rw [ho]
    rfl

theorem message_norm (p : Program) (s : St) : message p s = message (norm p) s := by
  unfold message
  simp only [handler_norm p]

/-! ### Finitely many cases are left -/

theorem destroys_iff (as : List Act) : Destroys as ↔ decide (Act.destroy ∈ as) = true := by
  unfold Destroys
  exact decide_eq_true_iff.symm

/-- Something undefined happens, or the event ends with this state, dropping the pointer is fine or not. -/
inductive Verdict
  | undefined
  | after (client dropFine : Bool)
  | other
deriving DecidableEq

/-- The verdict on an event. -/
def verdict : Res St → Verdict
  | .ub => .undefined
  | .ok t => match drop t with
    | .ok _ => .after t.client true
    | .ub => .after t.client false
    | _ => .other
  | _ => .other

theorem verdict_answer (kind : Kind) (ok cb user elsewhere ce e f : Bool) (c : Act) (hs rs : List Act) :
    verdict (answer ⟨short ce, short e, short f, c, hs, rs⟩ ok (call kind cb user elsewhere)) =
      (let early := if ok then cb && decide (c = .destroy) else ce
       let late := if ok then f else e
       if !early && !late then .after true true
       else if decide (kind = .native) || !elsewhere || (early && !user) then .undefined
       else .after false !user) := by
  cases kind <;> cases ok <;> cases cb <;> cases user <;> cases elsewhere <;> cases ce <;> cases e <;> cases f <;> cases c <;> rfl

theorem verdict_message (kind : Kind) (user elsewhere ce e f h r : Bool) (c : Act) :
    verdict (message ⟨short ce, short e, short f, c, short h, short r⟩ (stream kind user elsewhere)) =
      (if !h && !r then .after true true
       else if h || decide (kind = .http2) then .undefined
       else .after false !user) := by
  cases kind <;> cases user <;> cases elsewhere <;> cases ce <;> cases e <;> cases f <;> cases h <;> cases r <;> rfl

theorem verdict_end (kind : Kind) (ok user elsewhere ce e f : Bool) (c : Act) (hs rs : List Act) :
    verdict (streamEnd ⟨short ce, short e, short f, c, hs, rs⟩ ok (stream kind user elsewhere)) =
      (if ok then
        (if !f || decide (kind = .native) then .after true true else if elsewhere then .after false !user else .undefined)
       else
        (if !ce && !e then .after true true
         else if decide (kind = .native) || ce || !elsewhere then .undefined
         else .after false !user)) := by
  cases kind <;> cases ok <;> cases user <;> cases elsewhere <;> cases ce <;> cases e <;> cases f <;> rfl

theorem verdict_abort_call (kind : Kind) (cb elsewhere ce e f : Bool) (c : Act) (hs rs : List Act) :
    verdict (abort ⟨short ce, short e, short f, c, hs, rs⟩ (call kind cb true elsewhere)) = .after (!ce && !e) (!ce && !e) := by
  cases kind <;> cases cb <;> cases elsewhere <;> cases ce <;> cases e <;> cases f <;> rfl

theorem verdict_abort_stream (kind : Kind) (elsewhere ce e f : Bool) (c : Act) (hs rs : List Act) :
    verdict (abort ⟨short ce, short e, short f, c, hs, rs⟩ (stream kind true elsewhere)) = .after (!f) (!f) := by
  cases kind <;> cases elsewhere <;> cases ce <;> cases e <;> cases f <;> rfl

theorem verdict_failing_call (kind : Kind) (cb user elsewhere ce e f : Bool) (c : Act) (hs rs : List Act) :
    verdict (failing ⟨short ce, short e, short f, c, hs, rs⟩ (call kind cb user elsewhere)) = .after (!ce) (!ce || !user) := by
  cases kind <;> cases cb <;> cases user <;> cases elsewhere <;> cases ce <;> cases e <;> cases f <;> rfl

theorem verdict_failing_stream (kind : Kind) (user elsewhere ce e f : Bool) (c : Act) (hs rs : List Act) :
    verdict (failing ⟨short ce, short e, short f, c, hs, rs⟩ (stream kind user elsewhere)) = .after (!ce) (!ce || !user) := by
  cases kind <;> cases user <;> cases elsewhere <;> cases ce <;> cases e <;> cases f <;> rfl

/-! ### Back to propositions -/

theorem of_undefined {r : Res St} (h : verdict r = .undefined) : Undefined r := by
  cases r with
  | ub => rfl
  | ok t =>
    unfold verdict at h
    dsimp only at h
    cases hd : drop t <;> rw [hd] at h <;> exact nomatch h
  | throw => exact nomatch h
  | fuel => exact nomatch h

theorem of_after {r : Res St} {c d : Bool} (h : verdict r = .after c d) : ∃ t, r = .ok t ∧ t.client = c ∧ (Fine (drop t) ↔ d = true) := by
  cases r with
  | ub => exact nomatch h
  | ok t =>
    refine ⟨t, rfl, ?_⟩
    unfold verdict at h
    dsimp only at h
    unfold Fine
    cases hd : drop t with
    | ok u =>
      rw [hd] at h
      injection h with h1 h2
      exact ⟨h1, ⟨fun _ => h2.symm, fun _ => ⟨u, rfl⟩⟩⟩
    | ub =>
      rw [hd] at h
      injection h with h1 h2
      exact ⟨h1, ⟨(fun ⟨_, hu⟩ => nomatch hu), (fun hd => by rw [← h2] at hd; exact nomatch hd)⟩⟩
    | throw => rw [hd] at h; exact nomatch h
    | fuel => rw [hd] at h; exact nomatch h
  | throw => exact nomatch h
  | fuel => exact nomatch h

theorem fine_of_after {r : Res St} {c d : Bool} (h : verdict r = .after c d) : Fine r := by
  obtain ⟨t, ht, _⟩ := of_after h
  exact ⟨t, ht⟩

theorem not_fine_of_undefined {r : Res St} (h : verdict r = .undefined) : ¬ Fine r := by
  rintro ⟨t, ht⟩
  have := of_undefined h
  unfold Undefined at this
  rw [this] at ht
  exact nomatch ht

/-- The verdict fits a condition of being fine. -/
def Fits (P : Prop) : Verdict → Prop
  | .undefined => ¬ P
  | .after _ _ => P
  | .other => False

/-- The verdict fits what is there afterwards: `R`, the client was destroyed; `u`, the program holds a pointer. -/
def Leaves (R : Prop) (u : Bool) : Verdict → Prop
  | .after c d => (c = false ↔ R) ∧ (d = true ↔ (u = false ∨ c = true))
  | _ => True

theorem fine_of_verdict {r : Res St} {v : Verdict} (h : verdict r = v) (P : Prop) (hv : Fits P v) : (Fine r ↔ P) ∧ (Fine r ∨ Undefined r) := by
  cases v with
  | undefined => exact ⟨⟨fun hf => absurd hf (not_fine_of_undefined h), fun hp => absurd hp hv⟩, Or.inr (of_undefined h)⟩
  | after c d => exact ⟨⟨fun _ => hv, fun _ => fine_of_after h⟩, Or.inl (fine_of_after h)⟩
  | other => exact hv.elim

theorem after_of_verdict {r : Res St} {v : Verdict} (h : verdict r = v) (R : Prop) (u : Bool) (hv : Leaves R u v) (t : St) (ht : r = .ok t) :
    (t.client = false ↔ R) ∧ (Fine (drop t) ↔ (u = false ∨ t.client = true)) := by
  cases v with
  | undefined => exact absurd ⟨t, ht⟩ (not_fine_of_undefined h)
  | after c d =>
    obtain ⟨t', ht', hc, hd⟩ := of_after h
    rw [ht] at ht'
    injection ht' with ht'
    subst ht'
    rw [hc]
    exact ⟨hv.1, hd.trans hv.2⟩
  | other =>
    rw [ht] at h
    unfold verdict at h
    dsimp only at h
    rcases (show drop t = .ok { t with user := false } ∨ drop t = .ub ∨ drop t = .ok t from by
      unfold drop
      by_cases hu : t.user = true
      · rw [if_pos hu]
        rcases dropped_cases t { t with user := false } with hd | hd
        · exact Or.inl hd
        · exact Or.inr (Or.inl hd)
      · rw [if_neg hu]; exact Or.inr (Or.inr rfl)) with hd | hd | hd <;> rw [hd] at h <;> exact nomatch h

/-- The verdicts on the events, for the program itself. -/
theorem verdict_answered (p : Program) (kind : Kind) (ok cb user elsewhere : Bool) :
    verdict (happens p (call kind cb user elsewhere) (.answered ok)) =
      (let early := if ok then cb && decide (p.callback = .destroy) else decide (Act.destroy ∈ p.clientError)
       let late := if ok then decide (Act.destroy ∈ p.finished) else decide (Act.destroy ∈ p.error)
       if !early && !late then .after true true
       else if decide (kind = .native) || !elsewhere || (early && !user) then .undefined
       else .after false !user) := by
  show verdict (answer p ok (call kind cb user elsewhere)) = _
  rw [answer_norm]
  exact verdict_answer kind ok cb user elsewhere _ _ _ p.callback _ _

theorem verdict_messaged (p : Program) (kind : Kind) (user elsewhere : Bool) :
    verdict (happens p (stream kind user elsewhere) .message) =
      (if !decide (Act.destroy ∈ p.handlers) && !decide (Act.destroy ∈ p.received) then .after true true
       else if decide (Act.destroy ∈ p.handlers) || decide (kind = .http2) then .undefined
       else .after false !user) := by
  show verdict (message p (stream kind user elsewhere)) = _
  rw [message_norm]
  exact verdict_message kind user elsewhere _ _ _ _ _ p.callback

theorem verdict_ended (p : Program) (kind : Kind) (ok user elsewhere : Bool) :
    verdict (happens p (stream kind user elsewhere) (.ended ok)) =
      (if ok then
        (if !decide (Act.destroy ∈ p.finished) || decide (kind = .native) then .after true true else if elsewhere then .after false !user else .undefined)
       else
        (if !decide (Act.destroy ∈ p.clientError) && !decide (Act.destroy ∈ p.error) then .after true true
         else if decide (kind = .native) || decide (Act.destroy ∈ p.clientError) || !elsewhere then .undefined
         else .after false !user)) := by
  show verdict (streamEnd p ok (stream kind user elsewhere)) = _
  rw [streamEnd_norm]
  exact verdict_end kind ok user elsewhere _ _ _ p.callback _ _

theorem verdict_aborted_call (p : Program) (kind : Kind) (cb elsewhere : Bool) :
    verdict (happens p (call kind cb true elsewhere) .aborted) =
      .after (!decide (Act.destroy ∈ p.clientError) && !decide (Act.destroy ∈ p.error)) (!decide (Act.destroy ∈ p.clientError) && !decide (Act.destroy ∈ p.error)) := by
  show verdict (abort p (call kind cb true elsewhere)) = _
  rw [abort_norm]
  exact verdict_abort_call kind cb elsewhere _ _ _ p.callback _ _

theorem verdict_aborted_stream (p : Program) (kind : Kind) (elsewhere : Bool) :
    verdict (happens p (stream kind true elsewhere) .aborted) = .after (!decide (Act.destroy ∈ p.finished)) (!decide (Act.destroy ∈ p.finished)) := by
  show verdict (abort p (stream kind true elsewhere)) = _
  rw [abort_norm]
  exact verdict_abort_stream kind elsewhere _ _ _ p.callback _ _

theorem verdict_failed_call (p : Program) (kind : Kind) (cb user elsewhere : Bool) :
    verdict (happens p (call kind cb user elsewhere) .failing) = .after (!decide (Act.destroy ∈ p.clientError)) (!decide (Act.destroy ∈ p.clientError) || !user) := by
  show verdict (emitClientError p (call kind cb user elsewhere)) = _
  rw [emitClientError_norm]
  exact verdict_failing_call kind cb user elsewhere _ _ _ p.callback _ _

theorem verdict_failed_stream (p : Program) (kind : Kind) (user elsewhere : Bool) :
    verdict (happens p (stream kind user elsewhere) .failing) = .after (!decide (Act.destroy ∈ p.clientError)) (!decide (Act.destroy ∈ p.clientError) || !user) := by
  show verdict (emitClientError p (stream kind user elsewhere)) = _
  rw [emitClientError_norm]
  exact verdict_failing_stream kind user elsewhere _ _ _ p.callback _ _

theorem connected_callback (kind : Kind) (cb user elsewhere : Bool) : (call kind cb user elsewhere).connected .callback = cb := rfl

/-! ### The property -/

/-- **C114, calls over HTTP/2.** When the answer arrives, a program that does not destroy the client then is fine. One that does is fine exactly if the channel is held elsewhere
too and, when it does so in the callback of a generated method or in a slot of the client's `error`, it holds a pointer to the reply. Otherwise the behaviour is undefined. -/
theorem C114_answer_http2_partial (p : Program) (ok withCallback user elsewhere : Bool) :
    let s := call .http2 withCallback user elsewhere
    let early := if ok then withCallback = true ∧ p.callback = .destroy else Destroys p.clientError
    (Fine (happens p s (.answered ok)) ↔ (¬ Reached p s (.answered ok) ∨ (elsewhere = true ∧ (early → user = true)))) ∧
      (Fine (happens p s (.answered ok)) ∨ Undefined (happens p s (.answered ok))) := by
  refine fine_of_verdict (verdict_answered p .http2 ok withCallback user elsewhere) _ ?_
  unfold Reached
  simp only [destroys_iff, connected_callback]
  generalize decide (Act.destroy ∈ p.clientError) = ce
  generalize decide (Act.destroy ∈ p.error) = e
  generalize decide (Act.destroy ∈ p.finished) = f
  generalize p.callback = c
  cases ok <;> cases withCallback <;> cases user <;> cases elsewhere <;> cases ce <;> cases e <;> cases f <;> cases c <;> simp [Fits, Leaves]

/-- **C114, calls over the native channel.** When the answer arrives, a program is fine exactly if no function that is called then destroys the client. -/
theorem C114_answer_native_partial (p : Program) (ok withCallback user elsewhere : Bool) :
    let s := call .native withCallback user elsewhere
    (Fine (happens p s (.answered ok)) ↔ ¬ Reached p s (.answered ok)) ∧ (Fine (happens p s (.answered ok)) ∨ Undefined (happens p s (.answered ok))) := by
  refine fine_of_verdict (verdict_answered p .native ok withCallback user elsewhere) _ ?_
  unfold Reached
  simp only [destroys_iff, connected_callback]
  generalize decide (Act.destroy ∈ p.clientError) = ce
  generalize decide (Act.destroy ∈ p.error) = e
  generalize decide (Act.destroy ∈ p.finished) = f
  generalize p.callback = c
  cases ok <;> cases withCallback <;> cases user <;> cases elsewhere <;> cases ce <;> cases e <;> cases f <;> cases c <;> simp [Fits, Leaves]

/-- **C114, messages.** When a message of a stream arrives, a program is fine exactly if no handler destroys the client and, over HTTP/2, no slot of `messageReceived` does. -/
theorem C114_message_partial (p : Program) (kind : Kind) (user elsewhere : Bool) :
    let s := stream kind user elsewhere
    (Fine (happens p s .message) ↔ (¬ Destroys p.handlers ∧ (kind = .http2 → ¬ Destroys p.received))) ∧ (Fine (happens p s .message) ∨ Undefined (happens p s .message)) := by
  refine fine_of_verdict (verdict_messaged p kind user elsewhere) _ ?_
  simp only [destroys_iff]
  generalize decide (Act.destroy ∈ p.handlers) = h
  generalize decide (Act.destroy ∈ p.received) = r
  cases kind <;> cases user <;> cases elsewhere <;> cases h <;> cases r <;> simp [Fits, Leaves]

/-- **C114, streams that end well.** Over HTTP/2 a program is fine exactly if it does not destroy the client in a slot of `finished`, or the channel is held elsewhere too. Over
the native channel nobody is called. -/
theorem C114_end_partial (p : Program) (kind : Kind) (user elsewhere : Bool) :
    let s := stream kind user elsewhere
    (Fine (happens p s (.ended true)) ↔ (kind = .native ∨ ¬ Destroys p.finished ∨ elsewhere = true)) ∧ (Fine (happens p s (.ended true)) ∨ Undefined (happens p s (.ended true))) := by
  refine fine_of_verdict (verdict_ended p kind true user elsewhere) _ ?_
  simp only [destroys_iff]
  generalize decide (Act.destroy ∈ p.clientError) = ce
  generalize decide (Act.destroy ∈ p.error) = e
  generalize decide (Act.destroy ∈ p.finished) = f
  cases kind <;> cases user <;> cases elsewhere <;> cases f <;> simp [Fits, Leaves]

/-- **C114, streams that fail.** A program is fine exactly if it does not destroy the client in a slot of the client's `error`, and in a slot of the stream's `error` only over
HTTP/2 with a channel that is held elsewhere too. -/
theorem C114_failure_partial (p : Program) (kind : Kind) (user elsewhere : Bool) :
    let s := stream kind user elsewhere
    (Fine (happens p s (.ended false)) ↔ (¬ Destroys p.clientError ∧ (Destroys p.error → kind = .http2 ∧ elsewhere = true))) ∧
      (Fine (happens p s (.ended false)) ∨ Undefined (happens p s (.ended false))) := by
  refine fine_of_verdict (verdict_ended p kind false user elsewhere) _ ?_
  simp only [destroys_iff]
  generalize decide (Act.destroy ∈ p.clientError) = ce
  generalize decide (Act.destroy ∈ p.error) = e
  cases kind <;> cases user <;> cases elsewhere <;> cases ce <;> cases e <;> simp [Fits, Leaves]

/-- **C114, `abort()`.** It may destroy the client in all the functions that it calls. -/
theorem C114_abort_partial (p : Program) (s : St) (hs : Start .aborted s) : Fine (happens p s .aborted) := by
  obtain ⟨hu, ⟨kind, cb, user, elsewhere, rfl⟩ | ⟨kind, user, elsewhere, rfl⟩⟩ := hs
  · obtain rfl : user = true := hu
    exact fine_of_after (verdict_aborted_call p kind cb elsewhere)
  · obtain rfl : user = true := hu
    exact fine_of_after (verdict_aborted_stream p kind elsewhere)

/-- **C114, failures of blocking calls, of serialization and of reading.** The client may be destroyed in a slot of its `error`. -/
theorem C114_failing_partial (p : Program) (s : St) (hs : Start .failing s) : Fine (happens p s .failing) := by
  obtain ⟨kind, cb, user, elsewhere, rfl⟩ | ⟨kind, user, elsewhere, rfl⟩ := hs
  · exact fine_of_after (verdict_failed_call p kind cb user elsewhere)
  · exact fine_of_after (verdict_failed_stream p kind user elsewhere)

/-- **C114, afterwards.** If an event has done nothing undefined, the client is gone exactly if a function that was called destroyed it, and the pointer of the program may be
dropped exactly if there is none or the client is still there. -/
theorem C114_afterwards_partial (p : Program) (e : Event) (s : St) (hs : Start e s) (t : St) (ht : happens p s e = .ok t) :
    (t.client = false ↔ Reached p s e) ∧ (Fine (drop t) ↔ (s.user = false ∨ t.client = true)) := by
  have go : ∀ {v : Verdict}, verdict (happens p s e) = v → Leaves (Reached p s e) s.user v →
      (t.client = false ↔ Reached p s e) ∧ (Fine (drop t) ↔ (s.user = false ∨ t.client = true)) :=
    fun h hv => after_of_verdict h _ _ hv t ht
  cases e with
  | answered ok =>
    obtain ⟨kind, cb, user, elsewhere, rfl⟩ := hs
    refine go (verdict_answered p kind ok cb user elsewhere) ?_
    have hu : (call kind cb user elsewhere).user = user := rfl
    unfold Reached
    simp only [destroys_iff, connected_callback, hu]
    generalize decide (Act.destroy ∈ p.clientError) = ce
    generalize decide (Act.destroy ∈ p.error) = er
    generalize decide (Act.destroy ∈ p.finished) = f
    clear ht go hu
    generalize p.callback = c
    cases kind <;> cases ok <;> cases cb <;> cases user <;> cases elsewhere <;> cases ce <;> cases er <;> cases f <;> cases c <;> simp [Fits, Leaves]
  | message =>
    obtain ⟨kind, user, elsewhere, rfl⟩ := hs
    refine go (verdict_messaged p kind user elsewhere) ?_
    have hu : (stream kind user elsewhere).user = user := rfl
    unfold Reached
    simp only [destroys_iff, hu]
    generalize decide (Act.destroy ∈ p.handlers) = h
    generalize decide (Act.destroy ∈ p.received) = r
    clear ht go hu
    cases kind <;> cases user <;> cases elsewhere <;> cases h <;> cases r <;> simp [Fits, Leaves]
  | ended ok =>
    obtain ⟨kind, user, elsewhere, rfl⟩ := hs
    refine go (verdict_ended p kind ok user elsewhere) ?_
    have hu : (stream kind user elsewhere).user = user := rfl
    have hk : (stream kind user elsewhere).kind = kind := rfl
    unfold Reached
    simp only [destroys_iff, hu, hk]
    generalize decide (Act.destroy ∈ p.clientError) = ce
    generalize decide (Act.destroy ∈ p.error) = er
    generalize decide (Act.destroy ∈ p.finished) = f
    clear ht go hu hk
    cases kind <;> cases ok <;> cases user <;> cases elsewhere <;> cases ce <;> cases er <;> cases f <;> simp [Fits, Leaves]
  | aborted =>
    obtain ⟨hu, ⟨kind, cb, user, elsewhere, rfl⟩ | ⟨kind, user, elsewhere, rfl⟩⟩ := hs
    · obtain rfl : user = true := hu
      refine go (verdict_aborted_call p kind cb elsewhere) ?_
      unfold Reached
      simp only [destroys_iff, show (call kind cb true elsewhere).stream = false from rfl, show (call kind cb true elsewhere).user = true from rfl]
      generalize decide (Act.destroy ∈ p.clientError) = ce
      generalize decide (Act.destroy ∈ p.error) = er
      cases ce <;> cases er <;> simp [Fits, Leaves]
    · obtain rfl : user = true := hu
      refine go (verdict_aborted_stream p kind elsewhere) ?_
      unfold Reached
      simp only [destroys_iff, show (stream kind true elsewhere).stream = true from rfl, show (stream kind true elsewhere).user = true from rfl]
      generalize decide (Act.destroy ∈ p.finished) = f
      cases f <;> simp [Fits, Leaves]
  | failing =>
    obtain ⟨kind, cb, user, elsewhere, rfl⟩ | ⟨kind, user, elsewhere, rfl⟩ := hs
    · refine go (verdict_failed_call p kind cb user elsewhere) ?_
      have hu : (call kind cb user elsewhere).user = user := rfl
      unfold Reached
      simp only [destroys_iff, hu]
      generalize decide (Act.destroy ∈ p.clientError) = ce
      clear ht go hu
      cases user <;> cases ce <;> simp [Fits, Leaves]
    · refine go (verdict_failed_stream p kind user elsewhere) ?_
      have hu : (stream kind user elsewhere).user = user := rfl
      unfold Reached
      simp only [destroys_iff, hu]
      generalize decide (Act.destroy ∈ p.clientError) = ce
      clear ht go hu
      cases user <;> cases ce <;> simp [Fits, Leaves]

/-- A program without slots. -/
def idle : Program := ⟨[], [], [], .nothing, [], []⟩

/-- **C114 does not hold**, not even for a program that holds no pointers: a handler of a stream that destroys the client. -/
theorem C114_violated : ¬ Claim := by
  intro h
  obtain ⟨t, ht, _⟩ := h { idle with handlers := [.destroy] } .message (stream .http2 false true) ⟨_, _, _, rfl⟩
  have hv := (C114_message_partial { idle with handlers := [.destroy] } .http2 false true).1.mp ⟨t, ht⟩
  exact hv.1 (by unfold Destroys; decide)

/-- **C114, where it fails.** Over either channel, whoever holds the channel: a handler of a stream, or a slot of the client's `error` when a stream fails, that destroys the client; and a slot
of the client's `error` when a call fails whose reply nobody holds. -/
theorem C114_where_violated (kind : Kind) (elsewhere : Bool) :
    Undefined (happens { idle with handlers := [.nothing, .destroy] } (stream kind false elsewhere) .message) ∧
      Undefined (happens { idle with clientError := [.destroy] } (stream kind false elsewhere) (.ended false)) ∧
      Undefined (happens { idle with clientError := [.destroy] } (call kind false false elsewhere) (.answered false)) := by
  exact ⟨of_undefined ((verdict_messaged _ kind false elsewhere).trans (by cases kind <;> cases elsewhere <;> rfl)),
    of_undefined ((verdict_ended _ kind false false elsewhere).trans (by cases kind <;> cases elsewhere <;> rfl)),
    of_undefined ((verdict_answered _ kind false false false elsewhere).trans (by cases kind <;> cases elsewhere <;> rfl))⟩

/-! Cases that meet the hypotheses. -/

example : Start .aborted (call .native false true false) ∧ Destroys ({ idle with error := [.nothing, .destroy] } : Program).error :=
  ⟨⟨rfl, Or.inl ⟨_, _, _, _, rfl⟩⟩, by unfold Destroys; decide⟩

example : Fine (happens { idle with error := [.nothing, .destroy] } (call .http2 false true true) (.answered false)) :=
  (C114_answer_http2_partial _ false false true true).1.mpr (Or.inr ⟨rfl, fun _ => rfl⟩)

example : Start .failing (stream .http2 false true) := Or.inr ⟨_, _, _, rfl⟩

end QtPb.PropsInside
