import Verif.Call
import Verif.PropsHttp2
import Verif.PropsRecords
/-
C34: asynchronous calls complete once. C35: deserialization failures become statuses. C53: synchronous
calls report failures once.
-/
namespace QtPb.Call
open Http2

/-! ### C34 -/

/-- In progress: nothing has happened. -/
def Open (s : State) : Prop := s.net = .running ∧ s.connection = true ∧ s.abortConnection = true ∧ s.client = true ∧
  s.deletePending = false ∧ s.signals = [] ∧ s.clientErrors = []

/-- Over: a signal was emitted and nothing but `abort()` emits another. -/
def Over (s : State) : Prop := s.connection = false ∧ s.abortConnection = false ∧ s.client = false ∧
  s.signals ≠ [] ∧ s.clientErrors.length ≤ 1 ∧ (s.signals.filter (· ≠ Signal.aborted)).length ≤ 1

/-- The channel is gone. -/
def Gone (s : State) : Prop := s.net = .deleted ∧ s.connection = false ∧ s.abortConnection = false ∧ s.client = true ∧
  s.signals = [] ∧ s.clientErrors = []

theorem processReply_total (r : Reply) : ∃ data code, processReply r = .ok (data, code) := by
  obtain ⟨d, c, h, _⟩ := C33_data_only_ok r
  exact ⟨d, c, h⟩

theorem open_netFinish {s : State} (h : Open s) (r : Reply) :
    Over (netFinish s r) ∧ (netFinish s r).signals.length = 1 := by
  obtain ⟨net, conn, ac, cl, dp, data0, sig, errs⟩ := s
  obtain ⟨h1, h2, h3, h4, h5, h6, h7⟩ := h
  simp only at h1 h2 h3 h4 h5 h6 h7
  subst h1 h2 h3 h4 h5 h6 h7
  obtain ⟨data, code, hp⟩ := processReply_total r
  by_cases hok : code = Status.Ok
  · simp [netFinish, onNetworkFinished, hp, hok, Over]
  · simp [netFinish, onNetworkFinished, hp, hok, Over, onError]

theorem over_netFinish {s : State} (h : Over s) (r : Reply) :
    Over (netFinish s r) ∧ (netFinish s r).signals = s.signals := by
  obtain ⟨h1, h2⟩ := h
  unfold netFinish
  split
  · simp only [onNetworkFinished, h1, Bool.false_eq_true, if_false]
    exact ⟨⟨rfl, h2⟩, trivial⟩
  · exact ⟨⟨h1, h2⟩, rfl⟩

theorem open_step {s : State} (h : Open s) (e : Ev) :
    match e with
    | .deleteNet => Open (step s e)
    | .destroyChannel => Gone (step s e)
    | _ => Over (step s e) ∧ (step s e).signals.length = 1 := by
  cases e with
  | complete r => exact open_netFinish h r
  | abort =>
    obtain ⟨net, conn, ac, cl, dp, data0, sig, errs⟩ := s
    obtain ⟨h1, h2, h3, h4, h5, h6, h7⟩ := h
    simp only at h1 h2 h3 h4 h5 h6 h7
    subst h1 h2 h3 h4 h5 h6 h7
    simp [step, onError, Over]
  | timeout =>
    simp only [step, abortNetworkReply, h.1, if_true]
    exact open_netFinish h _
  | deleteNet =>
    have := h.2.2.2.2.1
    simp only [step, this, Bool.false_eq_true, if_false]
    exact h
  | destroyChannel =>
    obtain ⟨h1, h2, h3, h4, h5, h6, h7⟩ := h
    exact ⟨rfl, rfl, rfl, h4, h6, h7⟩

theorem over_step {s : State} (h : Over s) (e : Ev) : Over (step s e) ∧
    (step s e).signals = match e with | .abort => s.signals ++ [.aborted] | _ => s.signals := by
  cases e with
  | complete r => exact over_netFinish h r
  | abort =>
    obtain ⟨net, conn, ac, cl, dp, data0, sig, errs⟩ := s
    obtain ⟨h1, h2, h3, h4, h5, h6⟩ := h
    simp only at h1 h2 h3 h4 h5 h6
    subst h1 h2 h3
    simp only [step, onError, Over, Bool.false_eq_true, false_and, if_false]
    refine ⟨⟨trivial, trivial, trivial, by simp, h5, ?_⟩, trivial⟩
    simpa using h6
  | timeout =>
    simp only [step]
    split
    · exact ⟨h, rfl⟩
    · unfold abortNetworkReply
      split
      · exact over_netFinish h _
      · exact ⟨h, rfl⟩
  | deleteNet =>
    simp only [step]
    split
    · exact ⟨⟨rfl, rfl, h.2.2⟩, rfl⟩
    · exact ⟨h, rfl⟩
  | destroyChannel => exact ⟨⟨rfl, rfl, h.2.2⟩, rfl⟩

theorem gone_step {s : State} (h : Gone s) (e : Ev) :
    match e with
    | .abort => Over (step s e) ∧ (step s e).signals.length = 1
    | _ => Gone (step s e) := by
  cases e with
  | complete r =>
    simp only [step, netFinish]
    rw [if_neg (by rw [h.1]; decide)]
    exact h
  | abort =>
    obtain ⟨net, conn, ac, cl, dp, data0, sig, errs⟩ := s
    obtain ⟨h1, h2, h3, h4, h5, h6⟩ := h
    simp only at h1 h2 h3 h4 h5 h6
    subst h1 h2 h3 h4 h5 h6
    simp [step, onError, Over]
  | timeout =>
    simp only [step]
    rw [if_pos h.1]
    exact h
  | deleteNet =>
    simp only [step]
    split
    · exact ⟨rfl, rfl, rfl, h.2.2.2⟩
    · exact h
  | destroyChannel => exact ⟨rfl, rfl, rfl, h.2.2.2⟩

theorem run_snoc (s : State) (es : List Ev) (e : Ev) : run s (es ++ [e]) = step (run s es) e := by
  simp [run]

/-- Every reachable state has one of the three shapes. -/
theorem shapes {s : State} (h : Open s ∨ Over s ∨ Gone s) (es : List Ev) :
    Open (run s es) ∨ Over (run s es) ∨ Gone (run s es) := by
  induction es generalizing s with
  | nil => exact h
  | cons e es ih =>
    apply ih
    rcases h with h | h | h
    · have := open_step h e
      cases e <;> simp only at this
      · exact .inr (.inl this.1)
      · exact .inr (.inl this.1)
      · exact .inr (.inl this.1)
      · exact .inl this
      · exact .inr (.inr this)
    · exact .inr (.inl (over_step h e).1)
    · have := gone_step h e
      cases e <;> simp only at this
      · exact .inr (.inr this)
      · exact .inr (.inl this.1)
      · exact .inr (.inr this)
      · exact .inr (.inr this)
      · exact .inr (.inr this)

theorem open_start : Open start := ⟨rfl, rfl, rfl, rfl, rfl, rfl, rfl⟩

/-- C34: in every ordering of completion, abort, timeout, deletion and destruction of the channel, the
channel makes the call reply emit at most one of `finished` and `error`. -/
theorem C34_channel_once (es : List Ev) :
    ((run start es).signals.filter (· ≠ Signal.aborted)).length ≤ 1 := by
  rcases shapes (.inl open_start) es with h | h | h
  · rw [h.2.2.2.2.2.1]; simp
  · exact h.2.2.2.2.2
  · rw [h.2.2.2.2.1]; simp

/-- C34: the client reports at most one error for a call, whatever happens. -/
theorem C34_client_error_once (es : List Ev) : (run start es).clientErrors.length ≤ 1 := by
  rcases shapes (.inl open_start) es with h | h | h
  · rw [h.2.2.2.2.2.2]; simp
  · exact h.2.2.2.2.1
  · rw [h.2.2.2.2.2]; simp

/-- C34: as soon as the reply completes, times out or is aborted, a signal has been emitted (the channel
still existing). -/
theorem C34_emits (es : List Ev) (hno : Ev.destroyChannel ∉ es)
    (hev : Ev.abort ∈ es ∨ Ev.timeout ∈ es ∨ ∃ r, Ev.complete r ∈ es) : (run start es).signals ≠ [] := by
  have key : ∀ (es : List Ev) (s : State), Over s → Over (run s es) := by
    intro es
    induction es with
    | nil => intro s h; exact h
    | cons e es ih => intro s h; exact ih _ (over_step h e).1
  have main : ∀ (es : List Ev) (s : State), Open s → Ev.destroyChannel ∉ es →
      (Ev.abort ∈ es ∨ Ev.timeout ∈ es ∨ ∃ r, Ev.complete r ∈ es) → Over (run s es) := by
    intro es
    induction es with
    | nil => intro s _ _ h; simp at h
    | cons e es ih =>
      intro s h hno hev
      have hno' : Ev.destroyChannel ∉ es := fun h => hno (List.mem_cons_of_mem _ h)
      have := open_step h e
      cases e with
      | complete r => exact key es _ this.1
      | abort => exact key es _ this.1
      | timeout => exact key es _ this.1
      | deleteNet => exact ih _ this hno' (by simpa using hev)
      | destroyChannel => exact absurd (List.mem_cons_self ..) hno
  exact (main es start open_start hno hev).2.2.2.1

/-- C34, proved part: if `abort()` is called at most once, and not after the call has completed or timed
out, the call reply emits at most one signal in total. Missing: `abort()` on a call that is over, see
`C34_late_abort_violated`. -/
theorem C34_total_partial (pre post : List Ev) (hpre : ∀ e ∈ pre, e = .deleteNet)
    (hpost : Ev.abort ∉ post) (first : Ev) : (run start (pre ++ first :: post)).signals.length ≤ 1 := by
  have hopen : ∀ (es : List Ev) (s : State), (∀ e ∈ es, e = Ev.deleteNet) → Open s → Open (run s es) := by
    intro es
    induction es with
    | nil => intro s _ h; exact h
    | cons e es ih =>
      intro s hall h
      have he := hall e (List.mem_cons_self ..)
      subst he
      exact ih _ (fun e he => hall e (List.mem_cons_of_mem _ he)) (open_step h .deleteNet)
  have hrun : run start (pre ++ first :: post) = run (step (run start pre) first) post := by simp [run]
  rw [hrun]
  have h0 := hopen pre start hpre open_start
  have hend : ∀ (es : List Ev) (s : State), Ev.abort ∉ es →
      (Over s ∧ s.signals.length ≤ 1 ∨ Open s ∨ Gone s) → (run s es).signals.length ≤ 1 := by
    intro es
    induction es with
    | nil =>
      intro s _ h
      rcases h with ⟨_, h⟩ | h | h
      · exact h
      · show s.signals.length ≤ 1
        rw [h.2.2.2.2.2.1]; simp
      · show s.signals.length ≤ 1
        rw [h.2.2.2.2.1]; simp
    | cons e es ih =>
      intro s hno h
      have hno' : Ev.abort ∉ es := fun h => hno (List.mem_cons_of_mem _ h)
      apply ih _ hno'
      rcases h with ⟨h, hl⟩ | h | h
      · obtain ⟨h1, h2⟩ := over_step h e
        left
        refine ⟨h1, ?_⟩
        rw [h2]
        cases e with
        | abort => exact absurd (List.mem_cons_self ..) hno
        | _ => exact hl
      · have := open_step h e
        cases e with
        | deleteNet => exact .inr (.inl this)
        | destroyChannel => exact .inr (.inr this)
        | complete r => exact .inl ⟨this.1, by rw [this.2]; exact Nat.le_refl 1⟩
        | abort => exact absurd (List.mem_cons_self ..) hno
        | timeout => exact .inl ⟨this.1, by rw [this.2]; exact Nat.le_refl 1⟩
      · have := gone_step h e
        cases e with
        | abort => exact absurd (List.mem_cons_self ..) hno
        | _ => exact .inr (.inr this)
  apply hend _ _ hpost
  have := open_step h0 first
  cases first with
  | deleteNet => exact .inr (.inl this)
  | destroyChannel => exact .inr (.inr this)
  | _ => exact .inl ⟨this.1, by rw [this.2]; exact Nat.le_refl 1⟩

/-- C34: an answer with status Ok is delivered: the data is the body without its prefix and `finished` is
emitted, once, whatever happens later unless the user aborts. -/
theorem C34_delivers (r : Reply) (post : List Ev) (hpost : Ev.abort ∉ post) {data : Bytes}
    (hr : processReply r = .ok (data, Status.Ok)) :
    (run start (.complete r :: post)).signals = [.finished] ∧ (run start (.complete r :: post)).data = data ∧
      (run start (.complete r :: post)).clientErrors = [] := by
  have hfirst : step start (.complete r) =
      ⟨.finished, false, false, false, true, data, [.finished], []⟩ := by
    simp [step, netFinish, start, onNetworkFinished, hr]
  show (run (step start (.complete r)) post).signals = _ ∧ (run (step start (.complete r)) post).data = _ ∧
    (run (step start (.complete r)) post).clientErrors = _
  rw [hfirst]
  have : ∀ (es : List Ev) (s : State), Ev.abort ∉ es → s.connection = false → s.signals = [.finished] → s.data = data →
      s.clientErrors = [] →
      (run s es).signals = [.finished] ∧ (run s es).data = data ∧ (run s es).clientErrors = [] := by
    intro es
    induction es with
    | nil => intro s _ _ h1 h2 h3; exact ⟨h1, h2, h3⟩
    | cons e es ih =>
      intro s hno hc h1 h2 h3
      have hno' : Ev.abort ∉ es := fun h => hno (List.mem_cons_of_mem _ h)
      have hfin : ∀ r', (netFinish s r').connection = false ∧ (netFinish s r').signals = [.finished] ∧
          (netFinish s r').data = data ∧ (netFinish s r').clientErrors = [] := by
        intro r'
        unfold netFinish
        split
        · simp only [onNetworkFinished, hc, Bool.false_eq_true, if_false]; exact ⟨trivial, h1, h2, h3⟩
        · exact ⟨hc, h1, h2, h3⟩
      have hs : (step s e).connection = false ∧ (step s e).signals = [.finished] ∧ (step s e).data = data ∧
          (step s e).clientErrors = [] := by
        cases e with
        | complete r' => exact hfin r'
        | abort => exact absurd (List.mem_cons_self ..) hno
        | timeout =>
          simp only [step]
          split
          · exact ⟨hc, h1, h2, h3⟩
          · unfold abortNetworkReply
            split
            · exact hfin _
            · exact ⟨hc, h1, h2, h3⟩
        | deleteNet =>
          simp only [step]
          split
          · exact ⟨rfl, h1, h2, h3⟩
          · exact ⟨hc, h1, h2, h3⟩
        | destroyChannel => exact ⟨rfl, h1, h2, h3⟩
      exact ih _ hno' hs.1 hs.2.1 hs.2.2.1 hs.2.2.2
  exact this post _ hpost rfl rfl rfl rfl

/-- C34 is violated: `abort()` on a call that has finished emits a second signal and drops the data. -/
theorem C34_late_abort_violated :
    (run start [.complete ⟨.NoError, none, [0, 0, 0, 0, 1, 9]⟩]).signals = [.finished] ∧
    (run start [.complete ⟨.NoError, none, [0, 0, 0, 0, 1, 9]⟩]).data = [9] ∧
    (run start [.complete ⟨.NoError, none, [0, 0, 0, 0, 1, 9]⟩, .abort]).signals = [.finished, .aborted] ∧
    (run start [.complete ⟨.NoError, none, [0, 0, 0, 0, 1, 9]⟩, .abort]).data = [] := by
  decide +kernel

/-- The theorems apply to histories in which the timer fires after an answer, and to an aborted call whose
answer arrives before the network reply is deleted. -/
example : (run start [.complete ⟨.NoError, some [0x35], []⟩, .timeout, .deleteNet]).signals = [.error 5] ∧
    (run start [.abort, .complete ⟨.NoError, none, []⟩, .deleteNet, .timeout]).signals = [.aborted] ∧
    (run start [.timeout, .deleteNet]).signals = [.error Status.Unavailable] := by
  decide +kernel

/-! ### C35 -/

/-- C35: `tryDeserialize` reports Ok exactly if there is a serializer and it throws nothing; otherwise the
code says which kind of failure it was. The object is what the serializer left. -/
theorem C35_status {R : Type} (deser : Option (Deserialize R)) (ret : R) (data : Bytes) :
    (tryDeserialize deser ret data).2.1.code =
      (match deser with
      | none => Status.Unknown
      | some d => match (d ret data).2 with
        | none => Status.Ok
        | some .invalidArgument => Status.InvalidArgument
        | some .outOfRange => Status.OutOfRange
        | some .other => Status.Internal) ∧
    (tryDeserialize deser ret data).1 = (match deser with | none => ret | some d => (d ret data).1) := by
  cases deser with
  | none => exact ⟨rfl, rfl⟩
  | some d =>
    simp only [tryDeserialize]
    generalize d ret data = x
    obtain ⟨x, t⟩ := x
    cases t with
    | none => exact ⟨rfl, rfl⟩
    | some t => cases t <;> exact ⟨rfl, rfl⟩

/-- C35: the client emits the status as an error exactly if it is not Ok. -/
theorem C35_error_signal {R : Type} (deser : Option (Deserialize R)) (ret : R) (data : Bytes) :
    (tryDeserialize deser ret data).2.2 =
      if (tryDeserialize deser ret data).2.1.code = Status.Ok then [] else [(tryDeserialize deser ret data).2.1] := by
  cases deser with
  | none => rfl
  | some d =>
    rcases hx : d ret data with ⟨x, t⟩
    cases t with
    | none => simp [tryDeserialize, hx]
    | some t => cases t <;> simp [tryDeserialize, hx] <;> decide

/-- The binary serializer (`deserialize`) as seen by `tryDeserialize`, for inputs on which it returns or
throws. -/
def binary (env : Env) (n k m : Nat) : Deserialize Obj := fun ret data =>
  let r := deserialize env n k m data ret
  (match r.target with | .ok o => o | _ => ret,
   match r.status with
   | .throw .invalidArgument => some .invalidArgument
   | .throw .outOfRange => some .outOfRange
   | .throw .badFunctionCall => some .other
   | _ => none)

/-- C35 with the binary serializer: a reply with an invalid field (C14) at any depth gives
InvalidArgument. -/
theorem C35_invalid_field {env : Env} (hv : Spec.ValidSchema env) {d m n k : Nat} {bs : Bytes} {o : Obj}
    (h : Spec.Fails env d m bs .invalidArgument o) (hlen : bs.length < 2 ^ 31) (hn : bs.length < n) (old : Obj) :
    (tryDeserialize (some (binary env n k m)) old bs).2.1 =
      ⟨Status.InvalidArgument, "Response deserialization failed invalid field found"⟩ := by
  have := (C14_nested (k := k) hv h hlen hn old).2
  simp [tryDeserialize, binary, this]

/-- C35 with the binary serializer: a reply that ends inside a varint (C15) gives OutOfRange. -/
theorem C35_cut_off {env : Env} (hv : Spec.ValidSchema env) {d m n k : Nat} {bs : Bytes} {o : Obj}
    (h : Spec.Fails env d m bs .outOfRange o) (hlen : bs.length < 2 ^ 31) (hn : bs.length < n) (old : Obj) :
    (tryDeserialize (some (binary env n k m)) old bs).2.1 =
      ⟨Status.OutOfRange, "Invalid size of received buffer"⟩ := by
  have := (C15_truncated (k := k) hv h hlen hn old).2
  simp [tryDeserialize, binary, this]

/-! ### C53 -/

theorem callBytes_some {A R : Type} {c : Channel A R} {b answer : Bytes} {st : Status} (h : c.call b = (st, answer)) :
    callBytes (some c) b = (st, answer, if st.code = Status.Ok then [] else [st]) := by
  unfold callBytes
  by_cases hok : st.code = Status.Ok
  · simp [h, hok]
  · simp [h, hok]

/-- C53, proved part: a synchronous call whose argument can be serialized (or that does not get that far) returns;
the client emits no error if the returned status is Ok, and otherwise exactly one, which is the returned
status. Missing: an exception of the serializer leaves the call, see `C53_serialize_violated`. -/
theorem C53_reported_once_partial {A R : Type} (channel : Option (Channel A R)) (method : String) (arg : A)
    (retNull : Bool) (ret : R)
    (hser : ∀ ser deser, serializer channel = some (ser, deser) → ∃ b, ser arg = .ok b) :
    ∃ ret' status errors, callTyped channel method arg retNull ret = .returned ret' status errors ∧
      errors = if status.code = Status.Ok then [] else [status] := by
  unfold callTyped
  split
  · exact ⟨_, _, _, rfl, rfl⟩
  · split
    · exact ⟨_, _, _, rfl, rfl⟩
    · rename_i ser deser hs
      obtain ⟨b, hb⟩ := hser ser deser hs
      rw [hb]
      simp only
      rcases hc : callBytes channel b with ⟨status, retData, errors⟩
      have he : errors = if status.code = Status.Ok then [] else [status] := by
        cases channel with
        | none => cases hs
        | some c =>
          rw [callBytes_some (st := (c.call b).1) (answer := (c.call b).2) rfl] at hc
          cases hc
          rfl
      simp only
      split
      · rename_i hok
        rcases ht : tryDeserialize (some deser) ret retData with ⟨ret', status', more⟩
        have h2 := C35_error_signal (some deser) ret retData
        rw [ht] at h2
        refine ⟨ret', status', errors ++ more, rfl, ?_⟩
        rw [he, if_pos hok, List.nil_append]
        exact h2
      · exact ⟨ret, status, errors, rfl, he⟩

/-- C53: the call returns Ok exactly if the reply object is there, there is a serializer, the channel
answered Ok and the answer could be read. -/
theorem C53_ok_iff {A R : Type} (channel : Option (Channel A R)) (method : String) (arg : A)
    (retNull : Bool) (ret ret' : R) {status : Status} {errors : List Status}
    (h : callTyped channel method arg retNull ret = .returned ret' status errors) :
    status.code = Status.Ok ↔ retNull = false ∧ ∃ c ser deser b answer, channel = some c ∧
      c.serializer = some (ser, deser) ∧ ser arg = .ok b ∧ (c.call b).1.code = Status.Ok ∧ (c.call b).2 = answer ∧
      deser ret answer = (ret', none) := by
  unfold callTyped at h
  cases retNull with
  | true =>
    simp only [if_true, Outcome.returned.injEq] at h
    obtain ⟨_, rfl, _⟩ := h
    constructor
    · intro h; exact absurd h (by simp only; decide)
    · intro h; exact absurd h.1 (by decide)
  | false =>
    simp only [Bool.false_eq_true, if_false] at h
    cases channel with
    | none =>
      simp only [serializer, Outcome.returned.injEq] at h
      obtain ⟨_, rfl, _⟩ := h
      constructor
      · intro h; exact absurd h (by decide)
      · rintro ⟨_, c, _, _, _, _, h, _⟩; cases h
    | some c =>
      simp only [serializer] at h
      cases hs : c.serializer with
      | none =>
        rw [hs] at h
        simp only [Outcome.returned.injEq] at h
        obtain ⟨_, rfl, _⟩ := h
        constructor
        · intro h; exact absurd h (by decide)
        · rintro ⟨_, c', _, _, _, _, h, h', _⟩
          cases h; rw [hs] at h'; cases h'
      | some sd =>
        obtain ⟨ser, deser⟩ := sd
        rw [hs] at h
        simp only at h
        cases hb : ser arg with
        | throw e => rw [hb] at h; cases h
        | ub => rw [hb] at h; cases h
        | fuel => rw [hb] at h; cases h
        | ok b =>
          rw [hb] at h
          simp only at h
          rcases hcall : c.call b with ⟨st, answer⟩
          rw [callBytes_some hcall] at h
          simp only at h
          by_cases hok : st.code = Status.Ok
          · simp only [hok, if_true, Outcome.returned.injEq] at h
            obtain ⟨h1, h2, _⟩ := h
            have hst := (C35_status (some deser) ret answer)
            rw [h2, h1] at hst
            simp only at hst
            constructor
            · intro hz
              refine ⟨rfl, c, ser, deser, b, answer, rfl, hs, hb, by rw [hcall]; exact hok, by rw [hcall], ?_⟩
              rcases hd : deser ret answer with ⟨x, t⟩
              rw [hd] at hst
              cases t with
              | none => simp only at hst; rw [hst.2]
              | some t => cases t <;> · simp only at hst; rw [hst.1] at hz; exact absurd hz (by decide)
            · rintro ⟨_, c', ser', deser', b', answer', hc', hs', hb', _, ha', hd'⟩
              cases hc'
              rw [hs] at hs'; cases hs'
              rw [hb] at hb'; cases hb'
              rw [hcall] at ha'
              simp only at ha'
              subst ha'
              rw [hd'] at hst
              exact hst.1
          · simp only [hok, if_false, Outcome.returned.injEq] at h
            obtain ⟨_, rfl, _⟩ := h
            constructor
            · intro hz; exact absurd hz hok
            · rintro ⟨_, c', ser', deser', b', answer', hc', hs', hb', h1, _⟩
              cases hc'
              rw [hs] at hs'; cases hs'
              rw [hb] at hb'; cases hb'
              rw [hcall] at h1
              exact absurd h1 hok

/-- C53 is violated: an exception of the serializer (as for a repeated bool field, C51) is not turned into
a status. -/
theorem C53_serialize_violated {R : Type} (deser : Deserialize R) (call : Bytes → Status × Bytes) (ret : R)
    (method : String) (e : Exn) :
    callTyped (A := Unit) (some ⟨some (fun _ => .throw e, deser), call⟩) method () false ret = .escaped e := rfl

/-- The cases of C53: a readable answer, an unreadable one, a failed call. -/
example : ∀ deser : Deserialize Nat, deser = (fun _ b => if b = [] then (0, some .outOfRange) else (b.length, none)) →
    callTyped (A := Bytes) (some ⟨some (fun a => .ok a, deser), fun b => (⟨0, ""⟩, b)⟩) "m" [1, 2] false 7 =
      .returned 2 ⟨0, ""⟩ [] ∧
    callTyped (A := Bytes) (some ⟨some (fun a => .ok a, deser), fun b => (⟨0, ""⟩, b)⟩) "m" [] false 7 =
      .returned 0 ⟨11, "Invalid size of received buffer"⟩ [⟨11, "Invalid size of received buffer"⟩] ∧
    callTyped (A := Bytes) (some ⟨some (fun a => .ok a, deser), fun b => (⟨14, "no"⟩, b)⟩) "m" [1] false 7 =
      .returned 7 ⟨14, "no"⟩ [⟨14, "no"⟩] := by
  intro deser h
  subst h
  exact ⟨rfl, rfl, rfl⟩

end QtPb.Call
