import Verif.SpecEndToEndAsync
import Verif.PropsEndToEnd
import Verif.PropsCall
/-
C108: asynchronous calls over HTTP/2, any number of them at the same time, from the arguments through the server to the messages that are read from the replies.
-/
namespace QtPb.EndToEnd.Async
open Http2 Native Call QtPb.Spec QtPb.EndToEnd.Spec Http2.Spec Spec

variable {env : Env}

theorem run_length (ser : Nat → Obj → Res Bytes) : ∀ (acts : List Act) {s s' : Session}, run ser s acts = .ok s' → s'.length = s.length + calls acts
  | [], s, s', h => by cases h; rfl
  | a :: rest, s, s', h => by
    simp only [run, Res.bind_eq_ok] at h
    obtain ⟨s1, h1, h2⟩ := h
    have := run_length ser rest h2
    cases a with
    | call method service m arg =>
      simp only [step, Res.bind_eq_ok] at h1
      obtain ⟨bs, -, h1⟩ := h1
      cases h1
      simp [calls] at this ⊢
      omega
    | event i e =>
      have hl : s1.length = s.length := by
        simp only [step] at h1
        split at h1 <;> cases h1 <;> simp
      rw [this, hl]
      simp [calls]

/-- What happens to a call does not depend on the other calls. -/
theorem run_at (ser : Nat → Obj → Res Bytes) : ∀ (acts : List Act) {s s' : Session} {i : Nat} {r : Request} {c : Call.State}, run ser s acts = .ok s' → s[i]? = some (r, c) →
    s'[i]? = some (r, Call.run c (eventsOf i acts))
  | [], s, s', i, r, c, h, hi => by cases h; exact hi
  | a :: rest, s, s', i, r, c, h, hi => by
    simp only [run, Res.bind_eq_ok] at h
    obtain ⟨s1, h1, h2⟩ := h
    have hlt := (List.getElem?_eq_some_iff.1 hi).1
    cases a with
    | call method service m arg =>
      simp only [step, Res.bind_eq_ok] at h1
      obtain ⟨bs, -, h1⟩ := h1
      cases h1
      have := run_at ser rest h2 (i := i) (r := r) (c := c) (by rw [List.getElem?_append_left hlt]; exact hi)
      simpa [eventsOf] using this
    | event j e =>
      simp only [step] at h1
      by_cases hj : j = i
      · subst hj
        rw [hi] at h1
        cases h1
        have := run_at ser rest h2 (i := j) (r := r) (c := Call.step c e) (by rw [List.getElem?_set_self hlt])
        rw [this]
        simp [eventsOf, Call.run]
      · have hi1 : s1[i]? = some (r, c) := by
          split at h1
          · cases h1
            rw [List.getElem?_set_ne hj]
            exact hi
          · cases h1
            exact hi
        have := run_at ser rest h2 hi1
        rw [this]
        simp [eventsOf, hj]

theorem run_append (ser : Nat → Obj → Res Bytes) : ∀ (xs : List Act) {ys : List Act} {s s' : Session}, run ser s (xs ++ ys) = .ok s' →
    ∃ s1, run ser s xs = .ok s1 ∧ run ser s1 ys = .ok s'
  | [], ys, s, s', h => ⟨s, rfl, h⟩
  | a :: xs, ys, s, s', h => by
    simp only [List.cons_append, run, Res.bind_eq_ok] at h
    obtain ⟨s1, h1, h2⟩ := h
    obtain ⟨s2, h3, h4⟩ := run_append ser xs h2
    exact ⟨s2, by simp only [run, Res.bind_eq_ok]; exact ⟨s1, h1, h3⟩, h4⟩

/-- C108: the calls of a client do not disturb each other: whatever other calls are made, and whatever happens to them, the call that is made after `before` posts the bytes of
its own argument, and its state is what the events for this call make of a call that is alone. -/
theorem C108_own {ser : Nat → Obj → Res Bytes} {before after : List Act} {method service : String} {m : Nat} {arg : Obj} {s : Session}
    (h : run ser [] (before ++ .call method service m arg :: after) = .ok s) :
    ∃ bs, ser m arg = .ok bs ∧
      s[calls before]? = some (⟨"/" ++ service ++ "/" ++ method, requestBody bs⟩, Call.run Call.start (eventsOf (calls before) after)) := by
  obtain ⟨s1, h1, h2⟩ := run_append ser before h
  have hl := run_length ser before h1
  simp only [List.length_nil, Nat.zero_add] at hl
  simp only [run, step, Res.bind_eq_ok] at h2
  obtain ⟨s2, ⟨bs, hb, e⟩, h3⟩ := h2
  cases e
  refine ⟨bs, hb, run_at ser after h3 ?_⟩
  rw [List.getElem?_append_right (by omega), hl, Nat.sub_self]
  rfl

/-- C108. An asynchronous call, in any history of calls: if the server, which receives the message `a`, answers this call with the message `o`, then `finished` is emitted once, no
error is emitted, and `read()` returns the same message as `o`, at any time later. `a` is the same message as the argument. (Only this argument has
to be written as the binary serializer does.)

Missing: as in `C76_answer_partial`. -/
theorem C108_answer_partial (hv : ValidSchema env) (ho : ValidOrder env) {rank : Nat → Nat} (ha : Acyclic env rank) (hb : NoRepeatedBool env)
    (hE : env.fromUtf8 (env.toUtf8 []) = []) {mA mR : Nat} {arg : Obj} (harg : Clean env (.msg mA) (.msg arg))
    (hsmall : ∀ n bs, serializeMessage env n mA arg = .ok bs → bs.length < 2 ^ 31) :
    ∃ N a, Same env (.msg mA) (.msg arg) (.msg a) ∧ a.length = (env.sch mA).length ∧
      ∀ (n : Nat) (ser : Nat → Obj → Res Bytes) (before after : List Act) (method service : String) (s : Session) (F : Obj → Obj), N ≤ n →
        ser mA arg = serializeMessage env n mA arg → run ser [] (before ++ .call method service mA arg :: after) = .ok s →
        (∀ body b, Carries env mA body b → ((s[calls before]?).map (·.1) = some ⟨"/" ++ service ++ "/" ++ method, body⟩) →
          Answered env mR (F b) (eventsOf (calls before) after)) →
        Plain env (.msg mR) (.msg (F a)) →
        ∃ body c, s[calls before]? = some (⟨"/" ++ service ++ "/" ++ method, body⟩, c) ∧ Carries env mA body a ∧
          c.signals = [.finished] ∧ c.clientErrors = [] ∧
          ∃ N', ∀ n', N' ≤ n' → ∃ K, ∀ k, K ≤ k → ∃ r, readReply env n' k mR c = some (r, ⟨Status.Ok, ""⟩, []) ∧
            Same env (.msg mR) (.msg r) (.msg (F a)) ∧ Safe env (.msg mR) (.msg r) := by
  obtain ⟨N, argData, a, h1, h2, h3, hla⟩ := carries hv ho ha hb hE harg hsmall
  refine ⟨N, a, h3, hla, fun n ser before after method service s F hn he hr hserver hF => ?_⟩
  obtain ⟨bs, hbs, hs⟩ := C108_own hr
  cases (hbs.symm.trans he).trans (h1 n hn)
  obtain ⟨reply, later, rb, hdr, e1, e2, e3, e4, e5, e6, e7⟩ := hserver _ a h2 (by rw [hs]; rfl)
  have hp : processReply reply = .ok (rb, Status.Ok) := by
    rw [C33_server_status reply e3 e4 e5 (by decide), if_pos rfl, frame_drop e6]
    rfl
  rw [e1] at hs
  obtain ⟨d1, d2, d3⟩ := C34_delivers reply later e2 hp
  refine ⟨_, _, hs, h2, d1, d3, rb.length + 1, fun n' hn' => ?_⟩
  obtain ⟨K, hK⟩ := read_usual (n := n') (old := defaultObj env mR) hv e7 hF (.inl rfl) (by omega)
  refine ⟨K, fun k hk => ?_⟩
  obtain ⟨r, k1, k2, k3⟩ := hK k hk
  refine ⟨r, ?_, k2, k3⟩
  unfold readReply
  rw [d2, k1]
  rfl

/-- Nothing but `abort()` changes what a call that is over shows. -/
theorem settled : ∀ (es : List Call.Ev) (c : Call.State), Call.Ev.abort ∉ es → c.connection = false →
    (Call.run c es).connection = false ∧ (Call.run c es).signals = c.signals ∧ (Call.run c es).data = c.data ∧ (Call.run c es).clientErrors = c.clientErrors
  | [], c, _, h => ⟨h, rfl, rfl, rfl⟩
  | e :: es, c, hno, h => by
    have hfin : ∀ r, (netFinish c r).connection = false ∧ (netFinish c r).signals = c.signals ∧ (netFinish c r).data = c.data ∧
        (netFinish c r).clientErrors = c.clientErrors := by
      intro r
      unfold netFinish
      split
      · simp only [onNetworkFinished, h, Bool.false_eq_true, if_false]; exact ⟨trivial, trivial, trivial, trivial⟩
      · exact ⟨h, rfl, rfl, rfl⟩
    have hs : (Call.step c e).connection = false ∧ (Call.step c e).signals = c.signals ∧ (Call.step c e).data = c.data ∧
        (Call.step c e).clientErrors = c.clientErrors := by
      cases e with
      | complete r => exact hfin r
      | abort => exact absurd (List.mem_cons_self ..) hno
      | timeout =>
        simp only [Call.step]
        split
        · exact ⟨h, rfl, rfl, rfl⟩
        · unfold abortNetworkReply
          split
          · exact hfin _
          · exact ⟨h, rfl, rfl, rfl⟩
      | deleteNet =>
        simp only [Call.step]
        split
        · exact ⟨rfl, rfl, rfl, rfl⟩
        · exact ⟨h, rfl, rfl, rfl⟩
      | destroyChannel => exact ⟨rfl, rfl, rfl, rfl⟩
    obtain ⟨a1, a2, a3, a4⟩ := settled es (Call.step c e) (fun h => hno (List.mem_cons_of_mem _ h)) hs.1
    exact ⟨a1, a2.trans hs.2.1, a3.trans hs.2.2.1, a4.trans hs.2.2.2⟩

/-- C108: a call that the server refuses with the status `code` emits `error` with that status once, the client emits the same error once, and there is no data. -/
theorem C108_refused {ser : Nat → Obj → Res Bytes} {code : Nat} {before after : List Act} {method service : String} {m : Nat} {arg : Obj} {s : Session}
    (h : run ser [] (before ++ .call method service m arg :: after) = .ok s)
    (hr : Refused code (eventsOf (calls before) after)) (hc : code ≠ 0) (hc' : code < 2 ^ 31) :
    ∃ r c, s[calls before]? = some (r, c) ∧ c.signals = [.error (code : Int)] ∧ c.clientErrors = [(code : Int)] ∧ c.data = [] := by
  obtain ⟨bs, -, hs⟩ := C108_own h
  obtain ⟨reply, later, hdr, e1, e2, e3, e4, e5⟩ := hr
  have hz : ((code : Int) : StatusCode) ≠ Status.Ok := by simp [Status.Ok]; omega
  have hp : processReply reply = .ok ([], (code : Int)) := by rw [C33_server_status reply e3 e4 e5 hc', if_neg hc]
  rw [e1] at hs
  have hfirst : Call.step Call.start (.complete reply) = ⟨.finished, false, false, false, true, [], [.error (code : Int)], [(code : Int)]⟩ := by
    simp [Call.step, netFinish, Call.start, onNetworkFinished, hp, hz, Call.onError]
  obtain ⟨-, a2, a3, a4⟩ := settled later (Call.step Call.start (.complete reply)) e2 (by rw [hfirst])
  refine ⟨_, _, hs, ?_, ?_, ?_⟩
  · exact a2.trans (by rw [hfirst])
  · exact a4.trans (by rw [hfirst])
  · exact a3.trans (by rw [hfirst])

/-- C108: a call whose timer fires before the server answers emits `error` with Unavailable once, whatever the server sends later. -/
theorem C108_timeout {ser : Nat → Obj → Res Bytes} {before after : List Act} {method service : String} {m : Nat} {arg : Obj} {s : Session} {later : List Call.Ev}
    (h : run ser [] (before ++ .call method service m arg :: after) = .ok s)
    (hr : eventsOf (calls before) after = .timeout :: later) (hl : Call.Ev.abort ∉ later) :
    ∃ r c, s[calls before]? = some (r, c) ∧ c.signals = [.error Status.Unavailable] ∧ c.clientErrors = [Status.Unavailable] ∧ c.data = [] := by
  obtain ⟨bs, -, hs⟩ := C108_own h
  rw [hr] at hs
  have hfirst : (Call.step Call.start .timeout).connection = false ∧ (Call.step Call.start .timeout).signals = [.error Status.Unavailable] ∧
      (Call.step Call.start .timeout).clientErrors = [Status.Unavailable] ∧ (Call.step Call.start .timeout).data = [] := by decide +kernel
  obtain ⟨-, a2, a3, a4⟩ := settled later (Call.step Call.start .timeout) hl hfirst.1
  exact ⟨_, _, hs, a2.trans hfirst.2.1, a4.trans hfirst.2.2.1, a3.trans hfirst.2.2.2⟩

/-- C108: a call that the user aborts before the server answers emits the error Aborted of `abort()`, and no other signal, whatever happens later. -/
theorem C108_aborted {ser : Nat → Obj → Res Bytes} {before after : List Act} {method service : String} {m : Nat} {arg : Obj} {s : Session} {later : List Call.Ev}
    (h : run ser [] (before ++ .call method service m arg :: after) = .ok s)
    (hr : eventsOf (calls before) after = .abort :: later) (hl : Call.Ev.abort ∉ later) :
    ∃ r c, s[calls before]? = some (r, c) ∧ c.signals = [.aborted] ∧ c.clientErrors = [Status.Aborted] ∧ c.data = [] := by
  obtain ⟨bs, -, hs⟩ := C108_own h
  rw [hr] at hs
  have hfirst : (Call.step Call.start .abort).connection = false ∧ (Call.step Call.start .abort).signals = [.aborted] ∧
      (Call.step Call.start .abort).clientErrors = [Status.Aborted] ∧ (Call.step Call.start .abort).data = [] := by decide +kernel
  obtain ⟨-, a2, a3, a4⟩ := settled later (Call.step Call.start .abort) hl hfirst.1
  exact ⟨_, _, hs, a2.trans hfirst.2.1, a4.trans hfirst.2.2.1, a3.trans hfirst.2.2.2⟩

/-- Signals are not taken back. -/
theorem signals_step (c : Call.State) (e : Call.Ev) : ∃ l, (Call.step c e).signals = c.signals ++ l := by
  have herr : ∀ (c : Call.State) code, (Call.onError c code).signals = c.signals := by
    intro c code
    unfold Call.onError
    by_cases h1 : c.client = true <;> simp only [h1, if_true, if_false, Bool.false_eq_true] <;> split <;> rfl
  have hfin : ∀ r, ∃ l, (netFinish c r).signals = c.signals ++ l := by
    intro r
    unfold netFinish
    split
    · unfold onNetworkFinished
      split
      · obtain ⟨data, code, hp⟩ := processReply_total r
        rw [hp]
        dsimp only
        split
        · exact ⟨_, rfl⟩
        · rw [herr]
          exact ⟨_, rfl⟩
      · exact ⟨[], by simp⟩
    · exact ⟨[], by simp⟩
  cases e with
  | complete r => exact hfin r
  | abort =>
    simp only [Call.step]
    rw [herr]
    exact ⟨_, rfl⟩
  | timeout =>
    simp only [Call.step]
    split
    · exact ⟨[], by simp⟩
    · unfold abortNetworkReply
      split
      · exact hfin _
      · exact ⟨[], by simp⟩
  | deleteNet =>
    simp only [Call.step]
    split <;> exact ⟨[], by simp⟩
  | destroyChannel => exact ⟨[], by simp [Call.step]⟩

theorem signals_run : ∀ (es : List Call.Ev) (c : Call.State), ∃ l, (Call.run c es).signals = c.signals ++ l
  | [], c => ⟨[], by simp [Call.run]⟩
  | e :: es, c => by
    obtain ⟨l1, h1⟩ := signals_step c e
    obtain ⟨l2, h2⟩ := signals_run es (Call.step c e)
    exact ⟨l1 ++ l2, by show (Call.run (Call.step c e) es).signals = _; rw [h2, h1, List.append_assoc]⟩

/-- A call that has finished and was not aborted has got a complete answer. -/
theorem finished_answer : ∀ (es : List Call.Ev) (c : Call.State),
    (Signal.finished ∈ c.signals → c.connection = false) →
    Signal.finished ∈ (Call.run c es).signals → Signal.aborted ∉ (Call.run c es).signals →
    (Signal.finished ∈ c.signals ∧ (Call.run c es).data = c.data) ∨
      ∃ reply, Call.Ev.complete reply ∈ es ∧ processReply reply = .ok ((Call.run c es).data, Status.Ok)
  | [], c, _, h, _ => .inl ⟨h, rfl⟩
  | e :: es, c, hc, h, ha => by
    have hfin : ∀ r, (Signal.finished ∈ (netFinish c r).signals → (netFinish c r).connection = false) ∧
        ((Signal.finished ∈ (netFinish c r).signals ∧ Signal.finished ∉ c.signals) → processReply r = .ok ((netFinish c r).data, Status.Ok)) ∧
        (Signal.finished ∈ c.signals → (netFinish c r).data = c.data) := by
      intro r
      unfold netFinish
      split
      · by_cases hcon : c.connection = true
        · have hnf : Signal.finished ∉ c.signals := fun h => by rw [hc h] at hcon; exact absurd hcon (by decide)
          obtain ⟨data, code, hp⟩ := processReply_total r
          by_cases hok : code = Status.Ok
          · subst hok
            simp [onNetworkFinished, hcon, hp, hnf]
          · simp [onNetworkFinished, hcon, hp, hok, Call.onError, hnf]
            by_cases hcl : c.client = true <;> simp [hcl, hnf]
        · simp only [Bool.not_eq_true] at hcon
          unfold onNetworkFinished
          rw [if_neg (by simp [hcon])]
          exact ⟨fun _ => hcon, fun h => absurd h.1 h.2, fun _ => rfl⟩
      · exact ⟨hc, fun h => absurd h.1 h.2, fun _ => rfl⟩
    have hstep : (Signal.finished ∈ (Call.step c e).signals → (Call.step c e).connection = false) ∧
        ((Signal.finished ∈ (Call.step c e).signals ∧ Signal.finished ∉ c.signals) →
          ∃ r, e = .complete r ∧ processReply r = .ok ((Call.step c e).data, Status.Ok)) ∧
        (Signal.finished ∈ c.signals → (Call.step c e).data = c.data) := by
      cases e with
      | complete r => exact ⟨(hfin r).1, fun h => ⟨r, rfl, (hfin r).2.1 h⟩, (hfin r).2.2⟩
      | abort =>
        refine absurd ?_ ha
        obtain ⟨l, hl⟩ := signals_run es (Call.step c .abort)
        show _ ∈ (Call.run (Call.step c .abort) es).signals
        rw [hl]
        refine List.mem_append_left _ ?_
        simp only [Call.step, Call.onError]
        by_cases h1 : c.client = true <;> simp only [h1, if_true, if_false, Bool.false_eq_true] <;> split <;> simp
      | timeout =>
        have hx := hfin ⟨.OperationCanceledError, none, []⟩
        simp only [Call.step]
        split
        · exact ⟨hc, fun h => absurd h.1 h.2, fun _ => rfl⟩
        · unfold abortNetworkReply
          split
          · refine ⟨hx.1, fun h => ?_, hx.2.2⟩
            have := hx.2.1 h
            rw [show processReply ⟨.OperationCanceledError, none, []⟩ = .ok ([], Status.Unavailable) from by decide +kernel] at this
            injection this with this
            injection this with _ this
            exact absurd this (by decide)
          · exact ⟨hc, fun h => absurd h.1 h.2, fun _ => rfl⟩
      | deleteNet =>
        simp only [Call.step]
        split
        · exact ⟨fun _ => rfl, fun h => absurd h.1 h.2, fun _ => rfl⟩
        · exact ⟨hc, fun h => absurd h.1 h.2, fun _ => rfl⟩
      | destroyChannel => exact ⟨fun _ => rfl, fun h => absurd h.1 h.2, fun _ => rfl⟩
    rcases finished_answer es (Call.step c e) hstep.1 h ha with ⟨h1, h2⟩ | ⟨r, h1, h2⟩
    · by_cases hf : Signal.finished ∈ c.signals
      · exact .inl ⟨hf, h2.trans (hstep.2.2 hf)⟩
      · obtain ⟨r, rfl, hr⟩ := hstep.2.1 ⟨h1, hf⟩
        refine .inr ⟨r, by simp, ?_⟩
        rw [hr]
        exact congrArg (fun d => Res.ok (d, Status.Ok)) h2.symm
    · exact .inr ⟨r, List.mem_cons_of_mem _ h1, h2⟩

/-- C108, converse: a reply that has emitted `finished`, and was not aborted, has the body of an answer that completed without a network error and with the status Ok. -/
theorem C108_finished {ser : Nat → Obj → Res Bytes} {before after : List Act} {method service : String} {m : Nat} {arg : Obj} {s : Session} {r : Request} {c : Call.State}
    (h : run ser [] (before ++ .call method service m arg :: after) = .ok s) (hs : s[calls before]? = some (r, c))
    (hf : Signal.finished ∈ c.signals) (ha : Signal.aborted ∉ c.signals) :
    ∃ reply, Act.event (calls before) (.complete reply) ∈ after ∧ reply.error = NetworkError.NoError ∧ c.data = reply.body.drop 5 := by
  obtain ⟨bs, -, hs'⟩ := C108_own h
  cases hs.symm.trans hs'
  rcases finished_answer _ Call.start (fun _ => by contradiction) hf ha with ⟨h1, -⟩ | ⟨reply, h1, h2⟩
  · exact absurd h1 (by simp [Call.start])
  · refine ⟨reply, ?_, ?_⟩
    · unfold eventsOf at h1
      rw [List.mem_filterMap] at h1
      obtain ⟨a, ha1, ha2⟩ := h1
      cases a with
      | call => cases ha2
      | event j e =>
        simp only at ha2
        split at ha2
        · rename_i hj
          cases ha2
          cases hj
          exact ha1
        · cases ha2
    · obtain ⟨d, code, k1, -, k2⟩ := C33_data_only_ok reply
      rw [h2] at k1
      cases k1
      exact k2 rfl

/-! The theorems apply: two calls at the same time. The second is answered first, then the first, whose timer fires afterwards. -/

theorem demo_answered (later : List Call.Ev) (h : Call.Ev.abort ∉ later) :
    Answered demo 1 [.sc (.bytes (some [7]))] (.complete ⟨.NoError, some [0x30], [0, 0, 0, 0, 3, 0x22, 1, 7]⟩ :: later) :=
  ⟨_, later, [0x22, 1, 7], [0x30], rfl, h, rfl, rfl, ⟨by decide, by decide, rfl⟩, ⟨[0, 0, 0, 3], ⟨0, 0, 0, 3, rfl, rfl⟩, rfl⟩, demo_encodes⟩

def demoActs : List Act := [.call "method" "service" 0 demoArg, .call "other" "service" 1 [.sc (.bytes (some [1]))],
  .event 1 (.complete ⟨.NoError, some [0x35], []⟩), .event 0 (.complete ⟨.NoError, some [0x30], [0, 0, 0, 0, 3, 0x22, 1, 7]⟩), .event 0 .timeout,
  .event 1 .deleteNet]

example : Answered demo 1 [.sc (.bytes (some [7]))] (eventsOf 0 demoActs.tail) ∧ Refused 5 (eventsOf 1 (demoActs.drop 2)) ∧
    (match run (serializeMessage demo 50) [] demoActs with | .ok s => s.map (fun x => (x.1.path, x.2.signals, x.2.clientErrors, x.2.data)) | _ => []) =
      [("/service/method", [.finished], [], [0x22, 1, 7]), ("/service/other", [.error 5], [5], [])] :=
  ⟨demo_answered [.timeout] (by simp), ⟨_, [.deleteNet], [0x35], rfl, by simp, rfl, rfl, ⟨by decide, by decide, rfl⟩⟩, by decide +kernel⟩

end QtPb.EndToEnd.Async
