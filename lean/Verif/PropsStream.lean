import Verif.StreamLemmas2
/-
C36, C37, C38, C40: server streams. Statements are about `Obs` traces of arbitrary histories of a fresh client
(Verif/SpecStream.lean); `(Client.new th).run es = some (c, t)` says that the history `es` has defined
behaviour, ends in state `c` and shows the observations `t`.
-/
namespace QtPb.Stream
open Spec

/-! ### C36: equal subscriptions share one stream -/

/-- At any time there is at most one unfinished stream for a method and an argument. -/
theorem C36_one_open {es : List Ev} {t : List Obs} (h : Observed es t) {s s' : Nat} {m : String} {arg : Bytes}
    (h1 : Open t s) (h2 : Open t s') (k1 : HasKey t s m arg) (k2 : HasKey t s' m arg) : s = s' := by
  obtain ⟨th, c, hc⟩ := h
  have hr := Rel.reach hc
  obtain ⟨x, hx⟩ := k1
  obtain ⟨y, hy⟩ := k2
  have e1 := hr.key _ _ _ _ hx
  have e2 := hr.key _ _ _ _ hy
  refine hr.distinct s s' ((hr.open_iff s).mp h1) ((hr.open_iff s').mp h2) ?_
  simp [Client.same, e1.1, e1.2, e2.1, e2.2]

/-- Subscribing again to an unfinished stream gives this very stream, and no request is sent. -/
theorem C36_shared {th : Nat} {es : List Ev} {c : Client} {t : List Obs} (h : (Client.new th).run es = some (c, t))
    {s : Nat} {m : String} {arg : Bytes} (ho : Open t s) (hk : HasKey t s m arg) (x : Option Nat) :
    ∃ c', c.step (.subscribe m arg x) = some (c', [.subscribed m arg x s]) := by
  have hr := Rel.reach h
  have hs := (hr.open_iff s).mp ho
  obtain ⟨y, hy⟩ := hk
  have hkey := hr.key _ _ _ _ hy
  have hch : c.channel ≠ none := by
    intro hn; have := hr.channel hn; have := hr.active_lt hs; omega
  cases hk : c.channel with
  | none => exact absurd hk hch
  | some k =>
    cases hf : c.active.find? (fun z => (c.streams z).method == m && (c.streams z).arg == arg) with
    | none =>
      rw [List.find?_eq_none] at hf
      exact absurd (by simp [hkey.1, hkey.2]) (hf s hs)
    | some z =>
      have hz := List.mem_of_find?_eq_some hf
      have hp := List.find?_some hf
      simp only [Bool.and_eq_true, beq_iff_eq] at hp
      have : z = s := hr.distinct z s hz hs (by simp [Client.same, hp.1, hp.2, hkey.1, hkey.2])
      subst this
      simp only [Client.step, Client.subscribe, hk, hf]
      exact ⟨_, rfl⟩

/-- Otherwise a new stream is returned and its request is sent, over the attached channel. -/
theorem C36_new {th : Nat} {es : List Ev} {c : Client} {t : List Obs} (h : (Client.new th).run es = some (c, t))
    {m : String} {arg : Bytes} (hno : ∀ s, Open t s → ¬ HasKey t s m arg) {k : Kind} (hk : c.channel = some k)
    (x : Option Nat) :
    ∃ c' a s, c.step (.subscribe m arg x) = some (c', [.subscribed m arg x s, .started a s k]) ∧
      (∀ m' arg' y, Obs.subscribed m' arg' y s ∉ t) ∧ ∀ s' k', Obs.started a s' k' ∉ t := by
  have hr := Rel.reach h
  cases hf : c.active.find? (fun z => (c.streams z).method == m && (c.streams z).arg == arg) with
  | some z =>
    have hz := List.mem_of_find?_eq_some hf
    have hp := List.find?_some hf
    simp only [Bool.and_eq_true, beq_iff_eq] at hp
    obtain ⟨y, hy⟩ := hr.subscribed z (hr.active_lt hz)
    rw [hp.1, hp.2] at hy
    exact absurd ⟨y, hy⟩ (hno z ((hr.open_iff z).mpr hz))
  | none =>
    refine ⟨_, c.nAttempts, c.nStreams, by simp only [Client.step, Client.subscribe, hk, hf, Client.start]; rfl,
      (hr.fresh c.nStreams (Nat.le_refl _)).2.2.2.2.2, ?_⟩
    intro s' k' hm
    have hn := (hr.freshAttempt c.nAttempts (Nat.le_refl _)).2.2.1
    have : ∀ (l : List Obs) (v : View), (Obs.started c.nAttempts s' k' ∈ l ∨ v.owner c.nAttempts ≠ none) →
        (l.foldl View.see v).owner c.nAttempts ≠ none := by
      intro l
      induction l with
      | nil => intro v hv; rcases hv with hv | hv; cases hv; exact hv
      | cons o l ih =>
        intro v hv
        simp only [List.foldl_cons]
        apply ih
        rcases hv with hv | hv
        · rcases List.mem_cons.mp hv with rfl | hv
          · right; simp [View.see]
          · exact .inl hv
        · right
          cases o with
          | subscribed m' a' y s => cases y <;> exact hv
          | started a s k =>
            simp only [View.see]
            split
            · simp
            · exact hv
          | _ => exact hv
    exact this t View.new (.inl hm) hn

/-- In every history the handler calls made are exactly those that are due: each message a channel passes on
goes to every handler subscribed to its stream, once per subscription, in the order of subscription; and the
order of the messages is kept. -/
theorem C36_calls {es : List Ev} {t : List Obs} (h : Observed es t) : calls t = dueCalls View.new t := by
  obtain ⟨th, c, hc⟩ := h
  exact (Rel.reach hc).callsDue

/-- Messages are passed on in the order of their arrival, none twice; over HTTP/2 each at once. -/
theorem C36_order {es : List Ev} {t : List Obs} (h : Observed es t) (a : Nat) :
    passedOn a t <+: arrived a t ∧
      (∀ s, (view t).owner a = some (s, .http2) → passedOn a t = arrived a t) := by
  obtain ⟨th, c, hc⟩ := h
  have hr := Rel.reach hc
  refine ⟨hr.queuePrefix a, ?_⟩
  intro s ho
  by_cases ha : a < c.nAttempts
  · have := (hr.owner a ha).1
    rw [ho] at this
    simp only [Option.some.injEq, Prod.mk.injEq] at this
    exact (hr.queueHttp2 a this.2.symm).2
  · rw [(hr.freshAttempt a (by omega)).2.2.1] at ho; cases ho

/-- A message that arrives over HTTP/2 for a running, unfinished stream is handed to its handlers at once. -/
theorem C36_delivered {th : Nat} {es : List Ev} {c : Client} {t : List Obs} (h : (Client.new th).run es = some (c, t))
    {a s : Nat} (ho : Open t s) (hown : (view t).owner a = some (s, .http2)) (hrun : Running t a s) (d : Bytes) :
    ∃ c', c.step (.net a (.data d)) = some (c', .emitted a d :: .recv a d ::
      (((view t).subscribers s).map (fun x => .handled s x d) ++ [.notified s])) := by
  have hr := Rel.reach h
  obtain ⟨h1, h2, h3⟩ := (hr.running_iff a s).mp hrun
  have hk : (c.attempts a).kind = .http2 := by
    have := (hr.owner a h3).1
    rw [hown] at this
    simp only [Option.some.injEq, Prod.mk.injEq] at this
    exact this.2.symm
  have hs := (hr.open_iff s).mp ho
  have hd := hr.active_not_deleted hs
  rw [hr.subscribers s (hr.active_lt hs)]
  simp [Client.step, h3, Client.net, hk, h1, h2, hd, Client.handler]

/-- No stream is ever running twice at the same time. -/
theorem C36_single_request {es : List Ev} {t : List Obs} (h : Observed es t) {a b s : Nat}
    (h1 : Running t a s) (h2 : Running t b s) : a = b := by
  obtain ⟨th, c, hc⟩ := h
  have hr := Rel.reach hc
  obtain ⟨x1, x2, _⟩ := (hr.running_iff a s).mp h1
  obtain ⟨y1, y2, _⟩ := (hr.running_iff b s).mp h2
  exact hr.single a b x1 y1 (x2.trans y2.symm)

/-- Handlers that do not subscribe to the stream they serve are all called. -/
theorem C36_handlers_partial (adds : Nat → Nat) (l : List Nat) (h : ∀ x ∈ l, adds x = 0) :
    callHandlers adds l = some l := by
  induction l with
  | nil => rfl
  | cons x l ih =>
    simp only [callHandlers, h x (by simp), if_true]
    rw [ih (fun y hy => h y (by simp [hy]))]
    rfl

/-- A handler that subscribes once more to its own stream breaks the loop over the handlers: undefined
behaviour, whoever else has subscribed. -/
theorem C36_handler_subscribes_violated (adds : Nat → Nat) (l : List Nat) (x : Nat) (hx : x ∈ l) (ha : adds x ≠ 0) :
    callHandlers adds l = none := by
  induction l with
  | nil => cases hx
  | cons y l ih =>
    simp only [callHandlers]
    by_cases hy : adds y = 0
    · rw [if_pos hy]
      rcases List.mem_cons.mp hx with rfl | hx
      · exact absurd hy ha
      · rw [ih hx]; rfl
    · rw [if_neg hy]

/-- The history of the examples below: two subscriptions to the same stream, one to another, a message. -/
def demo : List Ev :=
  [.attach .http2 1 1, .subscribe "m" [1] (some 7), .subscribe "m" [1] (some 8), .subscribe "n" [1] (some 9),
   .net 0 (.data [5])]

def demoTrace : List Obs :=
  [.subscribed "m" [1] (some 7) 0, .started 0 0 .http2, .subscribed "m" [1] (some 8) 0,
   .subscribed "n" [1] (some 9) 1, .started 1 1 .http2, .emitted 0 [5], .recv 0 [5], .handled 0 7 [5], .handled 0 8 [5],
   .notified 0]

theorem demo_runs : ((Client.new 1).run demo).map (·.2) = some demoTrace := by decide +kernel

theorem demo_observed : Observed demo demoTrace := by
  have h := demo_runs
  simp only [Option.map_eq_some_iff] at h
  obtain ⟨⟨c, t⟩, h, rfl⟩ := h
  exact ⟨1, c, h⟩

example : Open demoTrace 0 ∧ Open demoTrace 1 ∧ HasKey demoTrace 0 "m" [1] ∧ Running demoTrace 0 0 ∧
    calls demoTrace = [(0, 7, [5]), (0, 8, [5])] := by
  refine ⟨⟨⟨"m", [1], some 7, by decide⟩, by decide⟩, ⟨⟨"n", [1], some 9, by decide⟩, by decide⟩, ⟨some 7, by decide⟩,
    ⟨.http2, by decide, by decide⟩, by decide⟩

/-! ### C37: finished streams are forgotten and not restarted -/

/-- After a stream has finished the client refers to it no more, and no later subscription returns it. -/
theorem C37_forgotten {th : Nat} {es : List Ev} {c : Client} {t : List Obs} (h : (Client.new th).run es = some (c, t))
    {s : Nat} (hs : Obs.finished s ∈ t) :
    s ∉ c.active ∧ (c.streams s).connected = false ∧
      ∀ m arg x c' o, c.step (.subscribe m arg x) = some (c', o) → Obs.subscribed m arg x s ∉ o := by
  have hr := Rel.reach h
  have hlt : s < c.nStreams := by
    by_cases hx : s < c.nStreams
    · exact hx
    · exact absurd hs (hr.fresh s (by omega)).2.2.2.2.1
  have hc : (c.streams s).connected = false := by
    cases hc : (c.streams s).connected with
    | false => rfl
    | true => exact absurd hs ((hr.finished s hlt).mp hc)
  have hact : s ∉ c.active := by
    intro hx; rw [hr.activeIff, hc] at hx; cases hx
  refine ⟨hact, hc, ?_⟩
  intro m arg x c' o hf
  simp only [Client.step, Option.some.injEq] at hf
  have key : Obs.subscribed m arg x s ∉ (c.subscribe m arg x).2 := by
    unfold Client.subscribe
    split
    · simp
    · split
      · rename_i y hy
        have hy := List.mem_of_find?_eq_some hy
        have hne : s ≠ y := fun e => hact (e ▸ hy)
        simp [hne]
      · have : s ≠ c.nStreams := by omega
        simp [Client.start, this]
  rw [hf] at key
  exact key

/-- A stream that is running when it finishes (because the server ended it, or because of `abort()` or
`attachChannel`) is never started again, reports no error any more and, if it used HTTP/2 only, is handed no
further message; whatever happens afterwards. -/
theorem C37_stopped_running_partial {th : Nat} {es es' : List Ev} {e : Ev} {c c' c'' : Client} {t o o' : List Obs}
    (h : (Client.new th).run es = some (c, t)) {a s : Nat} (hrun : Running t a s)
    (hstep : c.step e = some (c', o)) (hfin : Obs.finished s ∈ o) (hrest : c'.run es' = some (c'', o')) :
    (∀ b k, Obs.started b s k ∉ o') ∧ (∀ code, Obs.failed s code ∉ o') ∧
      ((∀ b, (view (t ++ o)).owner b ≠ some (s, .native)) → ∀ x d, Obs.handled s x d ∉ o') := by
  have hr := Rel.reach h
  obtain ⟨h1, h2, _⟩ := (hr.running_iff a s).mp hrun
  have ht : s ∉ c.timers := by have := hr.noTimer a h1; rw [h2] at this; exact this
  have hi := idle_after hr hstep hfin (∀ b, (view (t ++ o)).owner b ≠ some (s, .native)) id (.inl ht)
  have hc := hi.run (hr.step hstep) hrest
  exact ⟨fun b k hm => hc _ hm rfl, fun code hm => hc _ hm rfl, fun hq x d hm => hc _ hm ⟨hq, rfl⟩⟩

/-- The same holds for a stream to which the user has no reference when it finishes. -/
theorem C37_stopped_dropped_partial {th : Nat} {es es' : List Ev} {e : Ev} {c c' c'' : Client} {t o o' : List Obs}
    (h : (Client.new th).run es = some (c, t)) {s : Nat} 
    (hstep : c.step e = some (c', o)) (hfin : Obs.finished s ∈ o) (hheld : (c'.streams s).held = 0)
    (hrest : c'.run es' = some (c'', o')) :
    (∀ b k, Obs.started b s k ∉ o') ∧ (∀ code, Obs.failed s code ∉ o') ∧
      ((∀ b, (view (t ++ o)).owner b ≠ some (s, .native)) → ∀ x d, Obs.handled s x d ∉ o') := by
  have hr := Rel.reach h
  have hi := idle_after hr hstep hfin (∀ b, (view (t ++ o)).owner b ≠ some (s, .native)) id (.inr hheld)
  have hc := hi.run (hr.step hstep) hrest
  exact ⟨fun b k hm => hc _ hm rfl, fun code hm => hc _ hm rfl, fun hq x d hm => hc _ hm ⟨hq, rfl⟩⟩

/-- The demo goes on: the server ends the first stream. -/
example : ((Client.new 1).run (demo ++ [.net 0 (.close (.status Http2.Status.Ok))])).map (·.2) =
    some (demoTrace ++ [.closed 0, .finished 0]) := by decide +kernel

/-- After an error the stream is restarted: as long as it is not finished and was not started again, the timer
starts it. -/
theorem C37_retry {th : Nat} {es : List Ev} {c : Client} {t : List Obs} (h : (Client.new th).run es = some (c, t))
    {s : Nat} (ho : Open t s) {pre post : List Obs} {code : Http2.StatusCode}
    (ht : t = pre ++ .failed s code :: post) (hno : ∀ a k, Obs.started a s k ∉ post) :
    ∃ c' a k, c.step (.timer s) = some (c', [.started a s k]) ∧ c.channel = some k := by
  have hr := Rel.reach h
  have hw : s ∈ c.timers ∨ Obs.finished s ∈ [] ++ t :=
    awaiting_timer (Rel.new th) (by rintro ⟨pre, code, post, he, _⟩; simp at he) h
      ⟨pre, code, post, by simpa using ht, hno⟩
  have hs := (hr.open_iff s).mp ho
  have hm : s ∈ c.timers := by
    rcases hw with hw | hw
    · exact hw
    · exact absurd hw ho.2
  have hch : c.channel ≠ none := by
    intro hn; have := hr.channel hn; have := hr.active_lt hs; omega
  cases hk : c.channel with
  | none => exact absurd hk hch
  | some k =>
    simp only [Client.step, Client.fire, hm, if_true, Client.alive, (hr.activeIff s).mp hs, Bool.true_or, hk, Client.start]
    exact ⟨_, c.nAttempts, k, rfl, rfl⟩

/-- The example of the theorem: the server ends the stream of the demo with an error. -/
example : ((Client.new 1).run (demo ++ [.net 0 (.close (.status Http2.Status.Internal)), .timer 0])).map (·.2) =
    some (demoTrace ++ [.closed 0, .failed 0 Http2.Status.Internal, .clientFailed Http2.Status.Internal] ++
      [.started 2 0 .http2]) := by decide +kernel

/-- What is missing: a stream that waits to be restarted when the user aborts it, and to which the user keeps
the reference, is restarted after it has finished; its handlers get messages again. -/
theorem C37_restart_violated :
    ((Client.new 1).run [.attach .http2 1 1, .subscribe "m" [1] (some 7), .net 0 (.close (.status Http2.Status.Internal)),
        .abort 0, .timer 0, .net 1 (.data [5])]).map (·.2) =
      some [.subscribed "m" [1] (some 7) 0, .started 0 0 .http2, .closed 0, .failed 0 Http2.Status.Internal,
        .clientFailed Http2.Status.Internal, .finished 0, .started 1 0 .http2, .emitted 1 [5], .recv 1 [5],
        .handled 0 7 [5], .notified 0] := by decide +kernel

/-- If the key is subscribed to again meanwhile, two requests for the same method and argument are running: a
failure of C36 as well. -/
theorem C36_two_running_violated :
    ∃ es t, Observed es t ∧ ∃ a b s s', a ≠ b ∧ s ≠ s' ∧ Running t a s ∧ Running t b s' ∧ HasKey t s "m" [1] ∧ HasKey t s' "m" [1] := by
  have h : ((Client.new 1).run [.attach .http2 1 1, .subscribe "m" [1] (some 7),
      .net 0 (.close (.status Http2.Status.Internal)), .abort 0, .subscribe "m" [1] (some 8), .timer 0]).map (·.2) =
      some [.subscribed "m" [1] (some 7) 0, .started 0 0 .http2, .closed 0, .failed 0 Http2.Status.Internal,
        .clientFailed Http2.Status.Internal, .finished 0, .subscribed "m" [1] (some 8) 1, .started 1 1 .http2,
        .started 2 0 .http2] := by decide +kernel
  simp only [Option.map_eq_some_iff] at h
  obtain ⟨⟨c, t⟩, h, he⟩ := h
  refine ⟨_, _, ⟨1, c, h⟩, 1, 2, 1, 0, by decide, by decide, ?_⟩
  simp only at he
  subst he
  exact ⟨⟨.http2, by decide, by decide⟩, ⟨.http2, by decide, by decide⟩, ⟨some 8, by decide⟩, ⟨some 7, by decide⟩⟩

/-- With the native channel a message that waits in the event loop is handed to the handlers after the stream
was aborted. -/
theorem C37_native_late_violated :
    ((Client.new 1).run [.attach .native 1 1, .subscribe "m" [1] (some 7), .net 0 (.data [5]), .abort 0, .loop 0]).map (·.2) =
      some [.subscribed "m" [1] (some 7) 0, .started 0 0 .native, .emitted 0 [5], .finished 0, .cancelled 0,
        .recv 0 [5], .handled 0 7 [5], .notified 0] := by decide +kernel

/-! ### C38: attaching a channel -/

/-- From a thread that is not the channel's, `attachChannel` throws and changes nothing. -/
theorem C38_other_thread_partial (c : Client) (k : Kind) {ct cur : Nat} (h : ct ≠ cur) :
    c.step (.attach k ct cur) = some (c, [.threw]) := by
  simp [Client.step, Client.attachChannel, h]

/-- With at most one unfinished stream, `attachChannel` finishes it, cancels its request and installs the
channel. -/
theorem C38_attach_partial {th : Nat} {es : List Ev} {c : Client} {t : List Obs} (h : (Client.new th).run es = some (c, t))
    (hone : ∀ s s', Open t s → Open t s' → s = s') (k : Kind) (thread : Nat) :
    ∃ c' o, c.step (.attach k thread thread) = some (c', o) ∧ c'.channel = some k ∧
      (∀ s, Open t s → Obs.finished s ∈ o ∧ ∀ a, Running t a s → Obs.cancelled a ∈ o) ∧ (∀ s, ¬ Open (t ++ o) s) := by
  have hr := Rel.reach h
  match hn : c.active with
  | [] =>
    refine ⟨{ c with channel := some k }, [], ?_, rfl, ?_, ?_⟩
    · simp [Client.step, Client.attachChannel, hn, Client.abortAll]
    · intro s hs; rw [hr.open_iff, hn] at hs; cases hs
    · intro s hs; rw [List.append_nil, hr.open_iff, hn] at hs; cases hs
  | [s] =>
    have hs : s ∈ c.active := by simp [hn]
    have ha : (c.emitFinished s).1.active = [] := by rw [emitFinished_active hr hs, hn]; simp
    have hst : c.step (.attach k thread thread) =
        some ({ (c.emitFinished s).1 with channel := some k }, (c.emitFinished s).2) := by
      simp [Client.step, Client.attachChannel, hn, Client.abortAll, ha]
    refine ⟨_, _, hst, rfl, ?_, ?_⟩
    · intro s' hs'
      rw [hr.open_iff, hn] at hs'
      simp only [List.mem_singleton] at hs'
      subst hs'
      refine ⟨by simp [Client.emitFinished], ?_⟩
      intro a hra
      obtain ⟨h1, h2, h3⟩ := (hr.running_iff a s').mp hra
      simp [Client.emitFinished, Client.liveOf, h1, h2, h3]
    · intro s' hs'
      have hr' := hr.step hst
      rw [hr'.open_iff] at hs'
      simp only [ha] at hs'
      cases hs'
  | x :: y :: l =>
    exfalso
    have := hone x y ((hr.open_iff x).mpr (by simp [hn])) ((hr.open_iff y).mpr (by simp [hn]))
    have hnd := hr.activeNodup
    rw [hn, this] at hnd
    simp at hnd

/-- What is missing: with two or more unfinished streams the loop over the streams runs past the end of the
vector, which `abort` shrinks: undefined behaviour, in every history. -/
theorem C38_two_streams_violated {th : Nat} {es : List Ev} {c : Client} {t : List Obs}
    (h : (Client.new th).run es = some (c, t)) {s s' : Nat} (h1 : Open t s) (h2 : Open t s') (hne : s ≠ s') (k : Kind)
    (thread : Nat) : c.step (.attach k thread thread) = none := by
  have hr := Rel.reach h
  have m1 := (hr.open_iff s).mp h1
  have m2 := (hr.open_iff s').mp h2
  have hl : 2 ≤ c.active.length := by
    match hn : c.active with
    | [] => rw [hn] at m1; cases m1
    | [x] => rw [hn] at m1 m2; simp at m1 m2; omega
    | x :: y :: l => simp
  simp [Client.step, Client.attachChannel, abortAll_two hr hl]

example : ((Client.new 1).run demo).isSome = true ∧ ((Client.new 1).run (demo ++ [.attach .http2 1 1])).isNone = true := by
  decide +kernel

/-- Attaching a channel to a client is the only event with undefined behaviour. -/
theorem C38_only_attach {th : Nat} {es : List Ev} {c : Client} {t : List Obs}
    (h : (Client.new th).run es = some (c, t)) {e : Ev} (hu : c.step e = none) :
    ∃ k thread s s', e = .attach k thread thread ∧ Open t s ∧ Open t s' ∧ s ≠ s' := by
  have hr := Rel.reach h
  cases e with
  | attach k ct cur =>
    by_cases he : ct = cur
    · subst he
      refine Classical.byContradiction fun hn => ?_
      have hone : ∀ s s', Open t s → Open t s' → s = s' := by
        intro s s' h1 h2
        refine Classical.byContradiction fun hne => hn ⟨k, ct, s, s', rfl, h1, h2, hne⟩
      obtain ⟨c', o, hst, _⟩ := C38_attach_partial h hone k ct
      rw [hst] at hu; cases hu
    · rw [C38_other_thread_partial c k he] at hu; cases hu
  | subscribe m a x => simp [Client.step] at hu
  | net a i => simp only [Client.step] at hu; split at hu <;> cases hu
  | loop a => simp only [Client.step] at hu; split at hu <;> cases hu
  | timer s =>
    simp only [Client.step, Client.fire] at hu
    split at hu
    · rename_i hm
      split at hu
      · split at hu
        · rename_i hch
          have := hr.channel hch
          exact absurd hm (hr.fresh s (by omega)).2.2.1
        · cases hu
      · cases hu
    · cases hu
  | abort s => simp only [Client.step] at hu; split at hu <;> cases hu
  | drop s => simp only [Client.step] at hu; split at hu <;> cases hu
  | reap s => simp only [Client.step] at hu; split at hu <;> cases hu

/-- The thread that is compared is the channel's, not the client's: from thread 2 a client that lives in thread
1 gets a new channel, and the call is not refused. -/
theorem C38_client_thread_violated :
    ∃ c : Client, c.thread = 1 ∧ ((c.step (.attach .http2 2 2)).map (fun r => (r.1.channel, r.2))) = some (some .http2, []) :=
  ⟨Client.new 1, rfl, by decide +kernel⟩

/-! ### C40: the server's end of a stream -/

/-- Over HTTP/2 an unfinished stream that the server ends with `Ok` emits `finished` exactly once. -/
theorem C40_http2_partial {th : Nat} {es : List Ev} {c : Client} {t : List Obs} (h : (Client.new th).run es = some (c, t))
    {a s : Nat} (ho : Open t s) (hown : (view t).owner a = some (s, .http2)) (hrun : Running t a s) :
    ∃ c', c.step (.net a (.close (.status Http2.Status.Ok))) = some (c', [.closed a, .finished s]) := by
  have hr := Rel.reach h
  obtain ⟨h1, h2, h3⟩ := (hr.running_iff a s).mp hrun
  have hk : (c.attempts a).kind = .http2 := by
    have := (hr.owner a h3).1
    rw [hown] at this
    simp only [Option.some.injEq, Prod.mk.injEq] at this
    exact this.2.symm
  have hd := hr.active_not_deleted ((hr.open_iff s).mp ho)
  have hlive : ({ c with attempts := update c.attempts a { c.attempts a with connected := false } } : Client).liveOf s = [] := by
    rw [Client.liveOf, List.filter_eq_nil_iff]
    intro b _ hb
    simp only [Bool.and_eq_true, beq_iff_eq] at hb
    by_cases he : b = a
    · subst he; rw [update_self] at hb; cases hb.1
    · rw [update_ne he] at hb
      exact he (hr.single b a hb.1 h1 (hb.2.trans h2.symm))
  refine ⟨({ c with attempts := update c.attempts a { c.attempts a with connected := false } } : Client).emitFinished s |>.1, ?_⟩
  have : ({ c with attempts := update c.attempts a { c.attempts a with connected := false } } : Client).emitFinished s =
      ((({ c with attempts := update c.attempts a { c.attempts a with connected := false } } : Client).emitFinished s).1,
        [.finished s]) := by
    simp only [Client.emitFinished, hlive, List.map_nil]
  have h4 : c.close a (.status Http2.Status.Ok) =
      ((({ c with attempts := update c.attempts a { c.attempts a with connected := false } } : Client).emitFinished s).1,
        .closed a :: (({ c with attempts := update c.attempts a { c.attempts a with connected := false } } : Client).emitFinished s).2) := by
    simp only [Client.close]
    rw [hk, h2]
    rfl
  rw [this] at h4
  have h5 : c.net a (.close (.status Http2.Status.Ok)) = c.close a (.status Http2.Status.Ok) := by
    unfold Client.net
    simp only
    rw [hk, h2, hd, h1]
    rfl
  simp only [Client.step, h3, if_true, h5, h4]

/-- Over the native channel nothing is emitted. -/
theorem C40_native_violated :
    ((Client.new 1).run [.attach .native 1 1, .subscribe "m" [1] (some 7), .net 0 (.close (.status Http2.Status.Ok)),
        .loop 0]).map (·.2) =
      some [.subscribed "m" [1] (some 7) 0, .started 0 0 .native, .closed 0] := by decide +kernel

/-- Worse: the client goes on to regard the stream as active. Whatever happens, short of `abort()` and
`attachChannel`, the stream is not started again, emits nothing and calls no handler; and every later
subscription to this method and argument is given this stream. -/
theorem C40_native_stuck {th : Nat} {es es' : List Ev} {c c' c'' : Client} {t o o' : List Obs}
    (h : (Client.new th).run es = some (c, t)) {a s : Nat} {m : String} {arg : Bytes} (ho : Open t s) (hk : HasKey t s m arg)
    (hown : (view t).owner a = some (s, .native)) (hrun : Running t a s)
    (hempty : ∀ b, b ≠ a → (view t).owner b = some (s, .native) → passedOn b t = arrived b t)
    (hq : (c.attempts a).queue = [.close (.status Http2.Status.Ok)])
    (hstep : c.step (.loop a) = some (c', o))
    (hes : ∀ e ∈ es', e ≠ .abort s ∧ ∀ k thread, e ≠ .attach k thread thread)
    (hrest : c'.run es' = some (c'', o')) :
    o = [.closed a] ∧
    (∀ x ∈ o', (∀ b k, x ≠ .started b s k) ∧ (∀ code, x ≠ .failed s code) ∧ x ≠ .finished s ∧ (∀ y d, x ≠ .handled s y d)) ∧
    ∀ y, ∃ c3, c''.step (.subscribe m arg y) = some (c3, [.subscribed m arg y s]) := by
  have hr := Rel.reach h
  obtain ⟨h1, h2, h3⟩ := (hr.running_iff a s).mp hrun
  have hkind : (c.attempts a).kind = .native := by
    have := (hr.owner a h3).1
    rw [hown] at this
    simp only [Option.some.injEq, Prod.mk.injEq] at this
    exact this.2.symm
  have hact := (hr.open_iff s).mp ho
  have hd := hr.active_not_deleted hact
  have hst : c.step (.loop a) = some
      ({ c with attempts := update c.attempts a { c.attempts a with queue := [], connected := false } }, [.closed a]) := by
    simp [Client.step, h3, Client.loop, hq, h1, h2, hd, Client.close, hkind]
    funext b; by_cases hb : b = a <;> simp [update, hb]
  rw [hst] at hstep
  cases hstep
  have hdead : Dead { c with attempts := update c.attempts a { c.attempts a with queue := [], connected := false } } s := by
    refine ⟨(hr.activeIff s).mp hact, ?_, ?_⟩
    · intro b hb hs
      simp only at hb hs ⊢
      by_cases he : b = a
      · subst he; rw [update_self]; exact ⟨rfl, rfl⟩
      · rw [update_ne he] at hs ⊢
        refine ⟨?_, ?_⟩
        · cases hc : (c.attempts b).connected with
          | false => rfl
          | true => exact absurd (hr.single b a hc h1 (hs.trans h2.symm)) he
        · cases hkb : (c.attempts b).kind with
          | http2 => rw [(hr.queueHttp2 b hkb).1]; rfl
          | native =>
            have e1 := hempty b he (by rw [(hr.owner b hb).1, hs, hkb])
            have e2 := hr.queueNative b (by rw [hs]; exact hd)
            rw [e1] at e2
            exact List.append_right_eq_self.mp e2.symm
    · have := hr.noTimer a h1; rw [h2] at this; exact this
  have hr1 := hr.step hst
  have hrun' := hdead.run hr1 (by
    intro e he hends
    obtain ⟨x1, x2⟩ := hes e he
    cases e with
    | abort x => exact x1 (by rw [show x = s from hends])
    | attach k ct cur => exact x2 k ct (by rw [show ct = cur from hends])
    | _ => exact hends) hrest
  refine ⟨rfl, ?_, ?_⟩
  · intro x hx
    have := hrun'.2 x hx
    refine ⟨?_, ?_, ?_, ?_⟩
    · rintro b k rfl; exact this rfl
    · rintro code rfl; exact this rfl
    · rintro rfl; exact this rfl
    · rintro y d rfl; exact this rfl
  · intro y
    have hall : (Client.new th).run (es ++ Ev.loop a :: es') = some (c'', t ++ ([Obs.closed a] ++ o')) := by
      have append : ∀ (l : List Ev) (l' : List Ev) (c0 c1 : Client) (u : List Obs), c0.run l = some (c1, u) →
          c0.run (l ++ l') = (c1.run l').map fun q => (q.1, u ++ q.2) := by
        intro l l'
        induction l with
        | nil => intro c0 c1 u hx; simp only [Client.run] at hx; cases hx; simp
        | cons e l ih =>
          intro c0 c1 u hx
          simp only [Client.run, Option.bind_eq_some_iff, Option.map_eq_some_iff] at hx
          obtain ⟨⟨c2, o2⟩, h1, ⟨c3, o3⟩, h2, he⟩ := hx
          cases he
          simp only [List.cons_append, Client.run, h1, Option.bind_some, ih _ _ _ h2, Option.map_map]
          congr 1
          funext q
          simp
      rw [append es (Ev.loop a :: es') _ _ _ h]
      simp only [Client.run, hst, Option.bind_some, hrest, Option.map_some]
    have hr2 := Rel.reach hall
    have hconn := hrun'.1.connected
    have hopen : Open (t ++ ([Obs.closed a] ++ o')) s := (hr2.open_iff s).mpr ((hr2.activeIff s).mpr hconn)
    obtain ⟨z, hz⟩ := hk
    exact C36_shared hall hopen ⟨z, List.mem_append_left _ hz⟩ y

/-- The hypotheses of `C40_native_stuck` hold in the history of `C40_native_violated`. -/
example : ∃ c t, (Client.new 1).run [.attach .native 1 1, .subscribe "m" [1] (some 7),
      .net 0 (.close (.status Http2.Status.Ok))] = some (c, t) ∧ Open t 0 ∧ HasKey t 0 "m" [1] ∧
    (view t).owner 0 = some (0, .native) ∧ Running t 0 0 ∧ (c.attempts 0).queue = [.close (.status Http2.Status.Ok)] :=
  ⟨_, _, rfl, ⟨⟨"m", [1], some 7, by decide⟩, by decide⟩, ⟨some 7, by decide⟩, by decide, ⟨.native, by decide, by decide⟩, rfl⟩

/-- One stream is open and a channel is attached. -/
example : ((Client.new 1).run [.attach .http2 1 1, .subscribe "m" [1] (some 7), .attach .native 2 2]).map
    (fun r => (r.1.channel, r.2)) =
      some (some .native, [.subscribed "m" [1] (some 7) 0, .started 0 0 .http2, .finished 0, .cancelled 0]) := by
  decide +kernel

end QtPb.Stream
