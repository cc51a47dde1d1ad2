import Verif.SpecEchoEngine
import Verif.PropsEndToEnd
/-
C117: the client of the tutorial. What the user enters is sent as it was entered, in this order; what is shown are the answers in the order in which the
calls end, which is the order of the entries only if nothing is entered while a request waits.
-/
namespace QtPb.EchoEngine
open QtPb.Spec Http2 Http2.Spec Call EndToEnd EndToEnd.Spec EchoEngine.Spec

variable {toUtf8 : List Char → Bytes} {fromUtf8 : Bytes → List Char}

/-! ### The messages of the tutorial -/

theorem tutorial_fields {P : FieldTy → Prop} (h : P (.scalar .string)) (m : Nat) : ∀ f ∈ (tutorial toUtf8 fromUtf8).sch m, P f.ty := by
  match m with
  | 0 => simpa [tutorial] using h
  | 1 => simpa [tutorial] using h
  | _ + 2 => simp [tutorial]

theorem tutorial_valid : ValidSchema (tutorial toUtf8 fromUtf8) := by
  intro m
  match m with
  | 0 => simp [tutorial]
  | 1 => simp [tutorial]
  | _ + 2 => simp [tutorial]

theorem tutorial_order : ValidOrder (tutorial toUtf8 fromUtf8) := by
  intro m
  match m with
  | 0 => exact List.Perm.refl _
  | 1 => exact List.Perm.refl _
  | _ + 2 => exact List.Perm.refl _

theorem tutorial_acyclic : Acyclic (tutorial toUtf8 fromUtf8) fun _ => 0 := fun m =>
  tutorial_fields (P := fun ty => ∀ m', ty = .msg m' → 0 < 0) (fun _ h => nomatch h) m

theorem tutorial_lists : NoRepeatedBool (tutorial toUtf8 fromUtf8) := fun m => tutorial_fields (P := fun ty => ty ≠ .list .bool) (by simp) m

/-- The bytes of a request. -/
theorem request_bytes (t : List Char) (n : Nat) (hn : 0 < n) : serializeMessage (tutorial toUtf8 fromUtf8) n 0 [.sc (.str (some t))] =
    .ok (encodeHeader 1 2 ++ prependLengthDelimitedSize (toUtf8 t)) := by
  obtain ⟨n, rfl⟩ : ∃ m, n = m + 1 := ⟨n - 1, by omega⟩
  simp [serializeMessage, tutorial, serializeProperty, serializeScalarField, serializeWrapper, Scalar.isNull, serializeBasic, withHeader, concatRes,
    notUsed, Kind.wireType, wtLengthDelimited]

theorem request_small {t : List Char} (h : (toUtf8 t).length + 20 < 2 ^ 31) :
    (encodeHeader 1 2 ++ prependLengthDelimitedSize (toUtf8 t)).length < 2 ^ 31 := by
  have h1 : (encodeHeader 1 2).length ≤ 5 := serializeVarintCommon_length (by decide) (by decide)
  have h2 : (serializeVarintCommon 32 (toUtf8 t).length).length ≤ 5 := serializeVarintCommon_length (by decide) (by omega)
  simp only [List.length_append, prependLengthDelimitedSize]
  omega

/-- A request carries its text. -/
theorem request_carries {env : Env} (henv : env = tutorial toUtf8 fromUtf8) (hE : fromUtf8 (toUtf8 []) = []) {t : List Char} (ht : Writable env t) :
    ∃ a, Carries env 0 (requestBody (encodeHeader 1 2 ++ prependLengthDelimitedSize (toUtf8 t))) a ∧ Holds a t := by
  subst henv
  obtain ⟨ht1, ht2⟩ := ht
  have hclean : Clean (tutorial toUtf8 fromUtf8) (.msg 0) (.msg [.sc (.str (some t))]) := by
    refine .msg rfl fun i f v hf hv => ?_
    match i with
    | 0 =>
      cases hf; cases hv
      exact .sc ⟨rfl, trivial, ht1⟩
    | _ + 1 => simp [tutorial] at hf
  have hsmall : ∀ n bs, serializeMessage (tutorial toUtf8 fromUtf8) n 0 [.sc (.str (some t))] = .ok bs → bs.length < 2 ^ 31 := by
    intro n bs h
    match n with
    | 0 => cases h
    | n + 1 =>
      rw [request_bytes t _ (Nat.succ_pos n)] at h
      cases h
      exact request_small ht2
  obtain ⟨N, bs, a, h1, h2, h3, h4⟩ := carries tutorial_valid tutorial_order tutorial_acyclic tutorial_lists hE hclean hsmall
  have h5 := h1 (N + 1) (by omega)
  rw [request_bytes t _ (Nat.succ_pos N)] at h5
  cases h5
  refine ⟨a, h2, ?_⟩
  cases h3 with
  | msg h3 =>
    match a, h4 with
    | [y], _ =>
      have h6 := h3 0 _ _ y rfl rfl rfl
      cases h6 with
      | @sc _ _ b h6 =>
        cases b <;> simp [scalarEq] at h6
        exact ⟨_, rfl, h6.symm⟩

/-- An answer is read as its text, whatever the response held. -/
theorem answer_read {env : Env} (henv : env = tutorial toUtf8 fromUtf8) {n k : Nat} (hn : 2 ^ 31 ≤ n) (hk : 0 < k) {bs : Bytes} {t u : List Char}
    {new : Obj} (h : Encodes env 1 bs new) (hnew : Holds new t) {old : Obj} (ho : Holds old u) : ∃ o, read env n k 1 old bs = some (o, none) ∧ Holds o t := by
  subst henv
  obtain ⟨k, rfl⟩ : ∃ m, k = m + 1 := ⟨k - 1, by omega⟩
  obtain ⟨⟨d, hu⟩, href, hlen⟩ := h
  obtain ⟨o2, o', h1, h2, h3⟩ := C67_usual_partial (n := n) tutorial_valid hu (by omega) (by omega)
  cases href.symm.trans h2
  obtain ⟨x, rfl, rfl⟩ := ho
  obtain ⟨z, rfl, rfl⟩ := hnew
  cases h3 with
  | msg hl _ h3 =>
    match o2, hl with
    | [y], _ =>
      have h6 := h3 0 _ y _ rfl rfl rfl
      cases h6 with
      | @sc _ b _ h6 =>
        have hb : ∃ s : Option (List Char), b = .str s ∧ s.getD [] = z.getD [] := by
          rcases h6 with rfl | h6
          · exact ⟨_, rfl, rfl⟩
          · cases b <;> simp [scalarEq] at h6
            exact ⟨_, rfl, h6⟩
        obtain ⟨s, rfl, hs⟩ := hb
        have e : assign (tutorial toUtf8 fromUtf8) (k + 1) 1 [.sc (.str x)] [.sc (.str s)] =
            .ok [if scalarEq .string (.str x) (.str s) then .sc (.str x) else .sc (.str s)] := rfl
        refine ⟨_, by unfold EndToEnd.read deserialize; rw [h1]; dsimp only; rw [e], ?_⟩
        by_cases hc : scalarEq .string (.str x) (.str s) = true
        · rw [if_pos hc]
          exact ⟨x, rfl, by rw [← hs]; simpa [scalarEq] using hc⟩
        · rw [if_neg hc]
          exact ⟨s, rfl, hs⟩

/-! ### Calls -/

theorem call_answered {world : World} {bs ret : Bytes} {pieces later : List Native.Wait2} {reply : Http2.Reply} {hdr : Bytes}
    (e1 : (world ⟨path, requestBody bs⟩).1 = pieces ++ Native.Wait2.finished reply :: later)
    (e2 : ∀ w ∈ pieces, ∃ status b, w = Native.Wait2.receive status b)
    (e3 : reply.error = Http2.NetworkError.NoError) (e4 : reply.grpcStatus = some hdr) (e5 : Decimal hdr 0) (e6 : IsFrame ret reply.body) :
    channelCall world "Echo" "qtprotobuf.tutorial.EchoService" bs = some (.ok (⟨Status.Ok, (world ⟨path, requestBody bs⟩).2⟩, ret)) := by
  have hs : Native.syncCall2 ⟨.NoError, none, []⟩ (world (post "Echo" "qtprotobuf.tutorial.EchoService" bs)).1 = some (.ok (ret, Status.Ok)) := by
    show Native.syncCall2 _ (world ⟨path, requestBody bs⟩).1 = _
    rw [e1, Native.C71_returns_http2 e2, C33_server_status reply e3 e4 e5 (by decide), if_pos rfl, frame_drop e6]
    rfl
  unfold channelCall
  dsimp only
  rw [hs]
  rfl

theorem call_refused {world : World} {bs : Bytes} {pieces later : List Native.Wait2} {reply : Http2.Reply} {hdr : Bytes} {code : Nat}
    (e1 : (world ⟨path, requestBody bs⟩).1 = pieces ++ Native.Wait2.finished reply :: later)
    (e2 : ∀ w ∈ pieces, ∃ status b, w = Native.Wait2.receive status b)
    (e3 : reply.error = Http2.NetworkError.NoError) (e4 : reply.grpcStatus = some hdr) (e5 : Decimal hdr code) (hc : code ≠ 0) (hc' : code < 2 ^ 31) :
    channelCall world "Echo" "qtprotobuf.tutorial.EchoService" bs = some (.ok (⟨code, (world ⟨path, requestBody bs⟩).2⟩, [])) := by
  have hs : Native.syncCall2 ⟨.NoError, none, []⟩ (world (post "Echo" "qtprotobuf.tutorial.EchoService" bs)).1 = some (.ok ([], (code : Int))) := by
    show Native.syncCall2 _ (world ⟨path, requestBody bs⟩).1 = _
    rw [e1, Native.C71_returns_http2 e2, C33_server_status reply e3 e4 e5 hc', if_neg hc]
  unfold channelCall
  dsimp only
  rw [hs]
  rfl

theorem sent_cons {env : Env} {r : Request} {t : List Char} {rs : List Request} {ts : List (List Char)} (h1 : r.path = path) (h2 : ∃ a, Carries env 0 r.body a ∧ Holds a t)
    (h : Sent env rs ts) : Sent env (r :: rs) (t :: ts) := by
  refine ⟨by simp [h.1], fun i r' t' hr ht => ?_⟩
  match i with
  | 0 => cases hr; cases ht; exact ⟨h1, h2⟩
  | i + 1 => exact h.2 i r' t' hr ht

theorem sent_append {env : Env} {rs rs' : List Request} {ts ts' : List (List Char)} (h : Sent env rs ts) (h' : Sent env rs' ts') :
    Sent env (rs ++ rs') (ts ++ ts') := by
  refine ⟨by simp [h.1, h'.1], fun i r t hr ht => ?_⟩
  by_cases hi : i < rs.length
  · rw [List.getElem?_append_left hi] at hr
    rw [List.getElem?_append_left (by rw [← h.1]; exact hi)] at ht
    exact h.2 i r t hr ht
  · rw [List.getElem?_append_right (by omega)] at hr
    rw [List.getElem?_append_right (by have := h.1; omega), ← h.1] at ht
    exact h'.2 _ r t hr ht

theorem message_holds {o : Obj} {t : List Char} (h : Holds o t) : message o = t := by
  obtain ⟨s, rfl, rfl⟩ := h
  rfl

/-- What a session does. -/
theorem session_run {env : Env} (henv : env = tutorial toUtf8 fromUtf8) (hE : fromUtf8 (toUtf8 []) = []) {n k : Nat} (hn : 2 ^ 31 ≤ n) (hk : 0 < k)
    {t0 t1 : List Char} {events : List Event} {entered answered : List (List Char)} {refused : List Nat}
    (h : Session env t0 events entered answered refused t1) : ∀ {w : Window} {u : List Char}, w.text = t0 → Holds w.response u →
    ∃ w' requests errors, run env n k w events = .ok w' ∧ w'.text = t1 ∧ Holds w'.response (answered.getLast?.getD u) ∧
      w'.shown = w.shown ++ answered ∧ w'.sent = w.sent ++ requests ∧ Sent env requests entered ∧
      w'.errors = w.errors ++ errors ∧ errors.map (·.code) = refused.map Int.ofNat := by
  induction h with
  | done t =>
    intro w u hw hr
    exact ⟨w, [], [], by rw [run], hw, hr, by simp, by simp, ⟨rfl, fun i r t h => by simp at h⟩, by simp, rfl⟩
  | @type t v t' rest e a c _ ih =>
    intro w u hw hr
    obtain ⟨w', rs, es, h1, h2⟩ := ih (w := { w with text := v }) rfl hr
    exact ⟨w', rs, es, by rw [run, step]; exact h1, h2⟩
  | @answered t v t' meanwhile rest world e1 a1 e2 a2 c1 c2 ht hs _ _ ih1 ih2 =>
    intro w u hw hr
    obtain ⟨a, hcar, hold⟩ := request_carries henv hE ht
    obtain ⟨pieces, reply, later, ret, hdr, new, x1, x2, x3, x4, x5, x6, x7, x8⟩ := hs _ _ t hcar hold ht
    have hcall := call_answered x1 x2 x3 x4 x5 x6
    obtain ⟨w1, rs1, es1, i1, i2, i3, i4, i5, i6, i7, i8⟩ :=
      ih1 (w := { w with sent := w.sent ++ [post "Echo" "qtprotobuf.tutorial.EchoService" (encodeHeader 1 2 ++ prependLengthDelimitedSize (toUtf8 t))] }) hw hr
    obtain ⟨o, ho1, ho2⟩ := answer_read henv hn hk x7 x8 i3
    obtain ⟨w2, rs2, es2, j1, j2, j3, j4, j5, j6, j7, j8⟩ :=
      ih2 (w := { w1 with response := o, shown := w1.shown ++ [t], text := [] }) rfl ho2
    refine ⟨w2, post "Echo" "qtprotobuf.tutorial.EchoService" (encodeHeader 1 2 ++ prependLengthDelimitedSize (toUtf8 t)) :: rs1 ++ rs2, es1 ++ es2,
      ?_, j2, ?_, ?_, ?_, sent_append (sent_cons rfl ⟨a, hcar, hold⟩ i6) j6, ?_, ?_⟩
    · rw [run, step, request, hw, henv, request_bytes t n (by omega), ← henv]
      dsimp only [Res.bind] at i1 ⊢
      rw [hw] at i1
      rw [i1]
      dsimp only [Res.bind]
      rw [hcall]
      dsimp only
      rw [finish, if_neg (by simp), ho1]
      simpa [tryDeserialize, Res.bind, message_holds ho2] using j1
    · have e : (a1 ++ t :: a2).getLast?.getD u = a2.getLast?.getD t := by
        rw [List.getLast?_append, List.getLast?_cons]
        simp
      rw [e]
      exact j3
    · rw [j4]; dsimp only; rw [i4]; simp
    · rw [j5]; dsimp only; rw [i5]; simp
    · rw [j7]; dsimp only; rw [i7]; simp
    · simp [i8, j8]
  | @refused t v t' meanwhile rest world e1 a1 e2 a2 c1 c2 code ht hs hc hc' _ _ ih1 ih2 =>
    intro w u hw hr
    obtain ⟨a, hcar, hold⟩ := request_carries henv hE ht
    obtain ⟨pieces, reply, later, hdr, x1, x2, x3, x4, x5⟩ := hs _ _ hcar
    have hcall := call_refused x1 x2 x3 x4 x5 hc hc'
    obtain ⟨w1, rs1, es1, i1, i2, i3, i4, i5, i6, i7, i8⟩ :=
      ih1 (w := { w with sent := w.sent ++ [post "Echo" "qtprotobuf.tutorial.EchoService" (encodeHeader 1 2 ++ prependLengthDelimitedSize (toUtf8 t))] }) hw hr
    have hz : ((code : Int) : StatusCode) ≠ Status.Ok := by simp [Status.Ok]; omega
    obtain ⟨w2, rs2, es2, j1, j2, j3, j4, j5, j6, j7, j8⟩ := ih2 (w := { w1 with errors := w1.errors ++
      [⟨code, (world ⟨path, requestBody (encodeHeader 1 2 ++ prependLengthDelimitedSize (toUtf8 t))⟩).2⟩], text := [] }) rfl i3
    refine ⟨w2, post "Echo" "qtprotobuf.tutorial.EchoService" (encodeHeader 1 2 ++ prependLengthDelimitedSize (toUtf8 t)) :: rs1 ++ rs2,
      es1 ++ ⟨code, (world ⟨path, requestBody (encodeHeader 1 2 ++ prependLengthDelimitedSize (toUtf8 t))⟩).2⟩ :: es2,
      ?_, j2, ?_, ?_, ?_, sent_append (sent_cons rfl ⟨a, hcar, hold⟩ i6) j6, ?_, ?_⟩
    · rw [run, step, request, hw, henv, request_bytes t n (by omega), ← henv]
      dsimp only [Res.bind] at i1 ⊢
      rw [hw] at i1
      rw [i1]
      dsimp only [Res.bind]
      rw [hcall]
      dsimp only
      rw [finish, if_pos hz]
      exact j1
    · have e : (a1 ++ a2).getLast?.getD u = a2.getLast?.getD (a1.getLast?.getD u) := by
        rw [List.getLast?_append]
        cases a2.getLast? <;> simp
      rw [e]
      exact j3
    · rw [j4]; dsimp only; rw [i4]; simp
    · rw [j5]; dsimp only; rw [i5]; simp
    · rw [j7]; dsimp only; rw [i7]; simp
    · simp [i8, j8]

theorem session_count {env : Env} {t0 t1 : List Char} {events : List Event} {entered answered : List (List Char)} {refused : List Nat}
    (h : Session env t0 events entered answered refused t1) : entered.length = answered.length + refused.length := by
  induction h with
  | done t => rfl
  | type _ ih => exact ih
  | answered _ _ _ _ ih1 ih2 => simp [ih1, ih2]; omega
  | refused _ _ _ _ _ _ ih1 ih2 => simp [ih1, ih2]; omega

theorem typing_only {env : Env} {t0 t1 : List Char} {events : List Event} {entered answered : List (List Char)} {refused : List Nat}
    (h : Session env t0 events entered answered refused t1) (ht : ∀ e ∈ events, ∃ t, e = .type t) : entered = [] ∧ answered = [] ∧ refused = [] := by
  induction h with
  | done t => exact ⟨rfl, rfl, rfl⟩
  | type _ ih => exact ih fun e he => ht e (List.mem_cons_of_mem _ he)
  | answered => obtain ⟨_, h⟩ := ht _ (List.mem_cons_self ..); cases h
  | refused => obtain ⟨_, h⟩ := ht _ (List.mem_cons_self ..); cases h

theorem session_alone {env : Env} {t0 t1 : List Char} {events : List Event} {entered answered : List (List Char)} {refused : List Nat}
    (h : Session env t0 events entered answered refused t1) (ha : ∀ e ∈ events, Alone e) : answered.Sublist entered := by
  induction h with
  | done t => exact List.Sublist.slnil
  | type _ ih => exact ih fun e he => ha e (List.mem_cons_of_mem _ he)
  | answered _ _ h1 _ _ ih =>
    obtain ⟨rfl, rfl, rfl⟩ := typing_only h1 (ha _ (List.mem_cons_self ..))
    exact (ih fun e he => ha e (List.mem_cons_of_mem _ he)).cons₂ _
  | refused _ _ _ _ h1 _ _ ih =>
    obtain ⟨rfl, rfl, rfl⟩ := typing_only h1 (ha _ (List.mem_cons_self ..))
    exact (ih fun e he => ha e (List.mem_cons_of_mem _ he)).cons _

/-! ### Theorems -/

/-- C117, what is sent: in every session, with requests entered while others wait to any depth and any refusals, every text that is entered is sent to
the method once, as it was entered, and in the order of the entries; every entry is answered or refused once.

Partial: texts that survive UTF-8 and are smaller than 2 GB (`Writable`); servers that answer every request, without an error of the network. -/
theorem C117_sent_partial (hE : fromUtf8 (toUtf8 []) = []) {n k : Nat} (hn : 2 ^ 31 ≤ n) (hk : 0 < k)
    {t : List Char} {events : List Event} {entered answered : List (List Char)} {refused : List Nat}
    (h : Session (tutorial toUtf8 fromUtf8) [] events entered answered refused t) :
    ∃ w, run (tutorial toUtf8 fromUtf8) n k (start (tutorial toUtf8 fromUtf8)) events = .ok w ∧ Sent (tutorial toUtf8 fromUtf8) w.sent entered ∧
      entered.length = answered.length + refused.length := by
  obtain ⟨w, rs, es, h1, h2, h3, h4, h5, h6, h7, h8⟩ := session_run rfl hE hn hk h (w := start (tutorial toUtf8 fromUtf8)) (u := []) rfl ⟨none, rfl, rfl⟩
  have h5 : w.sent = rs := h5
  exact ⟨w, h1, by rw [h5]; exact h6, session_count h⟩

/-- C117, what is shown: the answers, each with the text of its request, in the order in which the calls end; in the end the last of them; with no answer
the response is empty as in the beginning. Every refusal is reported as an error with its code, once, and changes nothing in the response.
Partial as `C117_sent_partial`. -/
theorem C117_shown_partial (hE : fromUtf8 (toUtf8 []) = []) {n k : Nat} (hn : 2 ^ 31 ≤ n) (hk : 0 < k)
    {t : List Char} {events : List Event} {entered answered : List (List Char)} {refused : List Nat}
    (h : Session (tutorial toUtf8 fromUtf8) [] events entered answered refused t) :
    ∃ w, run (tutorial toUtf8 fromUtf8) n k (start (tutorial toUtf8 fromUtf8)) events = .ok w ∧ w.shown = answered ∧
      Holds w.response (answered.getLast?.getD []) ∧ w.errors.map (·.code) = refused.map Int.ofNat ∧ w.text = t := by
  obtain ⟨w, rs, es, h1, h2, h3, h4, h5, h6, h7, h8⟩ := session_run rfl hE hn hk h (w := start (tutorial toUtf8 fromUtf8)) (u := []) rfl ⟨none, rfl, rfl⟩
  have h7 : w.errors = es := h7
  exact ⟨w, h1, h4, h3, by rw [h7]; exact h8, h2⟩

/-- C117, one request at a time: if nothing is entered while a request waits, the answers are shown in the order of the entries, and if no request is
refused the response holds the text that was entered last. Partial as `C117_sent_partial`. -/
theorem C117_alone_partial (hE : fromUtf8 (toUtf8 []) = []) {n k : Nat} (hn : 2 ^ 31 ≤ n) (hk : 0 < k)
    {t : List Char} {events : List Event} {entered answered : List (List Char)} {refused : List Nat}
    (h : Session (tutorial toUtf8 fromUtf8) [] events entered answered refused t) (ha : ∀ e ∈ events, Alone e) :
    ∃ w, run (tutorial toUtf8 fromUtf8) n k (start (tutorial toUtf8 fromUtf8)) events = .ok w ∧ w.shown.Sublist entered ∧
      (refused = [] → w.shown = entered ∧ Holds w.response (entered.getLast?.getD [])) := by
  obtain ⟨w, h1, h2, h3, -⟩ := C117_shown_partial hE hn hk h
  have hs := session_alone h ha
  refine ⟨w, h1, by rw [h2]; exact hs, fun hr => ?_⟩
  have hl := session_count h
  have he : answered = entered := hs.eq_of_length (by rw [hl, hr]; rfl)
  exact ⟨h2.trans he, by rw [← he]; exact h3⟩

/-- C117, requests that overlap: the claim that the response shows the answer to what was entered last is false. For all texts: if `u` is entered while
the request for `t` waits, both are answered, and the response is left with `t`. -/
theorem C117_overlap_violated (hE : fromUtf8 (toUtf8 []) = []) {n k : Nat} (hn : 2 ^ 31 ≤ n) (hk : 0 < k) {t u : List Char} {world world' : World}
    (ht : Writable (tutorial toUtf8 fromUtf8) t) (hu : Writable (tutorial toUtf8 fromUtf8) u)
    (h : Echoes (tutorial toUtf8 fromUtf8) world) (h' : Echoes (tutorial toUtf8 fromUtf8) world') :
    ∃ w, run (tutorial toUtf8 fromUtf8) n k (start (tutorial toUtf8 fromUtf8)) [.type t, .enter [.type u, .enter [] world'] world] = .ok w ∧
      Sent (tutorial toUtf8 fromUtf8) w.sent [t, u] ∧ w.shown = [u, t] ∧ Holds w.response t := by
  have hs : Session (tutorial toUtf8 fromUtf8) [] [.type t, .enter [.type u, .enter [] world'] world] [t, u] [u, t] [] [] :=
    .type (.answered ht h (.type (.answered hu h' (.done _) (.done _))) (.done _))
  obtain ⟨w, h1, h2, -⟩ := C117_sent_partial hE hn hk hs
  obtain ⟨w', h3, h4, h5, -⟩ := C117_shown_partial hE hn hk hs
  cases h1.symm.trans h3
  exact ⟨w, h1, h2, h4, h5⟩

/-- C117, typing while a request waits: the claim that what the user types is sent once it is entered fails, because the input field is cleared
when the answer comes. For all texts: what was typed while the request for `t` waited is gone, and the next entry sends an empty text. -/
theorem C117_typing_violated (hE : fromUtf8 (toUtf8 []) = []) {n k : Nat} (hn : 2 ^ 31 ≤ n) (hk : 0 < k) {t u : List Char} {world world' : World}
    (ht : Writable (tutorial toUtf8 fromUtf8) t) (he : Writable (tutorial toUtf8 fromUtf8) []) (h : Echoes (tutorial toUtf8 fromUtf8) world) (h' : Echoes (tutorial toUtf8 fromUtf8) world') :
    ∃ w, run (tutorial toUtf8 fromUtf8) n k (start (tutorial toUtf8 fromUtf8)) [.type t, .enter [.type u] world, .enter [] world'] = .ok w ∧
      Sent (tutorial toUtf8 fromUtf8) w.sent [t, []] ∧ Holds w.response [] := by
  have hs : Session (tutorial toUtf8 fromUtf8) [] [.type t, .enter [.type u] world, .enter [] world'] [t, []] [t, []] [] [] :=
    .type (.answered ht h (.type (.done _)) (.answered he h' (.done _) (.done _)))
  obtain ⟨w, h1, h2, -⟩ := C117_sent_partial hE hn hk hs
  obtain ⟨w', h3, h4, h5, -⟩ := C117_shown_partial hE hn hk hs
  cases h1.symm.trans h3
  exact ⟨w, h1, h2, h5⟩

/-- C117, no request object: `request` with a null pointer, which a user interface may pass, is undefined whatever the server does. -/
theorem C117_null_violated (env : Env) (n k : Nat) (loop : Window → Res Window) (w : Window) (world : World) : request env n k loop w none world = .ub := rfl

/-- C117, the server of the tutorial is such a server. -/
theorem C117_server : Echoes (tutorial toUtf8 fromUtf8) (server (tutorial toUtf8 fromUtf8)) := by
  intro body a t hcar hold ht
  obtain ⟨bs, hframe, hdec⟩ := hcar
  obtain ⟨s, rfl, rfl⟩ := hold
  obtain ⟨ht1, ht2⟩ := ht
  have hb : body.drop 5 = bs := frame_drop hframe
  by_cases he : s.getD [] = []
  · refine ⟨[], ⟨.NoError, some [0x30], requestBody []⟩, [], [], [0x30], [.sc (.str none)], ?_, by simp, rfl, rfl, ⟨by decide, by decide, rfl⟩,
      C31_frame (by simp), ⟨⟨1, [], .nil, ?_⟩, by rfl, by simp⟩, none, rfl, he.symm⟩
    · simp [server, hb, hdec, he]
    · intro f hf
      simp only [tutorial, List.mem_singleton] at hf
      subst hf
      intro p hp
      simp [payloadsOf] at hp
  · have hsmall := request_small ht2
    have hlen : (encodeHeader 1 2 ++ prependLengthDelimitedSize (toUtf8 (s.getD []))).length + 5 < 2 ^ 31 := by
      have h1 : (encodeHeader 1 2).length ≤ 5 := serializeVarintCommon_length (by decide) (by decide)
      have h2 : (serializeVarintCommon 32 (toUtf8 (s.getD [])).length).length ≤ 5 := serializeVarintCommon_length (by decide) (by
        have : (toUtf8 (s.getD [])).length + 20 < 2 ^ 31 := ht2
        omega)
      have h3 : (toUtf8 (s.getD [])).length + 20 < 2 ^ 31 := ht2
      simp only [List.length_append, prependLengthDelimitedSize]
      omega
    have hser : serializeMessage (tutorial toUtf8 fromUtf8) 1 1 [.sc (.str (some (s.getD [])))] =
        .ok (encodeHeader 1 2 ++ prependLengthDelimitedSize (toUtf8 (s.getD []))) := by
      simp [serializeMessage, tutorial, serializeProperty, serializeScalarField, serializeWrapper, Scalar.isNull, serializeBasic, withHeader, concatRes,
        notUsed, Kind.wireType, wtLengthDelimited]
    have hty : WellTyped (tutorial toUtf8 fromUtf8) 1 [.sc (.str (some (s.getD [])))] := by
      refine .msg rfl fun i f v hf hv => ?_
      match i with
      | 0 =>
        cases hf; cases hv
        exact .sc rfl
      | _ + 1 => simp [tutorial] at hf
    obtain ⟨o', h1, h2⟩ := C21_reference_exact tutorial_valid tutorial_order hty hser hsmall
    refine ⟨[], ⟨.NoError, some [0x30], requestBody (encodeHeader 1 2 ++ prependLengthDelimitedSize (toUtf8 (s.getD [])))⟩, [], _, [0x30], o', ?_, by simp, rfl, rfl,
      ⟨by decide, by decide, rfl⟩, C31_frame (by omega), ⟨⟨1, [(1, .delimited (toUtf8 (s.getD [])))], ?_, ?_⟩, h1, hlen⟩, ?_⟩
    · simp [server, hb, hdec, he]
      rfl
    · have hv : Varint (serializeVarintCommon 32 (toUtf8 (s.getD [])).length) (toUtf8 (s.getD [])).length :=
        serializeVarintCommon_varint (by decide) (by decide) (by
          have h3 : (toUtf8 (s.getD [])).length + 20 < 2 ^ 31 := ht2
          omega)
      have := Cut.cons (hdr := encodeHeader 1 2) (num := 1) (wt := 2) ⟨serializeVarintCommon_varint (by decide) (by decide) (by decide), by decide, by decide⟩ (PayloadIs.delimited hv) Cut.nil
      simpa [prependLengthDelimitedSize] using this
    · intro f hf
      simp only [tutorial, List.mem_singleton] at hf
      subst hf
      intro p hp
      simp [payloadsOf] at hp
      subst hp
      trivial
    · cases h2 with
      | msg hl h2 =>
        match o', hl with
        | [y], _ =>
          have h6 := h2 0 _ _ y rfl rfl rfl
          cases h6
          exact ⟨_, rfl, by simpa [entryScalar, transmitted] using ht1⟩

/-- A session that meets the hypotheses: with the server of the tutorial, "a" is entered, "b" while it waits, then "a" again, which is refused. -/
example : Session (tutorial demoEnv.toUtf8 demoEnv.fromUtf8) [] [.type ['a'], .enter [.type ['b'], .enter [] (server (tutorial demoEnv.toUtf8 demoEnv.fromUtf8))]
      (server (tutorial demoEnv.toUtf8 demoEnv.fromUtf8)), .type ['a'], .enter [] (fun _ => ([.finished ⟨.NoError, some [0x35], []⟩], "no"))]
    [['a'], ['b'], ['a']] [['b'], ['a']] [5] [] :=
  .type (.answered (e2 := [['a']]) (a2 := []) (c1 := []) (c2 := [5]) ⟨by decide, by decide⟩ C117_server
    (.type (.answered ⟨by decide, by decide⟩ C117_server (.done _) (.done _)))
    (.type (.refused (c1 := []) ⟨by decide, by decide⟩ (fun _ _ _ => ⟨[], _, [], [0x35], rfl, by simp, rfl, rfl, by decide, by decide, rfl⟩) (by decide) (by decide)
      (.done _) (.done _))))

end QtPb.EchoEngine
