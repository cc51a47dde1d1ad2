import Verif.Http2Lemmas
/-
C31: framing of requests. C32: reassembly of streams. C33: status of replies. C52: malformed streams.
-/
namespace QtPb.Http2
open Spec

/-! ### C31 -/

/-- C31: the body posted for a call is the length-prefixed form of the argument. -/
theorem C31_frame {args : Bytes} (h : args.length < 2 ^ 32) : IsFrame args (requestBody args) := by
  refine ⟨qToBigEndian (BitVec.ofNat 32 args.length), ⟨_, _, _, _, rfl, ?_⟩, rfl⟩
  simp only [BitVec.toNat_ofNat, UInt8.toNat_ofNat']
  omega

/-- C31: whatever follows the frame, the receiver computes its exact size. -/
theorem C31_size {args frame : Bytes} (h : args.length + 5 < 2 ^ 31) (hf : IsFrame args frame) (rest : Bytes) :
    getExpectedDataSize (frame ++ rest) = .ok (frame.length : Int) := by
  obtain ⟨size, hs, rfl⟩ := hf
  rw [show [0] ++ size ++ args ++ rest = 0 :: (size ++ (args ++ rest)) by simp, expected_of hs h]
  obtain ⟨b0, b1, b2, b3, rfl, _⟩ := hs
  simp; omega

/-- C31: the framing is unambiguous: a body carries at most one list of messages. -/
theorem C31_unambiguous {ms ms' : List Bytes} {body : Bytes} (h : IsStream ms body) (h' : IsStream ms' body) :
    ms = ms' := by
  generalize hb : body = body' at h'
  induction h generalizing ms' body' with
  | nil =>
    cases h' with
    | nil => rfl
    | cons hf _ =>
      have h1 := congrArg List.length hb
      have h2 := frame_length hf
      simp only [List.length_nil, List.length_append] at h1
      omega
  | cons hf hs ih =>
    cases h' with
    | nil =>
      have h1 := congrArg List.length hb
      have h2 := frame_length hf
      simp only [List.length_nil, List.length_append] at h1
      omega
    | cons hf' hs' =>
      obtain ⟨size, ⟨b0, b1, b2, b3, rfl, hl⟩, rfl⟩ := hf
      obtain ⟨size', ⟨c0, c1, c2, c3, rfl, hl'⟩, rfl⟩ := hf'
      simp only [List.cons_append, List.nil_append, List.cons.injEq, true_and] at hb
      obtain ⟨rfl, rfl, rfl, rfl, hb⟩ := hb
      obtain ⟨rfl, hb2⟩ := List.append_inj hb (hl.trans hl'.symm)
      rw [ih _ hb2 hs']

example : IsFrame [7, 8, 9] [0, 0, 0, 0, 3, 7, 8, 9] := ⟨[0, 0, 0, 3], ⟨0, 0, 0, 3, rfl, rfl⟩, rfl⟩
example : requestBody [7, 8, 9] = [0, 0, 0, 0, 3, 7, 8, 9] := rfl

/-! ### C32 -/

/-- C32, proved part: when the chunks of a body that carries `ms` are cut at harmless places
(`CutWell`), the handler has received at any time exactly the messages whose frames have arrived
completely, in order: `out` is a prefix of `ms`, its frames are within the `received` bytes, and the
frame of the next message is not. Missing: chunks that are cut within 5 bytes behind a frame, see
`C32_short_chunk_violated`, `C32_lost_header_violated` and `C32_empty_message_violated`. -/
theorem C32_reassembly_partial {ms : List Bytes} {body : Bytes} {chunks : List Bytes} {rest : Bytes}
    (hb : IsStream ms body) (hsm : ∀ m ∈ ms, Small m) (hsplit : chunks.flatten ++ rest = body)
    (hcut : CutWell ms 0 chunks) {n : Nat} (hn : body.length < n) :
    ∃ out later record, receive n none chunks = .ok (out, record) ∧ ms = out ++ later ∧
      (out.map fun m => m.length + 5).sum ≤ chunks.flatten.length ∧
      (∀ m t, later = m :: t → chunks.flatten.length < (out.map fun m => m.length + 5).sum + (m.length + 5)) := by
  obtain ⟨out, todo, buf, record, h1, h2, h3, h4, h5⟩ := receive_ok (n := n) (rest := rest) chunks (before := [])
    (todo := ms) (S := body) (buf := []) (record := none) hb hsm (by simpa using hsplit) (.inl ⟨rfl, rfl⟩)
    (by simpa using hcut) hn
  simp only [List.length_nil, Nat.zero_add] at h4
  have ht : (out.map fun m => m.length + 5).sum = total out := rfl
  refine ⟨out, todo, record, h1, h2, by omega, ?_⟩
  intro m t hmt
  rcases h5 with ⟨hnil, _⟩ | ⟨m', t', hmt', _, hlt, _⟩
  · simp only [hnil, List.length_nil] at h4; omega
  · rw [hmt] at hmt'; cases hmt'; omega

/-- C32, proved part: when the whole body has arrived, the handler has received exactly the messages. -/
theorem C32_complete_partial {ms : List Bytes} {chunks : List Bytes}
    (hb : IsStream ms chunks.flatten) (hsm : ∀ m ∈ ms, Small m)
    (hcut : CutWell ms 0 chunks) {n : Nat} (hn : chunks.flatten.length < n) :
    receive n none chunks = .ok (ms, none) := by
  obtain ⟨out, todo, buf, record, h1, h2, h3, h4, h5⟩ := receive_ok (n := n) (rest := []) chunks (before := [])
    (todo := ms) (S := chunks.flatten) (buf := []) (record := none) hb hsm (by simp) (.inl ⟨rfl, rfl⟩)
    (by simpa using hcut) hn
  have hl := stream_length h3
  simp only [List.append_nil] at hl
  rcases h5 with ⟨rfl, rfl⟩ | ⟨m', t', rfl, _, hlt, _⟩
  · cases todo with
    | nil => rw [h1, h2]; simp
    | cons m t => simp at hl; omega
  · simp at hl; omega

/-- Two messages of 2 and 1 bytes. -/
def demoBody : Bytes := [0, 0, 0, 0, 2, 5, 6, 0, 0, 0, 0, 1, 9]

theorem demoBody_stream : IsStream [[5, 6], [9]] demoBody :=
  .cons ⟨[0, 0, 0, 2], ⟨0, 0, 0, 2, rfl, rfl⟩, rfl⟩ (.cons ⟨[0, 0, 0, 1], ⟨0, 0, 0, 1, rfl, rfl⟩, rfl⟩ .nil)

theorem demo_boundary {b : Nat} (h : Boundary [[5, 6], [9]] b) : b = 0 ∨ b = 7 ∨ b = 13 := by
  obtain ⟨x, y, hxy, rfl⟩ := h
  match x, hxy with
  | [], _ => simp
  | [a], h => cases h; simp
  | [a, b], h => cases h; simp
  | a :: b :: c :: x, h => simp at h

/-- The hypotheses of C32 are met: the body of two messages in chunks of 5, 1 and 7 bytes. -/
example : CutWell [[5, 6], [9]] 0 [[0, 0, 0, 0, 2], [5], [6], [0, 0, 0, 0, 1, 9]] ∧
    receive 20 none [[0, 0, 0, 0, 2], [5], [6], [0, 0, 0, 0, 1, 9]] = .ok ([[5, 6], [9]], none) := by
  refine ⟨⟨?_, ?_, ?_, ?_, trivial⟩, rfl⟩ <;>
  · intro b hb
    rcases demo_boundary hb with rfl | rfl | rfl <;> decide

/-- C32 is violated: a first chunk of fewer than 4 bytes makes the channel read behind the received
data. -/
theorem C32_short_chunk_violated (data : Bytes) (h : data.length < 4) (n : Nat) (finished : Bool) :
    readyRead n finished none data = .ub := by
  have : getExpectedDataSize data = .ub := by
    match data, h with
    | [], _ => rfl
    | [_], _ => rfl
    | [_, _], _ => rfl
    | [_, _, _], _ => rfl
    | _ :: _ :: _ :: _ :: _, h => simp at h; omega
  simp only [readyRead, this, Res.bind_eq, Res.bind]

/-- C32 is violated: when a chunk ends 4 bytes behind the first frame, these bytes are dropped and the
second message is lost. Both messages have arrived completely; the second chunk of 2 bytes makes the
channel read behind the data. -/
theorem C32_lost_header_violated :
    receive 20 none [[0, 0, 0, 0, 2, 5, 6, 0, 0, 0, 0], [1, 9]] = .ub ∧
    receive 20 none [[0, 0, 0, 0, 2, 5, 6, 0, 0, 0, 0]] = .ok ([[5, 6]], none) := by
  decide +kernel

/-- C32 is violated: the empty message behind a message in one chunk is not delivered, although both
have arrived completely. -/
theorem C32_empty_message_violated :
    IsStream [[5, 6], []] [0, 0, 0, 0, 2, 5, 6, 0, 0, 0, 0, 0] ∧
    receive 20 none [[0, 0, 0, 0, 2, 5, 6, 0, 0, 0, 0, 0]] =
      .ok ([[5, 6]], some ⟨7, [0, 0, 0, 0, 0]⟩) :=
by
  refine ⟨?_, ?_⟩
  · exact .cons (frame := [0, 0, 0, 0, 2, 5, 6]) ⟨[0, 0, 0, 2], ⟨0, 0, 0, 2, rfl, rfl⟩, rfl⟩
      (.cons (frame := [0, 0, 0, 0, 0]) ⟨[0, 0, 0, 0], ⟨0, 0, 0, 0, rfl, rfl⟩, rfl⟩ .nil)
  · decide +kernel

/-- C32 is violated: when a chunk ends 5 bytes behind the first frame, the size of the first message is
used for the second one: of the 4 byte message the handler gets 2 bytes, and the other two become the
start of the next frame. -/
theorem C32_wrong_size_violated :
    receive 30 none [[0, 0, 0, 0, 2, 5, 6, 0, 0, 0, 0, 4], [7, 8, 9, 10]] = .ok ([[5, 6], [7, 8]], none) := by
  decide +kernel

/-! ### C33 -/

/-- C33: every network error gives a status other than Ok and no data. -/
theorem C33_network_error (r : Reply) (h : r.error ≠ .NoError) :
    ∃ code, processReply r = .ok ([], code) ∧ code ≠ Status.Ok := by
  have : ∃ code, statusCodeAt r.error = .ok code ∧ code ≠ Status.Ok := by
    revert h
    cases r.error <;> intro h <;> first
      | exact absurd rfl h
      | exact ⟨_, rfl, by decide⟩
  obtain ⟨code, h1, h2⟩ := this
  exact ⟨code, by simp [processReply, h, h1], h2⟩

/-- The statuses by kind of failure: limits of time, missing rights, missing identification, missing content, lost data, requests that
conflict, methods that the server does not have, failures of the server, servers that cannot be reached; Unknown for the rest. -/
def Spec.statusOf (e : NetworkError) : StatusCode :=
  if e = .TimeoutError ∨ e = .ProxyTimeoutError then Status.DeadlineExceeded
  else if e = .SslHandshakeFailedError ∨ e = .InsecureRedirectError ∨ e = .ContentAccessDenied ∨ e = .ContentOperationNotPermittedError ∨
      e = .AuthenticationRequiredError then Status.PermissionDenied
  else if e = .ProxyAuthenticationRequiredError then Status.Unauthenticated
  else if e = .ContentNotFoundError then Status.NotFound
  else if e = .ContentReSendError ∨ e = .ContentGoneError then Status.DataLoss
  else if e = .ContentConflictError then Status.InvalidArgument
  else if e = .ProtocolInvalidOperationError ∨ e = .OperationNotImplementedError then Status.Unimplemented
  else if e = .InternalServerError then Status.Internal
  else if e = .ConnectionRefusedError ∨ e = .RemoteHostClosedError ∨ e = .HostNotFoundError ∨ e = .OperationCanceledError ∨
      e = .NetworkSessionFailedError ∨ e = .TooManyRedirectsError ∨ e = .ProxyConnectionRefusedError ∨ e = .ProxyConnectionClosedError ∨
      e = .ProxyNotFoundError ∨ e = .ServiceUnavailableError then Status.Unavailable
  else Status.Unknown

/-- C33: which status a network error is. -/
theorem C33_kind (r : Reply) (h : r.error ≠ .NoError) : processReply r = .ok ([], Spec.statusOf r.error) := by
  have : statusCodeAt r.error = .ok (Spec.statusOf r.error) := by
    revert h
    cases r.error <;> intro h <;> first
      | exact absurd rfl h
      | rfl
  simp [processReply, h, this]

/-- C33: without a network error the status is the one of the server, and the data is the body without
its 5 byte prefix if that is Ok (0), nothing otherwise. -/
theorem C33_server_status (r : Reply) (h : r.error = .NoError) {hdr : Bytes} {code : Nat}
    (hh : r.grpcStatus = some hdr) (hd : Decimal hdr code) (hc : code < 2 ^ 31) :
    processReply r = .ok (if code = 0 then r.body.drop 5 else [], (code : Int)) := by
  obtain ⟨hne, hdig, hval⟩ := hd
  have hparse : ∀ (bs : Bytes) (acc : Nat), (∀ b ∈ bs, 48 ≤ b.toNat ∧ b.toNat ≤ 57) →
      parseDigits acc bs = some (bs.foldl (fun a b => 10 * a + (b.toNat - 48)) acc) := by
    intro bs
    induction bs with
    | nil => intro acc _; rfl
    | cons b bs ih =>
      intro acc hb
      rw [parseDigits, if_pos (hb b (by simp)), ih _ (fun x hx => hb x (List.mem_cons_of_mem _ hx))]
      rfl
  have ht : toInt hdr = code := by
    match hdr, hne with
    | 45 :: bs, _ => exact absurd (hdig 45 (by simp)) (by decide)
    | b :: bs, _ =>
      have hb : b ≠ 45 := by
        intro e
        exact absurd (hdig b (by simp)) (by rw [e]; decide)
      rw [toInt]
      · rw [hparse _ _ hdig, ← hval]
        simp only
        rw [if_pos hc]
      · simp
      · intro bs' e; cases e; exact hb rfl
  simp only [processReply, h, hh, Option.getD_some, ht, Status.Ok]
  by_cases hz : code = 0
  · simp [hz]
  · have : (code : Int) ≠ 0 := by omega
    simp [hz]

/-- C33: a reply without a status header counts as Ok. -/
theorem C33_no_header (r : Reply) (h : r.error = .NoError) (hh : r.grpcStatus = none) :
    processReply r = .ok (r.body.drop 5, Status.Ok) := by
  simp [processReply, h, hh, toInt, Status.Ok]

/-- C33: data is delivered only with the status Ok and without a network error, and the mapping never throws. -/
theorem C33_data_only_ok (r : Reply) : ∃ data code, processReply r = .ok (data, code) ∧
    (code ≠ Status.Ok → data = []) ∧ (code = Status.Ok → r.error = .NoError ∧ data = r.body.drop 5) := by
  by_cases h : r.error = .NoError
  · by_cases hz : toInt (r.grpcStatus.getD []) = Status.Ok
    · exact ⟨r.body.drop 5, Status.Ok, by simp [processReply, h, hz], by simp, fun _ => ⟨h, rfl⟩⟩
    · exact ⟨[], toInt (r.grpcStatus.getD []), by simp [processReply, h, hz], fun _ => rfl, fun e => absurd e hz⟩
  · obtain ⟨code, h1, h2⟩ := C33_network_error r h
    exact ⟨[], code, h1, fun _ => rfl, fun e => absurd e h2⟩

/-- A status header that is no decimal number counts as Ok. -/
theorem C33_malformed_header : processReply ⟨.NoError, some [0x78], [0, 0, 0, 0, 1, 9]⟩ = .ok ([9], Status.Ok) := rfl

example : Decimal [0x31, 0x34] 14 ∧ processReply ⟨.NoError, some [0x31, 0x34], []⟩ = .ok ([], Status.Unavailable) :=
  ⟨⟨by decide, by decide, rfl⟩, rfl⟩

/-! ### C52: what the network sends cannot hang the client -/

/-- No four bytes behind any byte of `bs` are a length of `2^31 - 5` or more. -/
def Spec.LengthsFit (bs : Bytes) : Prop :=
  ∀ (pre : Bytes) (t b0 b1 b2 b3 : UInt8) (post : Bytes), bs = pre ++ t :: b0 :: b1 :: b2 :: b3 :: post →
    ((b0.toNat * 256 + b1.toNat) * 256 + b2.toNat) * 256 + b3.toNat + 5 < 2 ^ 31

theorem expected_positive {bs : Bytes} (h : LengthsFit (bs ++ [0])) :
    getExpectedDataSize bs = .ub ∧ bs.length < 4 ∨ ∃ e, getExpectedDataSize bs = .ok e ∧ 0 < e := by
  match bs with
  | [] => exact .inl ⟨rfl, by decide⟩
  | [_] => exact .inl ⟨rfl, by simp⟩
  | [_, _] => exact .inl ⟨rfl, by simp⟩
  | [_, _, _] => exact .inl ⟨rfl, by simp⟩
  | [t, b0, b1, b2] =>
    have h1 := h [] t b0 b1 b2 0 [] rfl
    have hlt : ((b0.toNat * 256 + b1.toNat) * 256 + b2.toNat) * 256 + (0 : UInt8).toNat < 2 ^ 31 :=
      Nat.lt_of_le_of_lt (Nat.le_add_right _ 5) h1
    have h2 := fromBigEndian_eq (b0 := b0) (b1 := b1) (b2 := b2) (b3 := 0) rfl hlt
    refine .inr ⟨qFromBigEndian b0 b1 b2 0 + 5, ?_, by omega⟩
    simp only [getExpectedDataSize, List.cons_append, List.nil_append, List.drop_succ_cons, List.drop_zero]
    rw [if_pos (by omega)]
  | t :: b0 :: b1 :: b2 :: b3 :: post =>
    have h1 := h [] t b0 b1 b2 b3 (post ++ [0]) rfl
    have hlt : ((b0.toNat * 256 + b1.toNat) * 256 + b2.toNat) * 256 + b3.toNat < 2 ^ 31 :=
      Nat.lt_of_le_of_lt (Nat.le_add_right _ 5) h1
    have h2 := fromBigEndian_eq (b0 := b0) (b1 := b1) (b2 := b2) (b3 := b3) rfl hlt
    refine .inr ⟨qFromBigEndian b0 b1 b2 b3 + 5, ?_, by omega⟩
    simp only [getExpectedDataSize, List.cons_append, List.drop_succ_cons, List.drop_zero]
    rw [if_pos (by omega)]

theorem lengthsFit_drop {bs : Bytes} (h : LengthsFit (bs ++ [0])) (k : Nat) : LengthsFit (bs.drop k ++ [0]) := by
  intro pre t b0 b1 b2 b3 post he
  apply h (bs.take k ++ pre) t b0 b1 b2 b3 post
  rw [List.append_assoc, ← he, ← List.append_assoc, List.take_append_drop]

theorem messageLoop_ends {finished : Bool} (n : Nat) : ∀ {d : ExpectedData}, LengthsFit (d.container ++ [0]) →
    0 < d.expectedSize → d.container.length < n →
    ∃ out d', messageLoop finished n d = .ok (out, d') ∧ 0 < d'.expectedSize := by
  induction n with
  | zero => intro d _ _ h; omega
  | succ n ih =>
    intro d hfit hpos hn
    rw [messageLoop]
    split
    · rename_i hc
      have hc1 := hc.1
      have hrem : removeFront d.container d.expectedSize = d.container.drop d.expectedSize.toNat := by
        rw [removeFront, if_neg (by omega)]
      have hfit' := lengthsFit_drop hfit d.expectedSize.toNat
      have hlen : (d.container.drop d.expectedSize.toNat).length < n := by
        rw [List.length_drop]; omega
      simp only [hrem, Res.bind_eq]
      have hexp : ∃ e, (if (d.container.drop d.expectedSize.toNat).length > 5 then
          getExpectedDataSize (d.container.drop d.expectedSize.toNat) else .ok d.expectedSize) = Res.ok e ∧ 0 < e := by
        split
        · rename_i h5
          rcases expected_positive hfit' with ⟨_, h4⟩ | h
          · omega
          · exact h
        · exact ⟨_, rfl, hpos⟩
      obtain ⟨e, he, hpe⟩ := hexp
      obtain ⟨out, d', h1, h2⟩ := ih (d := ⟨e, d.container.drop d.expectedSize.toNat⟩) hfit' hpe hlen
      refine ⟨mid d.container 5 (d.expectedSize - 5) :: out, d', ?_, h2⟩
      split at he
      · rename_i h5
        rw [if_pos h5, he]
        simp only [Res.bind, h1]
      · rename_i h5
        rw [if_neg h5]
        cases he
        simp only [Res.bind, h1]
    · exact ⟨[], d, rfl, hpos⟩

/-- C52, proved part: for any received bytes (in any state of the record with a positive size) that
contain no length of `2^31 - 5` or more, the handling of a chunk ends, after at most one iteration per
byte, and leaves a record with a positive size; only a first chunk of fewer than 4 bytes is undefined.
Missing: other lengths, see `C52_negative_length_violated`. -/
theorem C52_terminates_partial (finished : Bool) (record : Option ExpectedData) (data : Bytes)
    (hpos : ∀ d, record = some d → 0 < d.expectedSize)
    (hfit : LengthsFit ((match record with | some d => d.container | none => []) ++ data ++ [0])) {n : Nat}
    (hn : (match record with | some d => d.container | none => []).length + data.length < n) :
    (record = none ∧ data.length < 4 ∧ readyRead n finished record data = .ub) ∨
    ∃ out record', readyRead n finished record data = .ok (out, record') ∧
      ∀ d, record' = some d → 0 < d.expectedSize := by
  have main : ∀ d : ExpectedData, 0 < d.expectedSize → LengthsFit (d.container ++ data ++ [0]) →
      d.container.length + data.length < n →
      ∃ out record', readyRead.proceed n finished data d = .ok (out, record') ∧
      ∀ d, record' = some d → 0 < d.expectedSize := by
    intro d hp hf hl
    obtain ⟨out, d', h1, h2⟩ := messageLoop_ends (finished := finished) n (d := ⟨d.expectedSize, d.container ++ data⟩) hf hp (by simpa using hl)
    simp only [readyRead.proceed, h1, Res.bind_eq, Res.bind]
    split
    · exact ⟨_, _, rfl, by simp⟩
    · exact ⟨_, _, rfl, fun d e => by cases e; exact h2⟩
  cases record with
  | some d => exact .inr (main d (hpos d rfl) hfit hn)
  | none =>
    simp only [List.nil_append] at hfit
    rcases expected_positive hfit with ⟨h1, h2⟩ | ⟨e, he, hpe⟩
    · exact .inl ⟨rfl, h2, by simp only [readyRead, h1, Res.bind_eq, Res.bind]⟩
    · right
      simp only [readyRead, he, Res.bind_eq, Res.bind]
      rw [if_neg (by omega)]
      exact main ⟨e, []⟩ hpe (by simpa using hfit) (by simpa using hn)

theorem negative_size : getExpectedDataSize [0, 0xff, 0xff, 0xff, 0xfa, 1] = .ok (-1) := by
  decide +kernel

/-- C52 is violated: a frame with the length `2^32 - 6` (a negative `int`) makes the channel call the
handler for ever. -/
theorem C52_negative_length_violated (n : Nat) :
    readyRead n false none [0, 0xff, 0xff, 0xff, 0xfa, 1] = .fuel := by
  have hloop : ∀ n, messageLoop false n ⟨-1, [0, 0xff, 0xff, 0xff, 0xfa, 1]⟩ = .fuel := by
    intro n
    induction n with
    | zero => rfl
    | succ n ih =>
      have h1 : removeFront ([0, 0xff, 0xff, 0xff, 0xfa, 1] : Bytes) (-1) = [0, 0xff, 0xff, 0xff, 0xfa, 1] := rfl
      have h2 : getExpectedDataSize [0, 0xff, 0xff, 0xff, 0xfa, 1] = .ok (-1) := negative_size
      rw [messageLoop, if_pos ⟨by simp, rfl⟩]
      simp only [h1, h2, Res.bind_eq, List.length_cons, List.length_nil]
      rw [if_pos (by decide)]
      simp only [Res.bind, ih]
  have h2 : getExpectedDataSize [0, 0xff, 0xff, 0xff, 0xfa, 1] = .ok (-1) := negative_size
  simp only [readyRead, h2, Res.bind_eq, Res.bind]
  rw [if_neg (by decide)]
  simp only [readyRead.proceed, List.nil_append, hloop, Res.bind_eq, Res.bind]

/-- The hypothesis of `C52_terminates_partial` is met by text. -/
example : LengthsFit ([0x68, 0x65, 0x6c, 0x6c, 0x6f, 0x21] ++ [0]) := by
  intro pre t b0 b1 b2 b3 post h
  match pre, h with
  | [], h => cases h; decide
  | [_], h => cases h; decide
  | [_, _], h => cases h; decide
  | _ :: _ :: _ :: pre, h =>
    have := congrArg List.length h
    simp at this
    omega

end QtPb.Http2
