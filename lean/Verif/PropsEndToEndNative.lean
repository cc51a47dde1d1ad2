import Verif.PropsEndToEnd
import Verif.SpecEndToEndNative
/-
C85: whole calls and streams over the native channel, from the argument message through the server to the reply message.
-/
namespace QtPb.EndToEnd.Native
open Http2 QtPb.Native Call QtPb.Spec QtPb.EndToEnd.Spec

variable {env : Env}

/-- The request that a call sends carries its argument. -/
theorem carries (hv : ValidSchema env) (ho : ValidOrder env) {rank : Nat → Nat} (ha : Acyclic env rank) (hb : NoRepeatedBool env)
    (hE : env.fromUtf8 (env.toUtf8 []) = []) {m : Nat} {arg : Obj} (harg : Clean env (.msg m) (.msg arg))
    (hsmall : ∀ n bs, serializeMessage env n m arg = .ok bs → bs.length < 2 ^ 31) :
    ∃ N bs a, (∀ n, N ≤ n → serializeMessage env n m arg = .ok bs) ∧ Spec.Carries env m (parseQByteArray bs) a ∧
      Same env (.msg m) (.msg arg) (.msg a) ∧ a.length = (env.sch m).length := by
  obtain ⟨N, bs, h1, h2⟩ := C21_reference hv ho ha hb hE harg
  have hl := hsmall N bs (h1 N (Nat.le_refl N))
  obtain ⟨a, h3, h4⟩ := h2 hl
  obtain ⟨a', h5, h6⟩ := C21_reference_exact hv ho harg.plain.safe.hasTy (h1 N (Nat.le_refl N)) hl
  cases h3.symm.trans h5
  exact ⟨N, bs, a, h1, by simpa [Spec.Carries, parseQByteArray] using h3, h4, by cases h6; assumption⟩

theorem channelCall_happens {world : World} {method service : String} {args : Bytes} {answer : Answer} {c : StatusCode} {d : Bytes}
    (hm : Means answer c d) (h : Spec.Happens answer (world ⟨"/" ++ service ++ "/" ++ method, parseQByteArray args⟩).1) :
    channelCall world method service args =
      some (.ok (⟨c, (world ⟨"/" ++ service ++ "/" ++ method, parseQByteArray args⟩).2⟩, d)) := by
  obtain ⟨p1, p2, p3, p4, e, h1, h2, h3⟩ := h
  have hs := C71_returns (p4 := p4) hm h1 h2 h3
  rw [← e] at hs
  have hr : request method service args = ⟨"/" ++ service ++ "/" ++ method, parseQByteArray args⟩ := rfl
  unfold channelCall
  dsimp only
  rw [hr, hs]

/-- **C85**, partial. A synchronous call over the native channel, for every argument message without NaN and with text that survives
UTF-8, and for every server that computes `f` at the path of the service and method, whatever slices the answer comes in: the server
gets the same message `a`, the call returns with status Ok, emits no error, and the reply object is the same message as `f a`.

Missing: message types whose singular sub-messages form a cycle (C20), repeated bools (C12), NaN, reply objects with maps of messages
that are not new, messages of 2 GB, encodings that are not usual (C67), applications that quit during the call (C71). -/
theorem C85_answer_partial (hv : ValidSchema env) (ho : ValidOrder env) {rank : Nat → Nat} (ha : Acyclic env rank)
    (hb : NoRepeatedBool env) (hE : env.fromUtf8 (env.toUtf8 []) = []) {mA mR : Nat} {arg ret : Obj} {f : Obj → Obj}
    {method service : String} {world : World} (harg : Clean env (.msg mA) (.msg arg))
    (hsmall : ∀ n bs, serializeMessage env n mA arg = .ok bs → bs.length < 2 ^ 31)
    (hserver : Spec.Serves env mA mR ("/" ++ service ++ "/" ++ method) f world)
    (hf : ∀ a, Same env (.msg mA) (.msg arg) (.msg a) → Plain env (.msg mR) (.msg (f a))) (hret : Target env mR ret) :
    ∃ N a, Same env (.msg mA) (.msg arg) (.msg a) ∧ a.length = (env.sch mA).length ∧ ∀ n, N ≤ n → ∃ K, ∀ k, K ≤ k → ∃ r,
      unary env n k world method service mA mR arg ret = some (.returned r ⟨Status.Ok, ""⟩ []) ∧
      Same env (.msg mR) (.msg r) (.msg (f a)) ∧ Safe env (.msg mR) (.msg r) := by
  obtain ⟨N, argData, a, h1, h2, h3, hla⟩ := carries hv ho ha hb hE harg hsmall
  obtain ⟨answer, e1, e2⟩ := hserver _ _ h2
  refine ⟨max N (answer.flatten.length + 1), a, h3, hla, fun n hn => ?_⟩
  obtain ⟨K, hK⟩ := read_usual (n := n) hv e2 (hf a h3) hret (by omega)
  refine ⟨K, fun k hk => ?_⟩
  obtain ⟨r, k1, k2, k3⟩ := hK k hk
  refine ⟨r, ?_, k2, k3⟩
  have hser := h1 n (by omega)
  have hcall := channelCall_happens (args := argData) (.good rfl rfl) e1
  unfold unary
  rw [hser]
  simp only [hcall, k1]
  simp [callTyped, serializer, hser, callBytes, tryDeserialize, k1, Status.Ok]

/-- **C85**, errors of the server: it gets the same message, refuses with a status other than 0, and the call returns that status with
the library's text, emits it once, and leaves the reply object as it was. -/
theorem C85_refused_partial (hv : ValidSchema env) (ho : ValidOrder env) {rank : Nat → Nat} (ha : Acyclic env rank)
    (hb : NoRepeatedBool env) (hE : env.fromUtf8 (env.toUtf8 []) = []) {mA : Nat} (mR : Nat) {arg : Obj} (ret : Obj) {code : Int}
    {method service : String} {world : World} (harg : Clean env (.msg mA) (.msg arg))
    (hsmall : ∀ n bs, serializeMessage env n mA arg = .ok bs → bs.length < 2 ^ 31)
    (hserver : Spec.Refuses env mA ("/" ++ service ++ "/" ++ method) code world) (hc : code ≠ 0) :
    ∃ N a slices, Spec.Carries env mA slices a ∧ Same env (.msg mA) (.msg arg) (.msg a) ∧ ∀ n k, N ≤ n →
      unary env n k world method service mA mR arg ret =
        some (.returned ret ⟨code, (world ⟨"/" ++ service ++ "/" ++ method, slices⟩).2⟩
          [⟨code, (world ⟨"/" ++ service ++ "/" ++ method, slices⟩).2⟩]) := by
  obtain ⟨N, argData, a, h1, h2, h3, -⟩ := carries hv ho ha hb hE harg hsmall
  obtain ⟨nothing, e1⟩ := hserver _ _ h2
  refine ⟨N, a, _, h2, h3, fun n k hn => ?_⟩
  have hser := h1 n hn
  have hz : code ≠ Status.Ok := hc
  have hcall := channelCall_happens (args := argData) (.failed hc) e1
  unfold unary
  rw [hser]
  simp only [hcall]
  rw [if_neg (fun h => hz h.1)]
  simp [callTyped, serializer, hser, callBytes, hz]

/-- **C85**, converse: a call that returns Ok got an answer from the server. The application does not quit and the channel is not
destroyed during the call. The library answered the request with the argument's bytes with code 0, and the reply object is what
`deserialize` makes of the bytes of the answer, in order; nothing was reported. -/
theorem C85_ok_partial {n k mA mR : Nat} {world : World} {method service : String} {arg ret r : Obj} {status : Call.Status}
    {errors : List Call.Status} (h : unary env n k world method service mA mR arg ret = some (.returned r status errors))
    (hok : status.code = Status.Ok) (hq : ∀ req, Wait.quit ∉ (world req).1) (hd : ∀ req, Wait.destroyChannel ∉ (world req).1) :
    ∃ argData answer c data, serializeMessage env n mA arg = .ok argData ∧
      Wait.threadEnd answer ∈ (world ⟨"/" ++ service ++ "/" ++ method, [argData]⟩).1 ∧ Means answer c data ∧ c = 0 ∧
      deserialize env n k mR data ret = ⟨.ok (), .ok r⟩ ∧ errors = [] := by
  unfold unary at h
  split at h
  · rename_i argData hser
    split at h
    · rename_i st retData hcall
      dsimp only at h
      split at h
      · cases h
      · rename_i hn
        have h := Option.some.inj h
        have hiff := (C53_ok_iff _ _ _ _ _ _ h).1 hok
        obtain ⟨_, c, ser, deser, b, answer, q1, q2, q3, q4, q5, q6⟩ := hiff
        cases q1
        cases q2
        have hst : st.code = Status.Ok := q4
        have hbq : retData = answer := q5
        subst hbq
        cases hrd : read env n k mR ret retData with
        | none => exact absurd ⟨hst, hrd⟩ hn
        | some res =>
          dsimp only at q6
          rw [hrd] at q6
          obtain ⟨o, t⟩ := res
          simp only [Option.getD_some, Prod.mk.injEq] at q6
          obtain ⟨rfl, rfl⟩ := q6
          have herr : errors = [] := by
            obtain ⟨ret', st', er', g1, g2⟩ := C53_reported_once_partial (method := method) (arg := arg) (retNull := false) (ret := ret)
              (channel := some ⟨some (serializeMessage env n mA, fun r d => (read env n k mR r d).getD (r, none)), fun _ => (st, retData)⟩)
              (fun ser deser hh => by cases hh; exact ⟨_, hser⟩)
            rw [g1] at h
            cases h
            rw [g2, if_pos hok]
          have hdes : deserialize env n k mR retData ret = ⟨.ok (), .ok o⟩ := by
            unfold read at hrd
            rcases hd : deserialize env n k mR retData ret with ⟨s, t⟩
            rw [hd] at hrd
            dsimp only at hrd
            split at hrd <;> simp_all
          unfold channelCall at hcall
          dsimp only at hcall
          rcases C71_native_partial _ (hq (request method service argData)) (hd (request method service argData)) with
            hx | ⟨a, c, d, hx1, hx2, hx3⟩
          · rw [hx] at hcall; cases hcall
          · rw [hx3] at hcall
            simp only [Option.some.injEq, Res.ok.injEq, Prod.mk.injEq] at hcall
            obtain ⟨rfl, rfl⟩ := hcall
            exact ⟨argData, a, c, d, hser, hx1, hx2, hst, hdes, herr⟩
    · cases h
    · cases h
    · cases h
  · cases h
  · cases h

/-- **C85**: a program that uses a generated client cannot tell the two channels apart: for the same function of the server, behind HTTP/2
and behind the gRPC library, calls with the same argument both return Ok without an error and with the same message. -/
theorem C85_channels_partial (hv : ValidSchema env) (ho : ValidOrder env) {rank : Nat → Nat} (ha : Acyclic env rank)
    (hb : NoRepeatedBool env) (hE : env.fromUtf8 (env.toUtf8 []) = []) {mA mR : Nat} {arg ret : Obj} {f : Obj → Obj}
    {method service : String} {world : World} {world2 : EndToEnd.World} (harg : Clean env (.msg mA) (.msg arg))
    (hsmall : ∀ n bs, serializeMessage env n mA arg = .ok bs → bs.length < 2 ^ 31)
    (hserver : Spec.Serves env mA mR ("/" ++ service ++ "/" ++ method) f world)
    (hserver2 : EndToEnd.Spec.Serves env mA mR ("/" ++ service ++ "/" ++ method) f world2)
    (hf : ∀ a, Same env (.msg mA) (.msg arg) (.msg a) → Plain env (.msg mR) (.msg (f a))) (hret : Target env mR ret) :
    ∃ N a, ∀ n, N ≤ n → ∃ K, ∀ k, K ≤ k → ∃ r r2,
      unary env n k world method service mA mR arg ret = some (.returned r ⟨Status.Ok, ""⟩ []) ∧
      EndToEnd.unary env n k world2 method service mA mR arg ret = some (.returned r2 ⟨Status.Ok, ""⟩ []) ∧
      Same env (.msg mR) (.msg r) (.msg (f a)) ∧ Same env (.msg mR) (.msg r2) (.msg (f a)) := by
  obtain ⟨N, bs, h1, h2⟩ := C21_reference hv ho ha hb hE harg
  have hl := hsmall N bs (h1 N (Nat.le_refl N))
  obtain ⟨a, h3, h4⟩ := h2 hl
  -- servers that are asked with these bytes see this message
  obtain ⟨answer, e1, e2⟩ := hserver [bs] a (by simpa [Spec.Carries] using h3)
  obtain ⟨pieces, reply, later, bs2, hdr, g1, g2, g3, g4, g5, g6, g7⟩ := hserver2 (requestBody bs) a ⟨bs, C31_frame (by omega), h3⟩
  refine ⟨max N (max (answer.flatten.length + 1) (bs2.length + 1)), a, fun n hn => ?_⟩
  obtain ⟨K, hK⟩ := read_usual (n := n) hv e2 (hf a h4) hret (by omega)
  obtain ⟨K', hK'⟩ := read_usual (n := n) hv g7 (hf a h4) hret (by omega)
  refine ⟨max K K', fun k hk => ?_⟩
  obtain ⟨r, k1, k2, _⟩ := hK k (by omega)
  obtain ⟨r', k1', k2', _⟩ := hK' k (by omega)
  have hser := h1 n (by omega)
  refine ⟨r, r', ?_, ?_, k2, k2'⟩
  · have hcall := channelCall_happens (args := bs) (.good rfl rfl) e1
    unfold unary
    rw [hser]
    simp only [hcall, k1]
    simp [callTyped, serializer, hser, callBytes, tryDeserialize, k1, Status.Ok]
  · have hcall : EndToEnd.channelCall world2 method service bs =
        some (.ok (⟨Status.Ok, (world2 (post method service bs)).2⟩, bs2)) := by
      have hs : syncCall2 ⟨.NoError, none, []⟩ (world2 (post method service bs)).1 = some (.ok (bs2, Status.Ok)) := by
        show syncCall2 _ (world2 ⟨"/" ++ service ++ "/" ++ method, requestBody bs⟩).1 = _
        rw [g1, C71_returns_http2 g2, C33_server_status reply g3 g4 g5 (by decide), if_pos rfl, frame_drop g6]
        rfl
      unfold EndToEnd.channelCall
      dsimp only
      rw [hs]
    unfold EndToEnd.unary
    rw [hser]
    simp only [hcall, k1']
    simp [callTyped, serializer, hser, callBytes, tryDeserialize, k1', Status.Ok]

/-! ### Streams -/

theorem readLoop_ok (finish : StatusCode) : ∀ buffers : List (List Bytes),
    readLoop finish (buffers.map .ok) = (buffers.map List.flatten, finish)
  | [] => rfl
  | b :: buffers => by simp [readLoop, readLoop_ok finish buffers, appendSlices_eq]

/-- **C85**, streams, partial. A server stream over the native channel with a reply object, for every argument message without NaN and
with text that survives UTF-8, and for every server that streams `f a` and ends with the status `finish a`, whatever slices the messages
come in: the server gets the same message `a`, the reply object is updated once for every message of `f a`, in that order, is the same
message each time, and the status is reported exactly if it is not Ok.

Missing: as in `C85_answer_partial`, and maps of messages. -/
theorem C85_stream_partial (hv : ValidSchema env) (ho : ValidOrder env) {rank : Nat → Nat} (ha : Acyclic env rank)
    (hb : NoRepeatedBool env) (hm : NoMessageMaps env) (hE : env.fromUtf8 (env.toUtf8 []) = []) {mA mR : Nat} {arg ret : Obj}
    {f : Obj → List Obj} {finish : Obj → Int} {method service : String} {world : StreamWorld} (harg : Clean env (.msg mA) (.msg arg))
    (hsmall : ∀ n bs, serializeMessage env n mA arg = .ok bs → bs.length < 2 ^ 31)
    (hserver : Spec.ServesStream env mA mR ("/" ++ service ++ "/" ++ method) f finish world)
    (hf : ∀ a, Same env (.msg mA) (.msg arg) (.msg a) → ∀ o ∈ f a, Plain env (.msg mR) (.msg o))
    (hret : Safe env (.msg mR) (.msg ret)) :
    ∃ N a, Same env (.msg mA) (.msg arg) (.msg a) ∧ a.length = (env.sch mA).length ∧ ∀ n, N ≤ n → ∃ K, ∃ rs : List Obj,
      (∀ k, K ≤ k → stream env n k world method service mA mR arg ret =
        some (rs.map fun r => (r, ⟨Status.Ok, ""⟩, []), if finish a = 0 then none else some (finish a))) ∧
      rs.length = (f a).length ∧
      ∀ (i : Nat) (r o : Obj), rs[i]? = some r → (f a)[i]? = some o → Same env (.msg mR) (.msg r) (.msg o) := by
  obtain ⟨N, argData, a, h1, h2, h3, hla⟩ := carries hv ho ha hb hE harg hsmall
  obtain ⟨e0, buffers, e1, e2, e3⟩ := hserver _ _ h2
  have hsum : ∀ b ∈ buffers, b.flatten.length ≤ (buffers.map fun b => b.flatten.length).sum := by
    intro b hb
    clear e0 e1 e2 e3
    induction buffers with
    | nil => cases hb
    | cons c buffers ih =>
      rcases List.mem_cons.1 hb with rfl | hb
      · simp
      · have := ih hb
        simp only [List.map_cons, List.sum_cons]
        omega
  refine ⟨max N ((buffers.map fun b => b.flatten.length).sum + 1), a, h3, hla, fun n hn => ?_⟩
  obtain ⟨K, rs, g1, g2, g3⟩ := updates_usual (n := n) hv hm (buffers.map List.flatten) (f a) ret (by simpa using e2)
    (fun i bs o hi ho => by
      simp only [List.getElem?_map, Option.map_eq_some_iff] at hi
      obtain ⟨b, hi, rfl⟩ := hi
      have := hsum b (List.mem_of_getElem? hi)
      exact ⟨e3 i b o hi ho, by omega⟩) (hf a h3) (.inr ⟨hm, hret⟩)
  refine ⟨K, rs, fun k hk => ?_, g2, g3⟩
  have hw : world (request method service argData) = (buffers.map .ok, finish a) := Prod.ext e1 e0
  unfold stream
  rw [h1 n (by omega)]
  simp only [hw, readLoop_ok, g1 k hk]
  by_cases hz : finish a = 0
  · simp [hz, Status.Ok]
  · simp [hz, Status.Ok]

theorem readLoop_broken (finish c : StatusCode) (rest : List (Except StatusCode (List Bytes))) : ∀ buffers : List (List Bytes),
    readLoop finish (buffers.map .ok ++ .error c :: rest) = (buffers.map List.flatten, c)
  | [] => rfl
  | b :: buffers => by simp [readLoop, readLoop_broken finish c rest buffers, appendSlices_eq]

/-- **C85**, streams: if the gRPC library cannot give the bytes of a buffer, the stream goes on exactly as if the server had ended it
before this buffer with the status of that failure: the messages before it are delivered, nothing that comes after it. -/
theorem C85_broken {n k mA mR : Nat} {world : StreamWorld} {method service : String} {arg ret : Obj} {buffers : List (List Bytes)}
    {c finish : Int} {rest : List (Except StatusCode (List Bytes))}
    (hw : ∀ req, world req = (buffers.map .ok ++ .error c :: rest, finish)) :
    stream env n k world method service mA mR arg ret =
      stream env n k (fun _ => (buffers.map .ok, c)) method service mA mR arg ret := by
  unfold stream
  cases serializeMessage env n mA arg with
  | ok argData => simp only [hw, readLoop_broken, readLoop_ok]
  | throw e => rfl
  | ub => rfl
  | fuel => rfl

/-! ### Examples -/

/-- A server that answers every request with a message in three slices. -/
def demoWorld : World := fun _ => ([.threadBegin, .threadEnd ⟨0, .ok [[0x22], [], [1, 7]]⟩, .deliver], "")

/-- A stream of two messages. -/
def demoStream : StreamWorld := fun _ => ([.ok [[0x22, 1], [7]], .ok [[0x22, 1, 7]]], 14)

theorem demo_serves : Spec.Serves demo 0 1 "/service/method" (fun _ => [.sc (.bytes (some [7]))]) demoWorld := fun _ _ _ =>
  ⟨[[0x22], [], [1, 7]], ⟨[], [], [], [], rfl, by simp, by simp, by simp⟩, demo_encodes⟩

theorem demo_refuses : Spec.Refuses demo 0 "/service/method" 5 (fun _ => ([.threadBegin, .threadEnd ⟨5, .ok []⟩, .deliver], "no")) :=
  fun _ _ _ => ⟨.ok [], [], [], [], [], rfl, by simp, by simp, by simp⟩

theorem demo_streams : Spec.ServesStream demo 0 1 "/service/method"
    (fun _ => [[.sc (.bytes (some [7]))], [.sc (.bytes (some [7]))]]) (fun _ => 14) demoStream := by
  intro _ _ _
  refine ⟨rfl, [[[0x22, 1], [7]], [[0x22, 1, 7]]], rfl, rfl, ?_⟩
  intro i bs o hi ho
  match i with
  | 0 => cases hi; cases ho; exact demo_encodes
  | 1 => cases hi; cases ho; exact demo_encodes
  | _ + 2 => simp at hi

/-- The schema, the argument and the reply object of C76 (Verif/PropsEndToEnd.lean) meet the other hypotheses. The call with the
argument: -/
example : unary demo 20 20 demoWorld "method" "service" 0 1 demoArg [.sc (.bytes none)] =
    some (.returned [.sc (.bytes (some [7]))] ⟨Status.Ok, ""⟩ []) := by rfl

example : stream demo 20 20 demoStream "method" "service" 0 1 demoArg [.sc (.bytes none)] =
    some ([([.sc (.bytes (some [7]))], ⟨Status.Ok, ""⟩, []), ([.sc (.bytes (some [7]))], ⟨Status.Ok, ""⟩, [])], some 14) := by rfl

end QtPb.EndToEnd.Native
