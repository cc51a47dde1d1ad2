import Verif.EndToEnd
import Verif.SpecEndToEnd
import Verif.PropsInterop
import Verif.PropsHttp2
import Verif.PropsNative
import Verif.PropsCall
/-
C76 and C77: whole calls and streams over the HTTP/2 channel, from the argument message through the server to the reply message.
-/
namespace QtPb.EndToEnd
open Http2 Native Call Spec QtPb.Spec Http2.Spec

variable {env : Env}

/-- A usual encoding of a message without NaN, read into a reply object: the object is that message afterwards. -/
theorem read_usual (hv : ValidSchema env) {m n : Nat} {bs : Bytes} {o old : Obj} (h : Encodes env m bs o)
    (hp : Plain env (.msg m) (.msg o)) (ht : Target env m old) (hn : bs.length < n) :
    ∃ K, ∀ k, K ≤ k → ∃ r, read env n k m old bs = some (r, none) ∧ Same env (.msg m) (.msg r) (.msg o) ∧
      Safe env (.msg m) (.msg r) := by
  obtain ⟨⟨d, hu⟩, href, hlen⟩ := h
  obtain ⟨o2, o', h1, h2, h3⟩ := C67_usual_partial (n := n) hv hu (by omega) hn
  cases href.symm.trans h2
  have hty : HasTy env (.msg m) (.msg o2) := by
    have := deserializeMessage_typed (env := env) n m bs
    rwa [h1] at this
  obtain ⟨hp2, hsame⟩ := agrees_plain h3 hty hp
  have key : ∃ K, ∀ k, K ≤ k → ∃ r, deserialize env n k m bs old = ⟨.ok (), .ok r⟩ ∧
      Mirrors env (.msg m) (.msg r) (.msg o2) ∧ Safe env (.msg m) (.msg r) := by
    rcases ht with rfl | ⟨hm, hs⟩
    · exact target_fresh h1 (Plain.safe hp2)
    · exact target_any hm h1 (Plain.safe hp2) hs
  obtain ⟨K, hK⟩ := key
  refine ⟨K, fun k hk => ?_⟩
  obtain ⟨r, e1, e2, e3⟩ := hK k hk
  refine ⟨r, by simp [read, e1], ?_, e3⟩
  exact Same.trans (e2.toSame hp2) hsame e3 (Plain.safe hp2) (Plain.safe hp)

/-- The body of a frame behind its prefix. -/
theorem frame_drop {m frame : Bytes} (h : IsFrame m frame) : frame.drop 5 = m := by
  obtain ⟨size, ⟨b0, b1, b2, b3, rfl, _⟩, rfl⟩ := h
  rfl

/-- The request that a call sends carries its argument. -/
theorem carries (hv : ValidSchema env) (ho : ValidOrder env) {rank : Nat → Nat} (ha : Acyclic env rank) (hb : NoRepeatedBool env)
    (hE : env.fromUtf8 (env.toUtf8 []) = []) {m : Nat} {arg : Obj} (harg : Clean env (.msg m) (.msg arg))
    (hsmall : ∀ n bs, serializeMessage env n m arg = .ok bs → bs.length < 2 ^ 31) :
    ∃ N bs a, (∀ n, N ≤ n → serializeMessage env n m arg = .ok bs) ∧ Carries env m (requestBody bs) a ∧
      Same env (.msg m) (.msg arg) (.msg a) ∧ a.length = (env.sch m).length := by
  obtain ⟨N, bs, h1, h2⟩ := C21_reference hv ho ha hb hE harg
  have hl := hsmall N bs (h1 N (Nat.le_refl N))
  obtain ⟨a, h3, h4⟩ := h2 hl
  obtain ⟨a', h5, h6⟩ := C21_reference_exact hv ho harg.plain.safe.hasTy (h1 N (Nat.le_refl N)) hl
  cases h3.symm.trans h5
  exact ⟨N, bs, a, h1, ⟨bs, C31_frame (by omega), h3⟩, h4, by cases h6; assumption⟩

/-- **C76**, partial. A synchronous call over HTTP/2 with the binary serializer, for every argument message without NaN and with text
that survives UTF-8, and for every server that computes `f` at the path of the service and method: the server gets the same message
`a`, the call returns with status Ok, emits no error, and the reply object is the same message as `f a`.

Missing: message types whose singular sub-messages form a cycle (C20), repeated bools (C12), NaN, reply objects with maps of messages
that are not new, messages of 2 GB, encodings that are not usual (C67), compressed answers (`C76_compressed_violated`). -/
theorem C76_answer_partial (hv : ValidSchema env) (ho : ValidOrder env) {rank : Nat → Nat} (ha : Acyclic env rank)
    (hb : NoRepeatedBool env) (hE : env.fromUtf8 (env.toUtf8 []) = []) {mA mR : Nat} {arg ret : Obj} {f : Obj → Obj}
    {method service : String} {world : World} (harg : Clean env (.msg mA) (.msg arg))
    (hsmall : ∀ n bs, serializeMessage env n mA arg = .ok bs → bs.length < 2 ^ 31)
    (hserver : Serves env mA mR ("/" ++ service ++ "/" ++ method) f world)
    (hf : ∀ a, Same env (.msg mA) (.msg arg) (.msg a) → Plain env (.msg mR) (.msg (f a))) (hret : Target env mR ret) :
    ∃ N a, Same env (.msg mA) (.msg arg) (.msg a) ∧ a.length = (env.sch mA).length ∧ ∀ n, N ≤ n → ∃ K, ∀ k, K ≤ k → ∃ r,
      unary env n k world method service mA mR arg ret = some (.returned r ⟨Status.Ok, ""⟩ []) ∧
      Same env (.msg mR) (.msg r) (.msg (f a)) ∧ Safe env (.msg mR) (.msg r) := by
  obtain ⟨N, argData, a, h1, h2, h3, hla⟩ := carries hv ho ha hb hE harg hsmall
  obtain ⟨pieces, reply, later, bs, hdr, e1, e2, e3, e4, e5, e6, e7⟩ := hserver _ _ h2
  refine ⟨max N (bs.length + 1), a, h3, hla, fun n hn => ?_⟩
  obtain ⟨K, hK⟩ := read_usual (n := n) hv e7 (hf a h3) hret (by omega)
  refine ⟨K, fun k hk => ?_⟩
  obtain ⟨r, k1, k2, k3⟩ := hK k hk
  refine ⟨r, ?_, k2, k3⟩
  have hser := h1 n (by omega)
  have hcall : channelCall world method service argData =
      some (.ok (⟨Status.Ok, (world (post method service argData)).2⟩, bs)) := by
    have hs : syncCall2 ⟨.NoError, none, []⟩ (world (post method service argData)).1 = some (.ok (bs, Status.Ok)) := by
      show syncCall2 _ (world ⟨"/" ++ service ++ "/" ++ method, requestBody argData⟩).1 = _
      rw [e1, C71_returns_http2 e2, C33_server_status reply e3 e4 e5 (by decide), if_pos rfl, frame_drop e6]
      rfl
    unfold channelCall
    dsimp only
    rw [hs]
  unfold unary
  rw [hser]
  simp only [hcall, k1]
  simp [callTyped, serializer, hser, callBytes, tryDeserialize, k1, Status.Ok]

/-- **C76**, errors of the server: it gets the same message, refuses with a status other than 0, and the call returns that status with
the server's message, emits it once, and leaves the reply object as it was. -/
theorem C76_refused_partial (hv : ValidSchema env) (ho : ValidOrder env) {rank : Nat → Nat} (ha : Acyclic env rank)
    (hb : NoRepeatedBool env) (hE : env.fromUtf8 (env.toUtf8 []) = []) {mA : Nat} (mR : Nat) {arg : Obj} (ret : Obj) {code : Nat}
    {method service : String} {world : World} (harg : Clean env (.msg mA) (.msg arg))
    (hsmall : ∀ n bs, serializeMessage env n mA arg = .ok bs → bs.length < 2 ^ 31)
    (hserver : Refuses env mA ("/" ++ service ++ "/" ++ method) code world) (hc : code ≠ 0) (hc' : code < 2 ^ 31) :
    ∃ N a body, Carries env mA body a ∧ Same env (.msg mA) (.msg arg) (.msg a) ∧ ∀ n k, N ≤ n →
      unary env n k world method service mA mR arg ret =
        some (.returned ret ⟨code, (world ⟨"/" ++ service ++ "/" ++ method, body⟩).2⟩
          [⟨code, (world ⟨"/" ++ service ++ "/" ++ method, body⟩).2⟩]) := by
  obtain ⟨N, argData, a, h1, h2, h3, -⟩ := carries hv ho ha hb hE harg hsmall
  obtain ⟨pieces, reply, later, hdr, e1, e2, e3, e4, e5⟩ := hserver _ _ h2
  refine ⟨N, a, _, h2, h3, fun n k hn => ?_⟩
  have hser := h1 n hn
  have hz : ((code : Int) : StatusCode) ≠ Status.Ok := by simp [Status.Ok]; omega
  have hcall : channelCall world method service argData =
      some (.ok (⟨code, (world (post method service argData)).2⟩, [])) := by
    have hs : syncCall2 ⟨.NoError, none, []⟩ (world (post method service argData)).1 = some (.ok ([], (code : Int))) := by
      show syncCall2 _ (world ⟨"/" ++ service ++ "/" ++ method, requestBody argData⟩).1 = _
      rw [e1, C71_returns_http2 e2, C33_server_status reply e3 e4 e5 hc', if_neg hc]
    unfold channelCall
    dsimp only
    rw [hs]
  unfold unary
  rw [hser]
  simp only [hcall]
  rw [if_neg (fun h => hz h.1)]
  simp [callTyped, serializer, hser, callBytes, hz, post]

/-- **C76**, converse: a call that returns Ok got an answer from the server. The application does not quit during the call. The network
reply to the request with the argument's bytes finished without a network error, and the reply object is what `deserialize` makes of
the body behind the prefix; nothing was reported. -/
theorem C76_ok_partial {n k mA mR : Nat} {world : World} {method service : String} {arg ret r : Obj} {status : Call.Status}
    {errors : List Call.Status} (h : unary env n k world method service mA mR arg ret = some (.returned r status errors))
    (hok : status.code = Status.Ok) (hq : ∀ request, Wait2.quit ∉ (world request).1) :
    ∃ argData reply, serializeMessage env n mA arg = .ok argData ∧
      Wait2.finished reply ∈ (world ⟨"/" ++ service ++ "/" ++ method, requestBody argData⟩).1 ∧ reply.error = .NoError ∧
      deserialize env n k mR (reply.body.drop 5) ret = ⟨.ok (), .ok r⟩ ∧ errors = [] := by
  unfold unary at h
  split at h
  · rename_i argData hser
    split at h
    · rename_i st retData hcall
      dsimp only at h
      split at h
      · cases h
      · rename_i hn
        have h := Option.some.inj h
        have hiff := (C53_ok_iff _ _ _ _ _ _ h).1 hok
        obtain ⟨_, c, ser, deser, b, answer, q1, q2, q3, q4, q5, q6⟩ := hiff
        cases q1
        cases q2
        have hst : st.code = Status.Ok := q4
        have hbq : retData = answer := q5
        subst hbq
        cases hrd : read env n k mR ret retData with
        | none => exact absurd ⟨hst, hrd⟩ hn
        | some res =>
          dsimp only at q6
          rw [hrd] at q6
          obtain ⟨o, t⟩ := res
          simp only [Option.getD_some, Prod.mk.injEq] at q6
          obtain ⟨rfl, rfl⟩ := q6
          have herr : errors = [] := by
            obtain ⟨ret', st', er', g1, g2⟩ := C53_reported_once_partial (method := method) (arg := arg) (retNull := false) (ret := ret)
              (channel := some ⟨some (serializeMessage env n mA, fun r d => (read env n k mR r d).getD (r, none)), fun _ => (st, retData)⟩)
              (fun ser deser hh => by cases hh; exact ⟨_, hser⟩)
            rw [g1] at h
            cases h
            rw [g2, if_pos hok]
          have hdes : deserialize env n k mR retData ret = ⟨.ok (), .ok o⟩ := by
            unfold read at hrd
            rcases hd : deserialize env n k mR retData ret with ⟨s, t⟩
            rw [hd] at hrd
            dsimp only at hrd
            split at hrd <;> simp_all
          unfold channelCall at hcall
          dsimp only at hcall
          rcases C71_http2_partial ⟨.NoError, none, []⟩ _ (hq (post method service argData)) with hx | ⟨reply, hx1, hx2⟩
          · rw [hx] at hcall; cases hcall
          · obtain ⟨data, code, d1, d2, d3⟩ := C33_data_only_ok reply
            rw [hx2, d1] at hcall
            simp only [Option.some.injEq, Res.ok.injEq, Prod.mk.injEq] at hcall
            obtain ⟨rfl, rfl⟩ := hcall
            obtain ⟨w1, w2⟩ := d3 hst
            exact ⟨argData, reply, hser, hx1, w1, w2 ▸ hdes, herr⟩
    · cases h
    · cases h
  · cases h
  · cases h

/-- **C76 violated**: the requests say that deflate and gzip are accepted as encodings of the answer, but the byte that tells that an
answer is compressed is ignored: the compressed bytes are read as if they were the message. -/
theorem C76_compressed_violated (world : World) (flag : UInt8) (size bs : Bytes) (hs : size.length = 4) (p : List Wait2)
    (hp : ∀ w ∈ p, ∃ st b, w = Wait2.receive st b) (method service : String) (args : Bytes)
    (h : (world (post method service args)).1 = p ++ [.finished ⟨.NoError, some [0x30], flag :: size ++ bs⟩]) :
    channelCall world method service args = some (.ok (⟨Status.Ok, (world (post method service args)).2⟩, bs)) := by
  have hd : (flag :: size ++ bs).drop 5 = bs := by
    match size, hs with
    | [_, _, _, _], _ => rfl
  unfold channelCall
  dsimp only
  rw [h, C71_returns_http2 hp, C33_server_status _ rfl rfl (code := 0) ⟨by decide, by decide, rfl⟩ (by decide)]
  simp only [if_true, hd]
  rfl

/-! ### Streams -/

/-! #### Larger bounds do not change a result -/

theorem bind_ok {α β : Type} {x : Res α} {f : α → Res β} {r : β} (h : (x >>= f) = .ok r) : ∃ y, x = .ok y ∧ f y = .ok r := by
  cases x with
  | ok y => exact ⟨y, rfl, h⟩
  | throw e => cases h
  | ub => cases h
  | fuel => cases h

section
variable {rec rec' : Nat → Obj → Obj → Res Bool} (hr : ∀ m a b r, rec m a b = .ok r → rec' m a b = .ok r)
include hr

theorem lazyEq_up {m : Nat} {a b : Val} {r : Bool} (h : lazyEq env rec m a b = .ok r) : lazyEq env rec' m a b = .ok r := by
  cases a <;> cases b <;> simp only [lazyEq] at h ⊢ <;> first
    | exact hr _ _ _ _ h
    | exact h

theorem listEq_up {m : Nat} : ∀ {a b : List Val} {r : Bool}, listEq rec m a b = .ok r → listEq rec' m a b = .ok r := by
  intro a
  induction a with
  | nil => intro b r h; cases b <;> simpa [listEq] using h
  | cons x a ih =>
    intro b r h
    cases b with
    | nil => cases x <;> simpa [listEq] using h
    | cons y b =>
      cases x <;> cases y <;> simp only [listEq] at h ⊢ <;> first
        | exact ih h
        | cases h
        | skip
      obtain ⟨v, h1, h2⟩ := bind_ok h
      rw [hr _ _ _ _ h1]
      cases v
      · exact h2
      · exact ih h2

theorem mapMsgEq_up {kk : Kind} {m : Nat} {b : List (Scalar × Val)} : ∀ {a : List (Scalar × Val)} {r : Bool},
    mapMsgEq rec kk m b a = .ok r → mapMsgEq rec' kk m b a = .ok r := by
  intro a
  induction a with
  | nil => intro r h; simpa [mapMsgEq] using h
  | cons x a ih =>
    intro r h
    obtain ⟨key, v⟩ := x
    simp only [mapMsgEq] at h ⊢
    generalize mapLookup kk key b = w at h ⊢
    cases w <;> cases v <;> simp only at h ⊢ <;> first
      | exact ih h
      | cases h
      | skip
    obtain ⟨v, h1, h2⟩ := bind_ok h
    rw [hr _ _ _ _ h1]
    cases v
    · exact h2
    · exact ih h2

theorem eqVal_up {ty : FieldTy} {a b : Val} {r : Bool} (h : eqVal env rec ty a b = .ok r) : eqVal env rec' ty a b = .ok r := by
  unfold eqVal at h ⊢
  split
  case h_5 =>
    simp only at h
    unfold msgFieldEq at h ⊢
    obtain ⟨v, h1, h2⟩ := bind_ok h
    rw [lazyEq_up hr h1]
    cases v
    · exact hr _ _ _ _ h2
    · exact h2
  case h_6 =>
    simp only at h
    split at h
    · rw [if_pos ‹_›]; exact h
    · rw [if_neg ‹_›]; exact listEq_up hr h
  case h_9 =>
    simp only at h
    split at h
    · rw [if_pos ‹_›]; exact h
    · rw [if_neg ‹_›]; exact mapMsgEq_up hr h
  all_goals simpa using h

theorem eqFields_up : ∀ {fs : List Field} {a b : Obj} {r : Bool}, eqFields env rec fs a b = .ok r → eqFields env rec' fs a b = .ok r := by
  intro fs
  induction fs with
  | nil => intro a b r h; simpa [eqFields] using h
  | cons f fs ih =>
    intro a b r h
    cases a with
    | nil => simpa [eqFields] using h
    | cons x a =>
      cases b with
      | nil => simpa [eqFields] using h
      | cons y b =>
        simp only [eqFields] at h ⊢
        obtain ⟨v, h1, h2⟩ := bind_ok h
        rw [eqVal_up hr h1]
        cases v
        · exact h2
        · exact ih h2

end

theorem objEq_up : ∀ {n m : Nat} {a b : Obj} {r : Bool}, objEq env n m a b = .ok r → objEq env (n + 1) m a b = .ok r := by
  intro n
  induction n with
  | zero => intro m a b r h; cases h
  | succ n ih => intro m a b r h; exact eqFields_up (fun m a b r => ih) h

theorem lazyNe_up {n m : Nat} {a b : Val} {r : Bool} (h : lazyNe env n m a b = .ok r) : lazyNe env (n + 1) m a b = .ok r := by
  unfold lazyNe at h ⊢
  obtain ⟨e, k1, k2⟩ := bind_ok h
  rw [lazyEq_up (fun m a b r => objEq_up) k1]
  exact k2

theorem assignFields_up {neq neq' : Nat → Val → Val → Res Bool} {rec rec' : Nat → Obj → Obj → Res Obj}
    (hn : ∀ m a b r, neq m a b = .ok r → neq' m a b = .ok r) (hr : ∀ m a b r, rec m a b = .ok r → rec' m a b = .ok r) :
    ∀ {fs : List Field} {a b r : Obj}, assignFields env neq rec fs a b = .ok r → assignFields env neq' rec' fs a b = .ok r := by
  intro fs
  induction fs with
  | nil => intro a b r h; simpa [assignFields] using h
  | cons f fs ihf =>
    intro a b r h
    cases a with
    | nil => simpa [assignFields] using h
    | cons x a =>
      cases b with
      | nil => simpa [assignFields] using h
      | cons y b =>
        simp only [assignFields] at h ⊢
        obtain ⟨v, h1, h2⟩ := bind_ok h
        obtain ⟨w, h3, h4⟩ := bind_ok h2
        have hv : assignVal env neq' rec' f.ty x y = .ok v := by
          unfold assignVal at h1 ⊢
          generalize f.ty = ty at h1 ⊢
          cases ty with
          | msg m =>
            obtain ⟨d, g1, g2⟩ := bind_ok h1
            simp only [hn _ _ _ _ g1, Res.bind_eq, Res.bind]
            cases d with
            | false => exact g2
            | true =>
              obtain ⟨o, e1, e2⟩ := bind_ok g2
              simp only [if_true, hr _ _ _ _ e1]
              exact e2
          | _ => exact h1
        rw [hv, ihf h3]
        exact h4

theorem assign_up : ∀ {n m : Nat} {a b : Obj} {r : Obj}, assign env n m a b = .ok r → assign env (n + 1) m a b = .ok r := by
  intro n
  induction n with
  | zero => intro m a b r h; cases h
  | succ n ih => intro m a b r h; exact assignFields_up (fun m a b r => lazyNe_up) (fun m a b r => ih) h

theorem assign_le {n k m : Nat} {a b : Obj} {r : Obj} (hnk : n ≤ k) (h : assign env n m a b = .ok r) : assign env k m a b = .ok r := by
  obtain ⟨d, rfl⟩ := Nat.le.dest hnk
  induction d with
  | zero => exact h
  | succ d ih => exact assign_up (ih (by omega))

theorem read_le {n k k' m : Nat} {old : Obj} {data : Bytes} {r : Obj} {t : Option Thrown} (hk : k ≤ k')
    (h : read env n k m old data = some (r, t)) : read env n k' m old data = some (r, t) := by
  unfold read deserialize at h ⊢
  dsimp only at h ⊢
  cases ha : assign env k m old (deserializeMessage env n m data).2 with
  | ok o => rw [assign_le hk ha]; rw [ha] at h; exact h
  | throw e => rw [ha] at h; split at h <;> simp_all
  | ub => rw [ha] at h; split at h <;> simp_all
  | fuel => rw [ha] at h; split at h <;> simp_all

theorem updates_usual (hv : ValidSchema env) (hm : NoMessageMaps env) {m n : Nat} : ∀ (ms : List Bytes) (os : List Obj) (ret : Obj),
    ms.length = os.length →
    (∀ (i : Nat) (bs : Bytes) (o : Obj), ms[i]? = some bs → os[i]? = some o → Encodes env m bs o ∧ bs.length < n) →
    (∀ o ∈ os, Plain env (.msg m) (.msg o)) → Target env m ret →
    ∃ K, ∃ rs : List Obj, (∀ k, K ≤ k → updates env n k m ret ms = some (rs.map fun r => (r, ⟨Status.Ok, ""⟩, []))) ∧
      rs.length = os.length ∧ ∀ (i : Nat) (r o : Obj), rs[i]? = some r → os[i]? = some o → Same env (.msg m) (.msg r) (.msg o)
  | [], [], ret, _, _, _, _ => ⟨0, [], fun _ _ => rfl, rfl, fun i r o h => by simp at h⟩
  | [], _ :: _, _, h, _, _, _ => by simp at h
  | _ :: _, [], _, h, _, _, _ => by simp at h
  | bs :: ms, o :: os, ret, hl, he, hp, hs => by
    obtain ⟨h1, h2⟩ := he 0 bs o rfl rfl
    obtain ⟨K, hK⟩ := read_usual hv h1 (hp o List.mem_cons_self) hs h2
    obtain ⟨r, k1, k2, k3⟩ := hK K (Nat.le_refl K)
    obtain ⟨K', rs, g1, g2, g3⟩ := updates_usual hv hm ms os r (by simpa using hl) (fun i b o h h' => he (i + 1) b o h h')
      (fun o ho => hp o (List.mem_cons_of_mem _ ho)) (.inr ⟨hm, k3⟩)
    refine ⟨max K K', r :: rs, fun k hk => ?_, by simp [g2], ?_⟩
    · have := read_le (k' := k) (by omega) k1
      simp [updates, this, tryDeserialize, g1 k (by omega)]
    · intro i r' o' hi ho
      cases i with
      | zero => cases hi; cases ho; exact k2
      | succ i => exact g3 i r' o' hi ho

/-- **C77**, partial. A server stream over HTTP/2 with a reply object, for every argument message without NaN and with text that
survives UTF-8, and for every server that streams `f a` at the path of the service and method: the server gets the same message `a`,
the reply object is updated once for every message of `f a`, in that order, is the same message each time, and nothing is reported.

Missing: as in `C76_answer_partial`, and pieces that are cut at the places where the channel loses messages (C32), maps of messages. -/
theorem C77_stream_partial (hv : ValidSchema env) (ho : ValidOrder env) {rank : Nat → Nat} (ha : Acyclic env rank)
    (hb : NoRepeatedBool env) (hm : NoMessageMaps env) (hE : env.fromUtf8 (env.toUtf8 []) = []) {mA mR : Nat} {arg ret : Obj}
    {f : Obj → List Obj} {method service : String} {chunks : Request → List Bytes} (harg : Clean env (.msg mA) (.msg arg))
    (hsmall : ∀ n bs, serializeMessage env n mA arg = .ok bs → bs.length < 2 ^ 31)
    (hserver : ServesStream env mA mR ("/" ++ service ++ "/" ++ method) f chunks)
    (hf : ∀ a, Same env (.msg mA) (.msg arg) (.msg a) → ∀ o ∈ f a, Plain env (.msg mR) (.msg o))
    (hret : Safe env (.msg mR) (.msg ret)) :
    ∃ N a, Same env (.msg mA) (.msg arg) (.msg a) ∧ a.length = (env.sch mA).length ∧ ∀ n, N ≤ n → ∃ K, ∃ rs : List Obj,
      (∀ k, K ≤ k → stream env n k chunks method service mA mR arg ret = some (rs.map fun r => (r, ⟨Status.Ok, ""⟩, []))) ∧
      rs.length = (f a).length ∧
      ∀ (i : Nat) (r o : Obj), rs[i]? = some r → (f a)[i]? = some o → Same env (.msg mR) (.msg r) (.msg o) := by
  obtain ⟨N, argData, a, h1, h2, h3, hla⟩ := carries hv ho ha hb hE harg hsmall
  obtain ⟨ms, e1, e2, e3, e4⟩ := hserver _ _ h2
  change IsStream ms (chunks (post method service argData)).flatten at e1
  change CutWell ms 0 (chunks (post method service argData)) at e2
  refine ⟨max N ((chunks (post method service argData)).flatten.length + 1), a, h3, hla, fun n hn => ?_⟩
  have henc : ∀ (i : Nat) (bs : Bytes), ms[i]? = some bs → ∃ o, (f a)[i]? = some o ∧ Encodes env mR bs o := by
    intro i bs hi
    have : i < (f a).length := by
      have := (List.getElem?_eq_some_iff.1 hi).1
      omega
    exact ⟨(f a)[i], List.getElem?_eq_getElem this, e4 i bs _ hi (List.getElem?_eq_getElem this)⟩
  have hsm : ∀ m ∈ ms, Small m := by
    intro m hm
    obtain ⟨i, hi⟩ := List.getElem?_of_mem hm
    obtain ⟨o, _, he⟩ := henc i m hi
    exact he.2.2
  have hlen : ∀ (ms : List Bytes) (body : Bytes), IsStream ms body → ∀ b ∈ ms, b.length ≤ body.length := by
    intro ms body h
    induction h with
    | nil => intro b hb; cases hb
    | cons hf _ ih =>
      intro b hb
      have := Http2.frame_length hf
      rcases List.mem_cons.1 hb with rfl | hb
      · simp; omega
      · have := ih b hb
        simp; omega
  have hrec : receive n none (chunks (post method service argData)) = .ok (ms, none) :=
    C32_complete_partial e1 hsm e2 (by omega)
  obtain ⟨K, rs, g1, g2, g3⟩ := updates_usual (n := n) hv hm ms (f a) ret e3 (fun i bs o hi ho =>
    ⟨e4 i bs o hi ho, by
      have := hlen ms _ e1 bs (List.mem_of_getElem? hi)
      omega⟩) (hf a h3) (.inr ⟨hm, hret⟩)
  refine ⟨K, rs, fun k hk => ?_, g2, g3⟩
  unfold stream
  rw [h1 n (by omega)]
  simp only [hrec]
  exact g1 k hk

/-! ### Examples -/

/-- Message 0: a number, a sub-message of type 1, packed numbers. Message 1: bytes. -/
def demo : Env where
  sch m := if m = 0 then [⟨1, .scalar .int32⟩, ⟨2, .msg 1⟩, ⟨3, .list .sint32⟩] else if m = 1 then [⟨4, .scalar .bytes⟩] else []
  ord m := if m = 0 then [2, 0, 1] else if m = 1 then [0] else []
  toUtf8 s := s.map fun c => UInt8.ofNat c.toNat
  fromUtf8 b := b.map fun u => Char.ofNat u.toNat

theorem demo_all {P : Nat → Field → Prop} (h0 : ∀ f ∈ demo.sch 0, P 0 f) (h1 : ∀ f ∈ demo.sch 1, P 1 f) : ∀ m, ∀ f ∈ demo.sch m, P m f
  | 0, f, hf => h0 f hf
  | 1, f, hf => h1 f hf
  | _ + 2, f, hf => by simp [demo] at hf

/-- `[0x22, 1, 7]` is an encoding of a message of type 1 with the bytes `[7]`. -/
theorem demo_encodes : Encodes demo 1 [0x22, 1, 7] [.sc (.bytes (some [7]))] := by
  refine ⟨⟨1, [(4, .delimited [7])], .cons (hdr := [0x22]) (b := [1, 7]) (rest := [])
    (tag1 0x22 4 2 (by decide) (by decide) (by decide)) (payload2 1 _ (by decide) (by decide)) .nil, ?_⟩, by rfl, by decide⟩
  intro g hg
  simp only [demo, Nat.one_ne_zero, if_false, if_true, List.mem_cons, List.not_mem_nil, or_false] at hg
  subst hg
  simp [UsualField, payloadsOf, Fits]

/-- An argument: the number -1, a sub-message with two bytes, two numbers. -/
def demoArg : Obj := [.sc (.w32 0xffffffff#32), .msg [.sc (.bytes (some [0, 255]))], .scList [.w32 0#32, .w32 5#32]]

/-- A server that answers every request with that message, in two pieces. -/
def demoWorld : World := fun _ => ([.receive none [0, 0, 0], .finished ⟨.NoError, some [0x30], [0, 0, 0, 0, 3, 0x22, 1, 7]⟩], "")

/-- The chunks of a stream of two messages. -/
def demoChunks : Request → List Bytes := fun _ => [[0, 0, 0, 0, 3, 0x22], [1, 7], [0, 0, 0, 0, 3, 0x22, 1, 7]]

theorem demo_serves : Serves demo 0 1 "/service/method" (fun _ => [.sc (.bytes (some [7]))]) demoWorld := fun _ _ _ =>
  ⟨[.receive none [0, 0, 0]], _, [], [0x22, 1, 7], [0x30], rfl, by simp, rfl, rfl, ⟨by decide, by decide, rfl⟩,
    ⟨[0, 0, 0, 3], ⟨0, 0, 0, 3, rfl, rfl⟩, rfl⟩, demo_encodes⟩

theorem demo_streams : ServesStream demo 0 1 "/service/method"
    (fun _ => [[.sc (.bytes (some [7]))], [.sc (.bytes (some [7]))]]) demoChunks := by
  intro _ _ _
  refine ⟨[[0x22, 1, 7], [0x22, 1, 7]], ?_, ?_, rfl, ?_⟩
  · exact .cons (frame := [0, 0, 0, 0, 3, 0x22, 1, 7]) ⟨[0, 0, 0, 3], ⟨0, 0, 0, 3, rfl, rfl⟩, rfl⟩
      (.cons (frame := [0, 0, 0, 0, 3, 0x22, 1, 7]) ⟨[0, 0, 0, 3], ⟨0, 0, 0, 3, rfl, rfl⟩, rfl⟩ .nil)
  · have hbd : ∀ b, Boundary [[0x22, 1, 7], [0x22, 1, 7]] b → b = 0 ∨ b = 8 ∨ b = 16 := by
      rintro b ⟨before, after, h1, rfl⟩
      match before, h1 with
      | [], _ => simp
      | [x], h => simp at h; obtain ⟨rfl, _⟩ := h; simp
      | [x, y], h => simp at h; obtain ⟨rfl, rfl, _⟩ := h; simp
      | _ :: _ :: _ :: _, h => simp at h
    refine ⟨?_, ?_, ?_, trivial⟩ <;> intro b hb <;> rcases hbd b hb with rfl | rfl | rfl <;> simp
  · intro i bs o hi ho
    match i with
    | 0 => cases hi; cases ho; exact demo_encodes
    | 1 => cases hi; cases ho; exact demo_encodes
    | _ + 2 => simp at hi

/-- The hypotheses of C76 and C77 are met together: schema, argument, reply object, servers. -/
example : ValidSchema demo ∧ ValidOrder demo ∧ Acyclic demo (fun m => if m = 0 then 1 else 0) ∧ NoRepeatedBool demo ∧
    NoMessageMaps demo ∧ demo.fromUtf8 (demo.toUtf8 []) = [] ∧ Clean demo (.msg 0) (.msg demoArg) ∧
    (∀ n bs, serializeMessage demo n 0 demoArg = .ok bs → bs.length < 2 ^ 31) ∧
    Plain demo (.msg 1) (.msg [.sc (.bytes (some [7]))]) ∧ Safe demo (.msg 1) (.msg [.sc (.bytes none)]) := by
  refine ⟨?_, ?_, demo_all (by simp [demo]) (by simp [demo]), demo_all (by decide) (by decide), ?_, rfl, clean_of_cleanB (n := 4) (by decide),
    ?_, Clean.plain (clean_of_cleanB (n := 4) (by decide)), (Clean.plain (clean_of_cleanB (n := 4) (by decide))).safe⟩
  · intro m
    match m with
    | 0 => decide
    | 1 => decide
    | _ + 2 => exact ⟨by simp [demo], by simp [demo]⟩
  · intro m
    match m with
    | 0 => decide
    | 1 => decide
    | _ + 2 => exact List.Perm.refl _
  · exact demo_all (by simp [demo]) (by simp [demo])
  · intro n bs h
    have h2 : serializeMessage demo (n + 2) 0 demoArg = .ok bs := serialize_mono (by omega) h
    have h3 : serializeMessage demo (n + 2) 0 demoArg = .ok [0x1a, 2, 0, 0x0a, 0x08, 255, 255, 255, 255, 15, 0x12, 4, 0x22, 2, 0, 255] :=
      serialize_mono (n := 2) (by omega) (by rfl)
    rw [h2] at h3
    cases h3
    decide

/-- The call and the stream of these servers. -/
example : unary demo 60 9 demoWorld "method" "service" 0 1 demoArg [.sc (.bytes none)] =
      some (.returned [.sc (.bytes (some [7]))] ⟨0, ""⟩ []) ∧
    stream demo 60 9 demoChunks "method" "service" 0 1 demoArg [.sc (.bytes none)] =
      some [([.sc (.bytes (some [7]))], ⟨0, ""⟩, []), ([.sc (.bytes (some [7]))], ⟨0, ""⟩, [])] := ⟨by rfl, by rfl⟩

/-- A server that refuses every request with status 5. -/
example : Refuses demo 0 "/service/method" 5 (fun _ => ([.finished ⟨.NoError, some [0x35], []⟩], "no")) := fun _ _ _ =>
  ⟨[], _, [], [0x35], rfl, by simp, rfl, rfl, by decide, by decide, rfl⟩

end QtPb.EndToEnd
