import Verif.WholeNative
import Verif.PropsWhole
import Verif.PropsEndToEndNative
/-
Property C106 over the native channel.
-/
namespace QtPb.Whole.Native
open Whole.Spec Http2 QtPb.Native Call QtPb.Spec Http2.Spec EndToEnd.Spec Meta Meta.Spec QtPb.SpecCpp QtPb.SpecCpp.Client QtPb.TextProof QtPb.Gen.Text QtPb.Gen.Text.Spec

section
variable {env : Env} {classes : Nat → Meta.Class} {q : Containers} {last : Bool}

/-- C106: a program of generated classes makes calls over the native channel as the model of `Verif/EndToEndNative.lean`, whose objects are lists of fields, does. -/
theorem C106_native_same_partial (hp : Meta.Spec.Program env classes) (hq : Gen.Text.Spec.Pointers q) (d n : Nat) {mA mR : Nat} {arg ret : Obj} (harg : WellTyped env mA arg)
    (hret : WellTyped env mR ret) (method service : String) :
    (∀ world, unary env classes (libOf env q classes d) last n world method service mA mR arg ret = EndToEnd.Native.unary env n (d + 1) world method service mA mR arg ret) ∧
    ∀ world, stream env classes (libOf env q classes d) last n world method service mA mR arg ret = EndToEnd.Native.stream env n (d + 1) world method service mA mR arg ret := by
  have hs := serialize_eq (lib := libOf env q classes d) (last := last) hp n mA arg harg
  constructor
  · intro world
    unfold unary EndToEnd.Native.unary
    rw [hs]
    cases h : QtPb.serializeMessage env n mA arg with
    | ok argData =>
      dsimp only
      cases hc : EndToEnd.Native.channelCall world method service argData with
      | none => rfl
      | some x =>
        cases x with
        | ok x =>
          dsimp only
          rw [read_eq' hp hq d n hret]
          have e : callTyped (some ⟨some (Meta.serializeMessage env classes (libOf env q classes d) last n mA, fun r d' => (read env classes (libOf env q classes d) n mR r d').getD (r, none)), fun _ => (x.1, x.2)⟩) method arg false ret =
              callTyped (some ⟨some (QtPb.serializeMessage env n mA, fun r d' => (EndToEnd.read env n (d + 1) mR r d').getD (r, none)), fun _ => (x.1, x.2)⟩) method arg false ret := by
            simp only [callTyped, serializer, hs, h, callBytes, tryDeserialize, read_eq' hp hq d n hret]
            rfl
          rw [e]
        | throw e => rfl
        | ub => rfl
        | fuel => rfl
    | throw e => rfl
    | ub => rfl
    | fuel => rfl
  · intro world
    unfold stream EndToEnd.Native.stream
    rw [hs]
    cases h : QtPb.serializeMessage env n mA arg with
    | ok argData =>
      dsimp only
      rw [updates_eq hp hq d n _ hret]
      rfl
    | throw e => rfl
    | ub => rfl
    | fuel => rfl

theorem stream_typed {n k mA mR : Nat} {world : EndToEnd.Native.StreamWorld} {method service : String} {arg ret : Obj}
    {rs : List (Obj × Call.Status × List Call.Status) × Option StatusCode} (ho : WellTyped env mR ret)
    (h : EndToEnd.Native.stream env n k world method service mA mR arg ret = some rs) : ∀ r ∈ rs.1, WellTyped env mR r.1 := by
  unfold EndToEnd.Native.stream at h
  split at h
  · dsimp only at h
    split at h
    · rename_i hu
      cases h
      exact updates_typed ho hu
    · cases h
  · cases h

section
variable {o : Gen.Options} {c : Ctx} {services : List ServiceText} {header : Gen.Str}

/-- C106 over the native channel: a blocking call of a generated client. As `C106_call_partial`, with a server behind the gRPC library. -/
theorem C106_native_call_partial (hp : Meta.Spec.Program env classes) (hq : Gen.Text.Spec.Pointers q) (hv : ValidSchema env) (ho : ValidOrder env) {rank : Nat → Nat}
    (ha : Acyclic env rank) (hb : NoRepeatedBool env) (hE : env.fromUtf8 (env.toUtf8 []) = [])
    (hf : PlainFile o c) (hh : Includable header) (hs : ∀ s ∈ services, PlainService s) (hj : NoScriptValues services) {s : ServiceText} (h : s ∈ services)
    {d : MethodD} (hd : d ∈ s.methods) (hst : d.streaming = false) {mA mR : Nat} (hA : (classes mA).name = d.input) (hR : (classes mR).name = d.output) :
    ∃ text is ctor f, printed (clientSourceText o c header services) = some text ∧ items text = some is ∧ ctor ∈ fnsIn is ∧ f ∈ fnsIn is ∧
      ctor.isCtor = true ∧ ctor.cls = clientClassOf o c s ∧ f.cls = clientClassOf o c s ∧ f.name = [.word d.name] ∧
      f.params = replyParams (classes mA).name (classes mR).name ∧
      ∀ (g : Given) (w : Client.World Obj) (arg ret : Obj) (world : EndToEnd.Native.World) (F : Obj → Obj), w.objects (g.ref (text! "arg")) = some arg →
        Clean env (.msg mA) (.msg arg) →
        (∀ n bs, Meta.serializeMessage env classes (libOf env q classes 0) last n mA arg = .ok bs → bs.length < 2 ^ 31) →
        EndToEnd.Native.Spec.Serves env mA mR (pathOf c s d) F world → (∀ a, Same env (.msg mA) (.msg arg) (.msg a) → Plain env (.msg mR) (.msg (F a))) → Target env mR ret →
        ∃ w1 r sent, does f g w .nothing = .ok (some (.made w.requests.length), w1) ∧ w1.requests = w.requests ++ [r] ∧ r.argument = arg ∧
          r.target = some (g.ptr (text! "ret")) ∧ (∀ k, Shows env classes (libOf env q classes k) mA arg sent) ∧
          ∃ N, ∀ n, N ≤ n → ∃ K, ∀ k, K ≤ k → ∃ reply,
            answer env classes (libOf env q classes k) last n world ctor mA mR r ret = some (.returned reply ⟨Status.Ok, ""⟩ []) ∧
            Shows env classes (libOf env q classes k) mR reply (F sent) := by
  obtain ⟨text, is, ctor, f, h1, h2, h3, h4, h5, h6, h7, h8, h9⟩ := functions (k := 0) hf hh hs hj h hd (by simp [methodSigs, hst]; rfl) (by simp [methodDoes, hst]; rfl)
  refine ⟨text, is, ctor, f, h1, h2, h3, h4, h5, h6, congrArg Sig.cls h8, congrArg Sig.name h8, ?_, fun g w arg ret world F hobj harg hsmall hserver hF hret => ?_⟩
  · rw [hA, hR]
    exact congrArg Sig.params h8
  · have ta : WellTyped env mA arg := harg.plain.safe.hasTy
    have tr : WellTyped env mR ret := by
      rcases hret with rfl | ⟨-, hr⟩
      · exact (default_safe mR).hasTy
      · exact hr.hasTy
    obtain ⟨N, a, e1, el, e2⟩ := EndToEnd.Native.C85_answer_partial (method := String.ofList d.name) (service := fullService c s) hv ho ha hb hE harg
      (fun n bs hbs => hsmall n bs ((serialize_eq hp n mA arg ta).trans hbs)) hserver hF hret
    refine ⟨Gen.Text.Spec.World.ask w (text! "call") d.name arg (some (g.ptr (text! "ret"))), ⟨text! "call", d.name, arg, some (g.ptr (text! "ret"))⟩, a, ?_, rfl, rfl, rfl, fun k => ?_, N, fun n hn => ?_⟩
    · rw [h9]
      unfold plainRequest
      rw [hobj]
      rfl
    · exact shows_of hp ta el e1
    · obtain ⟨K, hK⟩ := e2 n hn
      refine ⟨K, fun k hk => ?_⟩
      obtain ⟨reply, e3, e4, e5⟩ := hK (k + 1) (by omega)
      refine ⟨reply, ?_, ?_⟩
      · unfold answer
        rw [h7]
        exact ((C106_native_same_partial hp hq k n ta tr _ _).1 world).trans e3
      · exact shows_of hp e5.hasTy (length_of (hF a e1).safe.hasTy) e4

/-- C106 over the native channel: a server that refuses the request. As `C106_refused_partial`, for every code other than 0. -/
theorem C106_native_refused_partial (hp : Meta.Spec.Program env classes) (hq : Gen.Text.Spec.Pointers q) (hv : ValidSchema env) (ho : ValidOrder env) {rank : Nat → Nat}
    (ha : Acyclic env rank) (hb : NoRepeatedBool env) (hE : env.fromUtf8 (env.toUtf8 []) = [])
    (hf : PlainFile o c) (hh : Includable header) (hs : ∀ s ∈ services, PlainService s) (hj : NoScriptValues services) {s : ServiceText} (h : s ∈ services)
    {d : MethodD} (hd : d ∈ s.methods) (hst : d.streaming = false) {mA mR : Nat} (hA : (classes mA).name = d.input) (hR : (classes mR).name = d.output) :
    ∃ text is ctor f, printed (clientSourceText o c header services) = some text ∧ items text = some is ∧ ctor ∈ fnsIn is ∧ f ∈ fnsIn is ∧
      ctor.isCtor = true ∧ ctor.cls = clientClassOf o c s ∧ f.cls = clientClassOf o c s ∧ f.name = [.word d.name] ∧
      f.params = replyParams (classes mA).name (classes mR).name ∧
      ∀ (g : Given) (w : Client.World Obj) (arg ret : Obj) (world : EndToEnd.Native.World) (code : Int), w.objects (g.ref (text! "arg")) = some arg →
        Clean env (.msg mA) (.msg arg) →
        (∀ n bs, Meta.serializeMessage env classes (libOf env q classes 0) last n mA arg = .ok bs → bs.length < 2 ^ 31) →
        EndToEnd.Native.Spec.Refuses env mA (pathOf c s d) code world → code ≠ 0 → WellTyped env mR ret →
        ∃ w1 r message, does f g w .nothing = .ok (some (.made w.requests.length), w1) ∧ w1.requests = w.requests ++ [r] ∧
          ∃ N, ∀ n k, N ≤ n →
            answer env classes (libOf env q classes k) last n world ctor mA mR r ret = some (.returned ret ⟨code, message⟩ [⟨code, message⟩]) := by
  obtain ⟨text, is, ctor, f, h1, h2, h3, h4, h5, h6, h7, h8, h9⟩ := functions (k := 0) hf hh hs hj h hd (by simp [methodSigs, hst]; rfl) (by simp [methodDoes, hst]; rfl)
  refine ⟨text, is, ctor, f, h1, h2, h3, h4, h5, h6, congrArg Sig.cls h8, congrArg Sig.name h8, ?_, fun g w arg ret world code hobj harg hsmall hserver hc tr => ?_⟩
  · rw [hA, hR]
    exact congrArg Sig.params h8
  · have ta : WellTyped env mA arg := harg.plain.safe.hasTy
    obtain ⟨N, a, body, -, -, e⟩ := EndToEnd.Native.C85_refused_partial (method := String.ofList d.name) (service := fullService c s) hv ho ha hb hE mR ret harg
      (fun n bs hbs => hsmall n bs ((serialize_eq hp n mA arg ta).trans hbs)) hserver hc
    refine ⟨Gen.Text.Spec.World.ask w (text! "call") d.name arg (some (g.ptr (text! "ret"))), ⟨text! "call", d.name, arg, some (g.ptr (text! "ret"))⟩, (world ⟨"/" ++ fullService c s ++ "/" ++ String.ofList d.name, body⟩).2, ?_, rfl, N, fun n k hn => ?_⟩
    · rw [h9]
      unfold plainRequest
      rw [hobj]
      rfl
    · unfold answer
      rw [h7]
      exact ((C106_native_same_partial hp hq k n ta tr _ _).1 world).trans (e n (k + 1) hn)

/-- C106 over the native channel: a stream of a generated client with an object for the answers. As `C106_stream_partial`; the status with which the server ends the stream is
reported if it is not Ok. -/
theorem C106_native_stream_partial (hp : Meta.Spec.Program env classes) (hq : Gen.Text.Spec.Pointers q) (hv : ValidSchema env) (ho : ValidOrder env) {rank : Nat → Nat}
    (ha : Acyclic env rank) (hb : NoRepeatedBool env) (hm : NoMessageMaps env) (hE : env.fromUtf8 (env.toUtf8 []) = [])
    (hf : PlainFile o c) (hh : Includable header) (hs : ∀ s ∈ services, PlainService s) (hj : NoScriptValues services) {s : ServiceText} (h : s ∈ services)
    {d : MethodD} (hd : d ∈ s.methods) (hst : d.streaming = true) {mA mR : Nat} (hA : (classes mA).name = d.input) (hR : (classes mR).name = d.output) :
    ∃ text is ctor f, printed (clientSourceText o c header services) = some text ∧ items text = some is ∧ ctor ∈ fnsIn is ∧ f ∈ fnsIn is ∧
      ctor.isCtor = true ∧ ctor.cls = clientClassOf o c s ∧ f.cls = clientClassOf o c s ∧ f.name = [.word (text! "stream" ++ Gen.upperCaseName d.name)] ∧
      f.params = replyParams (classes mA).name (classes mR).name ∧
      ∀ (g : Given) (w : Client.World Obj) (arg ret : Obj) (world : EndToEnd.Native.StreamWorld) (F : Obj → List Obj) (finish : Obj → Int), w.objects (g.ref (text! "arg")) = some arg →
        Clean env (.msg mA) (.msg arg) →
        (∀ n bs, Meta.serializeMessage env classes (libOf env q classes 0) last n mA arg = .ok bs → bs.length < 2 ^ 31) →
        EndToEnd.Native.Spec.ServesStream env mA mR (pathOf c s d) F finish world → (∀ a, Same env (.msg mA) (.msg arg) (.msg a) → ∀ x ∈ F a, Plain env (.msg mR) (.msg x)) →
        Safe env (.msg mR) (.msg ret) →
        ∃ w1 r sent, does f g w .nothing = .ok (some (.made w.requests.length), w1) ∧ w1.requests = w.requests ++ [r] ∧ r.argument = arg ∧
          r.target = some (g.ptr (text! "ret")) ∧ (∀ k, Shows env classes (libOf env q classes k) mA arg sent) ∧
          ∃ N, ∀ n, N ≤ n → ∃ K, ∃ replies : List Obj, replies.length = (F sent).length ∧ ∀ k, K ≤ k →
            answers env classes (libOf env q classes k) last n world ctor mA mR r ret =
              some (replies.map fun x => (x, ⟨Status.Ok, ""⟩, []), if finish sent = 0 then none else some (finish sent)) ∧
            ∀ (i : Nat) (x y : Obj), replies[i]? = some x → (F sent)[i]? = some y → Shows env classes (libOf env q classes k) mR x y := by
  obtain ⟨text, is, ctor, f, h1, h2, h3, h4, h5, h6, h7, h8, h9⟩ := functions (k := 1) hf hh hs hj h hd (by simp [methodSigs, hst]; rfl) (by simp [methodDoes, hst]; rfl)
  refine ⟨text, is, ctor, f, h1, h2, h3, h4, h5, h6, congrArg Sig.cls h8, congrArg Sig.name h8, ?_, fun g w arg ret world F finish hobj harg hsmall hserver hF hret => ?_⟩
  · rw [hA, hR]
    exact congrArg Sig.params h8
  · have ta : WellTyped env mA arg := harg.plain.safe.hasTy
    obtain ⟨N, a, e1, el, e2⟩ := EndToEnd.Native.C85_stream_partial (method := String.ofList d.name) (service := fullService c s) hv ho ha hb hm hE harg
      (fun n bs hbs => hsmall n bs ((serialize_eq hp n mA arg ta).trans hbs)) hserver hF hret
    refine ⟨Gen.Text.Spec.World.ask w (text! "stream") d.name arg (some (g.ptr (text! "ret"))), ⟨text! "stream", d.name, arg, some (g.ptr (text! "ret"))⟩, a, ?_, rfl, rfl, rfl, fun k => ?_, N, fun n hn => ?_⟩
    · rw [h9]
      unfold plainRequest
      rw [hobj]
      rfl
    · exact shows_of hp ta el e1
    · obtain ⟨K, rs, e3, e4, e5⟩ := e2 n hn
      refine ⟨K, rs, e4, fun k hk => ⟨?_, fun i x y hx hy => ?_⟩⟩
      · unfold answers
        rw [h7]
        exact ((C106_native_same_partial hp hq k n ta hret.hasTy _ _).2 world).trans (e3 (k + 1) (by omega))
      · have tx := stream_typed hret.hasTy (e3 K (Nat.le_refl K)) (x, ⟨Status.Ok, ""⟩, []) (List.mem_map.2 ⟨x, List.mem_of_getElem? hx, rfl⟩)
        exact shows_of hp tx (length_of (hF a e1 y (List.mem_of_getElem? hy)).safe.hasTy) (e5 i x y hx hy)

end

end

/-! ### The hypotheses can be met -/

namespace Sample
open Meta.Sample hiding sampleProgram
open QtPb.Gen.Text.Sample hiding given noMaps
open QtPb.Whole.Sample hiding world refusing serves refuses streams

/-- A server that answers with the message `seven`, in two slices. -/
def world : EndToEnd.Native.World := fun _ => ([.threadBegin, .threadEnd ⟨0, .ok [[8], [7]]⟩, .deliver], "")

/-- A server that refuses. -/
def refusing : EndToEnd.Native.World := fun _ => ([.threadBegin, .threadEnd ⟨5, .ok []⟩, .deliver], "no")

/-- A stream of two messages that ends with the status 14. -/
def messages : EndToEnd.Native.StreamWorld := fun _ => ([.ok [[8, 7]], .ok [[8], [], [7]]], 14)

theorem serves (path : String) : EndToEnd.Native.Spec.Serves sampleEnv 0 0 path (fun _ => seven) world := fun _ _ _ =>
  ⟨[[8], [7]], ⟨[], [], [], [], rfl, by simp, by simp, by simp⟩, seven_encodes⟩

theorem refuses (path : String) : EndToEnd.Native.Spec.Refuses sampleEnv 0 path 5 refusing := fun _ _ _ =>
  ⟨.ok [], [], [], [], [], rfl, by simp, by simp, by simp⟩

theorem streams (path : String) : EndToEnd.Native.Spec.ServesStream sampleEnv 0 0 path (fun _ => [seven, seven]) (fun _ => 14) messages := by
  intro _ _ _
  refine ⟨rfl, [[[8, 7]], [[8], [], [7]]], rfl, rfl, ?_⟩
  intro i bs o hi ho
  match i with
  | 0 => cases hi; cases ho; exact seven_encodes
  | 1 => cases hi; cases ho; exact seven_encodes
  | _ + 2 => simp at hi

/-- The call, the refused call and the stream of the service of the sample: all hypotheses are met. -/
example : ∃ classes, Meta.Spec.Program sampleEnv classes ∧ ∃ text is, printed (clientSourceText opts ctx (text! "sample.qpb") [tests]) = some text ∧ items text = some is ∧
    (∃ ctor f r n k reply, ctor ∈ fnsIn is ∧ f ∈ fnsIn is ∧ (∃ v w1, does f given objects .nothing = .ok (v, w1) ∧ w1.requests = [r]) ∧
      answer sampleEnv classes (libOf sampleEnv swapping classes k) true n world ctor 0 0 r (defaultObj sampleEnv 0) = some (.returned reply ⟨Status.Ok, ""⟩ []) ∧
      Shows sampleEnv classes (libOf sampleEnv swapping classes k) 0 reply seven) ∧
    (∃ ctor f r N message, ctor ∈ fnsIn is ∧ f ∈ fnsIn is ∧ (∃ v w1, does f given objects .nothing = .ok (v, w1) ∧ w1.requests = [r]) ∧
      answer sampleEnv classes (libOf sampleEnv swapping classes N) true N refusing ctor 0 0 r seven = some (.returned seven ⟨5, message⟩ [⟨5, message⟩])) ∧
    ∃ ctor f r n k x y, ctor ∈ fnsIn is ∧ f ∈ fnsIn is ∧ (∃ v w1, does f given objects .nothing = .ok (v, w1) ∧ w1.requests = [r]) ∧
      answers sampleEnv classes (libOf sampleEnv swapping classes k) true n messages ctor 0 0 r (defaultObj sampleEnv 0) =
        some ([(x, ⟨Status.Ok, ""⟩, []), (y, ⟨Status.Ok, ""⟩, [])], some 14) ∧ Shows sampleEnv classes (libOf sampleEnv swapping classes k) 0 y seven := by
  obtain ⟨classes, hp, hn⟩ := sampleProgram
  have hq : Gen.Text.Spec.Pointers swapping := fun _ _ h => by simp [swapping] at h
  obtain ⟨h1, h2, h3, h4⟩ := sampleSchema
  obtain ⟨text, is, ctor, f, k1, k2, k3, k4, -, -, -, -, -, k5⟩ := C106_native_call_partial (last := true) (d := ⟨text! "get", outerPath, outerPath, false⟩) hp hq h1 h2 h3 h4 rfl plainFile
    hdr testsPlain testsScripts (List.mem_singleton.2 rfl) (by simp [tests]) rfl hn hn
  obtain ⟨text', is', ctor', f', k1', k2', k3', k4', -, -, -, -, -, k5'⟩ := C106_native_refused_partial (last := true) (d := ⟨text! "get", outerPath, outerPath, false⟩) hp hq h1 h2 h3 h4
    rfl plainFile hdr testsPlain testsScripts (List.mem_singleton.2 rfl) (by simp [tests]) rfl hn hn
  obtain ⟨text'', is'', ctor'', f'', k1'', k2'', k3'', k4'', -, -, -, -, -, k5''⟩ := C106_native_stream_partial (last := true) (d := ⟨text! "upd", outerPath, outerPath, true⟩) hp hq h1 h2
    h3 h4 noMaps rfl plainFile hdr testsPlain testsScripts (List.mem_singleton.2 rfl) (by simp [tests]) rfl hn hn
  cases k1.symm.trans k1'
  cases k1.symm.trans k1''
  cases k2.symm.trans k2'
  cases k2.symm.trans k2''
  refine ⟨classes, hp, text, is, k1, k2, ?_, ?_, ?_⟩
  · obtain ⟨w1, r, sent, e1, e2, -, -, -, N, e3⟩ := k5 given objects sampleObj (defaultObj sampleEnv 0) world (fun _ => seven) rfl objClean (objSmall hp) (serves _)
      (fun _ _ => sevenClean.plain) (.inl rfl)
    obtain ⟨K, e3⟩ := e3 N (Nat.le_refl N)
    obtain ⟨reply, e3, e4⟩ := e3 K (Nat.le_refl K)
    exact ⟨ctor, f, r, N, K, reply, k3, k4, ⟨_, _, e1, e2⟩, e3, e4⟩
  · obtain ⟨w1, r, message, e1, e2, N, e3⟩ := k5' given objects sampleObj seven refusing 5 rfl objClean (objSmall hp) (refuses _) (by decide) sevenClean.plain.safe.hasTy
    exact ⟨ctor', f', r, N, message, k3', k4', ⟨_, _, e1, e2⟩, e3 N N (Nat.le_refl N)⟩
  · obtain ⟨w1, r, sent, e1, e2, -, -, -, N, e3⟩ := k5'' given objects sampleObj (defaultObj sampleEnv 0) messages (fun _ => [seven, seven]) (fun _ => 14) rfl objClean (objSmall hp)
      (streams _) (fun _ _ x hx => by
        simp only [List.mem_cons, List.not_mem_nil, or_false, or_self] at hx
        rw [hx]
        exact sevenClean.plain) (default_safe 0)
    obtain ⟨K, rs, e3, e4⟩ := e3 N (Nat.le_refl N)
    obtain ⟨e4, e5⟩ := e4 K (Nat.le_refl K)
    match rs, e3 with
    | [x, y], _ => exact ⟨ctor'', f'', r, N, K, x, y, k3'', k4'', ⟨_, _, e1, e2⟩, e4, e5 1 y seven rfl rfl⟩

end Sample

end QtPb.Whole.Native
