import Verif.SpecWholeAsync
import Verif.PropsWhole
import Verif.PropsEndToEndAsync
/-
Property C106 for asynchronous calls: the functions of generated clients that do not wait, and their callbacks, for C++ and for QML.
-/
namespace QtPb.Whole.Async
open Whole.Spec Http2 Native Call QtPb.Spec Http2.Spec EndToEnd.Spec Meta Meta.Spec QtPb.SpecCpp QtPb.SpecCpp.Client QtPb.TextProof QtPb.Gen.Text QtPb.Gen.Text.Spec EndToEnd.Async EndToEnd.Async.Spec
  Whole.Async.Spec

variable {env : Env} {classes : Nat → Meta.Class} {q : Containers} {last : Bool}

/-- `read<T>()` fills an object of a generated class as the model of `Verif/EndToEndAsync.lean` does. -/
theorem readReply_eq (hp : Meta.Spec.Program env classes) (hq : Gen.Text.Spec.Pointers q) (d n m : Nat) (c : Call.State) :
    readReply env classes (libOf env q classes d) n m c = EndToEnd.Async.readReply env n (d + 1) m c := by
  unfold readReply EndToEnd.Async.readReply
  rw [read_eq' hp hq d n (default_safe m).hasTy]
  rfl

section
variable {o : Gen.Options} {c : Ctx} {services : List ServiceText} {header : Gen.Str}

theorem delivered (hp : Meta.Spec.Program env classes) (hq : Gen.Text.Spec.Pointers q) (hv : ValidSchema env) (ho : ValidOrder env) {rank : Nat → Nat}
    (ha : Acyclic env rank) (hb : NoRepeatedBool env) (hE : env.fromUtf8 (env.toUtf8 []) = []) {mA mR : Nat} {arg : Obj} (harg : Clean env (.msg mA) (.msg arg))
    (hsmall : ∀ n bs, Meta.serializeMessage env classes (libOf env q classes 0) last n mA arg = .ok bs → bs.length < 2 ^ 31) (method service : String) :
    ∃ sent, (∀ k, Shows env classes (libOf env q classes k) mA arg sent) ∧ ∀ {P : Call.State → Obj → Prop}, (∀ state reply, state.signals = [.finished] → P state reply) →
      Delivered env classes (libOf env q classes) last mA mR ("/" ++ service ++ "/" ++ method) (.call method service mA arg) sent P := by
  have ta : WellTyped env mA arg := harg.plain.safe.hasTy
  obtain ⟨N, a, h1, h2, h3⟩ := C108_answer_partial (mR := mR) hv ho ha hb hE harg (fun n bs hbs => hsmall n bs ((serialize_eq hp n mA arg ta).trans hbs))
  refine ⟨a, fun k => shows_of hp ta h2 h1, fun {P} hP => ⟨N, fun n j before after session F hn hr hserver hF => ?_⟩⟩
  obtain ⟨body, state, e1, e2, e3, e4, N', e5⟩ := h3 n _ before after _ _ session F hn (serialize_eq hp n mA arg ta) hr hserver hF
  refine ⟨body, state, e1, e2, e3, e4, N', fun n' hn' => ?_⟩
  obtain ⟨K, hK⟩ := e5 n' hn'
  refine ⟨K, fun k hk => ?_⟩
  obtain ⟨reply, k1, k2, k3⟩ := hK (k + 1) (by omega)
  exact ⟨reply, (readReply_eq hp hq k n' mR state).trans k1, shows_of hp k3.hasTy (length_of hF.safe.hasTy) k2, hP _ _ e3⟩

theorem failed {method service : String} {mA : Nat} {arg : Obj} {P : Call.State → Nat → Prop} (hP : ∀ state code, state.signals = [.error (code : Int)] → P state code) :
    Failed env classes (libOf env q classes) last (.call method service mA arg) P := by
  intro n j before after session code hr hs hc hc'
  obtain ⟨r, state, h1, h2, h3, -⟩ := C108_refused hr hs hc hc'
  exact ⟨r, state, h1, h2, h3, hP _ _ h2⟩

/-- C106: an asynchronous call of a generated client, for every method of every service of a file: the function returns the reply to its one request. The server receives a message with the
values that the properties of the argument show, and what is read from the reply shows the message that the server has answered with, whatever other calls are made. -/
theorem C106_async_partial (hp : Meta.Spec.Program env classes) (hq : Gen.Text.Spec.Pointers q) (hv : ValidSchema env) (ho : ValidOrder env) {rank : Nat → Nat}
    (ha : Acyclic env rank) (hb : NoRepeatedBool env) (hE : env.fromUtf8 (env.toUtf8 []) = [])
    (hf : PlainFile o c) (hh : Includable header) (hs : ∀ s ∈ services, PlainService s) (hj : NoScriptValues services) {s : ServiceText} (h : s ∈ services)
    {d : MethodD} (hd : d ∈ s.methods) (hst : d.streaming = false) {mA mR : Nat} (hA : (classes mA).name = d.input) :
    ∃ text is ctor f, printed (clientSourceText o c header services) = some text ∧ items text = some is ∧ ctor ∈ fnsIn is ∧ f ∈ fnsIn is ∧
      ctor.isCtor = true ∧ ctor.cls = clientClassOf o c s ∧ f.cls = clientClassOf o c s ∧ f.name = [.word d.name] ∧
      f.params = [((let I := SpecCpp.qualified (classes mA).name; cpp! "const @I@ &"), text! "arg")] ∧
      ∀ (g : Given) (w : Client.World Obj) (arg : Obj), w.objects (g.ref (text! "arg")) = some arg → Clean env (.msg mA) (.msg arg) →
        (∀ n bs, Meta.serializeMessage env classes (libOf env q classes 0) last n mA arg = .ok bs → bs.length < 2 ^ 31) →
        ∃ w1 r sent act, does f g w .nothing = .ok (some (.made w.requests.length), w1) ∧ w1.requests = w.requests ++ [r] ∧ r.argument = arg ∧
          actOf ctor mA r = some act ∧ (∀ k, Shows env classes (libOf env q classes k) mA arg sent) ∧
          Delivered env classes (libOf env q classes) last mA mR (pathOf c s d) act sent (fun _ _ => True) ∧ Failed env classes (libOf env q classes) last act (fun _ _ => True) := by
  obtain ⟨text, is, ctor, f, h1, h2, h3, h4, h5, h6, h7, h8, h9⟩ := functions (k := 1) hf hh hs hj h hd (by simp [methodSigs, hst]; rfl) (by simp [methodDoes, hst]; rfl)
  refine ⟨text, is, ctor, f, h1, h2, h3, h4, h5, h6, congrArg Sig.cls h8, congrArg Sig.name h8, ?_, fun g w arg hobj harg hsmall => ?_⟩
  · rw [hA]
    exact congrArg Sig.params h8
  · obtain ⟨sent, e1, e2⟩ := delivered (mR := mR) hp hq hv ho ha hb hE harg hsmall (String.ofList d.name) (fullService c s)
    refine ⟨Gen.Text.Spec.World.ask w (text! "call") d.name arg none, ⟨text! "call", d.name, arg, none⟩, sent, .call (String.ofList d.name) (fullService c s) mA arg, ?_, rfl, rfl, ?_, e1,
      e2 (fun _ _ _ => trivial), failed (fun _ _ _ => trivial)⟩
    · rw [h9]
      unfold plainRequest
      rw [hobj]
      rfl
    · unfold actOf
      rw [h7]
      rfl

/-- C106: an asynchronous call of a generated client with a callback. The callback is called once, with the reply, when the answer is there, and what it reads from the reply shows the message of
the server. (After a failure nothing is called: `C101_callback_violated`.) -/
theorem C106_callback_partial (hp : Meta.Spec.Program env classes) (hq : Gen.Text.Spec.Pointers q) (hv : ValidSchema env) (ho : ValidOrder env) {rank : Nat → Nat}
    (ha : Acyclic env rank) (hb : NoRepeatedBool env) (hE : env.fromUtf8 (env.toUtf8 []) = [])
    (hf : PlainFile o c) (hh : Includable header) (hs : ∀ s ∈ services, PlainService s) (hj : NoScriptValues services) {s : ServiceText} (h : s ∈ services)
    {d : MethodD} (hd : d ∈ s.methods) (hst : d.streaming = false) {mA mR : Nat} :
    ∃ text is ctor f, printed (clientSourceText o c header services) = some text ∧ items text = some is ∧ ctor ∈ fnsIn is ∧ f ∈ fnsIn is ∧
      ctor.isCtor = true ∧ ctor.cls = clientClassOf o c s ∧ f.cls = clientClassOf o c s ∧ f.name = [.word d.name] ∧
      f.params.map (·.2) = [text! "arg", text! "context", text! "callback"] ∧
      ∀ (g : Given) (w : Client.World Obj) (arg : Obj), w.objects (g.ref (text! "arg")) = some arg → w.accepts = true → Clean env (.msg mA) (.msg arg) →
        (∀ n bs, Meta.serializeMessage env classes (libOf env q classes 0) last n mA arg = .ok bs → bs.length < 2 ^ 31) →
        ∃ w1 r sent act, does f g w .nothing = .ok (none, w1) ∧ w1.requests = w.requests ++ [r] ∧ r.argument = arg ∧ w1.told = w.told ∧
          actOf ctor mA r = some act ∧ (∀ k, Shows env classes (libOf env q classes k) mA arg sent) ∧
          Delivered env classes (libOf env q classes) last mA mR (pathOf c s d) act sent (fun state _ => ∀ m readAs,
            does f g w (laterOf m readAs state) = .ok (none, (m w1).tell (.reply (g.fn (text! "callback")) w.requests.length))) := by
  obtain ⟨text, is, ctor, f, h1, h2, h3, h4, h5, h6, h7, h8, h9⟩ := functions (k := 2) hf hh hs hj h hd (by simp [methodSigs, hst]; rfl) (by simp [methodDoes, hst]; rfl)
  refine ⟨text, is, ctor, f, h1, h2, h3, h4, h5, h6, congrArg Sig.cls h8, congrArg Sig.name h8, ?_, fun g w arg hobj hacc harg hsmall => ?_⟩
  · exact congrArg (fun x : Sig => x.params.map (·.2)) h8
  · obtain ⟨sent, e1, e2⟩ := delivered (mR := mR) hp hq hv ho ha hb hE harg hsmall (String.ofList d.name) (fullService c s)
    refine ⟨Gen.Text.Spec.World.ask w (text! "call") d.name arg none, ⟨text! "call", d.name, arg, none⟩, sent, .call (String.ofList d.name) (fullService c s) mA arg, ?_, rfl, rfl, rfl, ?_, e1,
      e2 (fun state reply hst m readAs => ?_)⟩
    · rw [h9]
      simp [callbackRequest, hobj, hacc, meanwhile]
    · unfold actOf
      rw [h7]
      rfl
    · rw [h9]
      simp [callbackRequest, hobj, hacc, laterOf, hst]

/-- C106: a call of a generated client from QML with two JavaScript functions. When the answer is there, the first is called once, with a new object that belongs to the engine, and the properties of this
object show the message of the server. If the server refuses the call the second is called once, with the status of the server. -/
theorem C106_script_partial (hqml : o.qml = true) (hp : Meta.Spec.Program env classes) (hq : Gen.Text.Spec.Pointers q) (hv : ValidSchema env) (ho : ValidOrder env) {rank : Nat → Nat}
    (ha : Acyclic env rank) (hb : NoRepeatedBool env) (hE : env.fromUtf8 (env.toUtf8 []) = [])
    (hf : PlainFile o c) (hh : Includable header) (hs : ∀ s ∈ services, PlainService s) (hj : NoScriptValues services) {s : ServiceText} (h : s ∈ services)
    {d : MethodD} (hd : d ∈ s.methods) (hst : d.streaming = false) {mA mR : Nat} (hR : (classes mR).name = d.output) :
    ∃ text is ctor f, printed (clientSourceText o c header services) = some text ∧ items text = some is ∧ ctor ∈ fnsIn is ∧ f ∈ fnsIn is ∧
      ctor.isCtor = true ∧ ctor.cls = clientClassOf o c s ∧ f.cls = clientClassOf o c s ∧ f.name = [.word d.name] ∧
      f.params.map (·.2) = [text! "arg", text! "callback", text! "errorCallback"] ∧
      ∀ (g : Given) (w : Client.World Obj) (a : Nat) (arg : Obj), g.ptr (text! "arg") = some a → w.objects a = some arg → (g.js (text! "callback")).2 = true →
        w.hasEngine = true → w.accepts = true → Clean env (.msg mA) (.msg arg) →
        (∀ n bs, Meta.serializeMessage env classes (libOf env q classes 0) last n mA arg = .ok bs → bs.length < 2 ^ 31) →
        ∃ w1 r sent act, does f g w .nothing = .ok (none, w1) ∧ w1.requests = w.requests ++ [r] ∧ r.argument = arg ∧ w1.told = w.told ∧
          actOf ctor mA r = some act ∧ (∀ k, Shows env classes (libOf env q classes k) mA arg sent) ∧
          Delivered env classes (libOf env q classes) last mA mR (pathOf c s d) act sent (fun state reply => ∀ m readAs, readAs (qualified (classes mR).name) = reply →
            ∃ w2, does f g w (laterOf m readAs state) = .ok (none, w2) ∧ w2.told = (m w1).told ++ [.object (g.js (text! "callback")).1 (m w1).fresh] ∧
              w2.objects (m w1).fresh = some reply ∧ (∀ k, k ≠ (m w1).fresh → w2.objects k = (m w1).objects k) ∧ w2.owned = (m w1).owned ++ [(m w1).fresh]) ∧
          Failed env classes (libOf env q classes) last act (fun state code => ∀ m readAs, (g.js (text! "errorCallback")).2 = true →
            does f g w (laterOf m readAs state) = .ok (none, (m w1).tell (.status (g.js (text! "errorCallback")).1 code))) := by
  obtain ⟨text, is, ctor, f, h1, h2, h3, h4, h5, h6, h7, h8, h9⟩ := functions (k := 3) hf hh hs hj h hd (by simp [methodSigs, hst, hqml]; rfl) (by simp [methodDoes, hst, hqml]; rfl)
  refine ⟨text, is, ctor, f, h1, h2, h3, h4, h5, h6, congrArg Sig.cls h8, congrArg Sig.name h8, ?_, fun g w a arg hptr hobj hcb heng hacc harg hsmall => ?_⟩
  · exact congrArg (fun x : Sig => x.params.map (·.2)) h8
  · obtain ⟨sent, e1, e2⟩ := delivered (mR := mR) hp hq hv ho ha hb hE harg hsmall (String.ofList d.name) (fullService c s)
    refine ⟨Gen.Text.Spec.World.ask w (text! "call") d.name arg none, ⟨text! "call", d.name, arg, none⟩, sent, .call (String.ofList d.name) (fullService c s) mA arg, ?_, rfl, rfl, rfl, ?_, e1,
      e2 (fun state reply hst m readAs hread => ?_), failed (fun state code hst m readAs herr => ?_)⟩
    · rw [h9]
      simp [scriptRequest, hptr, hobj, hcb, heng, hacc]
    · unfold actOf
      rw [h7]
      rfl
    · have hread' : readAs (methodType d.output) = reply := by rw [← hread, hR]; rfl
      generalize hm : m (Gen.Text.Spec.World.ask w (text! "call") d.name arg none) = w1
      refine ⟨{ w1 with objects := fun n => if n = w1.fresh then some (readAs (methodType d.output)) else w1.objects n, fresh := w1.fresh + 1,
                        owned := w1.owned ++ [w1.fresh], told := w1.told ++ [.object (g.js (text! "callback")).1 w1.fresh] }, ?_, rfl, by simp [hread'], fun k hk => by simp [hk], rfl⟩
      rw [h9]
      simp only [laterOf, hst, scriptRequest, hptr, hobj, hcb, heng, hacc, hm]
    · rw [h9]
      simp [laterOf, hst, scriptRequest, hptr, hobj, hcb, heng, hacc, herr]

/-- C106: a call of a generated client from QML with an object for the answer. When the answer is there, it is assigned to the object, if this still exists, and the properties of the object show the message
of the server. If the server refuses the call the JavaScript function is called once, with the status of the server. -/
theorem C106_object_partial (hqml : o.qml = true) (hp : Meta.Spec.Program env classes) (hq : Gen.Text.Spec.Pointers q) (hv : ValidSchema env) (ho : ValidOrder env) {rank : Nat → Nat}
    (ha : Acyclic env rank) (hb : NoRepeatedBool env) (hE : env.fromUtf8 (env.toUtf8 []) = [])
    (hf : PlainFile o c) (hh : Includable header) (hs : ∀ s ∈ services, PlainService s) (hj : NoScriptValues services) {s : ServiceText} (h : s ∈ services)
    {d : MethodD} (hd : d ∈ s.methods) (hst : d.streaming = false) {mA mR : Nat} (hR : (classes mR).name = d.output) :
    ∃ text is ctor f, printed (clientSourceText o c header services) = some text ∧ items text = some is ∧ ctor ∈ fnsIn is ∧ f ∈ fnsIn is ∧
      ctor.isCtor = true ∧ ctor.cls = clientClassOf o c s ∧ f.cls = clientClassOf o c s ∧ f.name = [.word d.name] ∧
      f.params.map (·.2) = [text! "arg", text! "ret", text! "errorCallback"] ∧
      ∀ (g : Given) (w : Client.World Obj) (a ret : Nat) (arg : Obj), g.ptr (text! "arg") = some a → g.ptr (text! "ret") = some ret → w.objects a = some arg →
        w.hasEngine = true → w.accepts = true → Clean env (.msg mA) (.msg arg) →
        (∀ n bs, Meta.serializeMessage env classes (libOf env q classes 0) last n mA arg = .ok bs → bs.length < 2 ^ 31) →
        ∃ w1 r sent act, does f g w .nothing = .ok (none, w1) ∧ w1.requests = w.requests ++ [r] ∧ r.argument = arg ∧ w1.told = w.told ∧
          actOf ctor mA r = some act ∧ (∀ k, Shows env classes (libOf env q classes k) mA arg sent) ∧
          Delivered env classes (libOf env q classes) last mA mR (pathOf c s d) act sent (fun state reply => ∀ m readAs, readAs (qualified (classes mR).name) = reply → (m w1).objects ret ≠ none →
            ∃ w2, does f g w (laterOf m readAs state) = .ok (none, w2) ∧ w2.told = (m w1).told ∧
              w2.objects ret = some reply ∧ ∀ k, k ≠ ret → w2.objects k = (m w1).objects k) ∧
          Failed env classes (libOf env q classes) last act (fun state code => ∀ m readAs, (g.js (text! "errorCallback")).2 = true →
            does f g w (laterOf m readAs state) = .ok (none, (m w1).tell (.status (g.js (text! "errorCallback")).1 code))) := by
  obtain ⟨text, is, ctor, f, h1, h2, h3, h4, h5, h6, h7, h8, h9⟩ := functions (k := 4) hf hh hs hj h hd (by simp [methodSigs, hst, hqml]; rfl) (by simp [methodDoes, hst, hqml]; rfl)
  refine ⟨text, is, ctor, f, h1, h2, h3, h4, h5, h6, congrArg Sig.cls h8, congrArg Sig.name h8, ?_, fun g w a ret arg hptr hret hobj heng hacc harg hsmall => ?_⟩
  · exact congrArg (fun x : Sig => x.params.map (·.2)) h8
  · obtain ⟨sent, e1, e2⟩ := delivered (mR := mR) hp hq hv ho ha hb hE harg hsmall (String.ofList d.name) (fullService c s)
    refine ⟨Gen.Text.Spec.World.ask w (text! "call") d.name arg none, ⟨text! "call", d.name, arg, none⟩, sent, .call (String.ofList d.name) (fullService c s) mA arg, ?_, rfl, rfl, rfl, ?_, e1,
      e2 (fun state reply hst m readAs hread hex => ?_), failed (fun state code hst m readAs herr => ?_)⟩
    · rw [h9]
      simp [objectRequest, hptr, hret, hobj, heng, hacc]
    · unfold actOf
      rw [h7]
      rfl
    · have hread' : readAs (methodType d.output) = reply := by rw [← hread, hR]; rfl
      generalize hm : m (Gen.Text.Spec.World.ask w (text! "call") d.name arg none) = w1 at hex
      refine ⟨{ w1 with objects := fun n => if n = ret then some (readAs (methodType d.output)) else w1.objects n }, ?_, rfl, by simp [hread'], fun k hk => by simp [hk]⟩
      rw [h9]
      simp only [laterOf, hst, objectRequest, hptr, hret, hobj, heng, hacc, hm]
      rw [if_pos (Option.isSome_iff_ne_none.2 hex)]
    · rw [h9]
      simp [laterOf, hst, objectRequest, hptr, hret, hobj, heng, hacc, herr]

end

namespace Sample
open Meta.Sample hiding sampleProgram
open QtPb.Gen.Text.Sample Whole.Sample

/-- The arguments of a call from QML: object 0 is the argument. -/
def fromQml : Given := ⟨fun _ => 0, fun _ => some 0, fun x => (if x = text! "callback" then 7 else 9, true), fun _ => 8⟩

/-- The call from QML: the server answers it with the message 7 while the timer of another call fires. The first JavaScript function is called with a new object that shows the answer. If the
server refuses the call with the status 5, the second is called. -/
example : ∃ classes, Meta.Spec.Program sampleEnv classes ∧ ∃ text is, printed (clientSourceText opts ctx (text! "sample.qpb") [tests]) = some text ∧ items text = some is ∧
    ∃ f ∈ fnsIn is, ∃ w1 state state' k reply, does f fromQml objects .nothing = .ok (none, w1) ∧
      Shows sampleEnv classes (libOf sampleEnv swapping classes k) 0 reply seven ∧
      (∃ w2, does f fromQml objects (laterOf id (fun _ => reply) state) = .ok (none, w2) ∧ w2.told = [.object 7 w1.fresh] ∧ w2.objects w1.fresh = some reply) ∧
      does f fromQml objects (laterOf id (fun _ => reply) state') = .ok (none, w1.tell (.status 9 5)) := by
  obtain ⟨classes, hp, hn⟩ := sampleProgram
  have hq : Gen.Text.Spec.Pointers swapping := fun _ _ h => by simp [swapping] at h
  obtain ⟨h1, h2, h3, h4⟩ := sampleSchema
  obtain ⟨text, is, ctor, f, k1, k2, k3, k4, -, -, -, -, -, k5⟩ := C106_script_partial (last := true) (mA := 0) (d := ⟨text! "get", outerPath, outerPath, false⟩) rfl hp hq h1 h2 h3 h4 rfl plainFile hdr
    testsPlain testsScripts (List.mem_singleton.2 rfl) (by simp [tests]) rfl hn
  obtain ⟨w1, r, sent, act, e1, e2, er, e3, e4, -, ⟨N, e5⟩, e6⟩ := k5 fromQml objects 0 sampleObj rfl rfl rfl rfl rfl objClean (objSmall hp)
  have ha : ∃ method service, act = .call method service 0 sampleObj := by
    unfold actOf at e4
    split at e4
    · split at e4
      · cases e4
        rw [er]
        exact ⟨_, _, rfl⟩
      · cases e4
    · cases e4
  obtain ⟨method, service, rfl⟩ := ha
  have hser : ∃ bs, ser sampleEnv classes (libOf sampleEnv swapping classes 0) true (N + 2) 0 sampleObj = .ok bs :=
    ⟨_, (serialize_eq hp (N + 2) 0 sampleObj objClean.plain.safe.hasTy).trans
      (serialize_mono (env := sampleEnv) (n := 2) (k := N + 2) (m := 0) (o := sampleObj) (by omega) rfl)⟩
  obtain ⟨bs, hser⟩ := hser
  obtain ⟨body, state, -, -, -, -, N', d1⟩ := e5 (N + 2) 0 [.call method service 0 sampleObj]
    [.event 0 .timeout, .event 1 (.complete ⟨.NoError, some [0x30], [0, 0, 0, 0, 2, 8, 7]⟩)] _ (fun _ => seven) (by omega)
    (by simp [EndToEnd.Async.run, EndToEnd.Async.step, Res.bind, hser]; rfl) (fun _ _ _ _ => ⟨_, [], [8, 7], [0x30], rfl, by simp, rfl, rfl, ⟨by decide, by decide, rfl⟩, ⟨[0, 0, 0, 2], ⟨0, 0, 0, 2, rfl, rfl⟩, rfl⟩, seven_encodes⟩)
    sevenClean.plain
  obtain ⟨K, d1⟩ := d1 N' (Nat.le_refl N')
  obtain ⟨reply, -, d2, d3⟩ := d1 K (Nat.le_refl K)
  obtain ⟨request, state', -, -, -, d4⟩ := e6 (N + 2) 0 [] [.event 0 (.complete ⟨.NoError, some [0x35], []⟩)] _ 5 (by simp [EndToEnd.Async.run, EndToEnd.Async.step, Res.bind, hser]; rfl)
    ⟨_, [], [0x35], rfl, by simp, rfl, rfl, ⟨by decide, by decide, rfl⟩⟩ (by decide) (by decide)
  obtain ⟨w2, d5, d6, d7, -⟩ := d3 id (fun _ => reply) rfl
  refine ⟨classes, hp, text, is, k1, k2, f, k4, w1, state, state', K, reply, e1, d2, ⟨w2, d5, ?_, d7⟩, d4 id (fun _ => reply) rfl⟩
  rw [d6]
  show w1.told ++ [.object 7 w1.fresh] = _
  rw [e3]
  rfl

end Sample

end QtPb.Whole.Async
