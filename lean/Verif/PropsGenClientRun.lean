import Verif.TextClient
import Verif.PropsGenDefs
/-
Property C101. Methods of generated clients, run from the text of sources.

The functions are those that the reader of sources (C95) finds in the printed text; `does` (`SpecCppClient`) reads the body of a function and runs
it, `clientDoes` (`SpecClientRun`) says what has to happen.
-/
namespace QtPb.Gen.Text
open QtPb.SpecCpp QtPb.TextProof QtPb.Gen.Text.Spec QtPb.SpecCpp.Client

/-- No request takes a message `QJSValue` outside of packages, which has the same name as a type of Qt. -/
def NoScriptValues (services : List ServiceText) : Prop := ∀ s ∈ services, ∀ d ∈ s.methods, d.input ≠ [text! "QJSValue"]

/-- The class of a client. -/
def clientClassOf (o : Options) (c : Ctx) (s : ServiceText) : List Text := around o c ++ [upperCaseName s.name ++ text! "Client"]

theorem zip_maps {α β γ : Type} (f : α → β) (g : α → γ) : ∀ l : List α, l.map (fun x => (f x, g x)) = (l.map f).zip (l.map g)
  | [] => rfl
  | a :: l => by rw [List.map_cons, zip_maps f g l]; rfl

section
variable {α : Type} {o : Options} {c : Ctx} {services : List ServiceText} {header : Str}

/-- What the functions of the clients of a file do, one after another in the order of C95: each makes the one request of its method with what it
was given, and passes on the answer. -/
theorem C101_methods_partial (hf : PlainFile o c) (hh : Includable header) (hs : ∀ s ∈ services, PlainService s) (hj : NoScriptValues services) :
    ∃ text is, printed (clientSourceText o c header services) = some text ∧ items text = some is ∧
      (fnsIn is).map (fun f => (f.sig, does (α := α) f)) = services.flatMap (fun s => ((clientSigs o c s).map (·.1)).zip (clientDoes o s)) := by
  obtain ⟨text, h1, h2⟩ := items_printed (gives_clientSource hf hh hs)
  refine ⟨text, _, h1, h2, ?_⟩
  rw [fnsIn_statement, fnsIn_flatMap, List.map_flatMap]
  refine flatMap_congr' fun s h => ?_
  rw [← (fns_client (hs s h).2 _ rfl).1, ← does_client (α := α) (hs s h).2 (hj s h) _ rfl, List.map_map, zip_maps]
  rfl

/-- The functions of each method of each service are found in the text, and do what is said for them. -/
theorem C101_each_partial (hf : PlainFile o c) (hh : Includable header) (hs : ∀ s ∈ services, PlainService s) (hj : NoScriptValues services) :
    ∃ text is, printed (clientSourceText o c header services) = some text ∧ items text = some is ∧
      ∀ s ∈ services, ∀ d ∈ s.methods, ∀ (k : Nat) (g : Sig) (e : Effect α), ((methodSigs o (clientClassOf o c s) d)[k]?).map (·.1) = some g →
        (methodDoes o d)[k]? = some e → ∃ f ∈ fnsIn is, f.sig = g ∧ does f = e := by
  obtain ⟨text, h1, h2⟩ := items_printed (gives_clientSource hf hh hs)
  refine ⟨text, _, h1, h2, fun s h d hd k g e hg he => ?_⟩
  have a1 := (fns_method (o := o) (hs s h).2 hd (around o c)).1
  have a2 := does_method (α := α) (o := o) (hs s h).2 (hj s h) hd (around o c)
  rw [show methodSigs o (clientClassOf o c s) d = _ from a1.symm, List.getElem?_map, Option.map_map] at hg
  rw [← a2, List.getElem?_map] at he
  obtain ⟨f, hk, hg⟩ := Option.map_eq_some_iff.1 hg
  rw [hk] at he
  refine ⟨f, ?_, hg, Option.some.inj he⟩
  rw [fnsIn_statement, fnsIn_flatMap]
  refine List.mem_flatMap.2 ⟨s, h, ?_⟩
  show f ∈ fnsIn (clientItems o c (around o c) s)
  unfold clientItems
  rw [fnsIn_block (fn_client _ _ _ _), fnsIn_flatMap]
  exact List.mem_cons_of_mem _ (List.mem_flatMap.2 ⟨d, hd, List.mem_of_getElem? hk⟩)

/-! ### For the user of a client -/

/-- The parameters of the function for QML with two JavaScript functions, and of the one with an object for the answer. -/
def scriptParams (d : MethodD) : List (List Lexeme × Text) :=
  let I := methodType d.input
  [(cpp! "@I@ *", text! "arg"), (cpp! "const QJSValue &", text! "callback"), (cpp! "const QJSValue &", text! "errorCallback")]
def objectParams (d : MethodD) : List (List Lexeme × Text) :=
  let I := methodType d.input
  let O := methodType d.output
  [(cpp! "@I@ *", text! "arg"), (cpp! "@O@ *", text! "ret"), (cpp! "const QJSValue &", text! "errorCallback")]

/-- A call from QML with two JavaScript functions, for every method of every service. It is refused with one warning and no request if the first
function cannot be called, there is no argument or the client belongs to no engine. Otherwise there is one request, with the value that the argument
has at that time; nothing is told until the answer is there. Then the first function is called once, with a new object that has the type and the
value of the answer and belongs to the engine; all other objects are as before. After a failure the second function is called once, with the status.
Exactly one of them. -/
theorem C101_script_partial (hq : o.qml = true) (hf : PlainFile o c) (hh : Includable header) (hs : ∀ s ∈ services, PlainService s)
    (hj : NoScriptValues services) :
    ∃ text is, printed (clientSourceText o c header services) = some text ∧ items text = some is ∧
      ∀ s ∈ services, ∀ d ∈ s.methods, d.streaming = false →
        ∃ f ∈ fnsIn is, f.cls = clientClassOf o c s ∧ f.name = [.word d.name] ∧ f.params = scriptParams d ∧
          ∀ (g : Given) (w : World α),
            -- refused
            (((g.js (text! "callback")).2 = false ∨ g.ptr (text! "arg") = none ∨ w.hasEngine = false) →
              does f g w .nothing = .ok (none, w.tell .warning)) ∧
            -- made
            (∀ a v, (g.js (text! "callback")).2 = true → g.ptr (text! "arg") = some a → w.objects a = some v → w.hasEngine = true → w.accepts = true →
              ∃ w1, does f g w .nothing = .ok (none, w1) ∧ w1.requests = w.requests ++ [⟨text! "call", d.name, v, none⟩] ∧ w1.told = w.told ∧
                w1.objects = w.objects ∧
                -- answered
                (∀ m data, ∃ w2 n, does f g w (.answered m data) = .ok (none, w2) ∧ n = (m w1).fresh ∧
                  w2.told = (m w1).told ++ [.object (g.js (text! "callback")).1 n] ∧ w2.objects n = some (data (methodType d.output)) ∧
                  (∀ k, k ≠ n → w2.objects k = (m w1).objects k) ∧ w2.owned = (m w1).owned ++ [n] ∧ w2.requests = (m w1).requests) ∧
                -- failed
                (∀ m k, (g.js (text! "errorCallback")).2 = true →
                  does f g w (.failed m k) = .ok (none, (m w1).tell (.status (g.js (text! "errorCallback")).1 k)))) := by
  obtain ⟨text, is, h1, h2, h3⟩ := C101_each_partial (α := α) hf hh hs hj
  refine ⟨text, is, h1, h2, fun s h d hd hst => ?_⟩
  obtain ⟨f, hmem, hsig, hdoes⟩ := h3 s h d hd 3 _ _ (by simp [methodSigs, hst, hq]; rfl) (by simp [methodDoes, hst, hq]; rfl)
  refine ⟨f, hmem, congrArg Sig.cls hsig, congrArg Sig.name hsig, congrArg Sig.params hsig, fun g w => ⟨fun hr => ?_, fun a v hc ha hv he hw => ?_⟩⟩
  · rw [hdoes]
    unfold scriptRequest
    rcases hr with hr | hr | hr
    · simp [hr, meanwhile]
    · simp [hr, meanwhile]
    · simp [hr, meanwhile]
  · rw [hdoes]
    refine ⟨World.ask w (text! "call") d.name v none, by simp [scriptRequest, hc, ha, hv, he, hw], rfl, rfl, rfl, fun m data => ?_, fun m k hk => ?_⟩
    · generalize hm : m (World.ask w (text! "call") d.name v none) = w1
      refine ⟨{ w1 with objects := fun n => if n = w1.fresh then some (data (methodType d.output)) else w1.objects n, fresh := w1.fresh + 1,
                        owned := w1.owned ++ [w1.fresh], told := w1.told ++ [.object (g.js (text! "callback")).1 w1.fresh] }, w1.fresh,
        ?_, rfl, rfl, by simp, fun k hk => by simp [hk], rfl, rfl⟩
      simp only [scriptRequest, hc, ha, hv, he, hw, hm]
    · simp [scriptRequest, hc, ha, hv, he, hw, hk]

/-- A call from QML with an object for the answer: refused with one warning and no request if there is no such object, no argument or no engine.
Otherwise there is one request with the value of the argument. The answer is assigned to the object, and all others are as before; if the object was
destroyed meanwhile nothing but a warning happens. -/
theorem C101_object_partial (hq : o.qml = true) (hf : PlainFile o c) (hh : Includable header) (hs : ∀ s ∈ services, PlainService s)
    (hj : NoScriptValues services) :
    ∃ text is, printed (clientSourceText o c header services) = some text ∧ items text = some is ∧
      ∀ s ∈ services, ∀ d ∈ s.methods, d.streaming = false →
        ∃ f ∈ fnsIn is, f.cls = clientClassOf o c s ∧ f.name = [.word d.name] ∧ f.params = objectParams d ∧
          ∀ (g : Given) (w : World α),
            ((g.ptr (text! "ret") = none ∨ g.ptr (text! "arg") = none ∨ w.hasEngine = false) →
              does f g w .nothing = .ok (none, w.tell .warning)) ∧
            (∀ r a v, g.ptr (text! "ret") = some r → g.ptr (text! "arg") = some a → w.objects a = some v → w.hasEngine = true → w.accepts = true →
              ∃ w1, does f g w .nothing = .ok (none, w1) ∧ w1.requests = w.requests ++ [⟨text! "call", d.name, v, none⟩] ∧ w1.told = w.told ∧
                w1.objects = w.objects ∧
                (∀ m data, (m w1).objects r ≠ none → ∃ w2, does f g w (.answered m data) = .ok (none, w2) ∧
                  w2.objects r = some (data (methodType d.output)) ∧ (∀ k, k ≠ r → w2.objects k = (m w1).objects k) ∧ w2.told = (m w1).told ∧
                  w2.requests = (m w1).requests) ∧
                (∀ m data, (m w1).objects r = none → does f g w (.answered m data) = .ok (none, (m w1).tell .warning)) ∧
                (∀ m k, (g.js (text! "errorCallback")).2 = true →
                  does f g w (.failed m k) = .ok (none, (m w1).tell (.status (g.js (text! "errorCallback")).1 k)))) := by
  obtain ⟨text, is, h1, h2, h3⟩ := C101_each_partial (α := α) hf hh hs hj
  refine ⟨text, is, h1, h2, fun s h d hd hst => ?_⟩
  obtain ⟨f, hmem, hsig, hdoes⟩ := h3 s h d hd 4 _ _ (by simp [methodSigs, hst, hq]; rfl) (by simp [methodDoes, hst, hq]; rfl)
  refine ⟨f, hmem, congrArg Sig.cls hsig, congrArg Sig.name hsig, congrArg Sig.params hsig, fun g w => ⟨fun hr => ?_, fun r a v hc ha hv he hw => ?_⟩⟩
  · rw [hdoes]
    unfold objectRequest
    rcases hr with hr | hr | hr
    · simp [hr, meanwhile]
    · simp [hr, meanwhile]
    · simp [hr, meanwhile]
  · rw [hdoes]
    refine ⟨World.ask w (text! "call") d.name v none, by simp [objectRequest, hc, ha, hv, he, hw], rfl, rfl, rfl, fun m data hr => ?_, fun m data hr => ?_,
      fun m k hk => ?_⟩
    · generalize hm : m (World.ask w (text! "call") d.name v none) = w1 at hr
      refine ⟨{ w1 with objects := fun n => if n = r then some (data (methodType d.output)) else w1.objects n }, ?_, by simp, fun k hk => by simp [hk], rfl, rfl⟩
      simp only [objectRequest, hc, ha, hv, he, hw, hm]
      rw [if_pos (Option.isSome_iff_ne_none.2 hr)]
    · simp [objectRequest, hc, ha, hv, he, hw, hr]
    · simp [objectRequest, hc, ha, hv, he, hw, hk]

/-- C101 is violated: without a channel, a call from QML that is not refused for another reason dereferences a null pointer, for every method of every
service. -/
theorem C101_no_channel_violated (hq : o.qml = true) (hf : PlainFile o c) (hh : Includable header) (hs : ∀ s ∈ services, PlainService s)
    (hj : NoScriptValues services) :
    ∃ text is, printed (clientSourceText o c header services) = some text ∧ items text = some is ∧
      ∀ s ∈ services, ∀ d ∈ s.methods, d.streaming = false →
        ∃ f ∈ fnsIn is, f.cls = clientClassOf o c s ∧ f.name = [.word d.name] ∧ f.params = scriptParams d ∧
          ∀ (g : Given) (w : World α) later, (g.js (text! "callback")).2 = true → g.ptr (text! "arg") ≠ none → w.hasEngine = true → w.accepts = false →
            does f g w later = .ub := by
  obtain ⟨text, is, h1, h2, h3⟩ := C101_each_partial (α := α) hf hh hs hj
  refine ⟨text, is, h1, h2, fun s h d hd hst => ?_⟩
  obtain ⟨f, hmem, hsig, hdoes⟩ := h3 s h d hd 3 _ _ (by simp [methodSigs, hst, hq]; rfl) (by simp [methodDoes, hst, hq]; rfl)
  refine ⟨f, hmem, congrArg Sig.cls hsig, congrArg Sig.name hsig, congrArg Sig.params hsig, fun g w later hc ha he hw => ?_⟩
  obtain ⟨a, ha⟩ := Option.ne_none_iff_exists'.1 ha
  rw [hdoes]
  unfold scriptRequest
  cases hv : w.objects a <;> simp [hc, ha, he, hw, hv]

/-- C101 is violated: the function that starts a stream for QML dereferences its argument without looking whether there is one, for every stream of
every service. -/
theorem C101_stream_null_violated (hq : o.qml = true) (hf : PlainFile o c) (hh : Includable header) (hs : ∀ s ∈ services, PlainService s)
    (hj : NoScriptValues services) :
    ∃ text is, printed (clientSourceText o c header services) = some text ∧ items text = some is ∧
      ∀ s ∈ services, ∀ d ∈ s.methods, d.streaming = true →
        ∃ f ∈ fnsIn is, f.cls = clientClassOf o c s ∧ f.name = [.word (text! "qmlStream" ++ upperCaseName d.name ++ text! "_p")] ∧
          ∀ (g : Given) (w : World α) later, g.ptr (text! "arg") = none → does f g w later = .ub := by
  obtain ⟨text, is, h1, h2, h3⟩ := C101_each_partial (α := α) hf hh hs hj
  refine ⟨text, is, h1, h2, fun s h d hd hst => ?_⟩
  obtain ⟨f, hmem, hsig, hdoes⟩ := h3 s h d hd 2 _ _ (by simp [methodSigs, hst, hq]; rfl) (by simp [methodDoes, hst, hq]; rfl)
  refine ⟨f, hmem, congrArg Sig.cls hsig, ?_, fun g w later ha => ?_⟩
  · have := congrArg Sig.name hsig
    simp only [Fn.sig] at this
    simpa using this
  · rw [hdoes]
    simp [streamRequest, ha]

/-- C101 is violated: who calls with a function for the reply is told of the answer, but of a failure and of a missing channel never (but for a
warning in the log). -/
theorem C101_callback_violated (hf : PlainFile o c) (hh : Includable header) (hs : ∀ s ∈ services, PlainService s) (hj : NoScriptValues services) :
    ∃ text is, printed (clientSourceText o c header services) = some text ∧ items text = some is ∧
      ∀ s ∈ services, ∀ d ∈ s.methods, d.streaming = false →
        ∃ f ∈ fnsIn is, f.cls = clientClassOf o c s ∧ f.name = [.word d.name] ∧ f.params.map (·.2) = [text! "arg", text! "context", text! "callback"] ∧
          ∀ (g : Given) (w : World α) v, w.objects (g.ref (text! "arg")) = some v →
            ∃ w1, w1.requests = w.requests ++ [⟨text! "call", d.name, v, none⟩] ∧
              (w.accepts = true → w1.told = w.told ∧ (∀ m data, does f g w (.answered m data) = .ok (none, (m w1).tell (.reply (g.fn (text! "callback")) w.requests.length))) ∧
                ∀ m k, does f g w (.failed m k) = .ok (none, m w1)) ∧
              (w.accepts = false → w1.told = w.told ++ [.warning] ∧ (∀ m data, does f g w (.answered m data) = .ok (none, m w1)) ∧
                ∀ m k, does f g w (.failed m k) = .ok (none, m w1)) := by
  obtain ⟨text, is, h1, h2, h3⟩ := C101_each_partial (α := α) hf hh hs hj
  refine ⟨text, is, h1, h2, fun s h d hd hst => ?_⟩
  obtain ⟨f, hmem, hsig, hdoes⟩ := h3 s h d hd 2 _ _ (by simp [methodSigs, hst]; rfl) (by simp [methodDoes, hst]; rfl)
  refine ⟨f, hmem, congrArg Sig.cls hsig, congrArg Sig.name hsig, ?_, fun g w v hv => ?_⟩
  · have := congrArg Sig.params hsig
    simp only [Fn.sig] at this
    rw [this]
    rfl
  · rw [hdoes]
    cases ha : w.accepts
    · exact ⟨(World.ask w (text! "call") d.name v none).tell .warning, rfl, fun h => (by cases h),
        fun _ => ⟨rfl, fun m data => by simp [callbackRequest, hv, ha, meanwhile], fun m k => by simp [callbackRequest, hv, ha, meanwhile]⟩⟩
    · exact ⟨World.ask w (text! "call") d.name v none, rfl,
        fun _ => ⟨rfl, fun m data => by simp [callbackRequest, hv, ha], fun m k => by simp [callbackRequest, hv, ha, meanwhile]⟩, fun h => (by cases h)⟩

end

/-! ### The hypotheses can be met -/

namespace Sample

theorem noScriptValues : NoScriptValues [service] := by
  intro s hs d hd
  rw [List.mem_singleton.1 hs] at hd
  simp [service] at hd
  rcases hd with rfl | rfl <;> decide

/-- Two objects: an argument and one for the answer. -/
def world : World Nat := ⟨fun n => if n < 2 then some (n + 10) else none, 2, true, true, [], [], []⟩
def given : Given := ⟨fun _ => 0, fun n => if n = text! "arg" then some 0 else some 1, fun _ => (7, true), fun _ => 8⟩

/-- Requests, how often something is told, the second and the third object. -/
def summary : Res (Option Client.Value × World Nat) → Option (List (Text × Text × Nat × Option (Option Nat)) × Nat × Option Nat × Option Nat)
  | .ok (_, w) => some (w.requests.map (fun r => (r.function, r.method, r.argument, r.target)), w.told.length, w.objects 1, w.objects 2)
  | _ => none

/-- The nine functions of the sample, run: what the answer does, in order. -/
example : ∃ text is, printed (clientSourceText opts ctx (text! "sample.qpb") [service]) = some text ∧ items text = some is ∧
    (fnsIn is).map (fun f => summary (does f given world (.answered id fun _ => 42))) =
    [some ([], 0, some 11, none),
     some ([(text! "call", text! "get", 10, some (some 1))], 0, some 11, none),
     some ([(text! "call", text! "get", 10, none)], 0, some 11, none),
     some ([(text! "call", text! "get", 10, none)], 1, some 11, none),
     some ([(text! "call", text! "get", 10, none)], 1, some 11, some 42),
     some ([(text! "call", text! "get", 10, none)], 0, some 42, none),
     some ([(text! "stream", text! "upd", 10, none)], 0, some 11, none),
     some ([(text! "stream", text! "upd", 10, some (some 1))], 0, some 11, none),
     some ([(text! "stream", text! "upd", 10, some (some 1))], 0, some 11, none)] := by
  obtain ⟨text, is, h1, h2, h3⟩ := C101_methods_partial (α := Nat) plainFile hdr plainService noScriptValues
  refine ⟨text, is, h1, h2, ?_⟩
  have h4 := congrArg (List.map fun p : Sig × Effect Nat => summary (p.2 given world (.answered id fun _ => 42))) h3
  rw [List.map_map] at h4
  exact Eq.trans h4 (by rfl)

example : ∃ text is, printed (clientSourceText opts ctx (text! "sample.qpb") [service]) = some text ∧ items text = some is ∧
    ∃ f ∈ fnsIn is, f.name = [.word (text! "get")] ∧ does f given { world with accepts := false } .nothing = .ub := by
  obtain ⟨text, is, h1, h2, h3⟩ := C101_no_channel_violated (α := Nat) rfl plainFile hdr plainService noScriptValues
  obtain ⟨f, hm, _, hn, _, h⟩ := h3 service (by simp) ⟨text! "get", [text! "a", text! "B"], [text! "a", text! "B"], false⟩ (by simp [service]) rfl
  exact ⟨text, is, h1, h2, f, hm, hn, h given { world with accepts := false } _ rfl (by decide) rfl rfl⟩

example : ∃ text is, printed (clientSourceText opts ctx (text! "sample.qpb") [service]) = some text ∧ items text = some is ∧
    ∃ f ∈ fnsIn is, f.name = [.word (text! "qmlStreamUpd_p")] ∧ does f { given with ptr := fun _ => none } world .nothing = .ub := by
  obtain ⟨text, is, h1, h2, h3⟩ := C101_stream_null_violated (α := Nat) rfl plainFile hdr plainService noScriptValues
  obtain ⟨f, hm, _, hn, h⟩ := h3 service (by simp) ⟨text! "upd", [text! "a", text! "B"], [text! "a", text! "B"], true⟩ (by simp [service]) rfl
  exact ⟨text, is, h1, h2, f, hm, by rw [hn]; decide +kernel, h { given with ptr := fun _ => none } world _ rfl⟩

/-- An object for the answer that is destroyed before the answer is there. -/
example : ∃ text is, printed (clientSourceText opts ctx (text! "sample.qpb") [service]) = some text ∧ items text = some is ∧
    ∃ f ∈ fnsIn is, f.name = [.word (text! "get")] ∧ ∃ w : World Nat, does f given world (.answered (fun w => { w with objects := fun _ => none }) fun _ => 42) =
      .ok (none, w) ∧ w.objects 1 = none ∧ w.told.length = 1 := by
  obtain ⟨text, is, h1, h2, h3⟩ := C101_object_partial (α := Nat) rfl plainFile hdr plainService noScriptValues
  obtain ⟨f, hm, _, hn, _, h⟩ := h3 service (by simp) ⟨text! "get", [text! "a", text! "B"], [text! "a", text! "B"], false⟩ (by simp [service]) rfl
  obtain ⟨w1, _, _, ht, _, _, hgone, _⟩ := (h given world).2 1 0 10 rfl rfl rfl rfl rfl
  refine ⟨text, is, h1, h2, f, hm, hn, _, hgone (fun w => { w with objects := fun _ => none }) (fun _ => 42) rfl, rfl, ?_⟩
  show (w1.told ++ [Told.warning]).length = 1
  rw [ht]
  rfl

end Sample

end QtPb.Gen.Text
