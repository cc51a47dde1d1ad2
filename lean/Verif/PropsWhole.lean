import Verif.SpecWhole
import Verif.PropsEndToEnd
import Verif.PropsMeta
import Verif.PropsGenClientRun
/-
Property C106. A generated program from end to end: properties of the argument, the function of the generated client, the call over HTTP/2, a server that follows the
specifications of gRPC and protobuf, and properties of the reply.
-/
namespace QtPb.Whole
open Whole.Spec Http2 Native Call QtPb.Spec Http2.Spec EndToEnd EndToEnd.Spec Meta Meta.Spec QtPb.SpecCpp QtPb.SpecCpp.Client QtPb.TextProof QtPb.Gen.Text QtPb.Gen.Text.Spec

section
variable {env : Env} {classes : Nat → Meta.Class} {q : Containers} {last : Bool}

/-! ### The models of single parts -/

theorem writeVal_cases (ty : FieldTy) (x v : Val) : writeVal ty x v = x ∨ writeVal ty x v = v := by
  unfold writeVal
  repeat' split
  all_goals first | exact Or.inl rfl | exact Or.inr rfl

/-- What is assigned has the type of the message. -/
theorem assign_typed : ∀ (n : Nat) {m : Nat} {cur src r : Obj}, WellTyped env m cur → WellTyped env m src → QtPb.assign env n m cur src = .ok r → WellTyped env m r := by
  intro n
  induction n with
  | zero => intro m cur src r _ _ h; simp [QtPb.assign] at h
  | succ n ih =>
    intro m cur src r hc hs h
    have hv : ∀ {ty : FieldTy} {c s v : Val}, HasTy env ty c → HasTy env ty s → assignVal env (lazyNe env n) (QtPb.assign env n) ty c s = .ok v → HasTy env ty v := by
      intro ty c s v tc ts hv
      cases ty with
      | msg k =>
        simp only [assignVal, Res.bind_eq, Res.bind_eq_ok] at hv
        obtain ⟨b, -, hv⟩ := hv
        cases b with
        | false => simp at hv; exact hv ▸ tc
        | true =>
          simp only [if_true, Res.bind_eq_ok, Res.ok.injEq] at hv
          obtain ⟨o, ho, rfl⟩ := hv
          refine ih ?_ ?_ ho <;> unfold deref <;> split
          all_goals first | assumption | exact (default_safe k).hasTy
      | _ =>
        simp only [assignVal, Res.ok.injEq] at hv
        subst hv
        rcases writeVal_cases _ c s with e | e <;> rw [e] <;> assumption
    have hf : ∀ {fs : List QtPb.Field} {cur src r : Obj}, cur.length = fs.length → src.length = fs.length →
        (∀ (i : Nat) (f : QtPb.Field) (v : Val), fs[i]? = some f → cur[i]? = some v → HasTy env f.ty v) →
        (∀ (i : Nat) (f : QtPb.Field) (v : Val), fs[i]? = some f → src[i]? = some v → HasTy env f.ty v) →
        assignFields env (lazyNe env n) (QtPb.assign env n) fs cur src = .ok r →
        r.length = fs.length ∧ ∀ (i : Nat) (f : QtPb.Field) (v : Val), fs[i]? = some f → r[i]? = some v → HasTy env f.ty v := by
      intro fs
      induction fs with
      | nil => intro cur src r _ _ _ _ h; simp only [assignFields, Res.ok.injEq] at h; subst h; simp
      | cons f fs ihf =>
        intro cur src r lc ls hc hs h
        cases cur with
        | nil => simp at lc
        | cons c cur =>
          cases src with
          | nil => simp at ls
          | cons s src =>
            simp only [assignFields, Res.bind_eq, Res.bind_eq_ok] at h
            obtain ⟨v, e1, r', e2, h⟩ := h
            cases h
            have a1 := hv (hc 0 f c rfl rfl) (hs 0 f s rfl rfl) e1
            have a2 := ihf (by simpa using lc) (by simpa using ls) (fun i f v hf hv => hc (i + 1) f v (by simpa using hf) (by simpa using hv))
              (fun i f v hf hv => hs (i + 1) f v (by simpa using hf) (by simpa using hv)) e2
            refine ⟨by simp [a2.1], fun i g w hg hw => ?_⟩
            cases i with
            | zero => simp at hg hw; subst hg hw; exact a1
            | succ i => exact a2.2 i g w (by simpa using hg) (by simpa using hw)
    cases hc with
    | msg lc hc =>
      cases hs with
      | msg ls hs =>
        have := hf lc ls hc hs h
        exact .msg this.1 this.2

theorem generated_of (hp : Meta.Spec.Program env classes) : Gen.Text.Spec.Generated env (fun k => (classes k).text) := fun k => by
  obtain ⟨u, b, h, -⟩ := hp k
  exact ⟨u, b, _, _, h.plain, h.body, h.fields, h.header, h.source, h.name ▸ h.text⟩

theorem deserialize_eq (hp : Meta.Spec.Program env classes) (hq : Gen.Text.Spec.Pointers q) (d n : Nat) {m : Nat} {old : Obj} (ho : WellTyped env m old) (data : Bytes) :
    deserialize env classes (libOf env q classes d) n m data old = QtPb.deserialize env n (d + 1) m data old := by
  unfold deserialize QtPb.deserialize
  rw [Meta.deserialize_eq hp hq (lib_same d) n]
  dsimp only
  have ht : WellTyped env m (QtPb.deserializeMessage env n m data).2 := deserializeMessage_typed n m data
  rw [(runs hq (generated_of hp) d m ho ht).2.2.1]
  congr 1
  cases h : QtPb.assign env (d + 1) m old (QtPb.deserializeMessage env n m data).2 with
  | ok r =>
    obtain ⟨sg, hsg⟩ := changeSignals_ok (q := q) (all := true) (names := (classes m).text.changed) (n := d) h
    show ((changeSignals _ _ _ _ _ _ _).bind _).bind _ = _
    rw [hsg]
    rfl
  | throw e => rfl
  | ub => rfl
  | fuel => rfl

theorem read_eq' (hp : Meta.Spec.Program env classes) (hq : Gen.Text.Spec.Pointers q) (d n : Nat) {m : Nat} {old : Obj} (ho : WellTyped env m old) (data : Bytes) :
    read env classes (libOf env q classes d) n m old data = EndToEnd.read env n (d + 1) m old data := by
  unfold read EndToEnd.read
  rw [deserialize_eq hp hq d n ho]
  rfl

theorem read_typed {n k m : Nat} {old : Obj} (ho : WellTyped env m old) {data : Bytes} {r : Obj × Option Thrown} (h : EndToEnd.read env n k m old data = some r) :
    WellTyped env m r.1 := by
  have ht : WellTyped env m (QtPb.deserializeMessage env n m data).2 := deserializeMessage_typed n m data
  unfold EndToEnd.read QtPb.deserialize at h
  dsimp only at h
  split at h
  all_goals first
    | (rename_i hs; cases h; exact assign_typed k ho ht hs)
    | cases h

theorem updates_eq (hp : Meta.Spec.Program env classes) (hq : Gen.Text.Spec.Pointers q) (d n : Nat) {m : Nat} : ∀ (datas : List Bytes) {ret : Obj}, WellTyped env m ret →
    updates env classes (libOf env q classes d) n m ret datas = EndToEnd.updates env n (d + 1) m ret datas
  | [], _, _ => rfl
  | data :: rest, ret, ho => by
    rw [updates, EndToEnd.updates, read_eq' hp hq d n ho]
    cases h : EndToEnd.read env n (d + 1) m ret data with
    | none => rfl
    | some r =>
      dsimp only
      have : WellTyped env m (tryDeserialize (some fun _ _ => r) ret data).1 := by
        have := read_typed ho h
        obtain ⟨o, e⟩ := r
        cases e with
        | none => exact this
        | some e => cases e <;> exact this
      rw [updates_eq hp hq d n rest this]
      rfl

/-- C106: a program of generated classes makes calls as the model of `Verif/EndToEnd.lean`, whose objects are lists of fields, does. So all that is proved there holds for it. -/
theorem C106_same_partial (hp : Meta.Spec.Program env classes) (hq : Gen.Text.Spec.Pointers q) (d n : Nat) {mA mR : Nat} {arg ret : Obj} (harg : WellTyped env mA arg)
    (hret : WellTyped env mR ret) (method service : String) :
    (∀ world, unary env classes (libOf env q classes d) last n world method service mA mR arg ret = EndToEnd.unary env n (d + 1) world method service mA mR arg ret) ∧
    ∀ chunks, stream env classes (libOf env q classes d) last n chunks method service mA mR arg ret = EndToEnd.stream env n (d + 1) chunks method service mA mR arg ret := by
  have hs := serialize_eq (lib := libOf env q classes d) (last := last) hp n mA arg harg
  constructor
  · intro world
    unfold unary EndToEnd.unary
    rw [hs]
    cases h : QtPb.serializeMessage env n mA arg with
    | ok argData =>
      dsimp only
      cases hc : EndToEnd.channelCall world method service argData with
      | none => rfl
      | some x =>
        cases x with
        | ok x =>
          dsimp only
          rw [read_eq' hp hq d n hret]
          have e : callTyped (some ⟨some (Meta.serializeMessage env classes (libOf env q classes d) last n mA, fun r d' => (read env classes (libOf env q classes d) n mR r d').getD (r, none)), fun _ => (x.1, x.2)⟩) method arg false ret =
              callTyped (some ⟨some (QtPb.serializeMessage env n mA, fun r d' => (EndToEnd.read env n (d + 1) mR r d').getD (r, none)), fun _ => (x.1, x.2)⟩) method arg false ret := by
            simp only [callTyped, serializer, hs, h, callBytes, tryDeserialize, read_eq' hp hq d n hret]
            rfl
          rw [e]
        | throw e => rfl
        | ub => rfl
        | fuel => rfl
    | throw e => rfl
    | ub => rfl
    | fuel => rfl
  · intro chunks
    unfold stream EndToEnd.stream
    rw [hs]
    cases h : QtPb.serializeMessage env n mA arg with
    | ok argData =>
      dsimp only
      cases hc : receive n none (chunks (post method service argData)) with
      | ok x => exact updates_eq hp hq d n _ hret
      | throw e => rfl
      | ub => rfl
      | fuel => rfl
    | throw e => rfl
    | ub => rfl
    | fuel => rfl

/-! ### Properties -/

theorem lastTo_cons (j : Nat) (w : Nat × FieldTy × Val) (ws : List (Nat × FieldTy × Val)) :
    lastTo j (w :: ws) = (lastTo j ws).or (if w.1 = j then some w.2.2 else none) := by
  unfold lastTo
  rw [List.reverse_cons, List.find?_append, List.find?_singleton]
  cases h : ws.reverse.find? (·.1 == j) with
  | some x => simp
  | none => by_cases e : w.1 = j <;> simp [e]

theorem value_at {m : Nat} {o : Obj} (h : Clean env (.msg m) (.msg o)) {j : Nat} {g : QtPb.Field} (hg : (env.sch m)[j]? = some g) :
    ∃ x, o[j]? = some x ∧ Clean env g.ty x := by
  cases h with
  | msg l h =>
    have hi := (List.getElem?_eq_some_iff.1 hg).1
    exact ⟨_, List.getElem?_eq_getElem (l ▸ hi), h j g _ hg (List.getElem?_eq_getElem (l ▸ hi))⟩

theorem length_of {m : Nat} {o : Obj} (h : HasTy env (.msg m) (.msg o)) : o.length = (env.sch m).length := by cases h; assumption

theorem writes_object (hp : Meta.Spec.Program env classes) (hq : Gen.Text.Spec.Pointers q) (d : Nat) {m : Nat} : ∀ (ws : List (Nat × FieldTy × Val)) {obj : Obj},
    Clean env (.msg m) (.msg obj) → Writable env m ws → ∃ obj', writes classes (libOf env q classes d) m ws obj = .ok obj' ∧ Clean env (.msg m) (.msg obj') ∧
      ∀ (j : Nat) (g : QtPb.Field) (x y : Val), (env.sch m)[j]? = some g → obj[j]? = some x → obj'[j]? = some y → Same env g.ty y ((lastTo (j + 1) ws).getD x)
  | [], obj, hobj, _ => by
    refine ⟨obj, rfl, hobj, fun j g x y hg hx hy => ?_⟩
    cases hx.symm.trans hy
    obtain ⟨x', hx', tx⟩ := value_at hobj hg
    cases hx.symm.trans hx'
    exact Same.refl tx.plain
  | (index, ty, v) :: rest, obj, hobj, hw => by
    obtain ⟨i, g, rfl, hg, rfl, tv⟩ := hw _ (List.mem_cons_self)
    obtain ⟨u, b, hc, hd⟩ := hp m
    obtain ⟨f, hf⟩ := field_at hc hg
    obtain ⟨x, hx, tx⟩ := value_at hobj hg
    have la := length_of hobj.plain.safe.hasTy
    have e := write_prop hc hq (lib_same (env := env) (classes := classes) d) hf hg la hx tv.plain.safe.hasTy
    have tz : Clean env g.ty (writeVal g.ty x v) := by rcases writeVal_cases g.ty x v with e | e <;> rw [e] <;> assumption
    have hz : Same env g.ty (writeVal g.ty x v) v := (writeVal_mirrors tx.plain.safe tv.plain.safe).1.toSame tv.plain
    have hset : Clean env (.msg m) (.msg (obj.set i (writeVal g.ty x v))) := by
      refine .msg (by simpa using la) fun j g' w hg' hj => ?_
      rw [List.getElem?_set] at hj
      split at hj
      · rename_i e
        subst e
        cases hg.symm.trans hg'
        split at hj <;> cases hj
        exact tz
      · cases hobj with | msg _ h => exact h j g' w hg' hj
    obtain ⟨obj', k1, k2, k3⟩ := writes_object hp hq d rest hset (fun w h => hw w (List.mem_cons_of_mem _ h))
    refine ⟨obj', ?_, k2, fun j g' a y hg' ha hy => ?_⟩
    · show (match (classes m).property (i + 1) with | none => _ | some p => _) = _
      rw [property_eq hc hf]
      dsimp only
      rw [e]
      exact k1
    · rw [lastTo_cons]
      by_cases hij : i = j
      · subst hij
        cases hg.symm.trans hg'
        have hzi : (obj.set i (writeVal g.ty x v))[i]? = some (writeVal g.ty x v) := by
          rw [List.getElem?_set_self (la ▸ (List.getElem?_eq_some_iff.1 hg).1)]
        have := k3 i g _ y hg hzi hy
        simp only [if_true]
        cases hl : lastTo (i + 1) rest with
        | some v' => rw [hl] at this; simpa using this
        | none =>
          rw [hl] at this
          obtain ⟨y', hy', ty⟩ := value_at k2 hg
          cases hy.symm.trans hy'
          exact Same.trans (by simpa using this) hz ty.plain.safe tz.plain.safe tv.plain.safe
      · have hne : (obj.set i (writeVal g.ty x v))[j]? = some a := by rw [List.getElem?_set_ne hij]; exact ha
        have := k3 j g' a y hg' hne hy
        have e2 : ¬ (i + 1 = j + 1) := by omega
        simp only [if_neg e2, Option.or_none]
        exact this

/-- C106: properties of an object are written, one after another. Each write returns, and afterwards every property has the value that was written last, or the one it had. -/
theorem C106_writes_partial (hp : Meta.Spec.Program env classes) (hq : Gen.Text.Spec.Pointers q) (d : Nat) {m : Nat} {obj : Obj} (hobj : Clean env (.msg m) (.msg obj))
    {ws : List (Nat × FieldTy × Val)} (hw : Writable env m ws) :
    ∃ obj', writes classes (libOf env q classes d) m ws obj = .ok obj' ∧ Clean env (.msg m) (.msg obj') ∧
      ∀ (j : Nat) (g : QtPb.Field), (env.sch m)[j]? = some g → ∃ p x y, (classes m).property (j + 1) = some p ∧
        (classes m).read (libOf env q classes d) p obj = .ok (g.ty, x) ∧ (classes m).read (libOf env q classes d) p obj' = .ok (g.ty, y) ∧
        Same env g.ty y ((lastTo (j + 1) ws).getD x) := by
  obtain ⟨obj', h1, h2, h3⟩ := writes_object hp hq d ws hobj hw
  refine ⟨obj', h1, h2, fun j g hg => ?_⟩
  obtain ⟨u, b, hc, hd⟩ := hp m
  obtain ⟨f, hf⟩ := field_at hc hg
  obtain ⟨x, hx, -⟩ := value_at hobj hg
  obtain ⟨y, hy, -⟩ := value_at h2 hg
  exact ⟨_, x, y, property_eq hc hf, read_eq hc hf hg (length_of hobj.plain.safe.hasTy) hx, read_eq hc hf hg (length_of h2.plain.safe.hasTy) hy, h3 j g x y hg hx hy⟩

/-! ### Calls of generated clients -/

theorem shows_of (hp : Meta.Spec.Program env classes) {lib : Lib} {m : Nat} {obj msg : Obj} (h1 : WellTyped env m obj) (h2 : msg.length = (env.sch m).length)
    (h : Same env (.msg m) (.msg obj) (.msg msg)) : Shows env classes lib m obj msg := fun i g hg => by
  obtain ⟨u, b, hc, hd⟩ := hp m
  obtain ⟨f, hf⟩ := field_at hc hg
  have hi := (List.getElem?_eq_some_iff.1 hg).1
  have hx := List.getElem?_eq_getElem (length_of h1 ▸ hi)
  have hy := List.getElem?_eq_getElem (h2 ▸ hi)
  exact ⟨_, _, _, property_eq hc hf, read_eq hc hf hg (length_of h1) hx, hy, field_same h hg hx hy⟩

section
variable {o : Gen.Options} {c : Ctx} {services : List ServiceText} {header : Gen.Str}

theorem functions (hf : PlainFile o c) (hh : Includable header) (hs : ∀ s ∈ services, PlainService s) (hj : NoScriptValues services) {s : ServiceText} (h : s ∈ services)
    {d : MethodD} (hd : d ∈ s.methods) {k : Nat} {g : Sig} {e : Effect Obj} (hk : ((methodSigs o (clientClassOf o c s) d)[k]?).map (·.1) = some g)
    (he : (methodDoes o d)[k]? = some e) :
    ∃ text is ctor f, printed (clientSourceText o c header services) = some text ∧ items text = some is ∧ ctor ∈ fnsIn is ∧ f ∈ fnsIn is ∧ ctor.isCtor = true ∧
      ctor.cls = clientClassOf o c s ∧ serviceOf ctor = some ((text! ".").intercalate (c.package ++ [s.name])) ∧ f.sig = g ∧ does f = e := by
  obtain ⟨text, is, h1, h2, h3⟩ := C101_each_partial (α := Obj) hf hh hs hj
  obtain ⟨text', is', h1', h2', -, h3', -⟩ := C95_clients_partial hf hh hs
  cases h1.symm.trans h1'
  cases h2.symm.trans h2'
  obtain ⟨f, k1, k2, k3⟩ := h3 s h d hd k g e hk he
  have : (clientClassOf o c s, clientInits c s) ∈ ((fnsIn is).filter Fn.isCtor).map (fun f => (f.cls, f.inits)) := by
    rw [h3']
    exact List.mem_map.2 ⟨s, h, rfl⟩
  obtain ⟨ctor, hm, e⟩ := List.mem_map.1 this
  rw [List.mem_filter] at hm
  simp only [Prod.mk.injEq] at e
  refine ⟨text, is, ctor, f, h1, h2, hm.1, k1, hm.2, e.1, ?_, k2, k3⟩
  unfold serviceOf
  rw [e.2]
  rfl

/-- C106: a blocking call of a generated client, for every method of every service of a file. The constructor and the function are found in the text of the client. The
function asks the base class for one call with the value of its argument. A server at the path of the method that computes `F` receives a message with the values that the
properties of the argument show; the call returns the status Ok and reports no error, and the properties of the reply object show the message that the server has answered with. -/
theorem C106_call_partial (hp : Meta.Spec.Program env classes) (hq : Gen.Text.Spec.Pointers q) (hv : ValidSchema env) (ho : ValidOrder env) {rank : Nat → Nat}
    (ha : Acyclic env rank) (hb : NoRepeatedBool env) (hE : env.fromUtf8 (env.toUtf8 []) = [])
    (hf : PlainFile o c) (hh : Includable header) (hs : ∀ s ∈ services, PlainService s) (hj : NoScriptValues services) {s : ServiceText} (h : s ∈ services)
    {d : MethodD} (hd : d ∈ s.methods) (hst : d.streaming = false) {mA mR : Nat} (hA : (classes mA).name = d.input) (hR : (classes mR).name = d.output) :
    ∃ text is ctor f, printed (clientSourceText o c header services) = some text ∧ items text = some is ∧ ctor ∈ fnsIn is ∧ f ∈ fnsIn is ∧
      ctor.isCtor = true ∧ ctor.cls = clientClassOf o c s ∧ f.cls = clientClassOf o c s ∧ f.name = [.word d.name] ∧
      f.params = replyParams (classes mA).name (classes mR).name ∧
      ∀ (g : Given) (w : Client.World Obj) (arg ret : Obj) (world : EndToEnd.World) (F : Obj → Obj), w.objects (g.ref (text! "arg")) = some arg →
        Clean env (.msg mA) (.msg arg) →
        (∀ n bs, Meta.serializeMessage env classes (libOf env q classes 0) last n mA arg = .ok bs → bs.length < 2 ^ 31) →
        Serves env mA mR (pathOf c s d) F world → (∀ a, Same env (.msg mA) (.msg arg) (.msg a) → Plain env (.msg mR) (.msg (F a))) → Target env mR ret →
        ∃ w1 r sent, does f g w .nothing = .ok (some (.made w.requests.length), w1) ∧ w1.requests = w.requests ++ [r] ∧ r.argument = arg ∧
          r.target = some (g.ptr (text! "ret")) ∧ (∀ k, Shows env classes (libOf env q classes k) mA arg sent) ∧
          ∃ N, ∀ n, N ≤ n → ∃ K, ∀ k, K ≤ k → ∃ reply,
            answer env classes (libOf env q classes k) last n world ctor mA mR r ret = some (.returned reply ⟨Status.Ok, ""⟩ []) ∧
            Shows env classes (libOf env q classes k) mR reply (F sent) := by
  obtain ⟨text, is, ctor, f, h1, h2, h3, h4, h5, h6, h7, h8, h9⟩ := functions (k := 0) hf hh hs hj h hd (by simp [methodSigs, hst]; rfl) (by simp [methodDoes, hst]; rfl)
  refine ⟨text, is, ctor, f, h1, h2, h3, h4, h5, h6, congrArg Sig.cls h8, congrArg Sig.name h8, ?_, fun g w arg ret world F hobj harg hsmall hserver hF hret => ?_⟩
  · rw [hA, hR]
    exact congrArg Sig.params h8
  · have ta : WellTyped env mA arg := harg.plain.safe.hasTy
    have tr : WellTyped env mR ret := by
      rcases hret with rfl | ⟨-, hr⟩
      · exact (default_safe mR).hasTy
      · exact hr.hasTy
    obtain ⟨N, a, e1, el, e2⟩ := C76_answer_partial (method := String.ofList d.name) (service := fullService c s) hv ho ha hb hE harg
      (fun n bs hbs => hsmall n bs ((serialize_eq hp n mA arg ta).trans hbs)) hserver hF hret
    refine ⟨Gen.Text.Spec.World.ask w (text! "call") d.name arg (some (g.ptr (text! "ret"))), ⟨text! "call", d.name, arg, some (g.ptr (text! "ret"))⟩, a, ?_, rfl, rfl, rfl, fun k => ?_, N, fun n hn => ?_⟩
    · rw [h9]
      unfold plainRequest
      rw [hobj]
      rfl
    · exact shows_of hp ta el e1
    · obtain ⟨K, hK⟩ := e2 n hn
      refine ⟨K, fun k hk => ?_⟩
      obtain ⟨reply, e3, e4, e5⟩ := hK (k + 1) (by omega)
      refine ⟨reply, ?_, ?_⟩
      · unfold answer
        rw [h7]
        exact ((C106_same_partial hp hq k n ta tr _ _).1 world).trans e3
      · exact shows_of hp e5.hasTy (length_of (hF a e1).safe.hasTy) e4

/-- C106: a server at the path of the method that refuses the request with a status other than 0. The call returns this status and reports it as an error, and the reply object
is as it was. -/
theorem C106_refused_partial (hp : Meta.Spec.Program env classes) (hq : Gen.Text.Spec.Pointers q) (hv : ValidSchema env) (ho : ValidOrder env) {rank : Nat → Nat}
    (ha : Acyclic env rank) (hb : NoRepeatedBool env) (hE : env.fromUtf8 (env.toUtf8 []) = [])
    (hf : PlainFile o c) (hh : Includable header) (hs : ∀ s ∈ services, PlainService s) (hj : NoScriptValues services) {s : ServiceText} (h : s ∈ services)
    {d : MethodD} (hd : d ∈ s.methods) (hst : d.streaming = false) {mA mR : Nat} (hA : (classes mA).name = d.input) (hR : (classes mR).name = d.output) :
    ∃ text is ctor f, printed (clientSourceText o c header services) = some text ∧ items text = some is ∧ ctor ∈ fnsIn is ∧ f ∈ fnsIn is ∧
      ctor.isCtor = true ∧ ctor.cls = clientClassOf o c s ∧ f.cls = clientClassOf o c s ∧ f.name = [.word d.name] ∧
      f.params = replyParams (classes mA).name (classes mR).name ∧
      ∀ (g : Given) (w : Client.World Obj) (arg ret : Obj) (world : EndToEnd.World) (code : Nat), w.objects (g.ref (text! "arg")) = some arg →
        Clean env (.msg mA) (.msg arg) →
        (∀ n bs, Meta.serializeMessage env classes (libOf env q classes 0) last n mA arg = .ok bs → bs.length < 2 ^ 31) →
        Refuses env mA (pathOf c s d) code world → code ≠ 0 → code < 2 ^ 31 → WellTyped env mR ret →
        ∃ w1 r message, does f g w .nothing = .ok (some (.made w.requests.length), w1) ∧ w1.requests = w.requests ++ [r] ∧
          ∃ N, ∀ n k, N ≤ n →
            answer env classes (libOf env q classes k) last n world ctor mA mR r ret = some (.returned ret ⟨code, message⟩ [⟨code, message⟩]) := by
  obtain ⟨text, is, ctor, f, h1, h2, h3, h4, h5, h6, h7, h8, h9⟩ := functions (k := 0) hf hh hs hj h hd (by simp [methodSigs, hst]; rfl) (by simp [methodDoes, hst]; rfl)
  refine ⟨text, is, ctor, f, h1, h2, h3, h4, h5, h6, congrArg Sig.cls h8, congrArg Sig.name h8, ?_, fun g w arg ret world code hobj harg hsmall hserver hc hc' tr => ?_⟩
  · rw [hA, hR]
    exact congrArg Sig.params h8
  · have ta : WellTyped env mA arg := harg.plain.safe.hasTy
    obtain ⟨N, a, body, -, -, e⟩ := C76_refused_partial (method := String.ofList d.name) (service := fullService c s) hv ho ha hb hE mR ret harg
      (fun n bs hbs => hsmall n bs ((serialize_eq hp n mA arg ta).trans hbs)) hserver hc hc'
    refine ⟨Gen.Text.Spec.World.ask w (text! "call") d.name arg (some (g.ptr (text! "ret"))), ⟨text! "call", d.name, arg, some (g.ptr (text! "ret"))⟩, (world ⟨"/" ++ fullService c s ++ "/" ++ String.ofList d.name, body⟩).2, ?_, rfl, N, fun n k hn => ?_⟩
    · rw [h9]
      unfold plainRequest
      rw [hobj]
      rfl
    · unfold answer
      rw [h7]
      exact ((C106_same_partial hp hq k n ta tr _ _).1 world).trans (e n (k + 1) hn)

theorem updates_typed {n k m : Nat} : ∀ {datas : List Bytes} {ret : Obj} {rs : List (Obj × Call.Status × List Call.Status)}, WellTyped env m ret →
    EndToEnd.updates env n k m ret datas = some rs → ∀ r ∈ rs, WellTyped env m r.1
  | [], _, rs, _, h, r, hr => by
    cases h
    cases hr
  | data :: rest, ret, rs, ho, h, r, hr => by
    rw [EndToEnd.updates] at h
    cases hd : EndToEnd.read env n k m ret data with
    | none => rw [hd] at h; cases h
    | some x =>
      rw [hd] at h
      dsimp only at h
      have ht : WellTyped env m (tryDeserialize (some fun _ _ => x) ret data).1 := by
        have := read_typed ho hd
        obtain ⟨o, e⟩ := x
        cases e with
        | none => exact this
        | some e => cases e <;> exact this
      cases hu : EndToEnd.updates env n k m (tryDeserialize (some fun _ _ => x) ret data).1 rest with
      | none => rw [hu] at h; cases h
      | some more =>
        rw [hu] at h
        cases h
        rcases List.mem_cons.1 hr with rfl | hr
        · exact ht
        · exact updates_typed ht hu r hr

theorem stream_typed {n k mA mR : Nat} {chunks : EndToEnd.Request → List Bytes} {method service : String} {arg ret : Obj} {rs : List (Obj × Call.Status × List Call.Status)}
    (ho : WellTyped env mR ret) (h : EndToEnd.stream env n k chunks method service mA mR arg ret = some rs) : ∀ r ∈ rs, WellTyped env mR r.1 := by
  unfold EndToEnd.stream at h
  split at h
  · split at h
    · exact updates_typed ho h
    · cases h
  · cases h

/-- C106: a stream of a generated client with an object for the answers. The server receives a message with the values that the properties of the argument show. The object is
updated once for each message of the server, in the order in which they were sent, with the status Ok, and its properties show this message then. -/
theorem C106_stream_partial (hp : Meta.Spec.Program env classes) (hq : Gen.Text.Spec.Pointers q) (hv : ValidSchema env) (ho : ValidOrder env) {rank : Nat → Nat}
    (ha : Acyclic env rank) (hb : NoRepeatedBool env) (hm : NoMessageMaps env) (hE : env.fromUtf8 (env.toUtf8 []) = [])
    (hf : PlainFile o c) (hh : Includable header) (hs : ∀ s ∈ services, PlainService s) (hj : NoScriptValues services) {s : ServiceText} (h : s ∈ services)
    {d : MethodD} (hd : d ∈ s.methods) (hst : d.streaming = true) {mA mR : Nat} (hA : (classes mA).name = d.input) (hR : (classes mR).name = d.output) :
    ∃ text is ctor f, printed (clientSourceText o c header services) = some text ∧ items text = some is ∧ ctor ∈ fnsIn is ∧ f ∈ fnsIn is ∧
      ctor.isCtor = true ∧ ctor.cls = clientClassOf o c s ∧ f.cls = clientClassOf o c s ∧ f.name = [.word (text! "stream" ++ Gen.upperCaseName d.name)] ∧
      f.params = replyParams (classes mA).name (classes mR).name ∧
      ∀ (g : Given) (w : Client.World Obj) (arg ret : Obj) (chunks : EndToEnd.Request → List Bytes) (F : Obj → List Obj), w.objects (g.ref (text! "arg")) = some arg →
        Clean env (.msg mA) (.msg arg) →
        (∀ n bs, Meta.serializeMessage env classes (libOf env q classes 0) last n mA arg = .ok bs → bs.length < 2 ^ 31) →
        ServesStream env mA mR (pathOf c s d) F chunks → (∀ a, Same env (.msg mA) (.msg arg) (.msg a) → ∀ x ∈ F a, Plain env (.msg mR) (.msg x)) →
        Safe env (.msg mR) (.msg ret) →
        ∃ w1 r sent, does f g w .nothing = .ok (some (.made w.requests.length), w1) ∧ w1.requests = w.requests ++ [r] ∧ r.argument = arg ∧
          r.target = some (g.ptr (text! "ret")) ∧ (∀ k, Shows env classes (libOf env q classes k) mA arg sent) ∧
          ∃ N, ∀ n, N ≤ n → ∃ K, ∃ replies : List Obj, replies.length = (F sent).length ∧ ∀ k, K ≤ k →
            answers env classes (libOf env q classes k) last n chunks ctor mA mR r ret = some (replies.map fun x => (x, ⟨Status.Ok, ""⟩, [])) ∧
            ∀ (i : Nat) (x y : Obj), replies[i]? = some x → (F sent)[i]? = some y → Shows env classes (libOf env q classes k) mR x y := by
  obtain ⟨text, is, ctor, f, h1, h2, h3, h4, h5, h6, h7, h8, h9⟩ := functions (k := 1) hf hh hs hj h hd (by simp [methodSigs, hst]; rfl) (by simp [methodDoes, hst]; rfl)
  refine ⟨text, is, ctor, f, h1, h2, h3, h4, h5, h6, congrArg Sig.cls h8, congrArg Sig.name h8, ?_, fun g w arg ret chunks F hobj harg hsmall hserver hF hret => ?_⟩
  · rw [hA, hR]
    exact congrArg Sig.params h8
  · have ta : WellTyped env mA arg := harg.plain.safe.hasTy
    obtain ⟨N, a, e1, el, e2⟩ := C77_stream_partial (method := String.ofList d.name) (service := fullService c s) hv ho ha hb hm hE harg
      (fun n bs hbs => hsmall n bs ((serialize_eq hp n mA arg ta).trans hbs)) hserver hF hret
    refine ⟨Gen.Text.Spec.World.ask w (text! "stream") d.name arg (some (g.ptr (text! "ret"))), ⟨text! "stream", d.name, arg, some (g.ptr (text! "ret"))⟩, a, ?_, rfl, rfl, rfl, fun k => ?_, N, fun n hn => ?_⟩
    · rw [h9]
      unfold plainRequest
      rw [hobj]
      rfl
    · exact shows_of hp ta el e1
    · obtain ⟨K, rs, e3, e4, e5⟩ := e2 n hn
      refine ⟨K, rs, e4, fun k hk => ⟨?_, fun i x y hx hy => ?_⟩⟩
      · unfold answers
        rw [h7]
        exact ((C106_same_partial hp hq k n ta hret.hasTy _ _).2 chunks).trans (e3 (k + 1) (by omega))
      · have tx := stream_typed hret.hasTy (e3 K (Nat.le_refl K)) (x, ⟨Status.Ok, ""⟩, []) (List.mem_map.2 ⟨x, List.mem_of_getElem? hx, rfl⟩)
        exact shows_of hp tx (length_of (hF a e1 y (List.mem_of_getElem? hy)).safe.hasTy) (e5 i x y hx hy)

end

end

/-! ### The hypotheses can be met -/

/-- C106: messages in files with plain names make a program, whose classes have the names of the files. -/
theorem C106_program_partial {env : Env} (u : Nat → Sources) (b : Nat → Gen.Printed × List Gen.FieldD)
    (h : ∀ k, (u k).Plain ∧ b k ∈ (u k).bodies ∧ Represents (u k).c (b k).2 (env.sch k) ∧ (b k).2.map Gen.FieldD.number = (env.sch k).map QtPb.Field.num ∧
      Gen.Spec.ValidFields (b k).2 ∧ Getters (b k).2 ∧ Gen.Spec.NoDataNames (b k).2) :
    ∃ classes, Meta.Spec.Program env classes ∧ ∀ k, (classes k).name = (b k).1.cpp := by
  have : ∀ k, ∃ c : Meta.Class, GeneratedFor (u k) (b k) (env.sch k) c ∧ c.name = (b k).1.cpp := fun k => by
    obtain ⟨hu, hb, hr, hn, hv, hg, hd⟩ := h k
    obtain ⟨header, source, p, h1, h2, h3, -⟩ := C96_class_partial hu hb hr
    exact ⟨⟨header, source, (b k).1.cpp, p⟩, ⟨hu, hb, hr, hn, hv, hg, h1, h2, rfl, h3⟩, rfl⟩
  exact ⟨fun k => Classical.choose (this k), fun k => ⟨u k, b k, (Classical.choose_spec (this k)).1, (h k).2.2.2.2.2.2⟩, fun k => (Classical.choose_spec (this k)).2⟩

namespace Sample
open Meta.Sample QtPb.Gen.Text.Sample

def outerPath : Gen.Path := sub ++ [text! "Outer"]

/-- `service tests { rpc get(Outer) returns (Outer); rpc upd(Outer) returns (stream Outer); }` -/
def tests : ServiceText := ⟨text! "tests", [⟨text! "get", outerPath, outerPath, false⟩, ⟨text! "upd", outerPath, outerPath, true⟩]⟩

theorem testsPlain : ∀ s ∈ [tests], PlainService s := by
  intro s hs
  rw [List.mem_singleton.1 hs]
  refine ⟨named_of (by decide), fun d hd => ?_⟩
  simp only [tests, List.mem_cons, List.not_mem_nil, or_false] at hd
  rcases hd with rfl | rfl <;> exact ⟨named_of (by decide), ⟨by decide, named_all (by decide)⟩, ⟨by decide, named_all (by decide)⟩⟩

theorem testsScripts : NoScriptValues [tests] := by
  intro s hs d hd
  rw [List.mem_singleton.1 hs] at hd
  simp [tests] at hd
  rcases hd with rfl | rfl <;> decide

def bodyOf : Nat → Gen.Printed × List Gen.FieldD
  | 0 => file.bodies[1]'(by decide +kernel)
  | 1 => file.bodies[0]'(by decide +kernel)
  | _ => file.bodies[4]'(by decide +kernel)

/-- The program of the sample file, and the name of the class of its first message. -/
theorem sampleProgram : ∃ classes, Meta.Spec.Program sampleEnv classes ∧ (classes 0).name = outerPath := by
  obtain ⟨classes, h1, h2⟩ := C106_program_partial (env := sampleEnv) (fun _ => file) bodyOf fun k => by
    match k with
    | 0 => exact ⟨filePlain, List.getElem_mem _, represents_of (by decide +kernel), by decide +kernel, valid_of (by decide +kernel), getters_of (by decide +kernel), data_of (by decide +kernel)⟩
    | 1 => exact ⟨filePlain, List.getElem_mem _, represents_of (by decide +kernel), by decide +kernel, valid_of (by decide +kernel), getters_of (by decide +kernel), data_of (by decide +kernel)⟩
    | k + 2 =>
      rw [show bodyOf (k + 2) = bodyOf 2 from rfl]
      exact ⟨filePlain, List.getElem_mem _, represents_of (by show representsB _ _ [] = true; decide +kernel),
      by show _ = List.map QtPb.Field.num []; decide +kernel, valid_of (by decide +kernel), getters_of (by decide +kernel), data_of (by decide +kernel)⟩
  exact ⟨classes, h1, (h2 0).trans (by decide +kernel)⟩

/-- The answer of a server: an `Outer` with the id 7. -/
def seven : Obj := [.sc (.w32 7#32), .msgNull, .msgList [], .enum 0#32, .map []]

theorem seven_encodes : Encodes sampleEnv 0 [8, 7] seven := by
  refine ⟨⟨1, [(1, .varint 7)], .cons (hdr := [8]) (b := [7]) (rest := []) (tag1 8 1 0 (by decide) (by decide) (by decide)) (payload1 7 7 (by decide) (by decide)) .nil, ?_⟩,
    by rfl, by decide⟩
  intro g hg
  have hg : g ∈ [(⟨1, .scalar .int32⟩ : QtPb.Field), ⟨3, .msg 1⟩, ⟨4, .msgList 1⟩, ⟨5, .enum⟩, ⟨6, .map .int32 (.scalar .string)⟩] := hg
  simp only [List.mem_cons, List.not_mem_nil, or_false] at hg
  rcases hg with rfl | rfl | rfl | rfl | rfl <;> simp [UsualField, payloadsOf, QtPb.Spec.Fits]

/-- A server that answers so, in two pieces. -/
def world : EndToEnd.World := fun _ => ([.receive none [0, 0, 0], .finished ⟨.NoError, some [0x30], [0, 0, 0, 0, 2, 8, 7]⟩], "")

/-- A server that refuses. -/
def refusing : EndToEnd.World := fun _ => ([.finished ⟨.NoError, some [0x35], []⟩], "no")

/-- The pieces of a stream of two such messages. -/
def chunks : EndToEnd.Request → List Bytes := fun _ => [[0, 0, 0, 0, 2, 8], [7], [0, 0, 0, 0, 2, 8, 7]]

theorem serves (path : String) : Serves sampleEnv 0 0 path (fun _ => seven) world := fun _ _ _ =>
  ⟨[.receive none [0, 0, 0]], _, [], [8, 7], [0x30], rfl, by simp, rfl, rfl, ⟨by decide, by decide, rfl⟩, ⟨[0, 0, 0, 2], ⟨0, 0, 0, 2, rfl, rfl⟩, rfl⟩, seven_encodes⟩

theorem refuses (path : String) : Refuses sampleEnv 0 path 5 refusing := fun _ _ _ =>
  ⟨[], _, [], [0x35], rfl, by simp, rfl, rfl, ⟨by decide, by decide, rfl⟩⟩

theorem streams (path : String) : ServesStream sampleEnv 0 0 path (fun _ => [seven, seven]) chunks := by
  intro _ _ _
  refine ⟨[[8, 7], [8, 7]], ?_, ?_, rfl, ?_⟩
  · exact .cons (frame := [0, 0, 0, 0, 2, 8, 7]) ⟨[0, 0, 0, 2], ⟨0, 0, 0, 2, rfl, rfl⟩, rfl⟩
      (.cons (frame := [0, 0, 0, 0, 2, 8, 7]) ⟨[0, 0, 0, 2], ⟨0, 0, 0, 2, rfl, rfl⟩, rfl⟩ .nil)
  · have hbd : ∀ b, Boundary [[8, 7], [8, 7]] b → b = 0 ∨ b = 7 ∨ b = 14 := by
      rintro b ⟨before, after, h1, rfl⟩
      match before, h1 with
      | [], _ => simp
      | [x], h => simp at h; obtain ⟨rfl, _⟩ := h; simp
      | [x, y], h => simp at h; obtain ⟨rfl, rfl, _⟩ := h; simp
      | _ :: _ :: _ :: _, h => simp at h
    refine ⟨?_, ?_, ?_, trivial⟩ <;> intro b hb <;> rcases hbd b hb with rfl | rfl | rfl <;> simp
  · intro i bs o hi ho
    match i with
    | 0 => cases hi; cases ho; exact seven_encodes
    | 1 => cases hi; cases ho; exact seven_encodes
    | _ + 2 => simp at hi

theorem objClean : Clean sampleEnv (.msg 0) (.msg sampleObj) := clean_of_cleanB (n := 4) (by decide)
theorem sevenClean : Clean sampleEnv (.msg 0) (.msg seven) := clean_of_cleanB (n := 4) (by decide)
theorem noMaps : NoMessageMaps sampleEnv := sample_all (by simp [outerEnv]) (by simp [outerEnv])

theorem objSmall {classes : Nat → Meta.Class} (hp : Meta.Spec.Program sampleEnv classes) {q : Containers} {last : Bool} (n : Nat) (bs : Bytes)
    (h : Meta.serializeMessage sampleEnv classes (libOf sampleEnv q classes 0) last n 0 sampleObj = .ok bs) : bs.length < 2 ^ 31 := by
  rw [serialize_eq hp n 0 sampleObj objClean.plain.safe.hasTy] at h
  have h2 := serialize_mono (env := sampleEnv) (n := n) (k := n + 2) (by omega) h
  have h3 := serialize_mono (env := sampleEnv) (n := 2) (k := n + 2) (m := 0) (o := sampleObj) (by omega) rfl
  rw [h3] at h2
  cases h2
  decide

/-- An object that is the argument, another for the reply. -/
def objects : Client.World Obj := ⟨fun n => if n = 0 then some sampleObj else some (defaultObj sampleEnv 0), 2, true, true, [], [], []⟩
def given : Given := ⟨fun _ => 0, fun _ => some 1, fun _ => (7, true), fun _ => 8⟩

/-- The call, the refused call and the stream of this service: all hypotheses are met. -/
example : ∃ classes, Meta.Spec.Program sampleEnv classes ∧ ∃ text is, printed (clientSourceText opts ctx (text! "sample.qpb") [tests]) = some text ∧ items text = some is ∧
    (∃ ctor f r n k reply, ctor ∈ fnsIn is ∧ f ∈ fnsIn is ∧ (∃ v w1, does f given objects .nothing = .ok (v, w1) ∧ w1.requests = [r]) ∧
      answer sampleEnv classes (libOf sampleEnv swapping classes k) true n world ctor 0 0 r (defaultObj sampleEnv 0) = some (.returned reply ⟨Status.Ok, ""⟩ []) ∧
      Shows sampleEnv classes (libOf sampleEnv swapping classes k) 0 reply seven) ∧
    (∃ ctor f r N message, ctor ∈ fnsIn is ∧ f ∈ fnsIn is ∧ (∃ v w1, does f given objects .nothing = .ok (v, w1) ∧ w1.requests = [r]) ∧
      answer sampleEnv classes (libOf sampleEnv swapping classes N) true N refusing ctor 0 0 r seven = some (.returned seven ⟨5, message⟩ [⟨5, message⟩])) ∧
    ∃ ctor f r n k x y, ctor ∈ fnsIn is ∧ f ∈ fnsIn is ∧ (∃ v w1, does f given objects .nothing = .ok (v, w1) ∧ w1.requests = [r]) ∧
      answers sampleEnv classes (libOf sampleEnv swapping classes k) true n chunks ctor 0 0 r (defaultObj sampleEnv 0) =
        some [(x, ⟨Status.Ok, ""⟩, []), (y, ⟨Status.Ok, ""⟩, [])] ∧ Shows sampleEnv classes (libOf sampleEnv swapping classes k) 0 y seven := by
  obtain ⟨classes, hp, hn⟩ := sampleProgram
  have hq : Gen.Text.Spec.Pointers swapping := fun _ _ h => by simp [swapping] at h
  obtain ⟨h1, h2, h3, h4⟩ := sampleSchema
  obtain ⟨text, is, ctor, f, k1, k2, k3, k4, -, -, -, -, -, k5⟩ := C106_call_partial (last := true) (d := ⟨text! "get", outerPath, outerPath, false⟩) hp hq h1 h2 h3 h4 rfl plainFile hdr
    testsPlain testsScripts (List.mem_singleton.2 rfl) (by simp [tests]) rfl hn hn
  obtain ⟨text', is', ctor', f', k1', k2', k3', k4', -, -, -, -, -, k5'⟩ := C106_refused_partial (last := true) (d := ⟨text! "get", outerPath, outerPath, false⟩) hp hq h1 h2 h3 h4 rfl
    plainFile hdr testsPlain testsScripts (List.mem_singleton.2 rfl) (by simp [tests]) rfl hn hn
  obtain ⟨text'', is'', ctor'', f'', k1'', k2'', k3'', k4'', -, -, -, -, -, k5''⟩ := C106_stream_partial (last := true) (d := ⟨text! "upd", outerPath, outerPath, true⟩) hp hq h1 h2 h3 h4
    noMaps rfl plainFile hdr testsPlain testsScripts (List.mem_singleton.2 rfl) (by simp [tests]) rfl hn hn
  cases k1.symm.trans k1'
  cases k1.symm.trans k1''
  cases k2.symm.trans k2'
  cases k2.symm.trans k2''
  refine ⟨classes, hp, text, is, k1, k2, ?_, ?_, ?_⟩
  · obtain ⟨w1, r, sent, e1, e2, -, -, -, N, e3⟩ := k5 given objects sampleObj (defaultObj sampleEnv 0) world (fun _ => seven) rfl objClean (objSmall hp) (serves _)
      (fun _ _ => sevenClean.plain) (.inl rfl)
    obtain ⟨K, e3⟩ := e3 N (Nat.le_refl N)
    obtain ⟨reply, e3, e4⟩ := e3 K (Nat.le_refl K)
    exact ⟨ctor, f, r, N, K, reply, k3, k4, ⟨_, _, e1, e2⟩, e3, e4⟩
  · obtain ⟨w1, r, message, e1, e2, N, e3⟩ := k5' given objects sampleObj seven refusing 5 rfl objClean (objSmall hp) (refuses _) (by decide) (by decide) sevenClean.plain.safe.hasTy
    exact ⟨ctor', f', r, N, message, k3', k4', ⟨_, _, e1, e2⟩, e3 N N (Nat.le_refl N)⟩
  · obtain ⟨w1, r, sent, e1, e2, -, -, -, N, e3⟩ := k5'' given objects sampleObj (defaultObj sampleEnv 0) chunks (fun _ => [seven, seven]) rfl objClean (objSmall hp) (streams _)
      (fun _ _ x hx => by
        simp only [List.mem_cons, List.not_mem_nil, or_false, or_self] at hx
        rw [hx]
        exact sevenClean.plain) (default_safe 0)
    obtain ⟨K, rs, e3, e4⟩ := e3 N (Nat.le_refl N)
    obtain ⟨e4, e5⟩ := e4 K (Nat.le_refl K)
    match rs, e3 with
    | [x, y], _ => exact ⟨ctor'', f'', r, N, K, x, y, k3'', k4'', ⟨_, _, e1, e2⟩, e4, e5 1 y seven rfl rfl⟩

end Sample

end QtPb.Whole
