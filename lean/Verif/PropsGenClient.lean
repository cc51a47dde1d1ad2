import Verif.SpecClient
import Verif.PropsGenNames
/-
C60: the methods of a generated client stand for the methods of its service.
-/
namespace QtPb.Gen
open Spec

/-! ### Lemmas -/

theorem replaceDots_append (a b : Str) : replaceDots (a ++ b) = replaceDots a ++ replaceDots b := by
  induction a with
  | nil => rfl
  | cons c a ih =>
    simp only [List.cons_append, replaceDots, ih]
    split <;> simp

theorem replaceDots_ident {a : Str} (h : '.' ∉ a) : replaceDots a = a := by
  induction a with
  | nil => rfl
  | cons c a ih =>
    simp only [List.mem_cons, not_or] at h
    simp [replaceDots, Ne.symm h.1, ih h.2]

theorem replaceDots_joined : ∀ {q : List Str}, (∀ c ∈ q, Ident c) → replaceDots (joined ['.'] q) = joined kScope q
  | [], _ => rfl
  | [a], h => replaceDots_ident (h a (by simp)).2.1
  | a :: b :: q, h => by
    rw [joined, joined, replaceDots_append, replaceDots_append, replaceDots_ident (h a (by simp)).2.1,
      replaceDots_joined (q := b :: q) fun c hc => h c (by simp [hc])]
    rfl

theorem fullName_eq (q : Path) : fullName q = joined ['.'] q := by
  unfold fullName getNamespacesString
  cases q with
  | nil => rfl
  | cons a l =>
    simp only [joined_concat (l := a :: l) (by simp)]
    rw [if_neg (by simp), List.length_append, Nat.add_sub_cancel, List.take_left']
    rfl

theorem paramType_eq {s : ServiceD} (h : ValidService s) {m : MethodD} (hm : m ∈ s.methods) : paramType m = withColons m.input := by
  rw [paramType, fullName_eq, replaceDots_joined (h m hm).2.1]; rfl

theorem returnType_eq {s : ServiceD} (h : ValidService s) {m : MethodD} (hm : m ∈ s.methods) : returnType m = withColons m.output := by
  rw [returnType, fullName_eq, replaceDots_joined (h m hm).2.2]; rfl

theorem withColons_inj {p q : Path} (hp : ∀ c ∈ p, Ident c) (hq : ∀ c ∈ q, Ident c) (h : withColons p = withColons q) : p = q := joined_inj hp hq h

theorem perm_flatMap_append {α β : Type} (f g : α → List β) : ∀ l : List α, (l.flatMap fun x => f x ++ g x).Perm (l.flatMap f ++ l.flatMap g)
  | [] => by simp
  | a :: l => by
    simp only [List.flatMap_cons]
    refine ((perm_flatMap_append f g l).append_left _).trans ?_
    rw [List.append_assoc, List.append_assoc]
    refine List.Perm.append_left _ ?_
    rw [← List.append_assoc, ← List.append_assoc]
    exact List.Perm.append_right _ List.perm_append_comm

theorem requestPath_eq (package : List Str) (s : ServiceD) (d : MethodDef) : requestPath package s d = methodPath package s.name d.method := by
  simp [requestPath, methodPath, serviceName, fullName_eq]

/-! ### Properties -/

/-- Exactly the methods declared in the class of a client are defined. -/
theorem C60_defined (qml : Bool) (s : ServiceD) : ((definedMethods qml s).map (·.sig)).Perm (declaredMethods qml s) := by
  unfold definedMethods declaredMethods
  rw [List.map_flatMap]
  refine List.Perm.trans (List.Perm.of_eq (congrArg (fun g => List.flatMap g s.methods) (funext fun m => ?_)))
    (perm_flatMap_append (fun m => if m.serverStreaming then streamDecls m else unaryDecls qml m)
      (fun m => if m.serverStreaming then qmlStreamDecls qml m else []) s.methods)
  cases m.serverStreaming <;> cases qml <;> rfl

/-- Every method of a client stands for a method of the service: it requests the path of that method, its argument is a message of
the input type, and the answer is read into a message of the output type; if a parameter is for the answer, it has that type. -/
theorem C60_requests {qml : Bool} {s : ServiceD} (h : ValidService s) (package : List Str) {d : MethodDef} (hd : d ∈ definedMethods qml s) :
    ∃ m ∈ s.methods, requestPath package s d = methodPath package s.name m.name ∧
      (d.base = ['s', 't', 'r', 'e', 'a', 'm'] ↔ m.serverStreaming = true) ∧ (d.base = ['c', 'a', 'l', 'l'] ↔ m.serverStreaming = false) ∧
      (∃ p ps, d.sig.params = p :: ps ∧ Carries p (withColons m.input) ∧ ∀ p' ∈ ps, ∀ t, Receives p' t → t = withColons m.output) ∧
      (d.sig.name = functionName m ∨
        qml = true ∧ m.serverStreaming = true ∧ d.sig.name = "qmlStream".toList ++ upperCaseName m.name ++ "_p".toList) ∧
      ∀ t, d.reads = some t → t = withColons m.output := by
  unfold definedMethods at hd
  obtain ⟨m, hm, hd⟩ := List.mem_flatMap.mp hd
  have hp := paramType_eq h hm
  have hr := returnType_eq h hm
  have hne : kCall ≠ kStream := by decide
  have e1 : "qmlStream".toList = kQmlStream := by simp [kQmlStream]
  have e2 : "_p".toList = kPrivate := by simp [kPrivate]
  refine ⟨m, hm, ?_⟩
  rw [requestPath_eq]
  cases hs : m.serverStreaming with
  | false =>
    rw [hs, if_neg (by simp)] at hd
    simp only [unaryDefs, hp, hr] at hd
    have hb : d.base = kCall ∧ d.method = m.name ∧ d.sig.name = m.name := by
      cases qml <;> simp at hd <;> rcases hd with rfl | rfl | rfl | rfl | rfl <;> exact ⟨rfl, rfl, rfl⟩
    refine ⟨by rw [hb.2.1], by rw [hb.1]; simp [kCall], by rw [hb.1]; simp [kCall], ?_, Or.inl (by rw [hb.2.2, functionName, hs]; rfl), ?_⟩
    · cases qml <;> simp at hd <;> rcases hd with rfl | rfl | rfl | rfl | rfl <;>
        exact ⟨_, _, rfl, by constructor, by intro p' hp' t ht; (try simp at hp') <;> (try rcases hp' with rfl | rfl) <;> (try cases ht) <;> first | rfl | contradiction⟩
    · cases qml <;> simp at hd <;> rcases hd with rfl | rfl | rfl | rfl | rfl <;> intro t ht <;> simp_all
  | true =>
    rw [hs, if_pos rfl] at hd
    simp only [streamDefs, hp, hr, methodUpper] at hd
    have hb : d.base = kStream ∧ d.method = m.name := by
      cases qml <;> simp at hd <;> rcases hd with rfl | rfl | rfl <;> exact ⟨rfl, rfl⟩
    refine ⟨by rw [hb.2], by rw [hb.1]; simp [kStream], by rw [hb.1]; simp [kStream], ?_, ?_, ?_⟩
    · cases qml <;> simp at hd <;> rcases hd with rfl | rfl | rfl <;>
        exact ⟨_, _, rfl, by constructor, by intro p' hp' t ht; (try simp at hp') <;> (try subst hp') <;> (try cases ht) <;> first | rfl | contradiction⟩
    · rw [e1, e2, functionName, hs, if_pos rfl]
      cases qml <;> simp at hd <;> rcases hd with rfl | rfl | rfl
      all_goals first | exact Or.inl rfl | exact Or.inr ⟨rfl, rfl, rfl⟩
    · cases qml <;> simp at hd <;> rcases hd with rfl | rfl | rfl <;> intro t ht <;> simp_all

/-- Every method of the service can be called in each way: with a message for the answer, with an object for the reply or with a
function to call (and from QML); or as a stream, without and with a message to be updated. -/
theorem C60_complete {s : ServiceD} (h : ValidService s) (package : List Str) (qml : Bool) {m : MethodD} (hm : m ∈ s.methods) (params : List Param) :
    (m.serverStreaming = false ∧ (params ∈ [[.ref (withColons m.input), .pointer (withColons m.output)], [.ref (withColons m.input)],
        [.ref (withColons m.input), .context, .callback]] ∨
        qml = true ∧ params ∈ [[.ptr (withColons m.input), .jsValue, .jsValue], [.ptr (withColons m.input), .ptr (withColons m.output), .jsValue]]) ∨
      m.serverStreaming = true ∧ params ∈ [[.ref (withColons m.input)], [.ref (withColons m.input), .pointer (withColons m.output)]]) →
    ∃ d ∈ definedMethods qml s, d.sig = ⟨functionName m, params⟩ ∧ requestPath package s d = methodPath package s.name m.name := by
  have hp := paramType_eq h hm
  have hr := returnType_eq h hm
  intro hk
  have key : ∃ d ∈ (if m.serverStreaming then streamDefs qml m else unaryDefs qml m), d.sig = ⟨functionName m, params⟩ ∧ d.method = m.name := by
    rcases hk with ⟨hs, hk | ⟨rfl, hk⟩⟩ | ⟨hs, hk⟩
    · rw [functionName, hs, if_neg (by simp), if_neg (by simp)]
      simp only [List.mem_cons, List.not_mem_nil, or_false] at hk
      simp only [unaryDefs, hp, hr, List.cons_append, List.nil_append]
      rcases hk with rfl | rfl | rfl
      · exact ⟨_, List.mem_cons_self, rfl, rfl⟩
      · exact ⟨_, List.mem_cons_of_mem _ List.mem_cons_self, rfl, rfl⟩
      · exact ⟨_, List.mem_cons_of_mem _ (List.mem_cons_of_mem _ List.mem_cons_self), rfl, rfl⟩
    · rw [functionName, hs, if_neg (by simp), if_neg (by simp)]
      simp only [List.mem_cons, List.not_mem_nil, or_false] at hk
      simp only [unaryDefs, hp, hr, List.cons_append, List.nil_append, if_true]
      rcases hk with rfl | rfl
      · exact ⟨_, List.mem_cons_of_mem _ (List.mem_cons_of_mem _ (List.mem_cons_of_mem _ List.mem_cons_self)), rfl, rfl⟩
      · exact ⟨_, List.mem_cons_of_mem _ (List.mem_cons_of_mem _ (List.mem_cons_of_mem _ (List.mem_cons_of_mem _ List.mem_cons_self))), rfl, rfl⟩
    · rw [functionName, hs, if_pos rfl, if_pos rfl]
      simp only [List.mem_cons, List.not_mem_nil, or_false] at hk
      simp only [streamDefs, hp, hr, List.cons_append, List.nil_append, methodUpper]
      rcases hk with rfl | rfl
      · exact ⟨_, List.mem_cons_self, rfl, rfl⟩
      · exact ⟨_, List.mem_cons_of_mem _ List.mem_cons_self, rfl, rfl⟩
  obtain ⟨d, h1, h2, h3⟩ := key
  exact ⟨d, List.mem_flatMap.mpr ⟨m, hm, h1⟩, h2, by rw [requestPath_eq, h3]⟩

theorem own_nodup (qml : Bool) (m : MethodD) : (if m.serverStreaming then streamDecls m else unaryDecls qml m).Nodup := by
  cases m.serverStreaming <;> cases qml <;> simp [streamDecls, unaryDecls]

/-- No method of the class of a client is declared twice exactly if no two methods of the service have the same name of the
function and the same input type. -/
theorem C60_overloads {s : ServiceD} (h : ValidService s) (qml : Bool) :
    (declaredMethods qml s).Nodup ↔ s.methods.Pairwise fun a b => functionName a = functionName b → a.input ≠ b.input := by
  have first : ∀ m, (⟨functionName m, [.ref (paramType m)]⟩ : Sig) ∈ (if m.serverStreaming then streamDecls m else unaryDecls qml m) := by
    intro m
    unfold functionName
    cases m.serverStreaming <;> simp [streamDecls, unaryDecls, kStream, methodUpper]
  have all : ∀ m, ∀ x ∈ (if m.serverStreaming then streamDecls m else unaryDecls qml m), x.name = functionName m ∧
      ((∃ ps, x.params = .ref (paramType m) :: ps) ∨ (∃ ps, x.params = .ptr (paramType m) :: ps ∧ ps.length = 2)) := by
    intro m x hx
    unfold functionName
    cases hs : m.serverStreaming <;> rw [hs] at hx <;> cases qml <;> simp [streamDecls, unaryDecls, kStream, methodUpper] at hx ⊢ <;>
      rcases hx with rfl | rfl | rfl | rfl | rfl <;> simp
  have priv : ∀ m, ∀ x ∈ (if m.serverStreaming then qmlStreamDecls qml m else []), m.serverStreaming = true ∧
      x = ⟨kQmlStream ++ upperCaseName m.name ++ kPrivate, [.ptr (paramType m), .ptr (returnType m)]⟩ := by
    intro m x hx
    cases hs : m.serverStreaming <;> rw [hs] at hx <;> cases qml <;> simp [qmlStreamDecls, methodUpper] at hx ⊢
    exact hx
  unfold declaredMethods List.Nodup
  rw [List.pairwise_append, List.pairwise_flatMap, List.pairwise_flatMap]
  constructor
  · rintro ⟨⟨-, hp⟩, -⟩
    refine hp.imp_of_mem ?_
    intro a b ha hb hab hn hi
    refine hab _ (first a) _ (first b) ?_
    rw [hn, paramType_eq h ha, paramType_eq h hb, hi]
  · intro hp
    refine ⟨⟨fun m _ => own_nodup qml m, ?_⟩, ⟨fun m _ => ?_, ?_⟩, ?_⟩
    · refine hp.imp_of_mem ?_
      rintro a b ha hb hab x hx y hy rfl
      obtain ⟨n1, p1⟩ := all a x hx
      obtain ⟨n2, p2⟩ := all b x hy
      refine hab (n1.symm.trans n2) (withColons_inj (h a ha).2.1 (h b hb).2.1 ?_)
      rw [← paramType_eq h ha, ← paramType_eq h hb]
      rcases p1 with ⟨ps, p1⟩ | ⟨ps, p1, -⟩ <;> rcases p2 with ⟨ps', p2⟩ | ⟨ps', p2, -⟩ <;> rw [p1] at p2 <;> simp at p2
      · exact p2.1
      · exact p2.1
    · cases m.serverStreaming <;> cases qml <;> simp [qmlStreamDecls]
    · refine hp.imp_of_mem ?_
      rintro a b ha hb hab x hx y hy rfl
      obtain ⟨s1, rfl⟩ := priv a x hx
      obtain ⟨s2, e⟩ := priv b _ hy
      simp only [Sig.mk.injEq, List.cons.injEq, Param.ptr.injEq] at e
      obtain ⟨e1, e2, -⟩ := e
      rw [paramType_eq h ha, paramType_eq h hb] at e2
      refine hab ?_ (withColons_inj (h a ha).2.1 (h b hb).2.1 e2)
      unfold functionName
      rw [s1, s2, if_pos rfl, if_pos rfl]
      rw [List.append_assoc, List.append_assoc] at e1
      rw [List.append_cancel_right (List.append_cancel_left e1)]
    · intro x hx y hy e
      subst e
      obtain ⟨a, -, hx⟩ := List.mem_flatMap.mp hx
      obtain ⟨b, -, hy⟩ := List.mem_flatMap.mp hy
      obtain ⟨-, rfl⟩ := priv b x hy
      obtain ⟨-, ⟨ps, hps⟩ | ⟨ps, hps, hl⟩⟩ := all a _ hx
      · simp at hps
      · simp only [List.cons.injEq] at hps
        rw [← hps.2] at hl
        simp at hl

/-- The functions of the base class that the methods of a client call are not hidden by its methods exactly if no method without
stream is called "call", and none is called "stream" in a service with a stream. -/
theorem C60_hidden_partial {s : ServiceD} (h : ValidService s) (qml : Bool) :
    (∀ d ∈ definedMethods qml s, ¬ Hides (declaredMethods qml s) d.base) ↔
      ∀ m ∈ s.methods, m.serverStreaming = false → m.name ≠ "call".toList ∧
        (m.name = "stream".toList → ∀ m' ∈ s.methods, m'.serverStreaming = false) := by
  have e1 : "call".toList = kCall := by simp [kCall]
  have e2 : "stream".toList = kStream := by simp [kStream]
  rw [e1, e2]
  have fst : ∀ m ∈ s.methods, ∃ d ∈ definedMethods qml s, d.base = if m.serverStreaming then kStream else kCall := by
    intro m hm
    refine ⟨(if m.serverStreaming then streamDefs qml m else unaryDefs qml m).head (by cases m.serverStreaming <;> simp [streamDefs, unaryDefs]),
      List.mem_flatMap.mpr ⟨m, hm, List.head_mem _⟩, ?_⟩
    cases m.serverStreaming <;> simp [streamDefs, unaryDefs]
  have decl : ∀ m ∈ s.methods, m.serverStreaming = false → Hides (declaredMethods qml s) m.name := by
    intro m hm hs
    refine ⟨⟨m.name, [.ref (paramType m)]⟩, List.mem_append_left _ (List.mem_flatMap.mpr ⟨m, hm, ?_⟩), rfl⟩
    rw [hs, if_neg (by simp)]
    simp [unaryDecls]
  have names : ∀ b, (b = kCall ∨ b = kStream) → Hides (declaredMethods qml s) b → ∃ m ∈ s.methods, m.serverStreaming = false ∧ m.name = b := by
    rintro b hb ⟨d, hd, rfl⟩
    have long : ∀ u : Str, u ≠ [] → ¬ (kStream ++ u = kCall ∨ kStream ++ u = kStream) := by
      intro u hu
      rw [not_or]
      refine ⟨by simp [kStream, kCall], fun e => hu ?_⟩
      exact List.append_cancel_left (as := kStream) (by rw [e]; simp)
    rcases List.mem_append.mp hd with hd | hd <;> obtain ⟨m, hm, hd⟩ := List.mem_flatMap.mp hd
    · cases hs : m.serverStreaming with
      | false =>
        refine ⟨m, hm, hs, ?_⟩
        rw [hs] at hd
        cases qml <;> simp [unaryDecls] at hd <;> rcases hd with rfl | rfl | rfl | rfl | rfl <;> rfl
      | true =>
        rw [hs] at hd
        have hn : methodUpper m ≠ [] := by
          have := (h m hm).1
          unfold methodUpper
          cases hmn : m.name with
          | nil => exact absurd hmn this
          | cons c r => simp [upperCaseName]
        simp only [if_true, streamDecls, List.mem_cons, List.not_mem_nil, or_false] at hd
        rcases hd with rfl | rfl <;> exact absurd hb (long _ hn)
    · exfalso
      cases hs : m.serverStreaming with
      | false => rw [hs] at hd; simp at hd
      | true =>
        rw [hs] at hd
        cases qml <;> simp [qmlStreamDecls] at hd
        subst hd
        revert hb
        simp [kQmlStream, kCall, kStream]
  constructor
  · intro hh m hm hs
    refine ⟨fun hc => ?_, fun hc m' hm' => ?_⟩
    · obtain ⟨d, hd, hb⟩ := fst m hm
      refine hh d hd ?_
      rw [hb, hs, if_neg (by simp), ← hc]
      exact decl m hm hs
    · cases hs' : m'.serverStreaming with
      | false => rfl
      | true =>
        obtain ⟨d, hd, hb⟩ := fst m' hm'
        refine absurd ?_ (hh d hd)
        rw [hb, hs', if_pos rfl, ← hc]
        exact decl m hm hs
  · intro hh d hd hid
    obtain ⟨m, hm, -, h1, h2, -⟩ := C60_requests h [] hd
    cases hs : m.serverStreaming with
    | false =>
      have hb : d.base = kCall := h2.mpr hs
      obtain ⟨m', hm', hs', hn⟩ := names _ (Or.inl rfl) (hb ▸ hid)
      exact (hh m' hm' hs').1 hn
    | true =>
      have hb : d.base = kStream := h1.mpr hs
      obtain ⟨m', hm', hs', hn⟩ := names _ (Or.inr rfl) (hb ▸ hid)
      have := (hh m' hm' hs').2 hn m hm
      rw [hs] at this
      cases this

/-- The name printed in the class of a client for a message T of any file is the name of the class of T in a scope around the class
of the client, if the names of T and of the messages it is in are capitalised. -/
theorem C60_types_partial {extra : Str} {fT : File} {package inside : List Str} {name : Str} {enums : Path → List Str} (s : ServiceD)
    {pT : Printed} (hT : pT ∈ fT.classes extra) (eT : pT.msg = fT.package ++ inside ++ [name])
    (hid : ∀ c ∈ pT.msg, Ident c) (hc : ∀ c ∈ inside, Capital c) (hn : Capital name) :
    replaceDots (fullName pT.msg) = withColons pT.msg ∧
      Found (Denotes extra fT enums) (fileNs extra package ++ [clientClass s]) pT.msg pT.msg := by
  refine ⟨by rw [fullName_eq, replaceDots_joined hid]; rfl, fileNs extra [], ⟨package ++ [clientClass s], ?_⟩, ?_⟩
  · rw [fileNs_eq extra package, List.append_assoc]
  · have := denotes_at (enums := enums) hT (i1 := []) (i2 := inside) (name := name) (by simpa using eT) hc
    rw [hn, List.map_nil, List.append_nil, fileNs_eq, List.append_assoc, List.append_assoc] at this
    rw [← List.append_assoc fT.package, ← eT] at this
    exact this

/-! ### Where clients are wrong -/

/-- service S { rpc call(M) returns (M); }: the method `call` of the client hides the function of the base class it calls. -/
theorem C60_hidden_violated : ∃ s : ServiceD, ValidService s ∧ s.methods.length = 1 ∧
    ∀ qml, ∀ d ∈ definedMethods qml s, Hides (declaredMethods qml s) d.base := by
  refine ⟨⟨['S'], [⟨kCall, [['M']], [['M']], false, false⟩]⟩, by simp [ValidService, Ident, kCall], rfl, ?_⟩
  intro qml d hd
  refine ⟨⟨kCall, [.ref ['M']]⟩, by cases qml <;> decide, ?_⟩
  revert d
  cases qml <;> decide

/-- service S { rpc x(M) returns (stream M); rpc X(M) returns (stream M); }: different methods of the service, but the same methods
are declared twice. -/
theorem C60_overloads_violated : ∃ s : ServiceD, ValidService s ∧ (s.methods.map (·.name)).Nodup ∧ ∀ qml, ¬ (declaredMethods qml s).Nodup := by
  refine ⟨⟨['S'], [⟨['x'], [['M']], [['M']], true, false⟩, ⟨['X'], [['M']], [['M']], true, false⟩]⟩, by simp [ValidService, Ident], by decide, ?_⟩
  intro qml
  cases qml <;> decide

/-- service S { rpc streamX(M) returns (M); rpc X(M) returns (stream M); }: the same, for a call and a stream. -/
theorem C60_stream_name_violated : ∃ s : ServiceD, ValidService s ∧ (s.methods.map fun m => upperCaseName m.name).Nodup ∧
    ∀ qml, ¬ (declaredMethods qml s).Nodup := by
  refine ⟨⟨['S'], [⟨kStream ++ ['X'], [['M']], [['M']], false, false⟩, ⟨['X'], [['M']], [['M']], true, false⟩]⟩,
    by simp [ValidService, Ident, kStream], by decide, ?_⟩
  intro qml
  cases qml <;> decide

/-- A stream of arguments is ignored: the methods for rpc x(stream M) returns (M) are those for rpc x(M) returns (M), and send one
message. -/
theorem C60_client_stream_violated (qml : Bool) (service name : Str) (input output : Path) (streaming : Bool) :
    definedMethods qml ⟨service, [⟨name, input, output, streaming, true⟩]⟩ = definedMethods qml ⟨service, [⟨name, input, output, streaming, false⟩]⟩ ∧
    declaredMethods qml ⟨service, [⟨name, input, output, streaming, true⟩]⟩ = declaredMethods qml ⟨service, [⟨name, input, output, streaming, false⟩]⟩ :=
  ⟨rfl, rfl⟩

/-- package p; message m {} -/
def smallFile : File := ⟨[['p']], [.mk ['m'] [] [] false]⟩

/-- If the name of a message starts with a small letter, the name printed for it in the class of a client denotes nothing. -/
theorem C60_lower_type_violated : ∃ pT : Printed, pT ∈ smallFile.classes [] ∧ pT.msg = [['p'], ['m']] ∧
    replaceDots (fullName pT.msg) = withColons [['p'], ['m']] ∧
    ∀ s : ServiceD, ¬ Found (Denotes [] smallFile fun _ => []) ([['p']] ++ [clientClass s]) [['p'], ['m']] pT.msg := by
  refine ⟨⟨[['p'], ['m']], [['p'], ['M']]⟩, by decide, rfl, by decide, ?_⟩
  rintro s ⟨A, -, hd⟩
  have := denotes_component hd ['m'] (by simp)
  revert this
  decide

/-! ### Examples -/

/-- service S { rpc get(p.M) returns (p.R); rpc watch(p.M) returns (stream p.R); } -/
def sampleService : ServiceD :=
  ⟨['S'], [⟨['g', 'e', 't'], [['p'], ['M']], [['p'], ['R']], false, false⟩, ⟨['w', 'a', 't', 'c', 'h'], [['p'], ['M']], [['p'], ['R']], true, false⟩]⟩

theorem sampleService_valid : ValidService sampleService := by simp [ValidService, sampleService, Ident]

example : (definedMethods true sampleService).length = 8 := rfl
example : requestPath [['p']] sampleService ⟨⟨[], []⟩, kCall, ['g', 'e', 't'], none⟩ = "/p.S/get".toList := by decide +kernel
example : (⟨⟨"streamWatch".toList, [.ref "p::M".toList]⟩, kStream, "watch".toList, none⟩ : MethodDef) ∈ definedMethods false sampleService := by
  decide +kernel
example (qml : Bool) : (declaredMethods qml sampleService).Nodup := by
  rw [C60_overloads sampleService_valid]
  decide
example (qml : Bool) : ∀ d ∈ definedMethods qml sampleService, ¬ Hides (declaredMethods qml sampleService) d.base := by
  rw [C60_hidden_partial sampleService_valid]
  decide +kernel

/-- The hypotheses of `C60_types_partial` hold for a message in a message, used by a service of another package. -/
example (s : ServiceD) : Found (Denotes ['x'] ⟨[['p']], [.mk ['O'] [⟨['a'], ['a'], 1, .message, false, false, some [['p'], ['O'], ['I']], none⟩] [.mk ['I'] [] [] false] false]⟩ fun _ => [])
    (fileNs ['x'] [['q']] ++ [clientClass s]) [['p'], ['O'], ['I']] [['p'], ['O'], ['I']] :=
  (C60_types_partial (extra := ['x']) (package := [['q']]) (inside := [['O']]) (name := ['I']) s
    (pT := ⟨[['p'], ['O'], ['I']], [['x'], ['p'], nestedNs ['O'], ['I']]⟩) (by decide) rfl (by simp [Ident]) (by simp only [Capital]; decide) (by simp only [Capital]; decide)).2

end QtPb.Gen
