import Verif.TextEff
/-
What the calls of the Printer made for a message with the messages in it do to the reader of the text. (Helpers for the theorems about
generated text.)
-/
namespace QtPb.TextProof
open QtPb.Gen QtPb.Gen.Text QtPb.Gen.Text.Spec QtPb.SpecCpp

/-! ### Nested messages -/

theorem plain_names : ∀ {l : List Msg}, PlainMsgs l → ∀ n ∈ l, PlainMsg n
  | [], _, n, hn => by simp at hn
  | k :: l, h, n, hn => by
    rw [PlainMsgs] at h
    rcases List.mem_cons.1 hn with rfl | hn
    · exact h.1
    · exact plain_names h.2 n hn

theorem plain_name : ∀ {m : Msg}, PlainMsg m → Named m.name
  | .mk _ _ _ _, h => by rw [PlainMsg] at h; exact h.1

theorem good_snoc {path : Path} {name : Str} (hp : ∀ s ∈ path, Named s) (hn : Named name) : Good' (path ++ [name]) :=
  ⟨by simp, fun s hs => by
    rcases List.mem_append.1 hs with hs | hs
    · exact hp s hs
    · simp at hs; rw [hs]; exact hn⟩

theorem openNested_eff {out : Bool} {o : Options} {c : Ctx} {path : Path} {name : Str} {fields : List FieldD} (hn : Named name) :
    Eff out false false [openNested o c ⟨path ++ [name], fields⟩] [] [.space (nestedNs name)] (fun _ => []) := by
  have e : openNested o c ⟨path ++ [name], fields⟩ = .print [(text! "namespace", nestedNs name)] tNamespaceTemplate := by
    unfold openNested
    rw [own_classname]
    simp [nestedNs]
  rw [e]
  exact open_namespace (name_nested (name_id hn.2))

/-- Text inside the namespace of nested messages. -/
theorem Eff.inNested {out : Bool} {o : Options} {c : Ctx} {path : Path} {name : Str} {fields : List FieldD} (hn : Named name) {ops : List Op}
    {e : List Frame → List Event} (h : Eff out false false ops [] [] e) :
    Eff out false false ([openNested o c ⟨path ++ [name], fields⟩] ++ ops ++ [.print [] tSimpleBlockEnclosureTemplate]) [] []
      (fun st => e (.space (nestedNs name) :: st)) := by
  have := ((openNested_eff (out := out) (o := o) (c := c) (path := path) (fields := fields) hn).append (h.within [.space (nestedNs name)])).append
    (close_block trivial)
  exact this.congr (by simp)

/-- What is found for a class. -/
def classEvents (o : Options) (c : Ctx) (b : Printed × List FieldD) : List Event :=
  .cls b.1.cpp.dropLast (b.1.cpp.getLastD []) objectBases :: .label b.1.cpp kwObject ::
    .func b.1.cpp (text! "Q_DECLARE_PROTOBUF_SERIALIZERS") :: bodyEvents (o := o) (c := c) (m := ⟨b.1.msg, b.2⟩) b.1.cpp

mutual
theorem declareOps_eff {o : Options} {c : Ctx} (hf : PlainFile o c) : ∀ (msg : Msg) (path : Path), PlainMsg msg → (∀ s ∈ path, Named s) →
    Eff false false false (declareOps o c path msg) [] [] (fun st => (bodies (scopeOf st) path msg).flatMap (classEvents o c))
  | .mk name fields nested en, path, hm, hp => by
    rw [PlainMsg] at hm
    obtain ⟨hn, hfi, hne⟩ := hm
    have hg := good_snoc hp hn
    have ok : MsgOk o c ⟨path ++ [name], fields⟩ := ⟨hf, hg, hfi⟩
    have h1 := Eff.inNested (o := o) (c := c) (path := path) (fields := fields) hn
      (declareOpsList_eff hf nested fields (path ++ [name]) hne hg.2)
    have h2 := declClass_eff ok (nested := nested) (fun n h => plain_name (plain_names hne n h))
    rw [declareOps]
    refine (h1.append h2).congr fun st => ?_
    simp only [bodies, List.nil_append, List.append_nil, List.flatMap_append, List.flatMap_cons, List.flatMap_nil, scopeOf,
      classEvents, List.dropLast_concat, List.getLastD_concat, className]
theorem declareOpsList_eff {o : Options} {c : Ctx} (hf : PlainFile o c) : ∀ (l : List Msg) (fields : List FieldD) (path : Path),
    PlainMsgs l → (∀ s ∈ path, Named s) →
    Eff false false false (declareOpsList o c ⟨path, fields⟩ l) [] [] (fun st => (bodiesList (scopeOf st) path fields l).flatMap (classEvents o c))
  | [], fields, path, _, _ => by rw [declareOpsList]; exact (Eff.nil _ _).congr (by simp [bodiesList])
  | n :: rest, fields, path, hm, hp => by
    rw [PlainMsgs] at hm
    have h1 := declareOps_eff hf n path hm.1 hp
    have h2 := declareOpsList_eff hf rest fields path hm.2 hp
    rw [declareOpsList]
    refine Eff.congr (Eff.append (e1 := fun st => (if visits fields (path ++ [n.name]) then bodies (scopeOf st) path n else []).flatMap
      (classEvents o c)) ?_ h2) (fun st => by simp [bodiesList])
    split
    · rename_i hv; simpa [hv] using h1
    · rename_i hv; simpa [hv] using Eff.nil _ _
end

/-! ### Forward declarations -/

def forwardEvent (b : Printed × List FieldD) : Event := .forward b.1.cpp.dropLast (b.1.cpp.getLastD [])

theorem bodiesList_none {ns : List Str} {path : Path} {fields : List FieldD} : ∀ (l : List Msg),
    (∀ n ∈ l, visits fields (path ++ [n.name]) = false) → bodiesList ns path fields l = []
  | [], _ => by rw [bodiesList]
  | n :: l, h => by
    rw [bodiesList, h n (by simp), bodiesList_none l (fun k hk => h k (by simp [hk]))]
    rfl

theorem forwardClass_eff {o : Options} {c : Ctx} {m : Cur} (ok : MsgOk o c m) :
    Eff false false false [.print (own o c m) tProtoClassForwardDeclarationTemplate, .print (own o c m) tComplexListTypeUsingTemplate] [] []
      (fun st => [.forward (scopeOf st) (upperCaseName (m.path.getLastD []))]) := by
  have h1 := eff_own (out := false) ok (s0 := []) (s1 := []) (evs := [.forward [] [.var (text! "classname")]])
    (t := tProtoClassForwardDeclarationTemplate) (q := false) (by decide +kernel)
  have h2 : Quiet false [.print (own o c m) tComplexListTypeUsingTemplate] := q_own ok (by decide +kernel)
  refine (Eff.append h1 h2).congr fun st => ?_
  simp [instE, val, tokVal, own_classname]

mutual
theorem forwardOps_eff {o : Options} {c : Ctx} (hf : PlainFile o c) : ∀ (msg : Msg) (path : Path), PlainMsg msg → (∀ s ∈ path, Named s) →
    Eff false false false (forwardOps o c path msg) [] [] (fun st => (bodies (scopeOf st) path msg).map forwardEvent)
  | .mk name fields nested en, path, hm, hp => by
    rw [PlainMsg] at hm
    obtain ⟨hn, hfi, hne⟩ := hm
    have hg := good_snoc hp hn
    have ok : MsgOk o c ⟨path ++ [name], fields⟩ := ⟨hf, hg, hfi⟩
    have h1 := Eff.inNested (o := o) (c := c) (path := path) (fields := fields) hn
      (forwardOpsList_eff hf nested fields (path ++ [name]) hne hg.2)
    have h2 := forwardClass_eff ok
    rw [forwardOps]
    refine Eff.congr (Eff.append (q1 := false) (s1 := []) (e1 := fun st => (bodiesList (scopeOf st ++ [nestedNs name]) (path ++ [name]) fields nested).map
      forwardEvent) ?_ h2) (fun st => ?_)
    · simp only
      cases hh : hasNested (path ++ [name]) fields nested with
      | true => simpa only [if_true, scopeOf] using h1
      | false =>
        rw [if_neg (by simp)]
        exact (Eff.nil _ _).congr (fun st => by rw [bodiesList_none nested (noNested hh)]; rfl)
    · simp only [bodies, List.map_append, List.map_cons, List.map_nil, forwardEvent, List.dropLast_concat, List.getLastD_concat]
theorem forwardOpsList_eff {o : Options} {c : Ctx} (hf : PlainFile o c) : ∀ (l : List Msg) (fields : List FieldD) (path : Path),
    PlainMsgs l → (∀ s ∈ path, Named s) →
    Eff false false false (forwardOpsList o c ⟨path, fields⟩ l) [] [] (fun st => (bodiesList (scopeOf st) path fields l).map forwardEvent)
  | [], fields, path, _, _ => by rw [forwardOpsList]; exact (Eff.nil _ _).congr (by simp [bodiesList])
  | n :: rest, fields, path, hm, hp => by
    rw [PlainMsgs] at hm
    have h1 := forwardOps_eff hf n path hm.1 hp
    have h2 := forwardOpsList_eff hf rest fields path hm.2 hp
    rw [forwardOpsList]
    refine Eff.congr (Eff.append (e1 := fun st => (if visits fields (path ++ [n.name]) then bodies (scopeOf st) path n else []).map
      forwardEvent) ?_ h2) (fun st => by simp [bodiesList])
    split
    · rename_i hv; simpa [hv] using h1
    · rename_i hv; simpa [hv] using Eff.nil _ _
end

/-! ### Meta types -/

def mapKeys : List Str := text! "key_type_underscore" :: text! "value_type_underscore" :: propKeys

section
variable {o : Options} {c : Ctx} {m : Cur} (ok : MsgOk o c m)

/-- The variables of the declaration for a map. -/
def mapVars (o : Options) (c : Ctx) (m : Cur) (f : FieldD) : Vars :=
  [(text! "key_type_underscore", underscore ((pv o c m f).val (text! "key_type"))),
   (text! "value_type_underscore", underscore ((pv o c m f).val (text! "key_type")))] ++ pv o c m f

def metaCall (keys : List Str) (vars : Vars) (t : Str) : List Lexeme := (argsOf keys t).flatMap (inst vars)

/-- What is declared for a field. -/
def fieldMetas (o : Options) (c : Ctx) (m : Cur) (f : FieldD) : List (List Lexeme) :=
  if f.type == .enum && c.visibility m.path (f.enumType.getD []) == .local then
    [metaCall propKeys (pv o c m f) tDeclareMetaTypeTemplate, metaCall propKeys (pv o c m f) tDeclareMetaTypeListTemplate]
  else if f.isMap then [metaCall mapKeys (mapVars o c m f) tDeclareMetaTypeMapTemplate]
  else []

def ownMetas (o : Options) (c : Ctx) (m : Cur) : List (List Lexeme) :=
  [metaCall ownKeys (own o c m) tDeclareMetaTypeTemplate, metaCall ownKeys (own o c m) tDeclareComplexListTypeTemplate] ++
  (if o.qml then [metaCall ownKeys (own o c m) tDeclareComplexQmlListTypeTemplate] else []) ++ m.fields.flatMap (fieldMetas o c m)

def metaEvents (sc : List Text) (l : List (List Lexeme)) : List Event := l.map fun as => .call sc kwMetaType as

include ok

theorem eff_meta {vars : Vars} {keys : List Str} {t : Str} (hg : GoodL vars) (hk : ∀ x ∈ keys, (vars.get x).isSome = true)
    (h : effect false (fun _ => true) keys [] t = some ([], [.call [] kwMetaType (argsOf keys t)], false)) :
    Eff false false false [.print vars t] [] [] (fun st => metaEvents (scopeOf st) [metaCall keys vars t]) := eff_macro hg hk h

theorem mapVars_good {f : FieldD} (hf : f ∈ m.fields) (hmap : f.isMap = true) : GoodL (mapVars o c m f) := by
  have hk : IsId (underscore ((pv o c m f).val (text! "key_type"))) := by
    have e : (pv o c m f).val (text! "key_type") = (typeVars o c m.path (c.entry (f.msgType.getD [])).1).val (text! "scope_type") := by
      unfold pv propertyVars
      simp only [hmap, if_true]
      rfl
    rw [e]
    have ht := ok.file.keys (f.msgType.getD [])
    have : typeVars o c m.path (c.entry (f.msgType.getD [])).1 = simpleVars (c.entry (f.msgType.getD [])).1.type := by
      unfold typeVars
      split
      · rename_i e; rw [e] at ht; exact absurd ht (by decide)
      · rename_i e; rw [e] at ht; exact absurd ht (by decide)
      · rfl
    rw [this]
    have all : ∀ t ∈ keyTypes, (fun s => !s.isEmpty && s.all isWord) (underscore ((simpleVars t).val (text! "scope_type"))) = true := by
      decide +kernel
    exact id_of_B (all _ ht)
  have hv : Value (underscore ((pv o c m f).val (text! "key_type"))) := by
    have e : (pv o c m f).val (text! "key_type") = (typeVars o c m.path (c.entry (f.msgType.getD [])).1).val (text! "scope_type") := by
      unfold pv propertyVars
      simp only [hmap, if_true]
      rfl
    rw [e]
    have ht := ok.file.keys (f.msgType.getD [])
    have : typeVars o c m.path (c.entry (f.msgType.getD [])).1 = simpleVars (c.entry (f.msgType.getD [])).1.type := by
      unfold typeVars
      split
      · rename_i e; rw [e] at ht; exact absurd ht (by decide)
      · rename_i e; rw [e] at ht; exact absurd ht (by decide)
      · rfl
    rw [this]
    have all : ∀ t ∈ keyTypes, valueB (underscore ((simpleVars t).val (text! "scope_type"))) = true := by
      decide +kernel
    exact value_of_B (all _ ht)
  exact .cons hv (Or.inr hk) (.cons hv (Or.inr hk) (pv_good ok hf))

omit ok in
theorem mapVars_keys (f : FieldD) : ∀ x ∈ mapKeys, ((mapVars o c m f).get x).isSome = true := by
  intro x hx
  rcases List.mem_cons.1 hx with rfl | hx
  · rfl
  · rcases List.mem_cons.1 hx with rfl | hx
    · rfl
    · have := propertyVars_keys o c m.path f x hx
      unfold mapVars Vars.get at *
      simp only [List.cons_append, List.nil_append, List.find?_cons]
      split
      · rfl
      · split
        · rfl
        · exact this

theorem metaTypeOps_eff {f : FieldD} (hf : f ∈ m.fields) :
    Eff false false false (metaTypeOps o c m f) [] [] (fun st => metaEvents (scopeOf st) (fieldMetas o c m f)) := by
  unfold metaTypeOps fieldMetas
  split
  · have h1 := eff_meta ok (t := tDeclareMetaTypeTemplate) (pv_good ok hf) (propertyVars_keys o c m.path f) (by decide +kernel)
    have h2 := eff_meta ok (t := tDeclareMetaTypeListTemplate) (pv_good ok hf) (propertyVars_keys o c m.path f) (by decide +kernel)
    exact (Eff.append h1 h2).congr (fun st => by simp [metaEvents])
  · split
    · rename_i hmap
      exact eff_meta ok (mapVars_good ok hf hmap) (mapVars_keys f) (by decide +kernel)
    · exact Eff.nil _ _

theorem ownMetaTypes_eff : Eff false false false (ownMetaTypes o c m) [] [] (fun st => metaEvents (scopeOf st) (ownMetas o c m)) := by
  have h1 := eff_meta ok (t := tDeclareMetaTypeTemplate) (own_good ok) (own_keys o c m) (by decide +kernel)
  have h2 := eff_meta ok (t := tDeclareComplexListTypeTemplate) (own_good ok) (own_keys o c m) (by decide +kernel)
  have h3 : Eff false false false (if o.qml then [.print (own o c m) tDeclareComplexQmlListTypeTemplate] else []) [] []
      (fun st => metaEvents (scopeOf st) (if o.qml then [metaCall ownKeys (own o c m) tDeclareComplexQmlListTypeTemplate] else [])) := by
    split
    · exact eff_meta ok (t := tDeclareComplexQmlListTypeTemplate) (own_good ok) (own_keys o c m) (by decide +kernel)
    · exact Eff.nil _ _
  have h4 := Eff.flatMap (l := m.fields) (f := metaTypeOps o c m) (s := []) (fun f hf => metaTypeOps_eff ok hf)
  refine Eff.congr (((Eff.append h1 h2).append h3).append h4) (fun st => ?_)
  simp [metaEvents, ownMetas, List.map_flatMap]

end

mutual
theorem messagesOf_fst : ∀ (msg : Msg) (path : Path), (messagesOf path msg).map (·.1) = metaTypes path msg
  | .mk name fields nested e, path => by
    rw [messagesOf, metaTypes, List.map_cons, messagesOfList_fst]
theorem messagesOfList_fst : ∀ (l : List Msg) (path : Path) (fields : List FieldD),
    (messagesOfList path fields l).map (·.1) = metaTypesList path fields l
  | [], path, fields => by rw [messagesOfList, metaTypesList]; rfl
  | n :: l, path, fields => by
    rw [messagesOfList, metaTypesList, List.map_append, messagesOfList_fst l]
    split
    · rw [messagesOf_fst]
    · rfl
end

mutual
theorem metaOps_eff {o : Options} {c : Ctx} (hf : PlainFile o c) : ∀ (msg : Msg) (path : Path), PlainMsg msg → (∀ s ∈ path, Named s) →
    Eff false false false (metaOps o c path msg) [] []
      (fun st => (messagesOf path msg).flatMap fun b => metaEvents (scopeOf st) (ownMetas o c ⟨b.1, b.2⟩))
  | .mk name fields nested en, path, hm, hp => by
    rw [PlainMsg] at hm
    obtain ⟨hn, hfi, hne⟩ := hm
    have hg := good_snoc hp hn
    have ok : MsgOk o c ⟨path ++ [name], fields⟩ := ⟨hf, hg, hfi⟩
    have h1 := ownMetaTypes_eff ok
    have h2 := metaOpsList_eff hf nested fields (path ++ [name]) hne hg.2
    rw [metaOps]
    exact (h1.append h2).congr fun st => by simp [messagesOf]
theorem metaOpsList_eff {o : Options} {c : Ctx} (hf : PlainFile o c) : ∀ (l : List Msg) (fields : List FieldD) (path : Path),
    PlainMsgs l → (∀ s ∈ path, Named s) →
    Eff false false false (metaOpsList o c ⟨path, fields⟩ l) [] []
      (fun st => (messagesOfList path fields l).flatMap fun b => metaEvents (scopeOf st) (ownMetas o c ⟨b.1, b.2⟩))
  | [], fields, path, _, _ => by rw [metaOpsList]; exact (Eff.nil _ _).congr (by simp [messagesOfList])
  | n :: rest, fields, path, hm, hp => by
    rw [PlainMsgs] at hm
    have h1 := metaOps_eff hf n path hm.1 hp
    have h2 := metaOpsList_eff hf rest fields path hm.2 hp
    rw [metaOpsList]
    refine Eff.congr (Eff.append (e1 := fun st => (if visits fields (path ++ [n.name]) then messagesOf path n else []).flatMap
      fun b => metaEvents (scopeOf st) (ownMetas o c ⟨b.1, b.2⟩)) ?_ h2) (fun st => by simp [messagesOfList])
    split
    · rename_i hv; simpa [hv] using h1
    · rename_i hv; simpa [hv] using Eff.nil _ _
end

/-! ### Top-level messages -/

theorem outer_names {o : Options} {c : Ctx} (hf : PlainFile o c) : ∀ n ∈ outerNs o c, Name n := by
  intro n hn
  unfold outerNs fileNs at hn
  rcases List.mem_append.1 hn with hn | hn
  · exact extra_list hf.extra n hn
  · exact (hf.package n hn).1

theorem forwardDeclaration_eff {o : Options} {c : Ctx} (hf : PlainFile o c) {msg : Msg} (hm : PlainMsg msg) :
    Eff false false false (forwardDeclaration o c msg) [] []
      (fun st => (bodies (scopeOf st ++ outerNs o c) c.package msg).map forwardEvent) :=
  (Eff.inNamespaces (outer_names hf) (forwardOps_eff hf msg c.package hm hf.package)).congr (fun st => by rw [scopeOf_spaces])

theorem classDeclaration_eff {o : Options} {c : Ctx} (hf : PlainFile o c) {msg : Msg} (hm : PlainMsg msg) :
    Eff false false false (classDeclaration o c msg) [] []
      (fun st => (bodies (scopeOf st ++ outerNs o c) c.package msg).flatMap (classEvents o c) ++
        (messagesOf c.package msg).flatMap fun b => metaEvents (scopeOf st) (ownMetas o c ⟨b.1, b.2⟩)) :=
  Eff.append ((Eff.inNamespaces (outer_names hf) (declareOps_eff hf msg c.package hm hf.package)).congr
    (fun st => by rw [scopeOf_spaces])) (metaOps_eff hf msg c.package hm hf.package)

end QtPb.TextProof
