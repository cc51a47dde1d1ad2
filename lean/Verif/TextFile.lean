import Verif.TextDef
/-
What the calls of the Printer made for enumerations, clients and files do to the reader of the text. (Helpers for the theorems about
generated text.)
-/
namespace QtPb.TextProof
open QtPb.Gen QtPb.Gen.Spec QtPb.Gen.Text QtPb.Gen.Text.Spec QtPb.SpecCpp

/-! ### Enumerations of the file -/

section
variable {o : Options} {c : Ctx} {e : EnumD} (hf : PlainFile o c) (he : PlainEnum e)
include hf he

theorem globalEnum_good : GoodL (globalEnumVars o c e) :=
  goodL_enum c (extraOk hf) (good_snoc hf.package he.1) none .global (fun h => absurd rfl h)

omit hf he in
theorem globalEnum_keys : ∀ x ∈ enumKeys, ((globalEnumVars o c e).get x).isSome = true := fun _ hx => get_isSome hx

omit hf he in
theorem globalEnum_type : (globalEnumVars o c e).val (text! "type") = upperCaseName e.name := by
  have : (globalEnumVars o c e).val (text! "type") = upperCaseName ((c.package ++ [e.name]).getLastD []) := rfl
  rw [this]; simp

omit hf he in
theorem globalEnum_class : (globalEnumVars o c e).val (text! "classname") = upperCaseName e.name ++ kGadget := by
  have : (globalEnumVars o c e).val (text! "classname") = upperCaseName ((c.package ++ [e.name]).getLastD []) ++ kGadget := rfl
  rw [this]; simp

theorem q_enum {out : Bool} {t : Str} (h : effect out (fun _ => true) enumKeys [] t = some ([], [], false)) :
    Quiet out [.print (globalEnumVars o c e) t] := quiet_of (globalEnum_good hf he) globalEnum_keys h

theorem open_enum {out : Bool} {t : Str} (h : effect out (fun _ => true) enumKeys [] t = some ([.brace], [], false)) :
    Eff out false false [.print (globalEnumVars o c e) t] [] [.brace] (fun _ => []) :=
  Eff.of (s0 := []) (s1 := [.brace]) (evs := []) (globalEnum_good hf he) globalEnum_keys h

/-- Functions named after the class. -/
theorem f_enum {t : Str} (h : effect false (fun _ => true) enumKeys [] t = some ([], [.func [] [.var (text! "classname")]], false)) :
    Body [.print (globalEnumVars o c e) t] [.func (upperCaseName e.name ++ kGadget)] :=
  body_func (globalEnum_good hf he) globalEnum_keys h (by simp [val, tokVal, globalEnum_class])

/-- The list type of an enumeration of the file. -/
def enumMeta (o : Options) (c : Ctx) (e : EnumD) : List Lexeme := metaCall enumKeys (globalEnumVars o c e) tDeclareMetaTypeListTemplate

/-- The labels and functions in the class of an enumeration. -/
def gadgetMems (e : EnumD) : List Mem :=
  [.label kwPublic, .func (text! "registerTypes"), .label kwPrivate, .func (upperCaseName e.name ++ kGadget),
   .func (upperCaseName e.name ++ kGadget), .func (upperCaseName e.name ++ kGadget), .label kwPublic]

/-- What is found for an enumeration of the file. -/
def enumEvents (o : Options) (c : Ctx) (sc : List Text) (e : EnumD) : List Event :=
  .cls (sc ++ outerNs o c) (upperCaseName e.name ++ kGadget) objectBases ::
  .label (sc ++ outerNs o c ++ [upperCaseName e.name ++ kGadget]) kwObject ::
  (gadgetMems e).map (Mem.event (sc ++ outerNs o c ++ [upperCaseName e.name ++ kGadget])) ++
  [.call (sc ++ outerNs o c ++ [upperCaseName e.name ++ kGadget]) kwEnum [.word (upperCaseName e.name)],
   .call sc kwMetaType (enumMeta o c e)]

theorem enumDeclaration_eff : Eff false false false (enumDeclaration o c e) [] [] (fun st => enumEvents o c (scopeOf st) e) := by
  have h0 : Eff false false false [.print (globalEnumVars o c e) tClassDeclarationTemplate] [] [.cls (upperCaseName e.name ++ kGadget)]
      (fun st => [.cls (scopeOf st) (upperCaseName e.name ++ kGadget) objectBases,
        .label (scopeOf st ++ [upperCaseName e.name ++ kGadget]) kwObject]) := by
    have := Eff.of (out := false) (s0 := []) (s1 := [.cls [.var (text! "classname")]])
      (evs := [.cls [] [.var (text! "classname")] [.punct ':', .word ((text! "public").map Tok.ch), .word ((text! "QObject").map Tok.ch)],
        .label [.cls [.var (text! "classname")]] kwObject])
      (t := tClassDeclarationTemplate) (q := false) (globalEnum_good hf he) globalEnum_keys (by decide +kernel)
    have hb : [SLex.punct ':', .word ((text! "public").map Tok.ch), .word ((text! "QObject").map Tok.ch)].flatMap
        (inst (globalEnumVars o c e)) = objectBases := by
      simp only [List.flatMap_cons, List.flatMap_nil, inst, val_chars]
      decide +kernel
    have hc : val (globalEnumVars o c e) [.var (text! "classname")] = upperCaseName e.name ++ kGadget := by
      simp [val, tokVal, globalEnum_class]
    have e1 : (SFrame.cls [.var (text! "classname")] :: ([] : List SFrame)).map (instF (globalEnumVars o c e)) =
        [Frame.cls (upperCaseName e.name ++ kGadget)] := by
      simp only [List.map_cons, List.map_nil, instF, hc]
    rw [e1] at this
    refine this.congr fun st => ?_
    simp only [List.flatMap_cons, List.flatMap_nil, instE, hb, hc, e1, inClass, scopeOf, List.map_nil, List.nil_append,
      List.cons_append, if_true, List.append_nil]
  have h1 : Body ([.print [] tPublicBlockTemplate] ++ (indented [.print (globalEnumVars o c e) tManualRegistrationDeclaration] ++
      ([.print [] tPrivateBlockTemplate] ++ (indented [.print (globalEnumVars o c e) tConstructorHeaderTemplate,
        .print (globalEnumVars o c e) tDeletedCopyConstructorTemplate, .print (globalEnumVars o c e) tDeletedMoveConstructorTemplate] ++
      [.print [] tPublicBlockTemplate])))) (gadgetMems e) := by
    refine Body.append body_public (Body.append (l := [.func (text! "registerTypes")]) ?_ (Body.append body_private
      (Body.append (l := [.func (upperCaseName e.name ++ kGadget), .func (upperCaseName e.name ++ kGadget),
        .func (upperCaseName e.name ++ kGadget)]) ?_ body_public)))
    · exact (body_func (globalEnum_good hf he) globalEnum_keys (p := (text! "registerTypes").map Tok.ch) (by decide +kernel)
        (val_chars _ _)).indented
    · exact (Body.cons (f_enum hf he (by decide +kernel)) (.cons (f_enum hf he (by decide +kernel))
        (f_enum hf he (by decide +kernel)))).indented
  have h2 : Quiet false ([.print (globalEnumVars o c e) tEnumDefinitionTemplate] ++ indented (enumValueOps e.values) ++
      [.print [] tSemicolonBlockEnclosureTemplate]) :=
    Quiet.enclose (open_enum hf he (by decide +kernel)) (enumValues_quiet e.values he.2).indented (close_semicolon trivial)
  have h3 : Eff false false false [.print (globalEnumVars o c e) tQEnumTemplate] [] []
      (fun st => [.call (scopeOf st) kwEnum [.word (upperCaseName e.name)]]) :=
    qenum_eff (globalEnum_good hf he) globalEnum_keys globalEnum_type (name_id he.1.2) (by decide +kernel)
  have h4 : Quiet false [.print (globalEnumVars o c e) tEnumTypeRepeatedTemplate] := q_enum hf he (by decide +kernel)
  have h5 := (((Eff.append h2 h3).append h4).indented)
  have h6 := ((Eff.append h1 h5).within [.cls (upperCaseName e.name ++ kGadget)])
  have h7 := (h0.append h6).append (encloseClass_eff (upperCaseName e.name ++ kGadget))
  have h8 := Eff.inNamespaces (outer_names hf) (h7.congr (e' := fun st => .cls (scopeOf st) (upperCaseName e.name ++ kGadget) objectBases ::
    .label (scopeOf st ++ [upperCaseName e.name ++ kGadget]) kwObject ::
    (gadgetMems e).map (Mem.event (scopeOf st ++ [upperCaseName e.name ++ kGadget])) ++
    [.call (scopeOf st ++ [upperCaseName e.name ++ kGadget]) kwEnum [.word (upperCaseName e.name)]])
    (fun st => by simp [scopeOf, memEvents, inClass]))
  have h9 : Eff false false false [.print (globalEnumVars o c e) tDeclareMetaTypeListTemplate] [] []
      (fun st => [.call (scopeOf st) kwMetaType (enumMeta o c e)]) :=
    eff_macro (globalEnum_good hf he) globalEnum_keys (by decide +kernel)
  have := (h8.append h9).congr (e' := fun st => enumEvents o c (scopeOf st) e) (fun st => by simp [enumEvents, scopeOf_spaces])
  unfold enumDeclaration
  simpa [List.append_assoc] using this

theorem enumDefinition_quiet : Quiet true (enumDefinition o c e) := by
  have h1 : Quiet true ([.print (globalEnumVars o c e) tManualRegistrationGlobalEnumDefinition] ++
      indented ((if o.qml then [.print (globalEnumVars o c e) tQmlRegisterEnumTypeTemplate] else []) ++
        [.print (globalEnumVars o c e) tComplexGlobalEnumFieldRegistrationTemplate,
         .print (globalEnumVars o c e) tRegisterGlobalEnumMetaTypeTemplate, .print (globalEnumVars o c e) tRegisterEnumSerializersTemplate]) ++
      [.print [] tSimpleBlockEnclosureTemplate]) := by
    refine Quiet.enclose (open_enum hf he (by decide +kernel)) (Quiet.append ?_ ?_).indented (close_block trivial)
    · exact Quiet.ite (fun _ => q_enum hf he (by decide +kernel)) (fun _ => Quiet.nil)
    · exact Quiet.cons (q_enum hf he (by decide +kernel)) (.cons (q_enum hf he (by decide +kernel)) (q_enum hf he (by decide +kernel)))
  have h2 : Quiet true [.print (globalEnumVars o c e) tEnumRegistrarTemplate] := q_enum hf he (by decide +kernel)
  have := Eff.inNamespaces (outer_names hf) (h2.append h1)
  unfold enumDefinition
  simpa [List.append_assoc, Quiet] using this

end

/-! ### Clients -/

theorem replace_word {s t : Str} (hs : ∀ c ∈ s, isWord c = true) :
    Comments.replaceFrom ['.'] kScope 0 (s ++ t) = s ++ Comments.replaceFrom ['.'] kScope 0 t := by
  induction s with
  | nil => rfl
  | cons c s ih =>
    have hc : c ≠ '.' := by intro e; subst e; exact absurd (hs '.' (by simp)) (by decide)
    have : List.isPrefixOf ['.'] (c :: (s ++ t)) = false := by
      simp [List.isPrefixOf]; exact fun h => hc h.symm
    rw [List.cons_append, Comments.replaceFrom, this]
    simp only [Bool.false_eq_true, if_false, List.cons_append]
    rw [ih (fun d hd => hs d (by simp [hd]))]

theorem replace_joined : ∀ (l : List Str), (∀ s ∈ l, ∀ c ∈ s, isWord c = true) →
    Comments.replaceFrom ['.'] kScope 0 (joined ['.'] l) = joined kScope l
  | [], _ => rfl
  | [s], h => by
    have := replace_word (s := s) (t := []) (h s (by simp))
    simpa [joined, Comments.replaceFrom] using this
  | s :: t :: l, h => by
    rw [joined, List.append_assoc, replace_word (h s (by simp))]
    have e : Comments.replaceFrom ['.'] kScope 0 (['.'] ++ joined ['.'] (t :: l)) =
        kScope ++ Comments.replaceFrom ['.'] kScope 0 (joined ['.'] (t :: l)) := by
      simp [Comments.replaceFrom, List.isPrefixOf]
    rw [e, replace_joined (t :: l) (fun x hx => h x (by simp [hx])), joined]
    simp [List.append_assoc]

/-- The C++ name of a message type in a client. -/
theorem colons_eq {p : Path} (h : ∀ s ∈ p, Named s) : colons p = joined kScope p := by
  unfold colons Comments.replace dots
  rw [gnsDot]
  exact replace_joined p (fun s hs => (h s hs).1.2.1)

theorem colons_value {p : Path} (h : ∀ s ∈ p, Named s) : Value (colons p) := by
  rw [colons_eq h]; exact value_joined (fun s hs => name_value (h s hs).1)

def methodKeys : List Str :=
  [text! "classname", text! "return_type", text! "method_name", text! "method_name_upper", text! "param_type", text! "param_name",
   text! "return_name"]

section
variable {o : Options} {c : Ctx} {s : ServiceText} (hf : PlainFile o c) (hs : Named s.name) (hm : ∀ d ∈ s.methods, PlainMethod d)
include hs hm

omit hm in
theorem clientName_name : Name (clientName s) := name_client (name_id hs.2)

theorem method_good {d : MethodD} (hd : d ∈ s.methods) : GoodL (methodVars (clientName s) d) := by
  have hn := hm d hd
  have hc := clientName_name hs
  exact .cons (name_value hc) (Or.inr (name_id hc)) <| .cons (colons_value hn.output.2) (Or.inl (by decide)) <|
    .cons (name_value hn.name.1) (Or.inr (name_id hn.name.1)) <| .cons (name_value hn.name.2) (Or.inr (name_id hn.name.2)) <|
    .cons (colons_value hn.input.2) (Or.inl (by decide)) <| .cons (value_of_B (by decide)) (Or.inl (by decide)) <|
    .cons (value_of_B (by decide)) (Or.inl (by decide)) .nil

omit hs hm in
theorem method_keys (d : MethodD) : ∀ x ∈ methodKeys, ((methodVars (clientName s) d).get x).isSome = true := fun _ hx => get_isSome hx

theorem q_method {out : Bool} {d : MethodD} (hd : d ∈ s.methods) {t : Str}
    (h : effect out (fun _ => true) methodKeys [] t = some ([], [], false)) :
    Quiet out [.print (methodVars (clientName s) d) t] := quiet_of (method_good hs hm hd) (method_keys d) h

/-- Functions named after a method. -/
theorem f_method {d : MethodD} (hd : d ∈ s.methods) {t : Str}
    (h : effect false (fun _ => true) methodKeys [] t = some ([], [.func [] [.var (text! "method_name")]], false)) :
    Body [.print (methodVars (clientName s) d) t] [.func d.name] :=
  body_func (method_good hs hm hd) (method_keys d) h (by simp [val, tokVal]; rfl)

theorem f_stream {d : MethodD} (hd : d ∈ s.methods) {t : Str}
    (h : effect false (fun _ => true) methodKeys [] t =
      some ([], [.func [] ((text! "stream").map Tok.ch ++ [.var (text! "method_name_upper")])], false)) :
    Body [.print (methodVars (clientName s) d) t] [.func (text! "stream" ++ upperCaseName d.name)] :=
  body_func (method_good hs hm hd) (method_keys d) h (by rw [val_append, val_chars]; simp [val, tokVal]; rfl)

theorem f_qmlStream {d : MethodD} (hd : d ∈ s.methods) {t : Str}
    (h : effect false (fun _ => true) methodKeys [] t =
      some ([], [.func [] ((text! "qmlStream").map Tok.ch ++ [.var (text! "method_name_upper")] ++ (text! "_p").map Tok.ch)], false)) :
    Body [.print (methodVars (clientName s) d) t] [.func (text! "qmlStream" ++ upperCaseName d.name ++ text! "_p")] :=
  body_func (method_good hs hm hd) (method_keys d) h (by rw [val_append, val_append, val_chars, val_chars]; simp [val, tokVal]; rfl)

/-- The functions of a client for a method. -/
def methodMems (o : Options) (d : MethodD) : List Mem :=
  if d.streaming then [.func (text! "stream" ++ upperCaseName d.name), .func (text! "stream" ++ upperCaseName d.name)]
  else [.func d.name, .func d.name, .func d.name] ++ if o.qml then [.func d.name, .func d.name] else []

def privateMems (o : Options) (d : MethodD) : List Mem :=
  if d.streaming && o.qml then [.func (text! "qmlStream" ++ upperCaseName d.name ++ text! "_p")] else []

theorem clientMethodOps_body {d : MethodD} (hd : d ∈ s.methods) : Body (clientMethodOps o s d) (methodMems o d) := by
  unfold clientMethodOps methodMems
  refine Body.congr (Body.append (Body.ite (fun _ => ?_) (fun _ => ?_)) newline.body) (List.append_nil _)
  · exact .cons (f_stream hs hm hd (by decide +kernel)) (f_stream hs hm hd (by decide +kernel))
  · refine Body.append (.cons (f_method hs hm hd (by decide +kernel)) (.cons (f_method hs hm hd (by decide +kernel))
      (f_method hs hm hd (by decide +kernel)))) ?_
    exact Body.ite (fun _ => .cons (f_method hs hm hd (by decide +kernel)) (f_method hs hm hd (by decide +kernel))) (fun _ => Body.nil)

theorem clientPrivateOps_body {d : MethodD} (hd : d ∈ s.methods) : Body (clientPrivateOps o s d) (privateMems o d) := by
  unfold clientPrivateOps privateMems
  exact Body.ite (fun _ => f_qmlStream hs hm hd (by decide +kernel)) (fun _ => Body.nil)

omit hs hm in
/-- `Q_OBJECT` and the end of the line, printed one after the other. -/
theorem object_body : Body (indented [.print [] tQObjectMacro, .print [] (text! "\n")]) [.label kwObject] := by
  have h : Body [.print [] (text! "Q_OBJECT\n")] [.label kwObject] := body_label (by decide +kernel)
  refine Body.indented fun n start l hl => ?_
  obtain ⟨t, st, ls, l', h1, h2⟩ := h n start l hl
  refine ⟨t, st, ls, l', ?_, h2⟩
  rw [← h1]
  have e1 : tokens none tQObjectMacro = some ((text! "Q_OBJECT").map Tok.ch) := by rfl
  have e2 : tokens none (text! "\n") = some [Tok.ch '\n'] := by rfl
  have e3 : tokens none (text! "Q_OBJECT\n") = some ((text! "Q_OBJECT\n").map Tok.ch) := by rfl
  simp only [run, e1, e2, e3]
  simp [emitToks, emitTok, List.append_assoc]

/-- `: public QtProtobuf::QAbstractGrpcClient`. -/
def clientBases : List Lexeme :=
  [.punct ':', .word (text! "public"), .word (text! "QtProtobuf"), .punct ':', .punct ':', .word (text! "QAbstractGrpcClient")]

/-- The labels and functions in the class of a client. -/
def clientMems (o : Options) (s : ServiceText) : List Mem :=
  [.label kwObject, .label kwPublic, .func (clientName s)] ++ s.methods.flatMap (methodMems o) ++ [.label kwPrivate] ++
    s.methods.flatMap (privateMems o)

def clientEvents (o : Options) (sc : List Text) (s : ServiceText) : List Event :=
  .cls sc (clientName s) clientBases :: (clientMems o s).map (Mem.event (sc ++ [clientName s]))

include hf

theorem clientDeclaration_eff : Eff false false false (clientDeclaration o c s) [] []
    (fun st => clientEvents o (scopeOf st ++ outerNs o c) s) := by
  have hc := clientName_name hs
  have h0 : Eff false false false
      [.print [(text! "classname", clientName s), (text! "parent_class", text! "QtProtobuf::QAbstractGrpcClient")]
      tClassDefinitionTemplate] [] [.cls (clientName s)] (fun st => [.cls (scopeOf st) (clientName s) clientBases]) := by
    have := Eff.of (out := false) (vars := [(text! "classname", clientName s), (text! "parent_class", text! "QtProtobuf::QAbstractGrpcClient")])
      (keys := [text! "classname", text! "parent_class"]) (s0 := []) (s1 := [.cls [.var (text! "classname")]])
      (evs := [.cls [] [.var (text! "classname")] [.punct ':', .word ((text! "public").map Tok.ch), .word [.var (text! "parent_class")]]])
      (t := tClassDefinitionTemplate) (q := false)
      (.cons (name_value hc) (Or.inr (name_id hc)) <| .cons (value_of_B (by decide)) (Or.inl (by decide)) .nil)
      (by simp [Vars.get]) (by decide +kernel)
    have hb : [SLex.punct ':', .word ((text! "public").map Tok.ch), .word [.var (text! "parent_class")]].flatMap
        (inst [(text! "classname", clientName s), (text! "parent_class", text! "QtProtobuf::QAbstractGrpcClient")]) = clientBases := by
      simp only [List.flatMap_cons, List.flatMap_nil, inst, val_chars]
      have : val [(text! "classname", clientName s), (text! "parent_class", text! "QtProtobuf::QAbstractGrpcClient")]
          [.var (text! "parent_class")] = text! "QtProtobuf::QAbstractGrpcClient" := by simp [val, tokVal, Vars.val, Vars.get]
      rw [this]
      decide +kernel
    have hv : val [(text! "classname", clientName s), (text! "parent_class", text! "QtProtobuf::QAbstractGrpcClient")]
        [.var (text! "classname")] = clientName s := by simp [val, tokVal, Vars.val, Vars.get]
    have e1 : (SFrame.cls [.var (text! "classname")] :: ([] : List SFrame)).map
        (instF [(text! "classname", clientName s), (text! "parent_class", text! "QtProtobuf::QAbstractGrpcClient")]) =
        [Frame.cls (clientName s)] := by
      simp only [List.map_cons, List.map_nil, instF, hv]
    rw [e1] at this
    refine this.congr fun st => ?_
    simp only [List.flatMap_cons, List.flatMap_nil, instE, hb, hv, List.map_nil, List.nil_append, List.append_nil]
  have ctor : Body (indented [.print [(text! "classname", clientName s)] tQObjectConstructorTemplate]) [.func (clientName s)] :=
    (body_func (vars := [(text! "classname", clientName s)]) (keys := [text! "classname"]) (p := [.var (text! "classname")])
      (.cons (name_value hc) (Or.inr (name_id hc)) .nil) (by simp [Vars.get]) (by decide +kernel)
      (by simp [val, tokVal, Vars.val, Vars.get])).indented
  have ms : Body (indented (s.methods.flatMap (clientMethodOps o s))) (s.methods.flatMap (methodMems o)) :=
    (Body.flatMap fun d hd => clientMethodOps_body hs hm hd).indented
  have ps : Body (indented (s.methods.flatMap (clientPrivateOps o s))) (s.methods.flatMap (privateMems o)) :=
    (Body.flatMap fun d hd => clientPrivateOps_body hs hm hd).indented
  have body : Body (indented [.print [] tQObjectMacro, .print [] (text! "\n")] ++ ([.print [] tPublicBlockTemplate] ++
      (indented [.print [(text! "classname", clientName s)] tQObjectConstructorTemplate] ++
      (indented (s.methods.flatMap (clientMethodOps o s)) ++ ([.print [] tPrivateBlockTemplate] ++
      (indented (s.methods.flatMap (clientPrivateOps o s)) ++ [.print [] (text! "\n")])))))) (clientMems o s) :=
    (object_body.append (body_public.append (ctor.append (ms.append (body_private.append (ps.append newline.body)))))).congr
      (by simp [clientMems])
  have h7 := (h0.append (Eff.within body [.cls (clientName s)])).append (encloseClass_eff (clientName s))
  have h8 := Eff.inNamespaces (outer_names hf) (h7.congr (e' := fun st => clientEvents o (scopeOf st) s)
    (fun st => by simp [clientEvents, memEvents, inClass, scopeOf]))
  have := h8.congr (e' := fun st => clientEvents o (scopeOf st ++ outerNs o c) s) (fun st => by rw [scopeOf_spaces])
  unfold clientDeclaration
  simpa [List.append_assoc] using this

omit hf in
theorem clientDefOps_quiet {d : MethodD} (hd : d ∈ s.methods) : Quiet true (clientDefOps o s d) := by
  unfold clientDefOps
  refine Quiet.ite (fun _ => ?_) (fun _ => ?_)
  · refine Quiet.append (.cons (q_method hs hm hd (by decide +kernel)) (q_method hs hm hd (by decide +kernel))) ?_
    exact Quiet.ite (fun _ => q_method hs hm hd (by decide +kernel)) (fun _ => Quiet.nil)
  · refine Quiet.append (.cons (q_method hs hm hd (by decide +kernel)) (.cons (q_method hs hm hd (by decide +kernel))
      (q_method hs hm hd (by decide +kernel)))) ?_
    exact Quiet.ite (fun _ => .cons (q_method hs hm hd (by decide +kernel)) (q_method hs hm hd (by decide +kernel))) (fun _ => Quiet.nil)

theorem clientDefinition_quiet : Quiet true (clientDefinition o c s) := by
  have hc := clientName_name hs
  have hn : ∀ x ∈ c.package ++ [s.name], Name x := by
    intro x hx
    rcases List.mem_append.1 hx with hx | hx
    · exact (hf.package x hx).1
    · simp at hx; rw [hx]; exact hs.1
  have h0 : Quiet true [.print [(text! "classname", clientName s), (text! "parent_class", text! "QAbstractGrpcClient"),
      (text! "service_name", dots (c.package ++ [s.name]))] tClientConstructorDefinitionTemplate] :=
    quiet_of (keys := [text! "classname", text! "parent_class", text! "service_name"])
      (.cons (name_value hc) (Or.inr (name_id hc)) <| .cons (value_of_B (by decide)) (Or.inl (by decide)) <|
        .cons (value_ns_dot hn) (Or.inl (by decide)) .nil) (by simp [Vars.get]) (by decide +kernel)
  have h1 : Quiet true (s.methods.flatMap (clientDefOps o s)) := Quiet.flatMap fun d hd => clientDefOps_quiet hs hm hd
  have := Eff.inNamespaces (outer_names hf) (h0.append h1)
  unfold clientDefinition
  simpa [List.append_assoc, Quiet] using this

end

/-! ### Files -/

theorem include_quiet {out : Bool} {i : Str} (h : Quoted i) : Quiet out [.print [(text! "include", i)] tInternalIncludeTemplate] := by
  refine eff_print (inCode := fun _ => false) (keys := [text! "include"]) (s0 := []) (s1 := []) (evs := []) ?_ (by simp [Vars.get])
    (by cases out <;> decide +kernel)
  intro x v hx
  have hm := get_mem hx
  simp only [List.mem_cons, Prod.mk.injEq, List.not_mem_nil, or_false] at hm
  obtain ⟨rfl, rfl⟩ := hm
  exact ⟨h, fun h => by simp at h, fun h => absurd h (by decide)⟩

theorem external_quiet {out : Bool} {i : Str} (h : Name i) : Quiet out [.print [(text! "include", i)] tExternalIncludeTemplate] :=
  quiet_of (keys := [text! "include"]) (.cons (name_value h) (Or.inl (by decide)) .nil) (by simp [Vars.get]) (by cases out <;> decide +kernel)

theorem headerTop_quiet {out : Bool} (o : Options) {external internal : List Str} (he : ∀ i ∈ external, Name i) (hi : ∀ i ∈ internal, Quoted i) :
    Quiet out (headerTop o external internal) := by
  unfold headerTop
  refine Quiet.append (Quiet.append (Quiet.append ?_ ?_) (Quiet.map fun i h => external_quiet (he i h))) (Quiet.map fun i h => include_quiet (hi i h))
  · exact .cons (quiet_nil (by cases out <;> decide +kernel)) (.cons (quiet_nil (by cases out <;> decide +kernel)) (quiet_nil (by cases out <;> decide +kernel)))
  · exact Quiet.ite (fun _ => quiet_nil (by cases out <;> decide +kernel)) (fun _ => Quiet.nil)

theorem sourceTop_quiet {out : Bool} {header : Str} {external : List Str} (hh : Quoted header) (he : ∀ i ∈ external, Name i) :
    Quiet out (sourceTop header external) := by
  unfold sourceTop
  refine Quiet.append (Quiet.append (.cons (quiet_nil (by cases out <;> decide +kernel)) (include_quiet hh)) (Quiet.map fun i h => external_quiet (he i h))) ?_
  exact quiet_of (keys := [text! "namespace"]) (.cons (value_of_B (by decide)) (Or.inr (id_of_B (by decide))) .nil) (by simp [Vars.get])
    (by cases out <;> decide +kernel)

end QtPb.TextProof
