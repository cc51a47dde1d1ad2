import Verif.TextDefs
/-
What the readers of definitions find in the sources of enumerations and clients. (Helpers for the theorems about generated sources.)
-/
set_option maxRecDepth 100000

namespace QtPb.TextProof
open QtPb.Gen QtPb.Gen.Text QtPb.Gen.Text.Spec QtPb.SpecCpp

/-! ### Enumerations -/

section
variable {o : Options} {c : Ctx} {e : EnumD}

def enumFnBody (o : Options) (c : Ctx) (e : EnumD) : List Lexeme :=
  (if o.qml then Src.enumQml (gadget e) (upperCaseName e.name) ((globalEnumVars o c e).val (text! "qml_package"))
        ((globalEnumVars o c e).val (text! "full_type")) else []) ++
      Src.enumBody (lexemes ((globalEnumVars o c e).val (text! "full_type"))) (upperCaseName e.name) ((globalEnumVars o c e).val (text! "full_type"))

theorem fns_enum (s : List Text) : fnsIn (enumItems o c s e) = [⟨cpp! "void", s ++ [gadget e], cpp! "registerTypes", [], [], enumFnBody o c e⟩] := by
  unfold enumItems
  rw [fnsIn_statement, fnsIn_block (fn_register _ _ _)]
  rfl

theorem tables_enum (n : Text) (s : List Text) : tablesIn n (enumItems o c s e) = [] := by
  unfold enumItems
  rw [tables_statement, tables_fn (fn_register _ _ _)]
  rfl

theorem statements_enum (s : List Text) : statementsIn (enumItems o c s e) = [(s, Src.enumRegistrar (gadget e))] := rfl

variable (hf : PlainFile o c) (he : PlainEnum e)
include hf he

theorem enum_text : (globalEnumVars o c e).val (text! "full_type") = written (gadgetClass o c e ++ [upperCaseName e.name]) ∧
    lexemes ((globalEnumVars o c e).val (text! "full_type")) = qualified (gadgetClass o c e ++ [upperCaseName e.name]) ∧
    (globalEnumVars o c e).val (text! "qml_package") = (text! ".").intercalate (around o c) := by
  have hp : Good' (c.package ++ [e.name]) := good_snoc hf.package he.1
  have e2 : (globalEnumVars o c e).val (text! "full_type") =
      qualify (getNamespacesString kScope ((if o.extra = [] then [] else [o.extra]) ++ getNamespaces (some (typeD c (c.package ++ [e.name]))) ++
        [upperCaseName ((c.package ++ [e.name]).getLastD []) ++ kGadget])) (upperCaseName ((c.package ++ [e.name]).getLastD [])) := rfl
  have hn := outer_name (o := o) hf.extra hp
  have i1 := name_id (good_last hp).2
  have hng : ∀ s ∈ extraNs o ++ (c.package ++ [e.name]).dropLast ++ [upperCaseName ((c.package ++ [e.name]).getLastD []) ++ kGadget], Name s := by
    intro s hs
    rcases List.mem_append.1 hs with hs | hs
    · exact hn s hs
    · rw [List.mem_singleton.1 hs]; exact name_gadget i1
  rw [e2, good_namespaces c hp.2]
  refine ⟨?_, ?_, ?_⟩
  · have := written_qualify hng (n := upperCaseName ((c.package ++ [e.name]).getLastD []))
    simpa [extraNs, gadgetClass, around] using this
  · have := lexemes_qualify hng i1
    simpa [extraNs, gadgetClass, around] using this
  · have : (globalEnumVars o c e).val (text! "qml_package") = qmlPackage o.extra (typeD c (c.package ++ [e.name])) := rfl
    rw [this, qmlPackage, gnsDot, good_namespaces c hp.2, joined_intercalate]
    simp [around, extraNs]

theorem calls_enum : (SpecCpp.cut (enumFnBody o c e)).map typedCall = (enumRegistrations o c e).map some := by
  obtain ⟨t1, t2, t3⟩ := enum_text hf he
  have hv := (globalEnum_good hf he).val (text! "full_type")
  have hF : Inlines (lexemes ((globalEnumVars o c e).val (text! "full_type"))) := inlines_value hv
  have hp : ∀ y ∈ lexemes ((globalEnumVars o c e).val (text! "full_type")), y ≠ .punct '(' := fun y hy => (flat_value hv y hy).1
  let l : List (List Lexeme) :=
    (if o.qml then [typed (text! "qmlRegisterUncreatableType") [.word (gadget e)]
      (let package := (globalEnumVars o c e).val (text! "qml_package"); let E := upperCaseName e.name;
        let full := (globalEnumVars o c e).val (text! "full_type");
        cpp! "\"$package$\", 1, 0, \"$E$\", \"$full$ Could not be created from qml context\"")] else []) ++
    [typed (text! "qRegisterMetaType") [.word (upperCaseName e.name)] [.str ((globalEnumVars o c e).val (text! "full_type"))],
     typed (text! "qRegisterMetaType") (lexemes ((globalEnumVars o c e).val (text! "full_type"))) [.str ((globalEnumVars o c e).val (text! "full_type"))],
     typed (text! "qRegisterProtobufEnumType") (lexemes ((globalEnumVars o c e).val (text! "full_type"))) []]
  have eb : enumFnBody o c e = ended l := by
    simp only [l, ended_append, enumFnBody]
    refine congrArg₂' (· ++ ·) ?_ ?_
    · split
      · simp [Src.enumQml, ended, typed]
      · rfl
    · simp [Src.enumBody, ended, typed]
  have hl : ∀ x ∈ l, Inlines x := by
    intro x hx
    rcases List.mem_append.1 hx with hx | hx
    · split at hx
      · simp only [List.mem_cons, List.not_mem_nil, or_false] at hx
        subst hx
        exact inlines_typed (by simp [inlines_word, inlines_nil]) (by simp [inlines_str, inlines_word, inlines_punct, inlines_nil])
      · simp at hx
    · simp only [List.mem_cons, List.not_mem_nil, or_false] at hx
      rcases hx with rfl | rfl | rfl
      · exact inlines_typed (by simp [inlines_word, inlines_nil]) (by simp [inlines_str, inlines_nil])
      · exact inlines_typed hF (by simp [inlines_str, inlines_nil])
      · exact inlines_typed hF inlines_nil
  rw [eb, cut_ended _ hl]
  unfold enumRegistrations
  simp only [l, List.map_append]
  have ec := fun (w : Text) (types args : List Lexeme) h => typedCall_eq (f := w) (types := types) (args := args) h
  refine congrArg₂' (· ++ ·) ?_ ?_
  · split
    · simp only [List.map_cons, List.map_nil]
      rw [ec _ _ _ (by simp), t1, t3]
      rfl
    · rfl
  · simp only [List.map_cons, List.map_nil]
    rw [ec _ _ _ (by simp), ec _ _ _ hp, ec _ _ _ hp, t2, t1]
    rfl

end

/-! ### Clients -/

theorem flat_of {a : List Lexeme} (h : (a.all fun x => decide (x ≠ .punct '(' ∧ x ≠ .punct ')' ∧ x ≠ .punct ',')) = true) : Flat a := by
  intro x hx
  simpa using List.all_eq_true.1 h x hx

theorem flat_cons {x : Lexeme} {a : List Lexeme} : Flat (x :: a) ↔ (x ≠ .punct '(' ∧ x ≠ .punct ')' ∧ x ≠ .punct ',') ∧ Flat a := by
  simp [Flat]

theorem flat_app {a b : List Lexeme} : Flat (a ++ b) ↔ Flat a ∧ Flat b :=
  ⟨fun h => ⟨fun x hx => h x (by simp [hx]), fun x hx => h x (by simp [hx])⟩, fun h => flat_append h.1 h.2⟩

theorem parts_one {a : List Lexeme} (h : Flat a) (hne : a ≠ []) : parts a = [a] := by
  have := partsFrom_flat h [] [] 0
  simp only [List.append_nil, List.nil_append] at this
  simp [parts, this, partsFrom, hne]

theorem parts_comma {a : List Lexeme} (h : Flat a) (r : List Lexeme) : parts (a ++ .punct ',' :: r) = a :: parts r := by
  unfold parts
  rw [partsFrom_flat h, partsFrom_comma]
  rfl

theorem param_named (a : List Lexeme) (n : Text) : paramOf (a ++ [.word n]) = (a, n) := paramOf_snoc a n

section
variable {I O : List Lexeme} (hI : Flat I) (hO : Flat O) (s : List Text) (K M U : Text) (body : List Lexeme)

theorem closing_comma {ps : List Lexeme} (n : Nat) (r : List Lexeme) (h : closing n r = some (ps, [])) :
    closing n (.punct ',' :: r) = some (.punct ',' :: ps, []) := by
  cases n <;> simp [closing, h]

/-- Parameters of a function between its brackets. -/
theorem closing_list : ∀ (l : List (List Lexeme)), (∀ a ∈ l, Flat a) → ∀ r,
    closing 0 ([Lexeme.punct ','].intercalate l ++ .punct ')' :: r) = some ([Lexeme.punct ','].intercalate l, r)
  | [], _, r => by simp [List.intercalate, closing]
  | [a], h, r => by
    have := closing_end (h a (by simp)) r
    simpa [List.intercalate] using this
  | a :: b :: l, h, r => by
    have ih := closing_list (b :: l) (fun x hx => h x (by simp [hx])) r
    have e : [Lexeme.punct ','].intercalate (a :: b :: l) = a ++ .punct ',' :: [Lexeme.punct ','].intercalate (b :: l) := by
      simp [List.intercalate]
    rw [e, List.append_assoc, closing_flat (h a (by simp)), List.cons_append]
    simp [closing, ih]

theorem parts_list : ∀ (l : List (List Lexeme)), (∀ a ∈ l, Flat a ∧ a ≠ []) → parts ([Lexeme.punct ','].intercalate l) = l
  | [], _ => by simp [List.intercalate, parts, partsFrom]
  | [a], h => by
    have := parts_one (h a (by simp)).1 (h a (by simp)).2
    simpa [List.intercalate] using this
  | a :: b :: l, h => by
    have ih := parts_list (b :: l) (fun x hx => h x (by simp [hx]))
    have e : [Lexeme.punct ','].intercalate (a :: b :: l) = a ++ .punct ',' :: [Lexeme.punct ','].intercalate (b :: l) := by
      simp [List.intercalate]
    rw [e, parts_comma (h a (by simp)).1, ih]

/-- A function with parameters without brackets. -/
theorem fnOf_list {pre nm behind head : List Lexeme} {K : Text} (l : List (List Lexeme × Text))
    (e : head = pre ++ .word K :: .punct ':' :: .punct ':' :: (nm ++ .punct '(' ::
      ([Lexeme.punct ','].intercalate (l.map fun p => p.1 ++ [.word p.2]) ++ .punct ')' :: behind)))
    (hp : ∀ x ∈ pre, x ≠ .punct '(') (hn : ∀ x ∈ nm, x ≠ .punct '(' ∧ x ≠ .punct ':') (hl : ∀ p ∈ l, Flat p.1) (s : List Text) (body : List Lexeme) :
    fnOf s head body = some ⟨pre, s ++ [K], nm, l, behind, body⟩ := by
  have h2 : ∀ a ∈ l.map (fun p => p.1 ++ [.word p.2]), Flat a ∧ a ≠ [] := by
    intro a ha
    obtain ⟨p, hm, rfl⟩ := List.mem_map.1 ha
    exact ⟨flat_append (hl p hm) (flat_of (by simp)), by simp⟩
  rw [fnOf_eq e hp hn (closing_list _ (fun a ha => (h2 a ha).1) behind) s body, parts_list _ h2, List.map_map]
  have : (paramOf ∘ fun p : List Lexeme × Text => p.1 ++ [Lexeme.word p.2]) = id := by
    funext p; simp [paramOf_snoc]
  rw [this, List.map_id]

include hI in
theorem fn_async : fnOf s (Src.asyncHead I K M) body =
    some ⟨cpp! "QtProtobuf::QGrpcCallReplyShared", s ++ [K], [.word M], [(cpp! "const @I@ &", text! "arg")], [], body⟩ :=
  fnOf_list (pre := cpp! "QtProtobuf::QGrpcCallReplyShared") (nm := [.word M]) (behind := []) [(cpp! "const @I@ &", text! "arg")]
    (by simp [Src.asyncHead, List.intercalate]) (by simp) (by simp) (by simp [flat_cons, flat_app, hI, flat_nil]) s body

include hI in
theorem fn_stream : fnOf s (Src.streamHead I K U) body =
    some ⟨cpp! "QtProtobuf::QGrpcStreamShared", s ++ [K], cpp! "stream$U$", [(cpp! "const @I@ &", text! "arg")], [], body⟩ :=
  fnOf_list (pre := cpp! "QtProtobuf::QGrpcStreamShared") (nm := cpp! "stream$U$") (behind := []) [(cpp! "const @I@ &", text! "arg")]
    (by simp [Src.streamHead, List.intercalate]) (by simp) (by simp) (by simp [flat_cons, flat_app, hI, flat_nil]) s body

include hI in
theorem fn_qml : fnOf s (Src.qmlHead I K M) body =
    some ⟨cpp! "void", s ++ [K], [.word M], [(cpp! "@I@ *", text! "arg"), (cpp! "const QJSValue &", text! "callback"),
      (cpp! "const QJSValue &", text! "errorCallback")], [], body⟩ :=
  fnOf_list (pre := cpp! "void") (nm := [.word M]) (behind := []) [(cpp! "@I@ *", text! "arg"), (cpp! "const QJSValue &", text! "callback"),
      (cpp! "const QJSValue &", text! "errorCallback")]
    (by simp [Src.qmlHead, List.intercalate]) (by simp) (by simp) (by simp [flat_cons, flat_app, hI, flat_nil]) s body

include hI in
theorem fn_async2 : fnOf s (Src.async2Head I K M) body =
    some ⟨cpp! "void", s ++ [K], [.word M], [(cpp! "const @I@ &", text! "arg"), (cpp! "const QObject *", text! "context"),
      (cpp! "const std::function<void(QGrpcCallReplyShared)> &", text! "callback")], [], body⟩ := by
  have hc : closing 0 (cpp! "const @I@ &arg, const QObject *context, const std::function<void(QGrpcCallReplyShared)> &callback)") =
      some (cpp! "const @I@ &arg, const QObject *context, const std::function<void(QGrpcCallReplyShared)> &callback", []) := by
    have e : (cpp! "const @I@ &arg, const QObject *context, const std::function<void(QGrpcCallReplyShared)> &callback)") =
      (cpp! "const @I@ &arg") ++ cpp! ", const QObject *context, const std::function<void(QGrpcCallReplyShared)> &callback)" := by simp
    rw [e, closing_flat (by simp [flat_cons, flat_app, hI, flat_nil])]
    have : closing 0 (cpp! ", const QObject *context, const std::function<void(QGrpcCallReplyShared)> &callback)") =
      some (cpp! ", const QObject *context, const std::function<void(QGrpcCallReplyShared)> &callback", []) := by decide +kernel
    rw [this]
    simp
  have hp : parts (cpp! "const @I@ &arg, const QObject *context, const std::function<void(QGrpcCallReplyShared)> &callback") =
      [cpp! "const @I@ &arg", cpp! "const QObject *context", cpp! "const std::function<void(QGrpcCallReplyShared)> &callback"] := by
    have := parts_comma (a := cpp! "const @I@ &arg") (by simp [flat_cons, flat_app, hI, flat_nil])
      (cpp! "const QObject *context, const std::function<void(QGrpcCallReplyShared)> &callback")
    have e : (cpp! "const @I@ &arg, const QObject *context, const std::function<void(QGrpcCallReplyShared)> &callback") =
      (cpp! "const @I@ &arg") ++ cpp! ", const QObject *context, const std::function<void(QGrpcCallReplyShared)> &callback" := by simp
    rw [e, this]
    refine congrArg _ ?_
    decide +kernel
  rw [fnOf_eq (pre := cpp! "void") (nm := [.word M]) (behind := [])
    (ps := cpp! "const @I@ &arg, const QObject *context, const std::function<void(QGrpcCallReplyShared)> &callback") (K := K)
    (by simp [Src.async2Head]) (by simp) (by simp) (by simpa using hc) s body, hp]
  have e1 : paramOf (cpp! "const @I@ &arg") = (cpp! "const @I@ &", text! "arg") := by
    have := paramOf_snoc (cpp! "const @I@ &") (text! "arg")
    simpa using this
  simp only [List.map_cons, List.map_nil, e1]
  rfl

include hI hO

theorem fn_sync : fnOf s (Src.syncHead I O K M) body =
    some ⟨cpp! "QtProtobuf::QGrpcStatus", s ++ [K], [.word M], [(cpp! "const @I@ &", text! "arg"), (cpp! "const QPointer<@O@> &", text! "ret")], [], body⟩ :=
  fnOf_list (pre := cpp! "QtProtobuf::QGrpcStatus") (nm := [.word M]) (behind := [])
    [(cpp! "const @I@ &", text! "arg"), (cpp! "const QPointer<@O@> &", text! "ret")]
    (by simp [Src.syncHead, List.intercalate]) (by simp) (by simp) (by simp [flat_cons, flat_app, hI, hO, flat_nil]) s body

theorem fn_stream2 : fnOf s (Src.stream2Head I O K U) body =
    some ⟨cpp! "QtProtobuf::QGrpcStreamShared", s ++ [K], cpp! "stream$U$",
      [(cpp! "const @I@ &", text! "arg"), (cpp! "const QPointer<@O@> &", text! "ret")], [], body⟩ :=
  fnOf_list (pre := cpp! "QtProtobuf::QGrpcStreamShared") (nm := cpp! "stream$U$") (behind := [])
    [(cpp! "const @I@ &", text! "arg"), (cpp! "const QPointer<@O@> &", text! "ret")]
    (by simp [Src.stream2Head, List.intercalate]) (by simp) (by simp) (by simp [flat_cons, flat_app, hI, hO, flat_nil]) s body

theorem fn_qml2 : fnOf s (Src.qml2Head I O K M) body =
    some ⟨cpp! "void", s ++ [K], [.word M], [(cpp! "@I@ *", text! "arg"), (cpp! "@O@ *", text! "ret"),
      (cpp! "const QJSValue &", text! "errorCallback")], [], body⟩ :=
  fnOf_list (pre := cpp! "void") (nm := [.word M]) (behind := []) [(cpp! "@I@ *", text! "arg"), (cpp! "@O@ *", text! "ret"),
      (cpp! "const QJSValue &", text! "errorCallback")]
    (by simp [Src.qml2Head, List.intercalate]) (by simp) (by simp) (by simp [flat_cons, flat_app, hI, hO, flat_nil]) s body

theorem fn_qmlStream : fnOf s (Src.qmlStreamHead I O K U) body =
    some ⟨cpp! "QtProtobuf::QGrpcStreamShared", s ++ [K], cpp! "qmlStream$U$_p", [(cpp! "@I@ *", text! "arg"), (cpp! "@O@ *", text! "ret")], [], body⟩ :=
  fnOf_list (pre := cpp! "QtProtobuf::QGrpcStreamShared") (nm := cpp! "qmlStream$U$_p") (behind := [])
    [(cpp! "@I@ *", text! "arg"), (cpp! "@O@ *", text! "ret")]
    (by simp [Src.qmlStreamHead, List.intercalate]) (by simp) (by simp) (by simp [flat_cons, flat_app, hI, hO, flat_nil]) s body

end

theorem fn_client (s : List Text) (K P full : Text) : fnOf s (Src.clientHead K P full) [] =
    some ⟨[], s ++ [K], [.word K], [objectParam], cpp! ": $P$(\"$full$\", parent)", []⟩ :=
  fnOf_list (pre := []) (nm := [.word K]) (behind := cpp! ": $P$(\"$full$\", parent)") [objectParam]
    (by simp [Src.clientHead, objectParam, List.intercalate]) (by simp) (by simp) (by simp [objectParam, flat_cons, flat_nil]) s []

/-! ### Calls of clients -/

theorem namedCalls_skip {x : Lexeme} {r : List Lexeme} (hr : ∀ s r', r ≠ .punct '(' :: .str s :: r') : namedCalls (x :: r) = namedCalls r := by
  conv => lhs; unfold namedCalls
  split
  · rename_i e
    simp only [List.cons.injEq] at e
    exact absurd e.2 (hr _ _)
  · rename_i e
    simp only [List.cons.injEq] at e
    rw [e.2]
  · rename_i e; simp at e

theorem namedCalls_flat : ∀ {a : List Lexeme}, Flat a → ∀ {r : List Lexeme}, (∀ s r', r ≠ .punct '(' :: .str s :: r') → namedCalls (a ++ r) = namedCalls r
  | [], _, r, _ => rfl
  | x :: a, h, r, hr => by
    have ih := namedCalls_flat (a := a) (fun y hy => h y (by simp [hy])) hr
    rw [List.cons_append, namedCalls_skip, ih]
    intro s r'
    cases a with
    | nil => exact hr s r'
    | cons y a =>
      have hy := (h y (by simp)).1
      simp [hy]

section
variable {O : List Lexeme} (hO : Flat O) (K M input output : Text)

theorem calls_sync : namedCalls (Src.syncBody M) = [(text! "call", M, [cpp! "arg", cpp! "ret"])] := by rfl
theorem calls_async : namedCalls (Src.asyncBody M) = [(text! "call", M, [cpp! "arg"])] := by rfl
theorem calls_async2 : namedCalls (Src.async2Body M) = [(text! "call", M, [cpp! "arg"])] := by rfl
theorem calls_stream : namedCalls (Src.streamBody M) = [(text! "stream", M, [cpp! "arg"])] := by rfl
theorem calls_stream2 : namedCalls (Src.stream2Body M) = [(text! "stream", M, [cpp! "arg", cpp! "ret"])] := by rfl

include hO

theorem calls_qmlStream : namedCalls (Src.qmlStreamBody O M) = [(text! "stream", M, [cpp! "*arg", cpp! "QPointer<@O@>(ret)"])] := by
  have ha : SpecCpp.argsOf (cpp! ", *arg, QPointer<@O@>(ret));") = [cpp! "*arg", cpp! "QPointer<@O@>(ret)"] := by
    have hc : closing 0 (cpp! ", *arg, QPointer<@O@>(ret));") = some (cpp! ", *arg, QPointer<@O@>(ret)", cpp! ";") := by
      have := closing_flat hO (cpp! ">(ret));") 0
      simp [closing, this]
    have hp : parts (cpp! "*arg, QPointer<@O@>(ret)") = [cpp! "*arg", cpp! "QPointer<@O@>(ret)"] := by
      have h1 := parts_comma (a := cpp! "*arg") (flat_of (by decide)) (cpp! "QPointer<@O@>(ret)")
      have h2 := partsFrom_flat hO (cpp! ">(ret)") (cpp! "QPointer<") 0
      have h3 : parts (cpp! "QPointer<@O@>(ret)") = [cpp! "QPointer<@O@>(ret)"] := by
        have e : parts (cpp! "QPointer<@O@>(ret)") = partsFrom 0 (cpp! "QPointer<") (O ++ cpp! ">(ret)") := by
          simp [parts, partsFrom]
        rw [e, h2]
        simp [partsFrom]
      rw [h3] at h1
      simpa using h1
    unfold SpecCpp.argsOf
    rw [hc]
    exact hp
  have hn : namedCalls (cpp! ", *arg, QPointer<@O@>(ret));") = [] := by
    have := namedCalls_flat hO (r := cpp! ">(ret));") (by simp)
    have e : namedCalls (cpp! ", *arg, QPointer<@O@>(ret));") = namedCalls (O ++ cpp! ">(ret));") := rfl
    rw [e, this]
    rfl
  have e : namedCalls (Src.qmlStreamBody O M) =
      (text! "stream", M, SpecCpp.argsOf (cpp! ", *arg, QPointer<@O@>(ret));")) :: namedCalls (cpp! ", *arg, QPointer<@O@>(ret));") := by
    rfl
  rw [e, ha, hn]

theorem calls_qml : namedCalls (Src.qmlBody O K M input) = [(text! "call", M, [cpp! "*arg"])] := by
  let r2 : List Lexeme := cpp! ">()); qmlEngine(this)->setObjectOwnership(result, QQmlEngine::JavaScriptOwnership); QJSValue(callback).call(QJSValueList{jsEngine->toScriptValue(result)}); }, [errorCallback, jsEngine](const QGrpcStatus &status) { QJSValue(errorCallback).call(QJSValueList{jsEngine->toScriptValue(status)}); });"
  let r1 : List Lexeme := cpp! "(reply->read<@O@ @r2@"
  have h1 := namedCalls_flat (a := .word (text! "new") :: O) (by simp [flat_cons, hO]) (r := r1) (by simp [r1])
  have h2 := namedCalls_flat hO (r := r2) (by simp [r2])
  have e : namedCalls (Src.qmlBody O K M input) = (text! "call", M, [cpp! "*arg"]) :: namedCalls (.word (text! "new") :: O ++ r1) := by rfl
  have e1 : namedCalls r1 = namedCalls (O ++ r2) := by rfl
  have e2 : namedCalls r2 = [] := by rfl
  rw [e, h1, e1, h2, e2]

theorem calls_qml2 : namedCalls (Src.qml2Body O K M input output) = [(text! "call", M, [cpp! "*arg"])] := by
  let r3 : List Lexeme := cpp! ">()); }, [errorCallback, jsEngine](const QGrpcStatus &status) { QJSValue(errorCallback).call(QJSValueList{jsEngine->toScriptValue(status)}); });"
  let r2 : List Lexeme := (cpp! "(reply->read<") ++ (O ++ r3)
  let r1 : List Lexeme := (cpp! "> safeReturn(ret); if (arg == nullptr) { qProtoWarning() << \"Invalid argument provided for method $K$::$M$, argument of type '$input$ *' expected\"; return; } QJSEngine *jsEngine = qjsEngine(this); if (jsEngine == nullptr) { qProtoWarning() << \"Unable to call $K$::$M$, it's only callable from JS engine context\"; return; } QtProtobuf::QGrpcCallReplyShared reply = call(\"$M$\", *arg); reply->subscribe(jsEngine, [this, reply, jsEngine, safeReturn]() { if (safeReturn.isNull()) { qProtoWarning() << \"Return value is destroyed. Ignore call result\"; return; } *safeReturn = ") ++ (O ++ r2)
  have h1 := namedCalls_flat hO (r := r1) (by simp [r1])
  have h2 := namedCalls_flat hO (r := r2) (by simp [r2])
  have h3 := namedCalls_flat hO (r := r3) (by simp [r3])
  have e : namedCalls (Src.qml2Body O K M input output) = namedCalls (O ++ r1) := by rfl
  have e1 : namedCalls r1 = (text! "call", M, [cpp! "*arg"]) :: namedCalls (O ++ r2) := by rfl
  have e2 : namedCalls r2 = namedCalls (O ++ r3) := by rfl
  have e3 : namedCalls r3 = [] := by rfl
  rw [e, h1, e1, h2, e2, h3, e3]

end

section
variable {o : Options} {c : Ctx} {s : ServiceText} (hs : ∀ d ∈ s.methods, PlainMethod d)

theorem method_type {p : Path} (h : ∀ s ∈ p, Named s) : lexemes (colons p) = methodType p ∧ Flat (methodType p) := by
  have e : lexemes (colons p) = methodType p := by
    rw [colons_eq h, lexemes_joined _ (fun s hs => name_id (h s hs).1)]
    rfl
  exact ⟨e, e ▸ flat_value (colons_value h)⟩

/-- A function with the calls it makes. -/
def shownFn (f : Fn) : Sig × List (Text × Text × List (List Lexeme)) := (f.sig, namedCalls f.body)

include hs

theorem fns_method {d : MethodD} (hd : d ∈ s.methods) (sc : List Text) :
    (fnsIn (methodItems o s sc d)).map shownFn = methodSigs o (sc ++ [clientName s]) d ∧
    statementsIn (methodItems o s sc d) = [] := by
  obtain ⟨i1, i2⟩ := method_type (hs d hd).input.2
  obtain ⟨o1, o2⟩ := method_type (hs d hd).output.2
  unfold methodItems methodSigs inTy outTy
  simp only [i1, o1]
  split
  · rw [fnsIn_append, fnsIn_block (fn_stream i2 _ _ _ _), fnsIn_block (fn_stream2 i2 o2 _ _ _ _)]
    split
    · rw [fnsIn_block (fn_qmlStream i2 o2 _ _ _ _)]
      refine ⟨?_, rfl⟩
      simp only [fnsIn_nil, List.cons_append, List.nil_append, List.map_cons, List.map_nil, shownFn, calls_stream, calls_stream2, calls_qmlStream o2]
      rfl
    · refine ⟨?_, rfl⟩
      simp only [fnsIn_nil, List.cons_append, List.nil_append, List.map_cons, List.map_nil, shownFn, calls_stream, calls_stream2]
      rfl
  · rw [fnsIn_append, fnsIn_block (fn_sync i2 o2 _ _ _ _), fnsIn_block (fn_async i2 _ _ _ _), fnsIn_block (fn_async2 i2 _ _ _ _)]
    split
    · rw [fnsIn_block (fn_qml i2 _ _ _ _), fnsIn_block (fn_qml2 i2 o2 _ _ _ _)]
      refine ⟨?_, rfl⟩
      simp only [fnsIn_nil, List.cons_append, List.nil_append, List.map_cons, List.map_nil, shownFn, calls_sync, calls_async, calls_async2,
        calls_qml o2, calls_qml2 o2]
      rfl
    · refine ⟨?_, rfl⟩
      simp only [fnsIn_nil, List.cons_append, List.nil_append, List.map_cons, List.map_nil, shownFn, calls_sync, calls_async, calls_async2]
      rfl

theorem methods_noCtor {d : MethodD} (hd : d ∈ s.methods) (sc : List Text) : (fnsIn (methodItems o s sc d)).filter Fn.isCtor = [] := by
  obtain ⟨i1, i2⟩ := method_type (hs d hd).input.2
  obtain ⟨o1, o2⟩ := method_type (hs d hd).output.2
  unfold methodItems inTy outTy
  simp only [i1, o1]
  split
  · rw [fnsIn_append, fnsIn_block (fn_stream i2 _ _ _ _), fnsIn_block (fn_stream2 i2 o2 _ _ _ _)]
    split
    · rw [fnsIn_block (fn_qmlStream i2 o2 _ _ _ _)]
      rfl
    · rfl
  · rw [fnsIn_append, fnsIn_block (fn_sync i2 o2 _ _ _ _), fnsIn_block (fn_async i2 _ _ _ _), fnsIn_block (fn_async2 i2 _ _ _ _)]
    split
    · rw [fnsIn_block (fn_qml i2 _ _ _ _), fnsIn_block (fn_qml2 i2 o2 _ _ _ _)]
      rfl
    · rfl

theorem fns_client (sc : List Text) (hsc : sc = around o c) :
    (fnsIn (clientItems o c sc s)).map shownFn = clientSigs o c s ∧ statementsIn (clientItems o c sc s) = [] ∧
    ((fnsIn (clientItems o c sc s)).filter Fn.isCtor).map (fun f => (f.cls, f.inits)) =
      [(around o c ++ [upperCaseName s.name ++ text! "Client"], clientInits c s)] := by
  subst hsc
  unfold clientItems clientSigs
  rw [fnsIn_block (fn_client _ _ _ _), fnsIn_flatMap]
  refine ⟨?_, ?_, ?_⟩
  · rw [List.map_cons, List.map_flatMap]
    refine congrArg₂' List.cons rfl (flatMap_congr' fun d hd => (fns_method hs hd _).1)
  · have e : ∀ l, statementsIn (.block (around o c) (Src.clientHead (clientName s) (text! "QAbstractGrpcClient") (dots (c.package ++ [s.name]))) [] :: l) =
      statementsIn l := fun l => rfl
    rw [e, statements_flatMap, flatMap_nil' fun d hd => (fns_method hs hd _).2]
  · rw [List.filter_cons_of_pos (by simp [Fn.isCtor]), List.filter_flatMap, flatMap_nil' fun d hd => methods_noCtor hs hd _]
    have ed : dots (c.package ++ [s.name]) = (text! ".").intercalate (c.package ++ [s.name]) := by
      unfold dots; rw [gnsDot, joined_intercalate]
    simp only [List.map_cons, List.map_nil, ed]
    rfl

end

end QtPb.TextProof
