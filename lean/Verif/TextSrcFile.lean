import Verif.TextSrc
/-
The blocks and statements in generated sources: nested messages, enumerations, clients, files. (Helpers for the theorems about generated
sources.)
-/
set_option maxRecDepth 100000
namespace QtPb.TextProof
open QtPb.Gen QtPb.Gen.Spec QtPb.Gen.Text QtPb.Gen.Text.Spec QtPb.SpecCpp

/-! ### Namespaces -/

theorem lx_namespace {n : Str} (h : Name n) : Lx false false [.print [(text! "namespace", n)] tNamespaceTemplate] [.word kwNamespace, .word n, .punct '{'] := by
  refine lx_put (keys := [text! "namespace"]) (single := [text! "namespace"]) (σ := fun _ => n)
    (.cons (name_value h) (Or.inr (name_id h)) .nil) ⟨fun x hx => ?_, fun x _ _ => name_id h⟩ (by rfl)
  simp only [List.mem_cons, List.not_mem_nil, or_false] at hx
  subst hx
  rfl

theorem gives_quiet {ops : List Op} (h : Lx false false ops []) : Gives ops (fun _ => []) := ⟨_, h, Yields.nil⟩

theorem gives_spaces : ∀ (ns : List Str) {b : List Op} {e : List Text → List Item}, (∀ n ∈ ns, Name n) → Gives b e →
    Gives ((ns.map fun n => .print [(text! "namespace", n)] tNamespaceTemplate) ++ b ++ ns.map fun _ => .print [] tSimpleBlockEnclosureTemplate)
      (fun s => e (s ++ ns))
  | [], b, e, _, hb => by simpa using hb
  | n :: ns, b, e, h, hb => by
    have ih := gives_spaces ns (fun x hx => h x (by simp [hx])) hb
    have g := Gives.within (lx_namespace (h n (by simp))) ih lx_close
    have e1 : (List.map (fun _ => Op.print [] tSimpleBlockEnclosureTemplate) (n :: ns)) =
        ns.map (fun _ => Op.print [] tSimpleBlockEnclosureTemplate) ++ [Op.print [] tSimpleBlockEnclosureTemplate] := by
      simp only [List.map_const', List.length_cons]
      rw [List.replicate_succ']
    rw [e1, List.map_cons]
    simpa only [List.append_assoc, List.cons_append, List.nil_append] using g

theorem Gives.inNamespaces {ns : List Str} {b : List Op} {e : List Text → List Item} (h : ∀ n ∈ ns, Name n) (hb : Gives b e) :
    Gives (printNamespaces ns ++ b ++ encloseNamespaces ns) (fun s => e (s ++ ns)) := by
  have hn : Gives [.print [] (text! "\n")] (fun _ => []) := gives_quiet lx_newline
  have g1 := (hb.append hn).congr (d := e) (by simp)
  have g := ((hn.append (gives_spaces ns h g1)).append hn).congr (d := fun s => e (s ++ ns)) (by simp)
  unfold printNamespaces encloseNamespaces
  simpa only [List.append_assoc, List.cons_append, List.nil_append] using g

/-! ### Messages -/

/-- What stands in the source for a class. -/
def bodyItems (o : Options) (c : Ctx) (b : Printed × List FieldD) : List Item := classItems o c ⟨b.1.msg, b.2⟩ b.1.cpp.dropLast

theorem gives_nested {o : Options} {c : Ctx} {path : Path} {name : Str} {fields : List FieldD} (hn : Named name) {ops : List Op}
    {e : List Text → List Item} (h : Gives ops e) :
    Gives ([openNested o c ⟨path ++ [name], fields⟩] ++ ops ++ [.print [] tSimpleBlockEnclosureTemplate]) (fun s => e (s ++ [nestedNs name])) := by
  have e : openNested o c ⟨path ++ [name], fields⟩ = .print [(text! "namespace", nestedNs name)] tNamespaceTemplate := by
    unfold openNested
    rw [own_classname]
    simp [nestedNs]
  rw [e]
  exact Gives.within (lx_namespace (name_nested (name_id hn.2))) h lx_close

mutual
theorem gives_define {o : Options} {c : Ctx} (hf : PlainFile o c) : ∀ (msg : Msg) (path : Path), PlainMsg msg → (∀ s ∈ path, Named s) →
    Gives (defineOps o c path msg) (fun s => (bodies s path msg).flatMap (bodyItems o c))
  | .mk name fields nested en, path, hm, hp => by
    rw [PlainMsg] at hm
    obtain ⟨hn, hfi, hne⟩ := hm
    have hg := good_snoc hp hn
    have ok : MsgOk o c ⟨path ++ [name], fields⟩ := ⟨hf, hg, hfi⟩
    have h1 := gives_nested (o := o) (c := c) (path := path) (fields := fields) hn
      (gives_defineList hf nested fields (path ++ [name]) hne hg.2)
    have h2 := gives_class ok
    rw [defineOps]
    refine Gives.congr (Gives.append (e := fun s => (bodiesList (s ++ [nestedNs name]) (path ++ [name]) fields nested).flatMap (bodyItems o c)) ?_ h2)
      (fun s => ?_)
    · simp only
      cases hh : hasNested (path ++ [name]) fields nested with
      | true => simpa only [if_true] using h1
      | false =>
        rw [if_neg (by simp)]
        exact Gives.nil.congr (fun s => by rw [bodiesList_none nested (noNested hh)]; rfl)
    · simp only [bodies, List.flatMap_append, List.flatMap_cons, List.flatMap_nil, List.append_nil, bodyItems, List.dropLast_concat]
theorem gives_defineList {o : Options} {c : Ctx} (hf : PlainFile o c) : ∀ (l : List Msg) (fields : List FieldD) (path : Path),
    PlainMsgs l → (∀ s ∈ path, Named s) →
    Gives (defineOpsList o c ⟨path, fields⟩ l) (fun s => (bodiesList s path fields l).flatMap (bodyItems o c))
  | [], fields, path, _, _ => by rw [defineOpsList]; exact Gives.nil.congr (by simp [bodiesList])
  | n :: rest, fields, path, hm, hp => by
    rw [PlainMsgs] at hm
    have h1 := gives_define hf n path hm.1 hp
    have h2 := gives_defineList hf rest fields path hm.2 hp
    rw [defineOpsList]
    refine Gives.congr (Gives.append (e := fun s => (if visits fields (path ++ [n.name]) then bodies s path n else []).flatMap (bodyItems o c)) ?_ h2)
      (fun s => by simp [bodiesList])
    split
    · rename_i hv; simpa [hv] using h1
    · rename_i hv; simpa [hv] using Gives.nil
end

theorem gives_classDefinition {o : Options} {c : Ctx} (hf : PlainFile o c) {msg : Msg} (hm : PlainMsg msg) :
    Gives (classDefinition o c msg) (fun s => (bodies (s ++ outerNs o c) c.package msg).flatMap (bodyItems o c)) :=
  Gives.inNamespaces (outer_names hf) (gives_define hf msg c.package hm hf.package)

/-! ### Enumerations -/

namespace Src
def enumRegistrar (G : Text) : List Lexeme := cpp! "static QtProtobuf::ProtoTypeRegistrar<$G$> ProtoTypeRegistrar$G$($G$::registerTypes)"
def enumQml (G E package full : Text) : List Lexeme :=
  cpp! "qmlRegisterUncreatableType<$G$>(\"$package$\", 1, 0, \"$E$\", \"$full$ Could not be created from qml context\");"
def enumBody (F : List Lexeme) (E full : Text) : List Lexeme :=
  cpp! "qRegisterMetaType<$E$>(\"$full$\"); qRegisterMetaType<@F@>(\"$full$\"); qRegisterProtobufEnumType<@F@>();"
end Src

section
variable {o : Options} {c : Ctx} {e : EnumD}

def gadget (e : EnumD) : Text := upperCaseName e.name ++ kGadget

def enumSub (o : Options) (c : Ctx) (e : EnumD) (x : Str) : Text :=
  if x = text! "classname" then gadget e
  else if x = text! "enum_gadget" then gadget e
  else if x = text! "type" then upperCaseName e.name
  else (globalEnumVars o c e).val x

def enumSingle : List Str := [text! "classname", text! "enum_gadget", text! "type"]

def enumItems (o : Options) (c : Ctx) (s : List Text) (e : EnumD) : List Item :=
  [.statement s (Src.enumRegistrar (gadget e)),
   .block s (Src.registerHead (gadget e))
    ((if o.qml then Src.enumQml (gadget e) (upperCaseName e.name) ((globalEnumVars o c e).val (text! "qml_package"))
        ((globalEnumVars o c e).val (text! "full_type")) else []) ++
      Src.enumBody (lexemes ((globalEnumVars o c e).val (text! "full_type"))) (upperCaseName e.name) ((globalEnumVars o c e).val (text! "full_type")))]

theorem enum_gadget_val : (globalEnumVars o c e).val (text! "enum_gadget") = gadget e := by
  have : (globalEnumVars o c e).val (text! "enum_gadget") = upperCaseName ((c.package ++ [e.name]).getLastD []) ++ kGadget := rfl
  rw [this]; simp [gadget]

variable (hf : PlainFile o c) (he : PlainEnum e)
include hf he

theorem enum_values : Values (globalEnumVars o c e) enumKeys enumSingle (enumSub o c e) := by
  refine .of globalEnum_keys (fun x _ => ?_) (fun x _ hs => ?_)
  · unfold enumSub
    split
    · rename_i h; subst h; exact globalEnum_class
    · split
      · rename_i h; subst h; exact enum_gadget_val
      · split
        · rename_i h; subst h; exact globalEnum_type
        · rfl
  · have hg : IsId (gadget e) := by
      refine ⟨by simp [gadget, kGadget], fun ch hc => ?_⟩
      rcases List.mem_append.1 hc with hc | hc
      · exact he.1.2.2.1 ch hc
      · have : ∀ ch ∈ kGadget, isWord ch = true := by decide
        exact this ch hc
    simp only [enumSingle, List.mem_cons, List.not_mem_nil, or_false] at hs
    rcases hs with rfl | rfl | rfl
    · exact hg
    · exact hg
    · exact name_id he.1.2

theorem lx_enum {t : Str} {ls : List Lexeme} {b : Bool} (h : putAll enumKeys enumSingle (enumSub o c e) t = some (ls, b)) :
    Lx false b [.print (globalEnumVars o c e) t] ls := lx_put (globalEnum_good hf he) (enum_values hf he) h

theorem gives_enum : Gives (enumDefinition o c e) (fun s => enumItems o c (s ++ outerNs o c) e) := by
  have hF : Inlines (lexemes ((globalEnumVars o c e).val (text! "full_type"))) := inlines_value ((globalEnum_good hf he).val _)
  have g1 : Gives [.print (globalEnumVars o c e) tEnumRegistrarTemplate] (fun s => [.statement s (Src.enumRegistrar (gadget e))]) :=
    gives_statement (lx_enum hf he (by rfl)) (by simp [Src.enumRegistrar, inlines_word, inlines_punct, inlines_nil]) (by simp [Src.enumRegistrar])
  have h0 : Lx false false [.print (globalEnumVars o c e) tManualRegistrationGlobalEnumDefinition] (Src.registerHead (gadget e) ++ [.punct '{']) :=
    lx_enum hf he (by rfl)
  have h1 : Lx false false (if o.qml then [.print (globalEnumVars o c e) tQmlRegisterEnumTypeTemplate] else [])
      (if o.qml then Src.enumQml (gadget e) (upperCaseName e.name) ((globalEnumVars o c e).val (text! "qml_package"))
        ((globalEnumVars o c e).val (text! "full_type")) else []) :=
    Lx.ite (fun _ => lx_enum hf he (by rfl)) (fun _ => Lx.nil _)
  have h2 : Lx false false [.print (globalEnumVars o c e) tComplexGlobalEnumFieldRegistrationTemplate]
      (let E := upperCaseName e.name; let full := (globalEnumVars o c e).val (text! "full_type"); cpp! "qRegisterMetaType<$E$>(\"$full$\");") :=
    lx_enum hf he (by rfl)
  have h3 : Lx false false [.print (globalEnumVars o c e) tRegisterGlobalEnumMetaTypeTemplate]
      (let F := lexemes ((globalEnumVars o c e).val (text! "full_type")); let full := (globalEnumVars o c e).val (text! "full_type");
        cpp! "qRegisterMetaType<@F@>(\"$full$\");") := lx_enum hf he (by rfl)
  have h4 : Lx false false [.print (globalEnumVars o c e) tRegisterEnumSerializersTemplate]
      (let F := lexemes ((globalEnumVars o c e).val (text! "full_type")); cpp! "qRegisterProtobufEnumType<@F@>();") := lx_enum hf he (by rfl)
  have h5 := (h0.append (h1.append (Lx.cons h2 (Lx.cons h3 h4))).indented).append lx_close
  have g2 := gives_block (c := '(') (head := Src.registerHead (gadget e))
    (body := (if o.qml then Src.enumQml (gadget e) (upperCaseName e.name) ((globalEnumVars o c e).val (text! "qml_package"))
        ((globalEnumVars o c e).val (text! "full_type")) else []) ++
      Src.enumBody (lexemes ((globalEnumVars o c e).val (text! "full_type"))) (upperCaseName e.name)
        ((globalEnumVars o c e).val (text! "full_type")))
    (h5.congr (by simp [Src.enumBody, List.append_assoc])) (by simp [Src.registerHead, inlines_word, inlines_punct, inlines_nil])
    (by simp [Src.registerHead]) (Balanced.append (Balanced.ite (fun _ => balanced_of (by simp [Src.enumQml, bal])) (fun _ => .nil))
      (balanced_of (by simp [Src.enumBody, bal, bal_inlines, hF])))
  have g := Gives.inNamespaces (outer_names hf) (g1.append g2)
  unfold enumDefinition
  simpa only [enumItems, List.append_assoc, List.cons_append, List.nil_append] using g

end

/-! ### Clients -/

namespace Src
def clientHead (K P full : Text) : List Lexeme := cpp! "$K$::$K$(QObject *parent) : $P$(\"$full$\", parent)"
def syncHead (I O : List Lexeme) (K M : Text) : List Lexeme := cpp! "QtProtobuf::QGrpcStatus $K$::$M$(const @I@ &arg, const QPointer<@O@> &ret)"
def syncBody (M : Text) : List Lexeme := cpp! "return call(\"$M$\", arg, ret);"
def asyncHead (I : List Lexeme) (K M : Text) : List Lexeme := cpp! "QtProtobuf::QGrpcCallReplyShared $K$::$M$(const @I@ &arg)"
def asyncBody (M : Text) : List Lexeme := cpp! "return call(\"$M$\", arg);"
def async2Head (I : List Lexeme) (K M : Text) : List Lexeme :=
  cpp! "void $K$::$M$(const @I@ &arg, const QObject *context, const std::function<void(QGrpcCallReplyShared)> &callback)"
def async2Body (M : Text) : List Lexeme :=
  cpp! "QtProtobuf::QGrpcCallReplyShared reply = call(\"$M$\", arg); QObject::connect(reply.get(), &QtProtobuf::QGrpcCallReply::finished, context, [reply, callback]() { callback(reply); });"
def qmlHead (I : List Lexeme) (K M : Text) : List Lexeme := cpp! "void $K$::$M$(@I@ *arg, const QJSValue &callback, const QJSValue &errorCallback)"
def qmlBody (O : List Lexeme) (K M input : Text) : List Lexeme :=
  cpp! "if (!callback.isCallable()) { qProtoWarning() << \"Unable to call $K$::$M$, callback is not callable\"; return; } if (arg == nullptr) { qProtoWarning() << \"Invalid argument provided for method $K$::$M$, argument of type '$input$ *' expected\"; return; } QJSEngine *jsEngine = qjsEngine(this); if (jsEngine == nullptr) { qProtoWarning() << \"Unable to call $K$::$M$, it's only callable from JS engine context\"; return; } QtProtobuf::QGrpcCallReplyShared reply = call(\"$M$\", *arg); reply->subscribe(jsEngine, [this, reply, callback, jsEngine]() { auto result = new @O@(reply->read<@O@>()); qmlEngine(this)->setObjectOwnership(result, QQmlEngine::JavaScriptOwnership); QJSValue(callback).call(QJSValueList{jsEngine->toScriptValue(result)}); }, [errorCallback, jsEngine](const QGrpcStatus &status) { QJSValue(errorCallback).call(QJSValueList{jsEngine->toScriptValue(status)}); });"
def qml2Head (I O : List Lexeme) (K M : Text) : List Lexeme := cpp! "void $K$::$M$(@I@ *arg, @O@ *ret, const QJSValue &errorCallback)"
def qml2Body (O : List Lexeme) (K M input output : Text) : List Lexeme :=
  cpp! "if (ret == nullptr) { qProtoWarning() << \"Invalid argument provided for method $K$::$M$, argument of type '$output$ *' expected\"; return; } QPointer<@O@> safeReturn(ret); if (arg == nullptr) { qProtoWarning() << \"Invalid argument provided for method $K$::$M$, argument of type '$input$ *' expected\"; return; } QJSEngine *jsEngine = qjsEngine(this); if (jsEngine == nullptr) { qProtoWarning() << \"Unable to call $K$::$M$, it's only callable from JS engine context\"; return; } QtProtobuf::QGrpcCallReplyShared reply = call(\"$M$\", *arg); reply->subscribe(jsEngine, [this, reply, jsEngine, safeReturn]() { if (safeReturn.isNull()) { qProtoWarning() << \"Return value is destroyed. Ignore call result\"; return; } *safeReturn = @O@(reply->read<@O@>()); }, [errorCallback, jsEngine](const QGrpcStatus &status) { QJSValue(errorCallback).call(QJSValueList{jsEngine->toScriptValue(status)}); });"
def streamHead (I : List Lexeme) (K U : Text) : List Lexeme := cpp! "QtProtobuf::QGrpcStreamShared $K$::stream$U$(const @I@ &arg)"
def streamBody (M : Text) : List Lexeme := cpp! "return stream(\"$M$\", arg);"
def stream2Head (I O : List Lexeme) (K U : Text) : List Lexeme := cpp! "QtProtobuf::QGrpcStreamShared $K$::stream$U$(const @I@ &arg, const QPointer<@O@> &ret)"
def stream2Body (M : Text) : List Lexeme := cpp! "return stream(\"$M$\", arg, ret);"
def qmlStreamHead (I O : List Lexeme) (K U : Text) : List Lexeme := cpp! "QtProtobuf::QGrpcStreamShared $K$::qmlStream$U$_p(@I@ *arg, @O@ *ret)"
def qmlStreamBody (O : List Lexeme) (M : Text) : List Lexeme := cpp! "return stream(\"$M$\", *arg, QPointer<@O@>(ret));"
end Src

def methodSub (s : ServiceText) (d : MethodD) (x : Str) : Text :=
  if x = text! "classname" then clientName s
  else if x = text! "method_name" then d.name
  else if x = text! "method_name_upper" then upperCaseName d.name
  else if x = text! "param_name" then text! "arg"
  else if x = text! "return_name" then text! "ret"
  else if x = text! "param_type" then colons d.input
  else colons d.output

def methodSingle : List Str := [text! "classname", text! "method_name", text! "method_name_upper", text! "param_name", text! "return_name"]

def inTy (d : MethodD) : List Lexeme := lexemes (colons d.input)
def outTy (d : MethodD) : List Lexeme := lexemes (colons d.output)

/-- The functions of a method. -/
def methodItems (o : Options) (s : ServiceText) (sc : List Text) (d : MethodD) : List Item :=
  let K := clientName s
  if d.streaming then
    [.block sc (Src.streamHead (inTy d) K (upperCaseName d.name)) (Src.streamBody d.name),
     .block sc (Src.stream2Head (inTy d) (outTy d) K (upperCaseName d.name)) (Src.stream2Body d.name)] ++
    (if o.qml then [.block sc (Src.qmlStreamHead (inTy d) (outTy d) K (upperCaseName d.name)) (Src.qmlStreamBody (outTy d) d.name)] else [])
  else
    [.block sc (Src.syncHead (inTy d) (outTy d) K d.name) (Src.syncBody d.name),
     .block sc (Src.asyncHead (inTy d) K d.name) (Src.asyncBody d.name),
     .block sc (Src.async2Head (inTy d) K d.name) (Src.async2Body d.name)] ++
    (if o.qml then
      [.block sc (Src.qmlHead (inTy d) K d.name) (Src.qmlBody (outTy d) K d.name (colons d.input)),
       .block sc (Src.qml2Head (inTy d) (outTy d) K d.name) (Src.qml2Body (outTy d) K d.name (colons d.input) (colons d.output))] else [])

def clientItems (o : Options) (c : Ctx) (sc : List Text) (s : ServiceText) : List Item :=
  .block sc (Src.clientHead (clientName s) (text! "QAbstractGrpcClient") (dots (c.package ++ [s.name]))) [] ::
    s.methods.flatMap (methodItems o s sc)

section
variable {o : Options} {c : Ctx} {s : ServiceText} (hf : PlainFile o c) (hs : Named s.name) (hm : ∀ d ∈ s.methods, PlainMethod d)
include hs hm

theorem method_values {d : MethodD} (hd : d ∈ s.methods) : Values (methodVars (clientName s) d) methodKeys methodSingle (methodSub s d) := by
  refine ⟨fun x hx => ?_, fun x _ hx => ?_⟩
  · simp only [methodKeys, List.mem_cons, List.not_mem_nil, or_false] at hx
    rcases hx with rfl | rfl | rfl | rfl | rfl | rfl | rfl <;> rfl
  · simp only [methodSingle, List.mem_cons, List.not_mem_nil, or_false] at hx
    rcases hx with rfl | rfl | rfl | rfl | rfl
    · exact name_id (clientName_name hs)
    · exact name_id (hm d hd).name.1
    · exact name_id (hm d hd).name.2
    · exact (id_of_B (by decide) : IsId (text! "arg"))
    · exact (id_of_B (by decide) : IsId (text! "ret"))

theorem gives_fn {d : MethodD} (hd : d ∈ s.methods) {t : Str} {ls head body : List Lexeme}
    (h : putAll methodKeys methodSingle (methodSub s d) t = some (ls, false)) (e : ls = head ++ .punct '{' :: body ++ [.punct '}'])
    (hh : Inlines head) (hc : Lexeme.punct '(' ∈ head) (hb : Balanced body) :
    Gives [.print (methodVars (clientName s) d) t] (fun s => [.block s head body]) :=
  gives_block (c := '(') ((lx_put (method_good hs hm hd) (method_values hs hm hd) h).congr e) hh hc hb

omit hs in
theorem inlines_in {d : MethodD} (hd : d ∈ s.methods) : Inlines (inTy d) := inlines_value (colons_value (hm d hd).input.2)
omit hs in
theorem inlines_out {d : MethodD} (hd : d ∈ s.methods) : Inlines (outTy d) := inlines_value (colons_value (hm d hd).output.2)

theorem gives_sync {d : MethodD} (hd : d ∈ s.methods) : Gives [.print (methodVars (clientName s) d) tClientMethodDefinitionSyncTemplate]
    (fun sc => [.block sc (Src.syncHead (inTy d) (outTy d) (clientName s) d.name) (Src.syncBody d.name)]) := by
  refine gives_fn hs hm hd (ls := let I := inTy d; let O := outTy d; let K := clientName s; let M := d.name; let U := upperCaseName d.name;
    let input := colons d.input; let output := colons d.output; cpp! "QtProtobuf::QGrpcStatus $K$::$M$(const @I@ &arg, const QPointer<@O@> &ret) { return call(\"$M$\", arg, ret); }") (by rfl) ?_ ?_ ?_ ?_
  · simp [Src.syncHead, Src.syncBody, List.append_assoc]
  · simp [Src.syncHead, inlines_append, inlines_word, inlines_punct, inlines_nil, inlines_in hm hd, inlines_out hm hd]
  · simp [Src.syncHead]
  · exact balanced_of (by simp [Src.syncBody, bal, bal_inlines, inlines_in hm hd, inlines_out hm hd])

theorem gives_async {d : MethodD} (hd : d ∈ s.methods) : Gives [.print (methodVars (clientName s) d) tClientMethodDefinitionAsyncTemplate]
    (fun sc => [.block sc (Src.asyncHead (inTy d) (clientName s) d.name) (Src.asyncBody d.name)]) := by
  refine gives_fn hs hm hd (ls := let I := inTy d; let O := outTy d; let K := clientName s; let M := d.name; let U := upperCaseName d.name;
    let input := colons d.input; let output := colons d.output; cpp! "QtProtobuf::QGrpcCallReplyShared $K$::$M$(const @I@ &arg) { return call(\"$M$\", arg); }") (by rfl) ?_ ?_ ?_ ?_
  · simp [Src.asyncHead, Src.asyncBody, List.append_assoc]
  · simp [Src.asyncHead, inlines_append, inlines_word, inlines_punct, inlines_nil, inlines_in hm hd, inlines_out hm hd]
  · simp [Src.asyncHead]
  · exact balanced_of (by simp [Src.asyncBody, bal, bal_inlines, inlines_in hm hd, inlines_out hm hd])

theorem gives_async2 {d : MethodD} (hd : d ∈ s.methods) : Gives [.print (methodVars (clientName s) d) tClientMethodDefinitionAsync2Template]
    (fun sc => [.block sc (Src.async2Head (inTy d) (clientName s) d.name) (Src.async2Body d.name)]) := by
  refine gives_fn hs hm hd (ls := let I := inTy d; let O := outTy d; let K := clientName s; let M := d.name; let U := upperCaseName d.name;
    let input := colons d.input; let output := colons d.output; cpp! "void $K$::$M$(const @I@ &arg, const QObject *context, const std::function<void(QGrpcCallReplyShared)> &callback) { QtProtobuf::QGrpcCallReplyShared reply = call(\"$M$\", arg); QObject::connect(reply.get(), &QtProtobuf::QGrpcCallReply::finished, context, [reply, callback]() { callback(reply); }); }") (by rfl) ?_ ?_ ?_ ?_
  · simp [Src.async2Head, Src.async2Body, List.append_assoc]
  · simp [Src.async2Head, inlines_append, inlines_word, inlines_punct, inlines_nil, inlines_in hm hd, inlines_out hm hd]
  · simp [Src.async2Head]
  · exact balanced_of (by simp [Src.async2Body, bal, bal_inlines, inlines_in hm hd, inlines_out hm hd])

theorem gives_qml {d : MethodD} (hd : d ∈ s.methods) : Gives [.print (methodVars (clientName s) d) tClientMethodDefinitionQmlTemplate]
    (fun sc => [.block sc (Src.qmlHead (inTy d) (clientName s) d.name) (Src.qmlBody (outTy d) (clientName s) d.name (colons d.input))]) := by
  refine gives_fn hs hm hd (ls := let I := inTy d; let O := outTy d; let K := clientName s; let M := d.name; let U := upperCaseName d.name;
    let input := colons d.input; let output := colons d.output; cpp! "void $K$::$M$(@I@ *arg, const QJSValue &callback, const QJSValue &errorCallback) { if (!callback.isCallable()) { qProtoWarning() << \"Unable to call $K$::$M$, callback is not callable\"; return; } if (arg == nullptr) { qProtoWarning() << \"Invalid argument provided for method $K$::$M$, argument of type '$input$ *' expected\"; return; } QJSEngine *jsEngine = qjsEngine(this); if (jsEngine == nullptr) { qProtoWarning() << \"Unable to call $K$::$M$, it's only callable from JS engine context\"; return; } QtProtobuf::QGrpcCallReplyShared reply = call(\"$M$\", *arg); reply->subscribe(jsEngine, [this, reply, callback, jsEngine]() { auto result = new @O@(reply->read<@O@>()); qmlEngine(this)->setObjectOwnership(result, QQmlEngine::JavaScriptOwnership); QJSValue(callback).call(QJSValueList{jsEngine->toScriptValue(result)}); }, [errorCallback, jsEngine](const QGrpcStatus &status) { QJSValue(errorCallback).call(QJSValueList{jsEngine->toScriptValue(status)}); }); }") (by rfl) ?_ ?_ ?_ ?_
  · simp [Src.qmlHead, Src.qmlBody, List.append_assoc]
  · simp [Src.qmlHead, inlines_append, inlines_word, inlines_punct, inlines_nil, inlines_in hm hd, inlines_out hm hd]
  · simp [Src.qmlHead]
  · exact balanced_of (by simp [Src.qmlBody, bal, bal_inlines, inlines_in hm hd, inlines_out hm hd])

theorem gives_qml2 {d : MethodD} (hd : d ∈ s.methods) : Gives [.print (methodVars (clientName s) d) tClientMethodDefinitionQml2Template]
    (fun sc => [.block sc (Src.qml2Head (inTy d) (outTy d) (clientName s) d.name) (Src.qml2Body (outTy d) (clientName s) d.name (colons d.input) (colons d.output))]) := by
  refine gives_fn hs hm hd (ls := let I := inTy d; let O := outTy d; let K := clientName s; let M := d.name; let U := upperCaseName d.name;
    let input := colons d.input; let output := colons d.output; cpp! "void $K$::$M$(@I@ *arg, @O@ *ret, const QJSValue &errorCallback) { if (ret == nullptr) { qProtoWarning() << \"Invalid argument provided for method $K$::$M$, argument of type '$output$ *' expected\"; return; } QPointer<@O@> safeReturn(ret); if (arg == nullptr) { qProtoWarning() << \"Invalid argument provided for method $K$::$M$, argument of type '$input$ *' expected\"; return; } QJSEngine *jsEngine = qjsEngine(this); if (jsEngine == nullptr) { qProtoWarning() << \"Unable to call $K$::$M$, it's only callable from JS engine context\"; return; } QtProtobuf::QGrpcCallReplyShared reply = call(\"$M$\", *arg); reply->subscribe(jsEngine, [this, reply, jsEngine, safeReturn]() { if (safeReturn.isNull()) { qProtoWarning() << \"Return value is destroyed. Ignore call result\"; return; } *safeReturn = @O@(reply->read<@O@>()); }, [errorCallback, jsEngine](const QGrpcStatus &status) { QJSValue(errorCallback).call(QJSValueList{jsEngine->toScriptValue(status)}); }); }") (by rfl) ?_ ?_ ?_ ?_
  · simp [Src.qml2Head, Src.qml2Body, List.append_assoc]
  · simp [Src.qml2Head, inlines_append, inlines_word, inlines_punct, inlines_nil, inlines_in hm hd, inlines_out hm hd]
  · simp [Src.qml2Head]
  · exact balanced_of (by simp [Src.qml2Body, bal, bal_inlines, inlines_in hm hd, inlines_out hm hd])

theorem gives_stream {d : MethodD} (hd : d ∈ s.methods) : Gives [.print (methodVars (clientName s) d) tClientMethodServerStreamDefinitionTemplate]
    (fun sc => [.block sc (Src.streamHead (inTy d) (clientName s) (upperCaseName d.name)) (Src.streamBody d.name)]) := by
  refine gives_fn hs hm hd (ls := let I := inTy d; let O := outTy d; let K := clientName s; let M := d.name; let U := upperCaseName d.name;
    let input := colons d.input; let output := colons d.output; cpp! "QtProtobuf::QGrpcStreamShared $K$::stream$U$(const @I@ &arg) { return stream(\"$M$\", arg); }") (by rfl) ?_ ?_ ?_ ?_
  · simp [Src.streamHead, Src.streamBody, List.append_assoc]
  · simp [Src.streamHead, inlines_append, inlines_word, inlines_punct, inlines_nil, inlines_in hm hd, inlines_out hm hd]
  · simp [Src.streamHead]
  · exact balanced_of (by simp [Src.streamBody, bal, bal_inlines, inlines_in hm hd, inlines_out hm hd])

theorem gives_stream2 {d : MethodD} (hd : d ∈ s.methods) : Gives [.print (methodVars (clientName s) d) tClientMethodServerStream2DefinitionTemplate]
    (fun sc => [.block sc (Src.stream2Head (inTy d) (outTy d) (clientName s) (upperCaseName d.name)) (Src.stream2Body d.name)]) := by
  refine gives_fn hs hm hd (ls := let I := inTy d; let O := outTy d; let K := clientName s; let M := d.name; let U := upperCaseName d.name;
    let input := colons d.input; let output := colons d.output; cpp! "QtProtobuf::QGrpcStreamShared $K$::stream$U$(const @I@ &arg, const QPointer<@O@> &ret) { return stream(\"$M$\", arg, ret); }") (by rfl) ?_ ?_ ?_ ?_
  · simp [Src.stream2Head, Src.stream2Body, List.append_assoc]
  · simp [Src.stream2Head, inlines_append, inlines_word, inlines_punct, inlines_nil, inlines_in hm hd, inlines_out hm hd]
  · simp [Src.stream2Head]
  · exact balanced_of (by simp [Src.stream2Body, bal, bal_inlines, inlines_in hm hd, inlines_out hm hd])

theorem gives_qmlStream {d : MethodD} (hd : d ∈ s.methods) : Gives [.print (methodVars (clientName s) d) tClientMethodServerStreamQmlDefinitionTemplate]
    (fun sc => [.block sc (Src.qmlStreamHead (inTy d) (outTy d) (clientName s) (upperCaseName d.name)) (Src.qmlStreamBody (outTy d) d.name)]) := by
  refine gives_fn hs hm hd (ls := let I := inTy d; let O := outTy d; let K := clientName s; let M := d.name; let U := upperCaseName d.name;
    let input := colons d.input; let output := colons d.output; cpp! "QtProtobuf::QGrpcStreamShared $K$::qmlStream$U$_p(@I@ *arg, @O@ *ret) { return stream(\"$M$\", *arg, QPointer<@O@>(ret)); }") (by rfl) ?_ ?_ ?_ ?_
  · simp [Src.qmlStreamHead, Src.qmlStreamBody, List.append_assoc]
  · simp [Src.qmlStreamHead, inlines_append, inlines_word, inlines_punct, inlines_nil, inlines_in hm hd, inlines_out hm hd]
  · simp [Src.qmlStreamHead]
  · exact balanced_of (by simp [Src.qmlStreamBody, bal, bal_inlines, inlines_in hm hd, inlines_out hm hd])

theorem gives_method {d : MethodD} (hd : d ∈ s.methods) : Gives (clientDefOps o s d) (fun sc => methodItems o s sc d) := by
  unfold clientDefOps methodItems
  simp only
  refine Gives.ite (fun _ => ?_) (fun _ => ?_)
  · exact Gives.append ((Gives.cons (gives_stream hs hm hd) (gives_stream2 hs hm hd)).congr fun s => rfl)
      (Gives.ite (fun _ => gives_qmlStream hs hm hd) (fun _ => .nil))
  · exact Gives.append ((Gives.cons (gives_sync hs hm hd) (Gives.cons (gives_async hs hm hd) (gives_async2 hs hm hd))).congr fun s => rfl)
      (Gives.ite (fun _ => (Gives.cons (gives_qml hs hm hd) (gives_qml2 hs hm hd)).congr fun s => rfl) (fun _ => .nil))

include hf

theorem gives_client : Gives (clientDefinition o c s) (fun sc => clientItems o c (sc ++ outerNs o c) s) := by
  have hc := clientName_name hs
  have hn : ∀ x ∈ c.package ++ [s.name], Name x := by
    intro x hx
    rcases List.mem_append.1 hx with hx | hx
    · exact (hf.package x hx).1
    · simp at hx; rw [hx]; exact hs.1
  have h0 : Lx false false [.print [(text! "classname", clientName s), (text! "parent_class", text! "QAbstractGrpcClient"),
      (text! "service_name", dots (c.package ++ [s.name]))] tClientConstructorDefinitionTemplate]
      (Src.clientHead (clientName s) (text! "QAbstractGrpcClient") (dots (c.package ++ [s.name])) ++ .punct '{' :: [] ++ [.punct '}']) := by
    refine lx_put (keys := [text! "classname", text! "parent_class", text! "service_name"]) (single := [text! "classname", text! "parent_class"])
      (σ := fun x => if x = text! "classname" then clientName s else if x = text! "parent_class" then text! "QAbstractGrpcClient"
        else dots (c.package ++ [s.name]))
      (.cons (name_value hc) (Or.inr (name_id hc)) <| .cons (value_of_B (by decide)) (Or.inl (by decide)) <|
        .cons (value_ns_dot hn) (Or.inl (by decide)) .nil) ⟨fun x hx => ?_, fun x _ hx => ?_⟩ (by rfl)
    · simp only [List.mem_cons, List.not_mem_nil, or_false] at hx
      rcases hx with rfl | rfl | rfl <;> rfl
    · simp only [List.mem_cons, List.not_mem_nil, or_false] at hx
      rcases hx with rfl | rfl
      · exact name_id hc
      · exact (id_of_B (by decide) : IsId (text! "QAbstractGrpcClient"))
  have g0 : Gives _ (fun sc => [.block sc (Src.clientHead (clientName s) (text! "QAbstractGrpcClient") (dots (c.package ++ [s.name]))) []]) :=
    gives_block (c := '(') h0 (by simp [Src.clientHead, inlines_word, inlines_punct, inlines_str, inlines_nil]) (by simp [Src.clientHead]) .nil
  have g := Gives.inNamespaces (outer_names hf) (g0.append (Gives.flatMap fun d hd => gives_method (o := o) hs hm hd))
  unfold clientDefinition
  simpa only [clientItems, List.append_assoc, List.cons_append, List.nil_append] using g

end

/-! ### Files -/

/-- The lines of the preprocessor and the directive after them. -/
def topLexemes (header : Str) (external : List Str) : List Lexeme :=
  [.punct '#', .word (text! "include"), .str (header ++ text! ".h")] ++
  external.flatMap (fun i => [.punct '#', .word (text! "include"), .punct '<', .word i, .punct '>']) ++
  [.word (text! "using"), .word (text! "namespace"), .word kQtProtobuf]

theorem lx_internal {i : Str} (h : Includable i) : Lx false false [.print [(text! "include", i)] tInternalIncludeTemplate]
    [.punct '#', .word (text! "include"), .str (i ++ text! ".h")] := by
  refine lx_values (inCode := fun _ => false) (keys := [text! "include"]) (single := []) (σ := fun _ => i) (b := false)
    (sl := [.punct '#', .word [.ch 'i', .ch 'n', .ch 'c', .ch 'l', .ch 'u', .ch 'd', .ch 'e'], .str [.var (text! "include"), .ch '.', .ch 'h']])
    ?_ ⟨?_, ?_⟩ (by decide +kernel)
  · intro x v hx
    have hm := get_mem hx
    simp only [List.mem_cons, Prod.mk.injEq, List.not_mem_nil, or_false] at hm
    obtain ⟨rfl, rfl⟩ := hm
    exact ⟨h, fun h => by simp at h⟩
  · intro x hx
    simp only [List.mem_cons, List.not_mem_nil, or_false] at hx
    subst hx; rfl
  · intro x _ hx; simp at hx

theorem lx_external {i : Str} (h : Name i) : Lx false false [.print [(text! "include", i)] tExternalIncludeTemplate]
    [.punct '#', .word (text! "include"), .punct '<', .word i, .punct '>'] := by
  refine lx_put (keys := [text! "include"]) (single := [text! "include"]) (σ := fun _ => i)
    (.cons (name_value h) (Or.inl (by decide)) .nil) ⟨fun x hx => ?_, fun x _ _ => name_id h⟩ (by rfl)
  simp only [List.mem_cons, List.not_mem_nil, or_false] at hx
  subst hx; rfl

theorem gives_top {header : Str} {external : List Str} (hh : Includable header) (he : ∀ i ∈ external, Name i) :
    Gives (sourceTop header external) (fun s => [.statement s (topLexemes header external)]) := by
  have h1 : Lx false false [.print [] tDisclaimerTemplate] [] := lx_nil (by rfl)
  have h2 := Lx.cons h1 (lx_internal hh)
  have h3 : Lx false false (external.map fun i => .print [(text! "include", i)] tExternalIncludeTemplate) _ :=
    Lx.map (k := fun i => [.punct '#', .word (text! "include"), .punct '<', .word i, .punct '>']) fun i hi => lx_external (he i hi)
  have h4 : Lx false false [.print [(text! "namespace", kQtProtobuf)] tUsingNamespaceTemplate]
      [.word (text! "using"), .word (text! "namespace"), .word kQtProtobuf, .punct ';'] := by
    refine lx_put (keys := [text! "namespace"]) (single := [text! "namespace"]) (σ := fun _ => kQtProtobuf)
      (.cons (value_of_B (by decide)) (Or.inr (id_of_B (by decide))) .nil) ⟨fun x hx => ?_, fun x _ _ => id_of_B (by decide)⟩ (by rfl)
    simp only [List.mem_cons, List.not_mem_nil, or_false] at hx
    subst hx; rfl
  refine gives_statement (((h2.append h3).append h4).congr ?_) ?_ ?_
  · simp [topLexemes, List.append_assoc]
  · have : Inlines (external.flatMap (fun i => [.punct '#', .word (text! "include"), .punct '<', .word i, .punct '>'])) :=
      inlines_flatMap fun i _ => by simp [inlines_word, inlines_punct, inlines_nil]
    simp only [topLexemes, inlines_append]
    refine ⟨⟨?_, this⟩, ?_⟩
    · simp [inlines_word, inlines_punct, inlines_str, inlines_nil]
    · simp [inlines_word, inlines_nil]
  · simp [topLexemes]

/-- The source of the messages of a file. -/
theorem gives_source {o : Options} {c : Ctx} {enums : List EnumD} {msgs : List Msg} {header : Str} (hf : PlainFile o c) (hh : Includable header)
    (he : ∀ e ∈ enums, PlainEnum e) (hm : PlainMsgs msgs) :
    Gives (messageSource o c header enums msgs) (fun s =>
      .statement s (topLexemes header (if o.qml then [text! "QQmlEngine"] else [])) :: (enums.flatMap (enumItems o c (s ++ outerNs o c)) ++
      (msgs.flatMap (bodies (s ++ outerNs o c) c.package)).flatMap (bodyItems o c))) := by
  have hmm := plain_names hm
  have h0 := gives_top (external := if o.qml then [text! "QQmlEngine"] else []) hh (by
    intro i hi
    split at hi
    · rw [List.mem_singleton.1 hi]
      exact ⟨by decide, by decide, by decide⟩
    · simp at hi)
  have h := (h0.append (Gives.flatMap fun e h => gives_enum hf (he e h))).append (Gives.flatMap fun m h => gives_classDefinition hf (hmm m h))
  unfold messageSource
  exact h.congr fun s => by simp [List.flatMap_assoc]

/-- The source of the clients of a file. -/
theorem gives_clientSource {o : Options} {c : Ctx} {services : List ServiceText} {header : Str} (hf : PlainFile o c) (hh : Includable header)
    (hs : ∀ s ∈ services, PlainService s) :
    Gives (clientSourceText o c header services) (fun s =>
      .statement s (topLexemes header (if o.qml then [text! "QQmlEngine", text! "QJSEngine", text! "QJSValue"] else [])) ::
        services.flatMap (clientItems o c (s ++ outerNs o c))) := by
  have h0 := gives_top (external := if o.qml then [text! "QQmlEngine", text! "QJSEngine", text! "QJSValue"] else []) hh (by
    intro i hi
    split at hi
    · simp only [List.mem_cons, List.not_mem_nil, or_false] at hi
      rcases hi with rfl | rfl | rfl <;> exact ⟨by decide, by decide, by decide⟩
    · simp at hi)
  have h := h0.append (Gives.flatMap fun s h => gives_client hf (hs s h).1 (hs s h).2)
  unfold clientSourceText
  exact h.congr fun s => by simp

end QtPb.TextProof
