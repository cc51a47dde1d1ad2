import Verif.TextInline4
/-
What the reader of headers finds in the header of a file. (Helpers for the theorems about generated headers.)
-/
set_option linter.unusedVariables false
set_option maxRecDepth 100000

namespace QtPb.TextProof
open QtPb.Gen QtPb.Gen.Text QtPb.Gen.Text.Spec QtPb.SpecCpp

/-! ### Messages -/

/-- What is found for a class. -/
def bodyDeclared (o : Options) (c : Ctx) (b : Printed × List FieldD) : List Declared := classDeclared o c ⟨b.1.msg, b.2⟩ b.1.cpp

mutual
theorem hg_declare {o : Options} {c : Ctx} (hf : PlainFile o c) : ∀ (msg : Msg) (path : Path), PlainMsg msg → (∀ s ∈ path, Named s) →
    HG false false (declareOps o c path msg) (fun s => (bodies s path msg).flatMap (bodyDeclared o c))
  | .mk name fields nested en, path, hm, hp => by
    rw [PlainMsg] at hm
    obtain ⟨hn, hfi, hne⟩ := hm
    have hg := good_snoc hp hn
    have ok : MsgOk o c ⟨path ++ [name], fields⟩ := ⟨hf, hg, hfi⟩
    have h1 := hg_nested (o := o) (c := c) (path := path) (fields := fields) hn (hg_declareList hf nested fields (path ++ [name]) hne hg.2)
    have h2 := hg_class ok (nested := nested) (fun n h => plain_name (plain_names hne n h))
    rw [declareOps]
    refine (HG.append h1 h2).congr fun s => ?_
    simp only [bodies, List.flatMap_append, List.flatMap_cons, List.flatMap_nil, List.append_nil, bodyDeclared, className, List.getLastD_concat]
theorem hg_declareList {o : Options} {c : Ctx} (hf : PlainFile o c) : ∀ (l : List Msg) (fields : List FieldD) (path : Path),
    PlainMsgs l → (∀ s ∈ path, Named s) →
    HG false false (declareOpsList o c ⟨path, fields⟩ l) (fun s => (bodiesList s path fields l).flatMap (bodyDeclared o c))
  | [], fields, path, _, _ => by rw [declareOpsList]; exact (HG.nil _).congr (by simp [bodiesList])
  | n :: rest, fields, path, hm, hp => by
    rw [PlainMsgs] at hm
    have h1 := hg_declare hf n path hm.1 hp
    have h2 := hg_declareList hf rest fields path hm.2 hp
    rw [declareOpsList]
    refine HG.congr (HG.append (e := fun s => (if visits fields (path ++ [n.name]) then bodies s path n else []).flatMap (bodyDeclared o c)) ?_ h2)
      (fun s => by simp [bodiesList])
    split
    · rename_i hv; simpa [hv] using h1
    · rename_i hv; simpa [hv] using HG.nil _
end

mutual
theorem hq_forwards {o : Options} {c : Ctx} (hf : PlainFile o c) : ∀ (msg : Msg) (path : Path), PlainMsg msg → (∀ s ∈ path, Named s) →
    HQ (forwardOps o c path msg)
  | .mk name fields nested en, path, hm, hp => by
    rw [PlainMsg] at hm
    obtain ⟨hn, hfi, hne⟩ := hm
    have hg := good_snoc hp hn
    have ok : MsgOk o c ⟨path ++ [name], fields⟩ := ⟨hf, hg, hfi⟩
    have h1 := hg_nested (o := o) (c := c) (path := path) (fields := fields) hn (hq_forwardsList hf nested fields (path ++ [name]) hne hg.2)
    rw [forwardOps]
    exact HQ.append (HQ.ite (fun _ => h1) (fun _ => HQ.nil)) (hq_forward ok)
theorem hq_forwardsList {o : Options} {c : Ctx} (hf : PlainFile o c) : ∀ (l : List Msg) (fields : List FieldD) (path : Path),
    PlainMsgs l → (∀ s ∈ path, Named s) → HQ (forwardOpsList o c ⟨path, fields⟩ l)
  | [], fields, path, _, _ => by rw [forwardOpsList]; exact HQ.nil
  | n :: rest, fields, path, hm, hp => by
    rw [PlainMsgs] at hm
    rw [forwardOpsList]
    exact HQ.append (HQ.ite (fun _ => hq_forwards hf n path hm.1 hp) (fun _ => HQ.nil)) (hq_forwardsList hf rest fields path hm.2 hp)
end

mutual
theorem hq_metaTypes {o : Options} {c : Ctx} (hf : PlainFile o c) : ∀ (msg : Msg) (path : Path), PlainMsg msg → (∀ s ∈ path, Named s) →
    HQ (metaOps o c path msg)
  | .mk name fields nested en, path, hm, hp => by
    rw [PlainMsg] at hm
    obtain ⟨hn, hfi, hne⟩ := hm
    have hg := good_snoc hp hn
    have ok : MsgOk o c ⟨path ++ [name], fields⟩ := ⟨hf, hg, hfi⟩
    rw [metaOps]
    exact HQ.append (hq_metas ok) (hq_metaTypesList hf nested fields (path ++ [name]) hne hg.2)
theorem hq_metaTypesList {o : Options} {c : Ctx} (hf : PlainFile o c) : ∀ (l : List Msg) (fields : List FieldD) (path : Path),
    PlainMsgs l → (∀ s ∈ path, Named s) → HQ (metaOpsList o c ⟨path, fields⟩ l)
  | [], fields, path, _, _ => by rw [metaOpsList]; exact HQ.nil
  | n :: rest, fields, path, hm, hp => by
    rw [PlainMsgs] at hm
    rw [metaOpsList]
    exact HQ.append (HQ.ite (fun _ => hq_metaTypes hf n path hm.1 hp) (fun _ => HQ.nil)) (hq_metaTypesList hf rest fields path hm.2 hp)
end

/-! ### Enumerations -/

/-- What is found in the class of an enumeration of the file. -/
def gadgetDeclared (o : Options) (c : Ctx) (s : List Text) (e : EnumD) : List Declared :=
  [.fn (s ++ outerNs o c ++ [gadget e]) (gadget e) [] []]

theorem hg_enumDeclaration {o : Options} {c : Ctx} {e : EnumD} (hf : PlainFile o c) (he : PlainEnum e) :
    HG false false (enumDeclaration o c e) (fun s => gadgetDeclared o c s e) := by
  have hg := globalEnum_good hf he
  have hk : ∀ x ∈ enumKeys, ((globalEnumVars o c e).get x).isSome = true := globalEnum_keys
  have hn : Name (gadget e) := name_gadget (name_id he.1.2)
  have q {t : Str} (h : quietT enumKeys t = true) : HQ [.print (globalEnumVars o c e) t] := hq_of hg hk h
  have ho : HOpen [.print (globalEnumVars o c e) tClassDeclarationTemplate] (gadget e) := by
    refine open_class (rest := cpp! "Q_OBJECT") hn (lx_enum hf he (by rfl)) ?_ rfl
    intro x hx
    simp only [List.mem_cons, List.not_mem_nil, or_false] at hx
    subst hx
    exact ⟨by simp, by simp, fun w e => by cases e; decide⟩
  have hc : HG false false [.print (globalEnumVars o c e) tConstructorHeaderTemplate] (fun s => [.fn s (gadget e) [] []]) := by
    refine HG.loose (a := false) (b := true) ⟨_, lx_enum hf he (ls := let n := gadget e; cpp! "$n$() {}") (by rfl), ?_⟩
    have := heff_fn (pre := []) (ps := []) (n := gadget e) (body := [])
      (by
        simp only [List.append_assoc, List.cons_append, List.nil_append]
        exact head_cons (type_word hn.2.2).1 (head_cons head_open (head_cons head_close head_nil))) (by simp) rfl
    simpa [parts, partsFrom] using this
  have h1 : Lx false false [.print (globalEnumVars o c e) tEnumDefinitionTemplate]
      [.word (text! "enum"), .word (upperCaseName e.name), .punct '{'] := lx_enum hf he (by rfl)
  have ge := (hg_enum (name_section he.1.2) h1 (enumValues_unbraced e.values he.2).indented).loose (a := false)
  have gb := HG.append (hg_public.loose (a := false)) <| HG.append (HG.indented (q (t := tManualRegistrationDeclaration) (by decide +kernel))) <|
    HG.append (hg_private.loose (a := false)) <| HG.append (HG.indented (HG.cons hc (HQ.cons (q (t := tDeletedCopyConstructorTemplate) (by decide +kernel))
      (q (t := tDeletedMoveConstructorTemplate) (by decide +kernel))))) <| HG.append (hg_public.loose (a := false)) <|
    HG.indented (HG.append ge (HQ.cons (q (t := tQEnumTemplate) (by decide +kernel)) (q (t := tEnumTypeRepeatedTemplate) (by decide +kernel))))
  have h2 := HG.within ho gb (d := [.print [] tSemicolonBlockEnclosureTemplate]) (rest := [.punct ';']) (lx_nil (by rfl)) (Or.inr rfl)
  have h3 := HG.inNamespaces (outer_names hf) (HG.append (h2.loose (a := false)) hq_newline)
  have h4 := HG.append h3 (q (t := tDeclareMetaTypeListTemplate) (by decide +kernel))
  have := h4.congr (f := fun s => gadgetDeclared o c s e) (by simp [gadgetDeclared])
  unfold enumDeclaration encloseClass
  simpa only [List.append_assoc, List.cons_append, List.nil_append] using this

/-! ### Files -/

theorem hq_top (o : Options) {external internal : List Str} (he : ∀ i ∈ external, Name i) (hi : ∀ i ∈ internal, Includable i) :
    HQ (headerTop o external internal) := by
  unfold headerTop
  refine HQ.append (HQ.append (HQ.append ?_ ?_) (HQ.map fun i h => ?_)) (HQ.map fun i h => ?_)
  · exact .cons (hq_nil (by decide +kernel)) (.cons (hq_nil (by decide +kernel)) (hq_nil (by decide +kernel)))
  · exact HQ.ite (fun _ => hq_nil (by decide +kernel)) (fun _ => HQ.nil)
  · refine ⟨_, lx_external (he i h), heff_plain ?_ rfl⟩
    intro x hx
    simp only [List.mem_cons, List.not_mem_nil, or_false] at hx
    rcases hx with rfl | rfl | rfl | rfl | rfl
    · exact ⟨by simp, by simp, by simp⟩
    · exact ⟨by simp, by simp, fun w e => by cases e; decide⟩
    · exact ⟨by simp, by simp, by simp⟩
    · exact ⟨by simp, by simp, fun w e => by cases e; exact name_section (he i h)⟩
    · exact ⟨by simp, by simp, by simp⟩
  · refine ⟨_, lx_internal (hi i h), heff_plain ?_ rfl⟩
    intro x hx
    simp only [List.mem_cons, List.not_mem_nil, or_false] at hx
    rcases hx with rfl | rfl | rfl
    · exact ⟨by simp, by simp, by simp⟩
    · exact ⟨by simp, by simp, fun w e => by cases e; decide⟩
    · exact ⟨by simp, by simp, by simp⟩

theorem hg_header {o : Options} {c : Ctx} (hf : PlainFile o c) {external internal : List Str} {enums : List EnumD} {msgs : List Msg}
    (he : ∀ i ∈ external, Name i) (hi : ∀ i ∈ internal, Includable i) (hen : ∀ e ∈ enums, PlainEnum e) (hm : PlainMsgs msgs) :
    HG false false (messageHeader o c external internal enums msgs)
      (fun s => enums.flatMap (gadgetDeclared o c s) ++
        msgs.flatMap fun msg => (bodies (s ++ outerNs o c) c.package msg).flatMap (bodyDeclared o c)) := by
  unfold messageHeader
  have hp := plain_names hm
  have h1 := HG.flatMap (l := enums) (f := enumDeclaration o c) (a := false) fun e hmem => hg_enumDeclaration hf (hen e hmem)
  have h2 : HQ (msgs.flatMap (forwardDeclaration o c)) := HQ.flatMap fun msg hmem =>
    HG.inNamespaces (outer_names hf) (hq_forwards hf msg c.package (hp msg hmem) hf.package)
  have h3 := HG.flatMap (l := msgs) (f := classDeclaration o c) (a := false)
    (e := fun msg s => (bodies (s ++ outerNs o c) c.package msg).flatMap (bodyDeclared o c)) fun msg hmem =>
      (HG.append (HG.inNamespaces (outer_names hf) (hg_declare hf msg c.package (hp msg hmem) hf.package))
        (hq_metaTypes hf msg c.package (hp msg hmem) hf.package)).congr (by simp)
  exact (HG.append (HG.append (HG.append (hq_top o he hi) h1) h2) h3).congr (by simp)

theorem HG.declared {ops : List Op} {e : List Text → List Declared} {b : Bool} (h : HG false b ops e) :
    ∃ text, printed ops = some text ∧ SpecCpp.declared text = some (e []) := by
  obtain ⟨ls, h, hy⟩ := h
  obtain ⟨text, start', out, w, h1, h2, h3, -, h5⟩ := h 0 true [] (fun _ => rfl) (fun _ => rfl)
  have hw := h5 rfl
  subst hw
  simp only [endWord, if_true, List.append_nil, List.nil_append] at h3
  subst h3
  refine ⟨text, by simp [printed, h1], ?_⟩
  obtain ⟨head', -, -, h4⟩ := hy [] [] [] rfl (fun _ => rfl)
  have h0 : ({} : InReader) = ⟨[], [], none, []⟩ := rfl
  simp [SpecCpp.declared, lex, h2, endWord, h0, h4]

end QtPb.TextProof
