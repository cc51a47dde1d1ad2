import Verif.TextInline3
/-
What the reader of headers finds in the class of a message. (Helpers for the theorems about generated headers.)
-/
set_option linter.unusedVariables false
set_option maxRecDepth 100000

namespace QtPb.TextProof
open QtPb.Gen QtPb.Gen.Text QtPb.Gen.Text.Spec QtPb.SpecCpp

/-! ### Enumerations -/

theorem bal_plain : ∀ {ls : List Lexeme} (_ : ∀ x ∈ ls, PlainL x) (k : Nat), bal k ls = some k
  | [], _, k => rfl
  | .word w :: ls, h, k => by simp only [bal]; exact bal_plain (fun x hx => h x (by simp [hx])) k
  | .str w :: ls, h, k => by simp only [bal]; exact bal_plain (fun x hx => h x (by simp [hx])) k
  | .punct c :: ls, h, k => by
    have hc := h (.punct c) (by simp)
    have a : c ≠ '{' := fun e => hc.noOpen (by rw [e])
    have b : c ≠ '}' := fun e => hc.noClose (by rw [e])
    rw [bal.eq_def]
    simp only [a, b, if_false]
    exact bal_plain (fun x hx => h x (by simp [hx])) k

/-- The calls print text without braces. -/
def Unbraced (ops : List Op) : Prop := ∃ ls, Lx false false ops ls ∧ ∀ x ∈ ls, PlainL x

theorem Unbraced.indented {ops : List Op} (h : Unbraced ops) : Unbraced (indented ops) := by
  obtain ⟨ls, h1, h2⟩ := h
  exact ⟨ls, h1.indented, h2⟩

theorem Unbraced.map {α : Type} {l : List α} {f : α → Op} (h : ∀ x ∈ l, Unbraced [f x]) : Unbraced (l.map f) := by
  induction l with
  | nil => exact ⟨[], Lx.nil _, by simp⟩
  | cons x l ih =>
    obtain ⟨a, a1, a2⟩ := h x (by simp)
    obtain ⟨b, b1, b2⟩ := ih (fun y hy => h y (by simp [hy]))
    exact ⟨a ++ b, Lx.cons a1 b1, fun y hy => (List.mem_append.1 hy).elim (a2 y) (b2 y)⟩

def unbracedT (keys : List Str) (t : Str) : Bool :=
  match symb (fun _ => true) keys t with
  | some (sl, false) => sl.all plainS
  | _ => false

theorem unbraced_of {vars : Vars} {keys : List Str} {t : Str} (hg : GoodL vars) (hk : ∀ x ∈ keys, (vars.get x).isSome = true)
    (h : unbracedT keys t = true) : Unbraced [.print vars t] := by
  unfold unbracedT at h
  split at h
  · rename_i sl hs
    rw [List.all_eq_true] at h
    have hd : ∀ x ∈ sl, Defined vars (fun _ => true) x := fun x hx => by
      have := symb_defined hs x hx
      cases x with
      | word p =>
        intro v hv
        simp only [definedS, List.all_eq_true] at this
        exact ⟨hk v (by simpa using this v (mem_wordVars hv)), rfl⟩
      | _ => trivial
    refine ⟨_, lx_print hg.good.fits hk hs, ?_⟩
    intro y hy
    obtain ⟨x, hx, hy⟩ := List.mem_flatMap.1 hy
    exact (inst_plain hg.good (hd x hx) (h x hx)).1 y hy
  · simp at h

/-- The enumeration with its semicolon. -/
theorem hg_enum {a b : List Op} {w : Text} (hw : w ∉ sections) (ha : Lx false false a [.word (text! "enum"), .word w, .punct '{']) (hb : Unbraced b) :
    HG false true (a ++ b ++ [.print [] tSemicolonBlockEnclosureTemplate]) (fun _ => []) := by
  obtain ⟨ls, b1, b2⟩ := hb
  have hd : Lx false false [.print [] tSemicolonBlockEnclosureTemplate] [.punct '}', .punct ';'] := lx_nil (by rfl)
  refine ⟨_, (ha.append b1).append hd, ?_⟩
  have h1 := heff_enum (body := ls) hw (bal_plain b2 0)
  have h2 : HEff true true [.punct ';'] (fun _ => []) := by
    intro scope head found hl h0
    rw [h0 rfl]
    exact ⟨[], rfl, fun _ => rfl, by simp [inAll, onIn, memberOf]⟩
  have := h1.append h2
  simpa using this

theorem enumValues_unbraced (values : List (Str × Int)) (h : ∀ v ∈ values, Name (upperCaseName v.1)) : Unbraced (enumValueOps values) := by
  unfold enumValueOps
  refine Unbraced.map fun v hv => ?_
  exact unbraced_of (keys := [text! "enumvalue", text! "value"])
    (.cons (name_value (h v hv)) (Or.inl (by decide)) <| .cons (value_int _) (Or.inl (by decide)) .nil) (by simp [Vars.get])
    (by decide +kernel)

theorem hg_label {t w : Text} (hw : w ∈ sections) (h : Lx false false [.print [] t] [.word w, .punct ':']) : HG false true [.print [] t] (fun _ => []) :=
  ⟨_, h, heff_label hw⟩

theorem hg_public : HG false true [.print [] tPublicBlockTemplate] (fun _ => []) := hg_label (w := kwPublic) (by decide) (lx_nil (by rfl))
theorem hg_private : HG false true [.print [] tPrivateBlockTemplate] (fun _ => []) := hg_label (w := kwPrivate) (by decide) (lx_nil (by rfl))
theorem hg_signals : HG false true [.print [] tSignalsBlockTemplate] (fun _ => []) := hg_label (w := kwSignals) (by decide) (lx_nil (by rfl))

theorem HG.loose {a b : Bool} {ops : List Op} {e : List Text → List Declared} (h : HG false b ops e) : HG false false ops e := h.weaken id (by simp)

section
variable {o : Options} {c : Ctx} {m : Cur} (ok : MsgOk o c m)

/-! ### What is declared -/

/-- The functions defined in the class that read a field. -/
def getterDeclared (c : Ctx) (s : List Text) (f : FieldD) : List Declared :=
  (if isPureMessage c.package f then [] else [.fn s f.prop [] (returnBody f.prop)]) ++
  (if f.repeated then [.fn s f.prop [] (returnBody f.prop)] else [])

/-- Whether the setter is defined in the class. -/
def inlineSetter (f : FieldD) : Bool := !(f.type == .message || f.type == .string || f.type == .bytes)

def setterDeclared (o : Options) (c : Ctx) (m : Cur) (s : List Text) (f : FieldD) : List Declared :=
  if inlineSetter f then
    [.fn s (set' (cap f)) [(let T := valueType o c m.path f (isList f); cpp! "const @T@ &", f.prop)] (Src.complexSetterBody f.prop)] else []

def aliasDeclared (o : Options) (c : Ctx) (m : Cur) (s : List Text) (f : FieldD) : List Declared :=
  if hasQmlAlias o.qml f then
    [.fn s (f.prop ++ text! "_p") [] (returnBody f.prop),
     .fn s (set' (cap f) ++ text! "_p") [(let T := ty o c m f (text! "qml_alias_type"); cpp! "const @T@ &", f.prop)] (Src.complexSetterBody f.prop)]
  else []

/-- The type of the data member of a field. -/
def memberType (o : Options) (c : Ctx) (m : Cur) (f : FieldD) : List Lexeme :=
  if isPureMessage c.package f then (let T := valueType o c m.path f false; cpp! "QProtobufLazyMessagePointer<@T@>")
  else valueType o c m.path f (isList f)

def memberDeclared (o : Options) (c : Ctx) (m : Cur) (s : List Text) (f : FieldD) : Declared := .member s (memberType o c m f) (mem' f.prop)

/-- What is found in the class of a message. -/
def classDeclared (o : Options) (c : Ctx) (m : Cur) (s : List Text) : List Declared :=
  m.fields.flatMap (getterDeclared c s) ++ m.fields.flatMap (setterDeclared o c m s) ++ m.fields.flatMap (aliasDeclared o c m s) ++
    m.fields.map (memberDeclared o c m s)

include ok

theorem types_ty {f : FieldD} (hf : f ∈ m.fields) (x : Str) : TypeLs (ty o c m f x) := types_value ((pv_good ok hf).val x)

theorem hq_own {t : Str} (h : quietT ownKeys t = true) : HQ [.print (own o c m) t] := hq_of (own_good ok) (own_keys o c m) h

theorem hq_pv {f : FieldD} (hf : f ∈ m.fields) {t : Str} (h : quietT propKeys t = true) : HQ [.print (pv o c m f) t] :=
  hq_of (pv_good ok hf) (propertyVars_keys o c m.path f) h

theorem hq_ctors : HQ (declConstructors o c m) := by
  unfold declConstructors
  refine HQ.append (HQ.flatMap fun n _ => ?_) (HQ.ite (fun _ => hq_nil (by decide +kernel)) (fun _ => HQ.nil))
  unfold declConstructor
  refine HQ.append (HQ.append (hq_own ok (by decide +kernel)) (HQ.map fun f hf => ?_)) (hq_own ok (by decide +kernel))
  have hf := List.mem_of_mem_take hf
  unfold parameterTemplate
  (repeat' split) <;> exact hq_pv ok hf (by decide +kernel)

theorem hq_special : HQ (declSpecial o c m) := by
  unfold declSpecial
  exact .cons (hq_own ok (by decide +kernel)) <| .cons (hq_own ok (by decide +kernel)) <| .cons (hq_own ok (by decide +kernel)) <|
    .cons (hq_own ok (by decide +kernel)) <| .cons (hq_own ok (by decide +kernel)) <| .cons (hq_own ok (by decide +kernel)) <|
    .cons (hq_own ok (by decide +kernel)) .nil

theorem hq_maps : HQ (printMaps o c m) := by
  unfold printMaps
  refine (HQ.flatMap fun f hf => HQ.ite (fun _ => ?_) (fun _ => HQ.nil)).indented
  split <;> exact hq_pv ok hf (by decide +kernel)

theorem hq_properties : HQ (printProperties o c m) := by
  unfold printProperties
  refine (HQ.append (HQ.map fun f hf => ?_) (HQ.flatMap fun f hf => ?_)).indented
  · unfold propertyTemplate
    (repeat' split) <;> exact hq_pv ok hf (by decide +kernel)
  · unfold extraPropertyOps
    split
    · exact hq_pv ok hf (by decide +kernel)
    · split
      · rename_i ha
        exact hq_of (keys := aliasKeys) (pv_good ok hf) (alias_keys ha) (by decide +kernel)
      · exact HQ.nil

theorem hq_nested {nested : List Msg} (hn : ∀ n ∈ nested, Named n.name) : HQ (printNested o c m nested) := by
  unfold printNested
  refine (HQ.flatMap fun n hmem => HQ.ite (fun _ => ?_) (fun _ => HQ.nil)).indented
  exact hq_of (keys := ownKeys) (goodL_message c (extraOk ok.file) (nested_path ok (hn n hmem)) _)
    (fun x hx => get_isSome hx) (by decide +kernel)

theorem hq_enums : HQ (printQEnums o c m) := by
  unfold printQEnums
  have he := ok.file.enums m.path
  refine HQ.append (HQ.ite (fun _ => ?_) (fun _ => HQ.nil)) (HQ.ite (fun _ => HQ.nil) (fun _ => ?_))
  · refine HQ.append (HQ.append ?_ ?_) hq_newline
    · unfold printFieldEnum
      refine (hg_enum (w := text! "QtProtobufFieldEnum") (by decide) (lx_nil (by rfl)) ?_).loose (a := false) |>.indented
      exact (Unbraced.map fun f hf => unbraced_of (pv_good ok hf) (propertyVars_keys o c m.path f) (by decide +kernel)).indented
    · have hn : Name kFieldEnumType := ⟨by decide, by decide, by decide⟩
      exact HG.indented (hq_of (vars := [(text! "type", kFieldEnumType)]) (keys := [text! "type"])
        (.cons (name_value hn) (Or.inl (by decide)) .nil) (by simp [Vars.get]) (by decide +kernel))
  · refine HG.indented (HQ.append (HQ.flatMap fun e hmem => ?_) (HQ.map fun e hmem => ?_))
    · have hg := localEnum_good ok (he e hmem).1
      have hk := localEnum_keys (o := o) (c := c) (m := m) e
      have hv : Values (localEnumVars o c m e) enumKeys [text! "type"]
          (fun x => if x = text! "type" then upperCaseName e.name else (localEnumVars o c m e).val x) := by
        refine .of hk (fun x _ => ?_) (fun x _ hs => ?_)
        · by_cases h : x = text! "type"
          · subst h; simpa using localEnum_type e
          · simp [h]
        · simp only [List.mem_singleton] at hs
          subst hs
          simpa using name_id (he e hmem).1.2
      have h1 : Lx false false [.print (localEnumVars o c m e) tEnumDefinitionTemplate]
          [.word (text! "enum"), .word (upperCaseName e.name), .punct '{'] := lx_put hg hv (by rfl)
      unfold qenumOps
      have g := (hg_enum (name_section (he e hmem).1.2) h1 (enumValues_unbraced e.values (he e hmem).2).indented).loose (a := false)
      have := HQ.append g (hq_of hg hk (t := tQEnumTemplate) (by decide +kernel))
      simpa [List.append_assoc] using this
    · exact hq_of (localEnum_good ok (he e hmem).1) (localEnum_keys e) (by decide +kernel)

theorem name_keywords {n : Text} (h : Name n) : n ∉ keywords := h.2.2

theorem hg_getters : HG false false (declGetters o c m) (fun s => m.fields.flatMap (getterDeclared c s)) := by
  unfold declGetters
  refine (HG.flatMap fun f hf => ?_).indented
  have hp := ok.fields f hf
  have hn := hp.prop.1.2.2
  have q0 : HQ (printComments o (c.fieldComment m.path f.number) ++ [.print [] (text! "\n")]) :=
    HQ.append (hq_comment fun h => (ok.file.comments h m.path).2 _) hq_newline
  have g1 : HG false false [.print (pv o c m f) (if isPureMessage c.package f then tGetterMessageDeclarationTemplate else tGetterTemplate)]
      (fun s => if isPureMessage c.package f then [] else [.fn s f.prop [] (returnBody f.prop)]) := by
    by_cases h : isPureMessage c.package f = true
    · simp only [h, if_true]; exact hq_pv ok hf (by decide +kernel)
    · simp only [h, if_false]
      refine HG.loose (a := false) ⟨_, lx_pv ok hf (ls := let T := ty o c m f (text! "getter_type"); let N := f.prop; T ++ cpp! "$N$() const { return m_$N$; }") (by rfl),
        heff_getter (types_ty ok hf _) hn⟩
  have g2 : HG false false [.print (pv o c m f) tGetterContainerExtraTemplate] (fun s => [.fn s f.prop [] (returnBody f.prop)]) :=
    HG.loose (a := false) ⟨_, lx_pv ok hf (ls := let T := ty o c m f (text! "getter_type"); let N := f.prop; T ++ cpp! "&$N$() { return m_$N$; }") (by rfl),
        heff_extra (types_ty ok hf _) hn⟩
  unfold getterOps
  refine ((HG.append q0 g1).append (HG.ite (f := fun _ => []) (fun _ => HG.append g2 (HQ.ite (fun _ => hq_pv ok hf (by decide +kernel)) (fun _ => HQ.nil)))
    (fun _ => HG.nil _))).congr fun s => ?_
  simp [getterDeclared]

theorem hg_setters : HG false false (declSetters o c m) (fun s => m.fields.flatMap (setterDeclared o c m s)) := by
  unfold declSetters
  refine (HG.map fun f hf => ?_).indented
  have g : HG false false [.print (pv o c m f) tSetterTemplate]
      (fun s => [.fn s (set' (cap f)) [(let T := valueType o c m.path f (isList f); cpp! "const @T@ &", f.prop)] (Src.complexSetterBody f.prop)]) := by
    rw [← ty_setter ok hf]
    refine HG.loose (a := false) ⟨_, lx_pv ok hf (ls := let T := ty o c m f (text! "setter_type"); let N := f.prop; let n := set' (cap f);
        cpp! "void $n$(const @T@ &$N$) { if (m_$N$ != $N$) { m_$N$ = $N$; $N$Changed(); } }") (by rfl),
        heff_setter (types_ty ok hf _) (set_word _) (ok.fields f hf).prop.1⟩
  have q1 : HQ [.print (pv o c m f) tSetterTemplateDeclarationMessageType] := hq_pv ok hf (by decide +kernel)
  have q2 : HQ [.print (pv o c m f) tSetterTemplateDeclarationComplexType] := hq_pv ok hf (by decide +kernel)
  unfold setterTemplate setterDeclared inlineSetter
  cases ht : f.type <;> first | exact g | (simp only []; first | exact q2 | (split; exact q1; exact q2))

theorem alias_values {f : FieldD} (hf : f ∈ m.fields) {q : Bool} (h : hasQmlAlias q f = true) :
    Values (pv o c m f) aliasKeys fieldSingle (fieldSub o c m f) := by
  have hv := pv_values ok hf
  refine .of (alias_keys h) (fun x hx => ?_) (fun x hx hs => ?_)
  · rcases List.mem_cons.1 hx with rfl | hx
    · rfl
    · have := hv.get x hx
      simp [Vars.val, this]
  · rcases List.mem_cons.1 hx with rfl | hx
    · exact absurd hs (by decide)
    · exact hv.single x hx hs

theorem hg_aliases : HG false false (printPrivateMethods o c m) (fun s => m.fields.flatMap (aliasDeclared o c m s)) := by
  unfold printPrivateMethods
  refine (HG.flatMap fun f hf => ?_).indented
  unfold aliasDeclared
  by_cases h : hasQmlAlias o.qml f = true
  · simp only [h, if_true]
    have g1 : HG false false [.print (pv o c m f) tNonScriptableGetterTemplate] (fun s => [.fn s (f.prop ++ text! "_p") [] (returnBody f.prop)]) :=
      HG.loose (a := false) ⟨_, lx_put (pv_good ok hf) (alias_values ok hf h)
        (ls := let T := ty o c m f (text! "qml_alias_type"); let N := f.prop; let n := f.prop ++ text! "_p"; T ++ cpp! "$n$() const { return m_$N$; }") (by rfl),
        heff_getter (types_ty ok hf _) (private_word _)⟩
    have g2 : HG false false [.print (pv o c m f) tNonScriptableSetterTemplate] (fun s => [.fn s (set' (cap f) ++ text! "_p")
        [(let T := ty o c m f (text! "qml_alias_type"); cpp! "const @T@ &", f.prop)] (Src.complexSetterBody f.prop)]) :=
      HG.loose (a := false) ⟨_, lx_put (pv_good ok hf) (alias_values ok hf h)
        (ls := let T := ty o c m f (text! "qml_alias_type"); let N := f.prop; let n := set' (cap f) ++ text! "_p";
          cpp! "void $n$(const @T@ &$N$) { if (m_$N$ != $N$) { m_$N$ = $N$; $N$Changed(); } }") (by rfl),
        heff_setter (types_ty ok hf _) (private_word _) (ok.fields f hf).prop.1⟩
    exact HG.append g1 g2
  · simp only [h, if_false]
    exact HG.nil _

theorem hg_members : HG true true (printClassMembers o c m) (fun s => m.fields.map (memberDeclared o c m s)) := by
  unfold printClassMembers
  have := HG.indented (HG.map (a := true) (l := m.fields) (f := fun f => Op.print (pv o c m f)
      (if isPureMessage c.package f then tComplexMemberTemplate else if f.repeated && !f.isMap then tListMemberTemplate else tMemberTemplate))
      (e := fun f s => [memberDeclared o c m s f]) (fun f hf => ?_))
  · exact this.congr fun s => by rw [← List.map_eq_flatMap]
  · unfold memberDeclared memberType
    obtain ⟨t1, t2⟩ := ty_scope ok hf
    by_cases h : isPureMessage c.package f = true
    · simp only [h, if_true]
      rw [← t1]
      exact ⟨_, lx_pv ok hf (ls := let T := ty o c m f (text! "scope_type"); let N := f.prop; cpp! "QProtobufLazyMessagePointer<@T@> m_$N$;") (by rfl),
        heff_lazy (types_ty ok hf _)⟩
    · simp only [h, Bool.false_eq_true, if_false]
      have hl : (f.repeated && !f.isMap) = isList f := rfl
      rw [hl]
      cases isList f with
      | true =>
        simp only [if_true]
        rw [← t2]
        exact ⟨_, lx_pv ok hf (ls := ty o c m f (text! "scope_list_type") ++ (let N := f.prop; cpp! "m_$N$;")) (by rfl), heff_fieldMember (types_ty ok hf _)⟩
      | false =>
        simp only [Bool.false_eq_true, if_false]
        rw [← t1]
        exact ⟨_, lx_pv ok hf (ls := ty o c m f (text! "scope_type") ++ (let N := f.prop; cpp! "m_$N$;")) (by rfl), heff_fieldMember (types_ty ok hf _)⟩

theorem hg_class {nested : List Msg} (hn : ∀ n ∈ nested, Named n.name) :
    HG false false (declClass o c m nested) (fun s => classDeclared o c m (s ++ [className m])) := by
  have hb : HG false true (printClassBody o c m nested) (classDeclared o c m) := by
    have q1 : HQ (QtPb.Gen.Text.indented (declConstructors o c m ++ declSpecial o c m)) := HG.indented (HQ.append (hq_ctors ok) (hq_special ok))
    have q2 : HQ (QtPb.Gen.Text.indented [.print (own o c m) tManualRegistrationDeclaration]) := HG.indented (hq_own ok (by decide +kernel))
    have q3 : HQ (printSignals o c m) := by
      unfold printSignals; exact HG.indented (HQ.map fun f hf => hq_pv ok hf (by decide +kernel))
    have q4 : HQ (printPrivateGetters o c m) := by
      unfold printPrivateGetters
      exact HG.indented (HQ.flatMap fun f hf => HQ.ite (fun _ => hq_pv ok hf (by decide +kernel)) (fun _ => HQ.nil))
    have q5 : HQ (printPrivateSetters o c m) := by
      unfold printPrivateSetters
      exact HG.indented (HQ.flatMap fun f hf => HQ.ite (fun _ => hq_pv ok hf (by decide +kernel)) (fun _ => HQ.nil))
    have h := HG.append (hq_properties ok) <| HG.append (hg_public.loose (a := false)) <| HG.append (hq_enums ok) <| HG.append (hq_nested ok hn) <|
      HG.append (hq_maps ok) <| HG.append q1 <| HG.append (hg_getters ok) <| HG.append (hg_setters ok) <| HG.append q2 <|
      HG.append (hg_signals.loose (a := false)) <| HG.append q3 <| HG.append (hg_private.loose (a := false)) <| HG.append q4 <| HG.append q5 <|
      HG.append (hg_aliases ok) <| HG.append hg_private (hg_members ok)
    unfold printClassBody
    have := h.congr (f := classDeclared o c m) (fun s => by simp [classDeclared])
    simpa only [List.append_assoc, List.nil_append] using this
  have ho : HOpen [.print (own o c m) tProtoClassDeclarationBeginTemplate] (className m) := by
    refine open_class (rest := let n := className m; cpp! "Q_OBJECT Q_PROTOBUF_OBJECT Q_DECLARE_PROTOBUF_SERIALIZERS($n$)") ⟨?_, ?_, ?_⟩
      (lx_own ok (by rfl)) ?_ ?_
    · exact (good_last ok.path).2.1
    · exact (good_last ok.path).2.2.1
    · exact (good_last ok.path).2.2.2
    · intro x hx
      simp only [List.mem_cons, List.not_mem_nil, or_false] at hx
      rcases hx with rfl | rfl | rfl | rfl | rfl | rfl
      · exact ⟨by simp, by simp, fun w e => by cases e; decide⟩
      · exact ⟨by simp, by simp, fun w e => by cases e; decide⟩
      · exact ⟨by simp, by simp, fun w e => by cases e; decide⟩
      · exact ⟨by simp, by simp, by simp⟩
      · exact ⟨by simp, by simp, fun w e => by cases e; exact name_section (good_last ok.path).2⟩
      · exact ⟨by simp, by simp, by simp⟩
    · rfl
  have h := HG.within ho hb (d := [.print [] tSemicolonBlockEnclosureTemplate]) (rest := [.punct ';']) (lx_nil (by rfl)) (Or.inr rfl)
  have q0 : HQ (printComments o (c.comment m.path)) := hq_comment fun h => (ok.file.comments h m.path).1
  have := ((HG.append q0 (h.loose (a := false))).append hq_newline).append (hq_own ok (t := tComplexListTypeUsingTemplate) (by decide +kernel))
  unfold declClass encloseClass
  have := this.congr (f := fun s => classDeclared o c m (s ++ [className m])) (by simp)
  simpa only [List.append_assoc, List.cons_append, List.nil_append] using this

theorem hq_metas : HQ (ownMetaTypes o c m) := by
  unfold ownMetaTypes
  refine HQ.append (HQ.append (HQ.cons (hq_own ok (by decide +kernel)) (hq_own ok (by decide +kernel)))
    (HQ.ite (fun _ => hq_own ok (by decide +kernel)) (fun _ => HQ.nil))) (HQ.flatMap fun f hf => ?_)
  unfold metaTypeOps
  split
  · exact HQ.cons (hq_pv ok hf (by decide +kernel)) (hq_pv ok hf (by decide +kernel))
  · split
    · rename_i hmap
      exact hq_of (mapVars_good ok hf hmap) (mapVars_keys f) (by decide +kernel)
    · exact HQ.nil

theorem hq_forward : HQ [.print (own o c m) tProtoClassForwardDeclarationTemplate, .print (own o c m) tComplexListTypeUsingTemplate] :=
  HQ.cons (hq_own ok (by decide +kernel)) (hq_own ok (by decide +kernel))

end

end QtPb.TextProof
