import Verif.TextFile
/-
The arguments of the macros in the printed text. (Helpers for the theorems about generated text.)
-/
namespace QtPb.TextProof
open QtPb.Gen QtPb.Gen.Spec QtPb.Gen.Text QtPb.Gen.Text.Spec QtPb.SpecCpp

theorem flatMap_congr' {α β : Type} {l : List α} {f g : α → List β} (h : ∀ a ∈ l, f a = g a) : l.flatMap f = l.flatMap g := by
  induction l with
  | nil => rfl
  | cons a l ih => rw [List.flatMap_cons, List.flatMap_cons, h a (by simp), ih fun x hx => h x (by simp [hx])]

theorem flatMap_nil' {α β : Type} {l : List α} {f : α → List β} (h : ∀ a ∈ l, f a = []) : l.flatMap f = [] := by
  rw [flatMap_congr' h]; simp

theorem congrArg₂' {α β γ : Type} (f : α → β → γ) {a a' : α} {b b' : β} (h : a = a') (h' : b = b') : f a b = f a' b' := by
  rw [h, h']

/-! ### Reading Q_PROPERTY -/

theorem propertyFrom_skip {ty rest : List Lexeme} {x : Lexeme} (h : ∀ l, rest ≠ .word kwRead :: l) :
    propertyFrom ty (x :: rest) = propertyFrom (ty ++ [x]) rest := by
  match x, rest, h with
  | .punct _, _, _ => simp [propertyFrom]
  | .str _, _, _ => simp [propertyFrom]
  | .word _, [], _ => simp [propertyFrom]
  | .word _, .punct _ :: _, _ => simp [propertyFrom]
  | .word _, .str _ :: _, _ => simp [propertyFrom]
  | .word _, [.word _], _ => simp [propertyFrom]
  | .word _, .word _ :: .punct _ :: _, _ => simp [propertyFrom]
  | .word _, .word _ :: .str _ :: _, _ => simp [propertyFrom]
  | .word n, .word k :: .word r :: l, h =>
    have hk : k ≠ kwRead := fun e => h (.word r :: l) (by rw [e])
    rw [propertyFrom, if_neg hk]

theorem propertyFrom_type : ∀ (ls ty : List Lexeme) (n r : Text) (rest : List Lexeme), (∀ w, Lexeme.word w ∈ ls → w ≠ kwRead) → n ≠ kwRead →
    propertyFrom ty (ls ++ .word n :: .word kwRead :: .word r :: rest) = 
      some ⟨ty ++ ls, n, r, wordAfter kwWrite rest, wordAfter kwNotify rest, wordAfter kwScriptable rest⟩
  | [], ty, n, r, rest, _, _ => by simp [propertyFrom]
  | x :: ls, ty, n, r, rest, h, hn => by
    rw [List.cons_append, propertyFrom_skip, propertyFrom_type ls _ n r rest (fun w hw => h w (by simp [hw])) hn]
    · simp
    · intro l e
      cases ls with
      | nil => simp at e; exact hn e.1
      | cons y ls =>
        simp at e
        exact h kwRead (by rw [← e.1]; simp) rfl

theorem propertyOf_args {ls : List Lexeme} {n r : Text} {rest : List Lexeme} (h : ∀ w, Lexeme.word w ∈ ls → w ≠ kwRead) (hn : n ≠ kwRead) :
    propertyOf (ls ++ .word n :: .word kwRead :: .word r :: rest) =
      some ⟨ls, n, r, wordAfter kwWrite rest, wordAfter kwNotify rest, wordAfter kwScriptable rest⟩ := by
  have := propertyFrom_type ls [] n r rest h hn
  simpa [propertyOf] using this

/-! ### Qualified names -/

theorem lexemes_joined : ∀ (l : List Str), (∀ s ∈ l, IsId s) → lexemes (joined kScope l) = qualified l
  | [], _ => rfl
  | [s], h => (h s (by simp)).lexemes
  | s :: t :: l, h => by
    have hw : ∀ d ∈ s, okChar d = true := fun d hd => isWord_ok ((h s (by simp)).2 d hd)
    have hok : ∀ (l : List Str), (∀ s ∈ l, IsId s) → ∀ d ∈ joined kScope l, okChar d = true := by
      intro l
      induction l with
      | nil => intro _ d hd; simp [joined] at hd
      | cons a l ih =>
        intro hl d hd
        cases l with
        | nil => exact isWord_ok ((hl a (by simp)).2 d (by simpa [joined] using hd))
        | cons b l =>
          rw [joined] at hd
          rcases List.mem_append.1 hd with hd | hd
          · rcases List.mem_append.1 hd with hd | hd
            · exact isWord_ok ((hl a (by simp)).2 d hd)
            · simp [kScope] at hd; subst hd; rfl
          · exact ih (fun s hs => hl s (by simp [hs])) d hd
    have ht := hok (t :: l) (fun x hx => h x (by simp [hx]))
    have e : joined kScope (s :: t :: l) = s ++ ':' :: ([] ++ ':' :: joined kScope (t :: l)) := by
      rw [joined]; simp [kScope]
    rw [e, lexemes_mark hw (by simpa using ⟨rfl, ht⟩) rfl rfl, lexemes_mark (by simp) ht rfl rfl,
      (h s (by simp)).lexemes, lexemes_joined (t :: l) (fun x hx => h x (by simp [hx]))]
    rfl

theorem lexemes_qualify {ns : List Str} {n : Str} (h : ∀ s ∈ ns, Name s) (hn : IsId n) :
    lexemes (qualify (getNamespacesString kScope ns) n) = qualified (ns ++ [n]) := by
  rw [getNamespacesString_eq, qualify_eq (fun s hs => id_ident (name_id (h s hs)))]
  apply lexemes_joined
  intro s hs
  rcases List.mem_append.1 hs with hs | hs
  · exact name_id (h s hs)
  · simp at hs; rw [hs]; exact hn

/-! ### The types of properties -/

section
variable {o : Options} {c : Ctx} {m : Cur}

theorem pv_val (f : FieldD) (x : Str) (h : x ∈ [text! "property_type", text! "property_list_type", text! "qml_alias_type"]) :
    (pv o c m f).val x = (typeVars o c m.path f).val x := by
  simp only [List.mem_cons, List.not_mem_nil, or_false] at h
  unfold pv propertyVars
  rcases h with rfl | rfl | rfl <;> (repeat' split) <;> rfl

theorem scalar_types : ∀ t : FType, t ≠ .message → t ≠ .enum → t ≠ .group →
    lexemes ((simpleVars t).val (text! "property_type")) = qualified (scalarName t) ∧
    lexemes ((simpleVars t).val (text! "property_list_type")) = qualified (scalarListName t) := by
  intro t h1 h2 h3
  cases t <;> first | contradiction | decide +kernel

theorem typeVars_scalar {scope : Path} {f : FieldD} (h1 : f.type ≠ .message) (h2 : f.type ≠ .enum) :
    typeVars o c scope f = simpleVars f.type := by
  unfold typeVars
  split
  · rename_i e; exact absurd e h1
  · rename_i e; exact absurd e h2
  · rfl

theorem outer_name {o : Options} (hx : ExtraOk o) {q : Path} (hq : Good' q) : ∀ s ∈ extraNs o ++ q.dropLast, Name s := by
  intro s hs
  rcases List.mem_append.1 hs with hs | hs
  · exact extra_list hx s hs
  · exact mem_dropLast_named hq.2 s hs

variable (ok : MsgOk o c m)
include ok

theorem message_type {f : FieldD} (hf : f ∈ m.fields) (ht : f.type = .message) :
    lexemes ((pv o c m f).val (text! "property_type")) = messageType o c f := by
  have hq : Good' (f.msgType.getD []) := (ok.fields f hf).message ht
  rw [pv_val f _ (by simp)]
  unfold typeVars messageType
  simp only [ht]
  split
  · exact (name_id (good_last hq).1).lexemes
  · have : (messageVars o c (f.msgType.getD []) (some m.path)).val (text! "property_type") =
      qualify (getNamespacesString kScope ((if o.extra = [] then [] else [o.extra]) ++ getNamespaces (some (typeD c (f.msgType.getD [])))))
        (upperCaseName ((f.msgType.getD []).getLastD [])) := rfl
    rw [this, good_namespaces c hq.2]
    have := lexemes_qualify (outer_name (extraOk ok.file) hq) (name_id (good_last hq).2)
    simpa [typeName, extraNs] using this

theorem message_list_type {f : FieldD} (hf : f ∈ m.fields) (ht : f.type = .message) :
    lexemes ((pv o c m f).val (text! "property_list_type")) =
      if isQtType c.package f then [.word (text! "QList"), .punct '<', .word kRepeated, .punct '>']
      else qualified (typeName o (f.msgType.getD []) kRepeated) := by
  have hq : Good' (f.msgType.getD []) := (ok.fields f hf).message ht
  rw [pv_val f _ (by simp)]
  unfold typeVars
  simp only [ht]
  split
  · have : (qtVars c (f.msgType.getD [])).val (text! "property_list_type") = text! "QList<" ++ kRepeated ++ text! ">" := rfl
    rw [this]
    decide +kernel
  · have : (messageVars o c (f.msgType.getD []) (some m.path)).val (text! "property_list_type") =
      qualify (getNamespacesString kScope ((if o.extra = [] then [] else [o.extra]) ++ getNamespaces (some (typeD c (f.msgType.getD [])))))
        (upperCaseName ((f.msgType.getD []).getLastD []) ++ kRepeated) := rfl
    rw [this, good_namespaces c hq.2]
    have := lexemes_qualify (outer_name (extraOk ok.file) hq) (name_id (name_repeated (name_id (good_last hq).2)))
    simpa [typeName, extraNs] using this

theorem enum_type {f : FieldD} (hf : f ∈ m.fields) (ht : f.type = .enum) :
    lexemes ((pv o c m f).val (text! "property_type")) =
      qualified (enumName o (f.enumType.getD []) (c.visibility m.path (f.enumType.getD []))) ∧
    lexemes ((pv o c m f).val (text! "property_list_type")) =
      qualified (enumListName o (f.enumType.getD []) (c.visibility m.path (f.enumType.getD []))) := by
  have hq : Good' (f.enumType.getD []) := (ok.fields f hf).enum ht
  rw [pv_val f _ (by simp), pv_val f _ (by simp)]
  unfold typeVars
  simp only [ht]
  generalize hvis : c.visibility m.path (f.enumType.getD []) = vis
  have e1 : (enumVars o c (f.enumType.getD []) (some m.path) vis).val (text! "property_type") =
      if vis = .local then upperCaseName ((f.enumType.getD []).getLastD []) else
      qualify (getNamespacesString kScope ((if o.extra = [] then [] else [o.extra]) ++ getNamespaces (some (typeD c (f.enumType.getD []))) ++
        (if vis = .global then [upperCaseName ((f.enumType.getD []).getLastD []) ++ kGadget] else [])))
        (upperCaseName ((f.enumType.getD []).getLastD [])) := rfl
  have e2 : (enumVars o c (f.enumType.getD []) (some m.path) vis).val (text! "property_list_type") =
      qualify (getNamespacesString kScope ((if o.extra = [] then [] else [o.extra]) ++ getNamespaces (some (typeD c (f.enumType.getD []))) ++
        (if vis = .global then [upperCaseName ((f.enumType.getD []).getLastD []) ++ kGadget] else [])))
        (upperCaseName ((f.enumType.getD []).getLastD []) ++ kRepeated) := rfl
  rw [e1, e2, good_namespaces c hq.2]
  have hn := outer_name (extraOk ok.file) hq
  have i1 := name_id (good_last hq).2
  have i2 := name_id (name_repeated i1)
  have hng : ∀ s ∈ extraNs o ++ (f.enumType.getD []).dropLast ++ [upperCaseName ((f.enumType.getD []).getLastD []) ++ kGadget], Name s := by
    intro s hs
    rcases List.mem_append.1 hs with hs | hs
    · exact hn s hs
    · rw [List.mem_singleton.1 hs]; exact name_gadget i1
  cases vis with
  | «local» =>
    refine ⟨?_, ?_⟩
    · simpa [enumName, qualified] using i1.lexemes
    · have := lexemes_qualify hn i2
      simpa [enumListName, typeName, extraNs] using this
  | neighbor =>
    refine ⟨?_, ?_⟩
    · have := lexemes_qualify hn i1
      simpa [enumName, typeName, extraNs] using this
    · have := lexemes_qualify hn i2
      simpa [enumListName, typeName, extraNs] using this
  | global =>
    refine ⟨?_, ?_⟩
    · have := lexemes_qualify hng i1
      simpa [enumName, typeName, extraNs] using this
    · have := lexemes_qualify hng i2
      simpa [enumListName, typeName, extraNs] using this

/-- The type that is not a list. -/
theorem single_type {f : FieldD} (hf : f ∈ m.fields) (hl : (f.repeated && !f.isMap) = false) :
    lexemes ((pv o c m f).val (text! "property_type")) ++ (if isPureMessage c.package f then [.punct '*'] else []) =
      propertyType o c m.path f := by
  have hg := (ok.fields f hf).noGroup
  unfold propertyType
  simp only [hl]
  by_cases h1 : f.type = .message
  · rw [message_type ok hf h1]
    simp [h1]
  by_cases h2 : f.type = .enum
  · simp only [h2]
    rw [(enum_type ok hf h2).1]
    simp [isPureMessage, h2]
  rw [pv_val f _ (by simp), typeVars_scalar h1 h2, (scalar_types f.type h1 h2 hg).1]
  have hp : isPureMessage c.package f = false := by simp [isPureMessage, h1]
  rw [hp]
  split <;> simp_all

/-- The type of a list. -/
theorem list_type {f : FieldD} (hf : f ∈ m.fields) (hl : (f.repeated && !f.isMap) = true) :
    lexemes ((pv o c m f).val (text! "property_list_type")) = propertyType o c m.path f := by
  have hg := (ok.fields f hf).noGroup
  unfold propertyType
  simp only [hl]
  by_cases h1 : f.type = .message
  · rw [message_list_type ok hf h1]
    simp [h1]
  by_cases h2 : f.type = .enum
  · simp only [h2]
    rw [(enum_type ok hf h2).2]
    simp [isPureMessage, h2]
  rw [pv_val f _ (by simp), typeVars_scalar h1 h2, (scalar_types f.type h1 h2 hg).2]
  have hp : isPureMessage c.package f = false := by simp [isPureMessage, h1]
  rw [hp]
  split <;> simp_all

omit ok in
theorem value_words {v : Str} (h : Value v) (w : Text) (hw : Lexeme.word w ∈ lexemes v) : w ≠ kwRead := fun e =>
  h.2 w hw (by rw [e]; decide)

/-- Keywords, each with one word. -/
inductive Attrs (vars : Vars) : List SLex → List (Text × Text) → Prop
  | nil : Attrs vars [] []
  | cons {k w : List Tok} {rest : List SLex} {l : List (Text × Text)} {a b : Text} (hk : val vars k = a) (ha : IsId a) (hw : val vars w = b)
      (hb : IsId b) (h : Attrs vars rest l) : Attrs vars (.word k :: .word w :: rest) ((a, b) :: l)

def look (kw : Text) : List (Text × Text) → Option Text
  | [] => none
  | (a, b) :: l => if a = kw then some b else look kw l

omit ok in
theorem attrs_look {vars : Vars} {rest : List SLex} {l : List (Text × Text)} (h : Attrs vars rest l) (kw : Text) :
    wordAfter kw (rest.flatMap (inst vars)) = look kw l := by
  induction h with
  | nil => rfl
  | cons hk ha hw hb _ ih =>
    simp only [List.flatMap_cons, inst, hk, hw, ha.lexemes, hb.lexemes, List.singleton_append, wordAfter, look, ih]

omit ok in
/-- The lexemes of the arguments, when the type is followed by a name, READ, a method and further keywords. -/
theorem property_args {vars : Vars} {pre rest : List SLex} {np rp : List Tok} {n r : Text} {args : List SLex} {l : List (Text × Text)}
    (ha : args = pre ++ .word np :: .word ((text! "READ").map Tok.ch) :: .word rp :: rest)
    (hpre : ∀ w, Lexeme.word w ∈ pre.flatMap (inst vars) → w ≠ kwRead)
    (hn : val vars np = n) (hr : val vars rp = r) (hni : Name n) (hri : IsId r) (hl : Attrs vars rest l) :
    propertyOf (args.flatMap (inst vars)) =
      some ⟨pre.flatMap (inst vars), n, r, look kwWrite l, look kwNotify l, look kwScriptable l⟩ := by
  have hk : inst vars (.word ((text! "READ").map Tok.ch)) = [.word kwRead] := by
    simp only [inst]
    have : val vars ((text! "READ").map Tok.ch) = kwRead := rfl
    rw [this]; decide +kernel
  rw [ha, List.flatMap_append, List.flatMap_cons, List.flatMap_cons, List.flatMap_cons, hk]
  simp only [inst, hn, hr, (name_id hni).lexemes, hri.lexemes, List.singleton_append]
  rw [propertyOf_args hpre (fun e => hni.2.2 (by rw [e]; decide)), attrs_look hl, attrs_look hl, attrs_look hl]

omit ok in
theorem look3 (a b d : Text) : look kwWrite [(kwWrite, a), (kwNotify, b), (kwScriptable, d)] = some a ∧
    look kwNotify [(kwWrite, a), (kwNotify, b), (kwScriptable, d)] = some b ∧
    look kwScriptable [(kwWrite, a), (kwNotify, b), (kwScriptable, d)] = some d := ⟨rfl, rfl, rfl⟩

omit ok in
theorem look2 (a b : Text) : look kwWrite [(kwWrite, a), (kwNotify, b)] = some a ∧
    look kwNotify [(kwWrite, a), (kwNotify, b)] = some b ∧ look kwScriptable [(kwWrite, a), (kwNotify, b)] = none := ⟨rfl, rfl, rfl⟩

omit ok in
theorem look1 (b : Text) : look kwWrite [(kwNotify, b)] = none ∧
    look kwNotify [(kwNotify, b)] = some b ∧ look kwScriptable [(kwNotify, b)] = none := ⟨rfl, rfl, rfl⟩

/-- WRITE with the setter or the private one, NOTIFY, SCRIPTABLE. -/
def sWrite : SLex := .word ((text! "WRITE").map Tok.ch)
def sNotify : SLex := .word ((text! "NOTIFY").map Tok.ch)
def sScriptable : SLex := .word ((text! "SCRIPTABLE").map Tok.ch)
def sSetter : SLex := .word ((text! "set").map Tok.ch ++ [.var (text! "property_name_cap")])
def sSetterP : SLex := .word ((text! "set").map Tok.ch ++ .var (text! "property_name_cap") :: (text! "_p").map Tok.ch)
def sSignal : SLex := .word (.var (text! "property_name") :: (text! "Changed").map Tok.ch)

theorem attrs_field {f : FieldD} (hf : f ∈ m.fields) {w : List Tok} {b : Text} (hw : val (pv o c m f) w = b) (hb : IsId b) :
    Attrs (pv o c m f) [sWrite, sSetter, sNotify, sSignal, sScriptable, .word w]
      [(kwWrite, f.setter), (kwNotify, signalName f), (kwScriptable, b)] ∧
    Attrs (pv o c m f) [sWrite, sSetterP, sNotify, sSignal, sScriptable, .word w]
      [(kwWrite, f.setter ++ kP), (kwNotify, signalName f), (kwScriptable, b)] ∧
    Attrs (pv o c m f) [sWrite, sSetterP, sNotify, sSignal] [(kwWrite, f.setter ++ kP), (kwNotify, signalName f)] ∧
    Attrs (pv o c m f) [sNotify, sSignal] [(kwNotify, signalName f)] := by
  obtain ⟨w1, w2, w3, w4, w5, w6, w7⟩ := pv_words (o := o) (c := c) (m := m) (f := f)
  have hp := (ok.fields f hf).prop
  have hset : IsId f.setter := id_append (id_of_B (by decide)) (name_id hp.2)
  have hsp : IsId (f.setter ++ kP) := id_append hset (id_of_B (by decide))
  have hsig : IsId (signalName f) := id_append (name_id hp.1) (id_of_B (by decide))
  have k1 : IsId kwWrite := id_of_B (by decide)
  have k2 : IsId kwNotify := id_of_B (by decide)
  have k3 : IsId kwScriptable := id_of_B (by decide)
  exact ⟨.cons (val_chars _ _) k1 w5 hset (.cons (val_chars _ _) k2 w7 hsig (.cons (val_chars _ _) k3 hw hb .nil)),
    .cons (val_chars _ _) k1 w6 hsp (.cons (val_chars _ _) k2 w7 hsig (.cons (val_chars _ _) k3 hw hb .nil)),
    .cons (val_chars _ _) k1 w6 hsp (.cons (val_chars _ _) k2 w7 hsig .nil),
    .cons (val_chars _ _) k2 w7 hsig .nil⟩

omit ok in
theorem pv_scriptable (f : FieldD) : val (pv o c m f) [.var (text! "scriptable")] =
    if !f.isMap && !f.repeated && (f.type == .int64 || f.type == .sint64 || f.type == .fixed64 || f.type == .sfixed64) then text! "false"
    else text! "true" := by
  have : (pv o c m f).val (text! "scriptable") =
      if !f.isMap && !f.repeated && (f.type == .int64 || f.type == .sint64 || f.type == .fixed64 || f.type == .sfixed64) then text! "false"
      else text! "true" := by
    unfold pv propertyVars
    by_cases h1 : f.isMap = true
    · simp only [h1, if_true]; rfl
    · by_cases h2 : f.repeated = true
      · simp only [h1, h2, if_true, if_false, Bool.false_eq_true]; rfl
      · simp only [h1, h2, if_false, Bool.false_eq_true]; rfl
  simp [val, tokVal, this]

/-- What is said of QML where the template leaves it to the variable. -/
theorem attrs_var {f : FieldD} (hf : f ∈ m.fields) (hp : isPureMessage c.package f = false) (ha : hasQmlAlias o.qml f = false) :
    ∃ b, scriptable o c f = some b ∧ Attrs (pv o c m f) [sWrite, sSetter, sNotify, sSignal, sScriptable, .word [.var (text! "scriptable")]]
      [(kwWrite, f.setter), (kwNotify, signalName f), (kwScriptable, b)] := by
  refine ⟨_, ?_, (attrs_field ok hf (pv_scriptable f) ?_).1⟩
  · unfold scriptable
    simp only [hp, ha, Bool.false_eq_true, if_false]
    cases f.isMap <;> cases f.repeated <;> cases f.type <;> rfl
  · split <;> exact id_of_B (by decide)

/-- The property of the first loop is the one expected. -/
theorem first_property {f : FieldD} (hf : f ∈ m.fields) :
    propertyOf ((argsOf propKeys (propertyTemplate o c f)).flatMap (inst (pv o c m f))) =
      some ⟨propertyType o c m.path f, (fieldProperty o.qml c.package f).name, (fieldProperty o.qml c.package f).read,
        (fieldProperty o.qml c.package f).write, some (signalName f), scriptable o c f⟩ := by
  obtain ⟨w1, w2, w3, w4, w5, w6, w7⟩ := pv_words (o := o) (c := c) (m := m) (f := f)
  have hp := (ok.fields f hf).prop
  have i1 := name_id hp.1
  have hP : ∀ {s : Str}, IsId s → Name (s ++ kP) := fun h => name_suffix h (id_of_B (by decide)) (by decide)
  have hD : ∀ {s : Str}, IsId s → Name (s ++ kData) := fun h => name_suffix h (id_of_B (by decide)) (by decide)
  have hg := pv_good ok hf
  have words : ∀ (x : Str), ∀ w, Lexeme.word w ∈ [SLex.word [.var x]].flatMap (inst (pv o c m f)) → w ≠ kwRead := fun x w hw =>
    value_words (hg.val x) w (by simpa [inst, val, tokVal] using hw)
  have lexs : ∀ (x : Str), [SLex.word [.var x]].flatMap (inst (pv o c m f)) = lexemes ((pv o c m f).val x) := fun x => by
    simp [inst, val, tokVal]
  have af := attrs_field (o := o) (c := c) ok hf (w := (text! "false").map Tok.ch) (val_chars _ _) (id_of_B (by decide))
  unfold propertyTemplate fieldProperty
  split
  · rename_i h
    have hs : (f.repeated && !f.isMap) = false := by
      simp only [isPureMessage, Bool.and_eq_true, Bool.not_eq_true'] at h
      simp [h]
    have ht := single_type ok hf hs
    rw [h] at ht
    have := property_args (vars := pv o c m f) (args := argsOf propKeys tMessagePropertyTemplate)
      (pre := [.word [.var (text! "property_type")], .punct '*'])
      (np := [.var (text! "property_name")]) (rp := .var (text! "property_name") :: (text! "_p").map Tok.ch)
      (rest := [sWrite, sSetterP, sNotify, sSignal]) (by decide +kernel)
      (fun w hw => by
        have : Lexeme.word w ∈ lexemes ((pv o c m f).val (text! "property_type")) := by simpa [inst, val, tokVal] using hw
        exact value_words (hg.val _) w this)
      w1 w2 hp.1 (name_id (hP i1)) af.2.2.1
    rw [this, (look2 _ _).1, (look2 _ _).2.1, (look2 _ _).2.2]
    simp only [if_true] at ht
    have hsc : scriptable o c f = none := by simp [scriptable, h]
    rw [← ht, hsc]
    simp [inst, val, tokVal]
  · rename_i h
    have hpm : isPureMessage c.package f = false := by simpa using h
    split
    · rename_i ha
      have hs : (f.repeated && !f.isMap) = false := by
        simp only [hasQmlAlias, Bool.and_eq_true, Bool.not_eq_true'] at ha
        simp [ha]
      have ht := single_type ok hf hs
      simp only [hpm, Bool.false_eq_true, if_false, List.append_nil] at ht
      have := property_args (vars := pv o c m f) (args := argsOf propKeys tNonScriptablePropertyTemplate)
        (pre := [.word [.var (text! "property_type")]])
        (np := .var (text! "property_name") :: (text! "_p").map Tok.ch) (rp := [.var (text! "property_name")])
        (rest := [sWrite, sSetter, sNotify, sSignal, sScriptable, .word ((text! "false").map Tok.ch)]) (by decide +kernel)
        (words _) w2 w1 (hP i1) i1 af.1
      have hsc : scriptable o c f = some (text! "false") := by simp [scriptable, hpm, ha]
      rw [this, (look3 _ _ _).1, (look3 _ _ _).2.1, (look3 _ _ _).2.2, lexs, ht, hsc]
    · rename_i ha
      obtain ⟨b, hsc, av⟩ := attrs_var (o := o) (c := c) ok hf hpm (by simpa using ha)
      rw [hsc]
      split
      · rename_i hl
        have ht := list_type ok hf hl
        split
        · have := property_args (vars := pv o c m f) (args := argsOf propKeys tRepeatedMessagePropertyTemplate)
            (pre := [.word [.var (text! "property_list_type")]])
            (np := .var (text! "property_name") :: (text! "Data").map Tok.ch) (rp := [.var (text! "property_name")])
            (rest := [sWrite, sSetter, sNotify, sSignal, sScriptable, .word [.var (text! "scriptable")]]) (by decide +kernel)
            (words _) w4 w1 (hD i1) i1 av
          rw [this, (look3 _ _ _).1, (look3 _ _ _).2.1, (look3 _ _ _).2.2, lexs, ht]
        · have := property_args (vars := pv o c m f) (args := argsOf propKeys tRepeatedPropertyTemplate)
            (pre := [.word [.var (text! "property_list_type")]])
            (np := [.var (text! "property_name")]) (rp := [.var (text! "property_name")])
            (rest := [sWrite, sSetter, sNotify, sSignal, sScriptable, .word [.var (text! "scriptable")]]) (by decide +kernel)
            (words _) w1 w1 hp.1 i1 av
          rw [this, (look3 _ _ _).1, (look3 _ _ _).2.1, (look3 _ _ _).2.2, lexs, ht]
      · rename_i hl
        have ht := single_type ok hf (by simpa using hl)
        simp only [hpm, Bool.false_eq_true, if_false, List.append_nil] at ht
        have := property_args (vars := pv o c m f) (args := argsOf propKeys tPropertyTemplate)
          (pre := [.word [.var (text! "property_type")]])
          (np := [.var (text! "property_name")]) (rp := [.var (text! "property_name")])
          (rest := [sWrite, sSetter, sNotify, sSignal, sScriptable, .word [.var (text! "scriptable")]]) (by decide +kernel)
          (words _) w1 w1 hp.1 i1 av
        rw [this, (look3 _ _ _).1, (look3 _ _ _).2.1, (look3 _ _ _).2.2, lexs, ht]

/-- The properties of the second loop are those expected. -/
theorem second_property {f : FieldD} (hf : f ∈ m.fields) (sc : List Text) :
    propertiesIn (extraEvents (o := o) (c := c) (m := m) f sc) =
      (extraProperty o.qml f).map fun p =>
        (sc, some ⟨extraType o c f, p.name, p.read, p.write, some (signalName f), extraScriptable f⟩) := by
  obtain ⟨w1, w2, w3, w4, w5, w6, w7⟩ := pv_words (o := o) (c := c) (m := m) (f := f)
  have hp := (ok.fields f hf).prop
  have i1 := name_id hp.1
  have hP : ∀ {s : Str}, IsId s → Name (s ++ kP) := fun h => name_suffix h (id_of_B (by decide)) (by decide)
  have hL : ∀ {s : Str}, IsId s → Name (s ++ kL) := fun h => name_suffix h (id_of_B (by decide)) (by decide)
  have hg := pv_good ok hf
  have af := attrs_field (o := o) (c := c) ok hf (w := (text! "true").map Tok.ch) (val_chars _ _) (id_of_B (by decide))
  unfold extraEvents extraProperty
  split
  · rename_i h
    have hm : f.type = .message := by
      simp only [Bool.and_eq_true, beq_iff_eq] at h
      exact h.1.1.1
    have ht := message_type ok hf hm
    have hq : ∀ vars : Vars, inst vars (.word ((text! "QQmlListProperty").map Tok.ch)) = [.word (text! "QQmlListProperty")] := fun vars => by
      have : val vars ((text! "QQmlListProperty").map Tok.ch) = text! "QQmlListProperty" := rfl
      simp only [inst]
      rw [this]; decide +kernel
    have hpre : [SLex.word ((text! "QQmlListProperty").map Tok.ch), .punct '<', .word [.var (text! "property_type")], .punct '>'].flatMap
        (inst (pv o c m f)) = [.word (text! "QQmlListProperty"), .punct '<'] ++ messageType o c f ++ [.punct '>'] := by
      simp only [List.flatMap_cons, hq, List.flatMap_nil]
      rw [← ht]
      simp [inst, val, tokVal]
    have := property_args (vars := pv o c m f) (args := argsOf propKeys tQmlListPropertyTemplate)
      (pre := [.word ((text! "QQmlListProperty").map Tok.ch), .punct '<', .word [.var (text! "property_type")], .punct '>'])
      (np := [.var (text! "property_name")]) (rp := .var (text! "property_name") :: (text! "_l").map Tok.ch)
      (rest := [sNotify, sSignal]) (by decide +kernel)
      (fun w hw => by
        rw [hpre, ← ht] at hw
        simp only [List.mem_append, List.mem_cons, List.not_mem_nil, or_false, Lexeme.word.injEq, reduceCtorEq] at hw
        rcases hw with rfl | hw
        · decide
        · exact value_words (hg.val _) w hw)
      w1 w3 hp.1 (name_id (hL i1)) af.2.2.2
    rw [(look1 _).1, (look1 _).2.1, (look1 _).2.2, hpre] at this
    simp [propertiesIn, callsIn, this, extraType, extraScriptable, hm]
  · split
    · rename_i ha
      have hk : f.type = .int32 ∨ f.type = .sfixed32 ∨ f.type = .fixed32 := by
        simp only [hasQmlAlias, Bool.and_eq_true, Bool.not_eq_true', Bool.or_eq_true, beq_iff_eq] at ha
        rcases ha.1.2 with (h3 | h3) | h3 <;> simp [h3]
      have hv : lexemes ((pv o c m f).val (text! "qml_alias_type")) = extraType o c f := by
        rw [pv_val f _ (by simp)]
        unfold extraType
        rcases hk with h | h | h <;> simp only [typeVars, h] <;> decide +kernel
      have := property_args (vars := pv o c m f) (args := argsOf aliasKeys tNonScriptableAliasPropertyTemplate)
        (pre := [.word [.var (text! "qml_alias_type")]])
        (np := [.var (text! "property_name")]) (rp := .var (text! "property_name") :: (text! "_p").map Tok.ch)
        (rest := [sWrite, sSetterP, sNotify, sSignal, sScriptable, .word ((text! "true").map Tok.ch)]) (by decide +kernel)
        (fun w hw => value_words (hg.val (text! "qml_alias_type")) w (by simpa [inst, val, tokVal] using hw))
        w1 w2 hp.1 (name_id (hP i1)) af.2.1
      have e : [SLex.word [.var (text! "qml_alias_type")]].flatMap (inst (pv o c m f)) = extraType o c f := by
        rw [← hv]; simp [inst, val, tokVal]
      rw [(look3 _ _ _).1, (look3 _ _ _).2.1, (look3 _ _ _).2.2, e] at this
      have hx : extraScriptable f = some (text! "true") := by rcases hk with h | h | h <;> simp [extraScriptable, h]
      simp [propertiesIn, callsIn, this, hx]
    · rfl

/-! ### Meta types -/

omit ok in
theorem call_type {keys : List Str} {vars : Vars} {t x : Str} (h : argsOf keys t = [.word [.var x]]) :
    metaCall keys vars t = lexemes (vars.val x) := by
  unfold metaCall
  rw [h]
  simp [inst, val, tokVal]

omit ok in
theorem message_full {p : Path} (hx : ExtraOk o) (hp : Good' p) (scope : Option Path) :
    lexemes ((messageVars o c p scope).val (text! "full_type")) = qualified (typeName o p []) ∧
    lexemes ((messageVars o c p scope).val (text! "full_list_type")) = qualified (typeName o p kRepeated) := by
  have e1 : (messageVars o c p scope).val (text! "full_type") =
      qualify (getNamespacesString kScope ((if o.extra = [] then [] else [o.extra]) ++ getNamespaces (some (typeD c p))))
        (upperCaseName (p.getLastD [])) := rfl
  have e2 : (messageVars o c p scope).val (text! "full_list_type") =
      qualify (getNamespacesString kScope ((if o.extra = [] then [] else [o.extra]) ++ getNamespaces (some (typeD c p))))
        (upperCaseName (p.getLastD []) ++ kRepeated) := rfl
  rw [e1, e2, good_namespaces c hp.2]
  have i1 := name_id (good_last hp).2
  have h1 := lexemes_qualify (outer_name hx hp) i1
  have h2 := lexemes_qualify (outer_name hx hp) (name_id (name_repeated i1))
  exact ⟨by simpa [typeName, extraNs] using h1, by simpa [typeName, extraNs] using h2⟩

omit ok in
theorem pv_full (f : FieldD) (x : Str) (h : x ∈ [text! "full_type", text! "full_list_type"]) :
    (pv o c m f).val x = (typeVars o c m.path f).val x := by
  simp only [List.mem_cons, List.not_mem_nil, or_false] at h
  unfold pv propertyVars
  rcases h with rfl | rfl <;> (repeat' split) <;> rfl

theorem local_full {f : FieldD} (hf : f ∈ m.fields) (ht : f.type = .enum) (hv : c.visibility m.path (f.enumType.getD []) = .local) :
    lexemes ((pv o c m f).val (text! "full_type")) = qualified (typeName o (f.enumType.getD []) []) ∧
    lexemes ((pv o c m f).val (text! "full_list_type")) = qualified (typeName o (f.enumType.getD []) kRepeated) := by
  have hq : Good' (f.enumType.getD []) := (ok.fields f hf).enum ht
  rw [pv_full f _ (by simp), pv_full f _ (by simp)]
  unfold typeVars
  simp only [ht, hv]
  have e1 : (enumVars o c (f.enumType.getD []) (some m.path) .local).val (text! "full_type") =
      qualify (getNamespacesString kScope ((if o.extra = [] then [] else [o.extra]) ++ getNamespaces (some (typeD c (f.enumType.getD []))) ++ []))
        (upperCaseName ((f.enumType.getD []).getLastD [])) := rfl
  have e2 : (enumVars o c (f.enumType.getD []) (some m.path) .local).val (text! "full_list_type") =
      qualify (getNamespacesString kScope ((if o.extra = [] then [] else [o.extra]) ++ getNamespaces (some (typeD c (f.enumType.getD []))) ++ []))
        (upperCaseName ((f.enumType.getD []).getLastD []) ++ kRepeated) := rfl
  rw [e1, e2, good_namespaces c hq.2]
  have hn := outer_name (extraOk ok.file) hq
  have i1 := name_id (good_last hq).2
  have h1 := lexemes_qualify hn i1
  have h2 := lexemes_qualify hn (name_id (name_repeated i1))
  exact ⟨by simpa [typeName, extraNs] using h1, by simpa [typeName, extraNs] using h2⟩

theorem map_full {f : FieldD} (hf : f ∈ m.fields) (hmap : f.isMap = true) :
    lexemes ((mapVars o c m f).val (text! "full_type")) = messageType o c f := by
  have ht := (ok.fields f hf).map hmap
  have e0 : (mapVars o c m f).val (text! "full_type") = (pv o c m f).val (text! "full_type") := rfl
  rw [e0, ← message_type ok hf ht, pv_full f _ (by simp), pv_val f _ (by simp)]
  unfold typeVars
  simp only [ht]
  split <;> rfl

theorem ownMetas_eq : ownMetas o c m = declared o c (m.path, m.fields) := by
  have hx := extraOk ok.file
  obtain ⟨h1, h2⟩ := message_full (c := c) hx ok.path none
  unfold ownMetas declared
  refine congrArg₂' (· ++ ·) (congrArg₂' (· ++ ·) ?_ ?_) ?_
  · · have e1 := call_type (keys := ownKeys) (vars := own o c m) (t := tDeclareMetaTypeTemplate) (x := text! "full_type") (by decide +kernel)
      have e2 := call_type (keys := ownKeys) (vars := own o c m) (t := tDeclareComplexListTypeTemplate) (x := text! "full_list_type")
        (by decide +kernel)
      rw [e1, e2]
      exact congrArg₂' (fun a b => [a, b]) h1 h2
  · · split
      · have ha : argsOf ownKeys tDeclareComplexQmlListTypeTemplate =
            [SLex.word ((text! "QQmlListProperty").map Tok.ch), .punct '<', .word [.var (text! "full_type")], .punct '>'] := by decide +kernel
        have hq : inst (own o c m) (.word ((text! "QQmlListProperty").map Tok.ch)) = [.word (text! "QQmlListProperty")] := by
          have : val (own o c m) ((text! "QQmlListProperty").map Tok.ch) = text! "QQmlListProperty" := rfl
          simp only [inst]
          rw [this]; decide +kernel
        unfold metaCall
        rw [ha]
        simp only [List.flatMap_cons, hq, List.flatMap_nil]
        rw [← h1]
        simp [inst, val, tokVal, own]
      · rfl
  · apply flatMap_congr'
    intro f hf
    unfold fieldMetas
    split
    · rename_i h
      simp only [Bool.and_eq_true, beq_iff_eq] at h
      obtain ⟨l1, l2⟩ := local_full ok hf h.1 h.2
      have e1 := call_type (keys := propKeys) (vars := pv o c m f) (t := tDeclareMetaTypeTemplate) (x := text! "full_type") (by decide +kernel)
      have e2 := call_type (keys := propKeys) (vars := pv o c m f) (t := tDeclareMetaTypeListTemplate) (x := text! "full_list_type")
        (by decide +kernel)
      rw [e1, e2, l1, l2]
      simp [h.1, h.2]
    · rename_i hne
      split
      · rename_i hmap
        have e1 := call_type (keys := mapKeys) (vars := mapVars o c m f) (t := tDeclareMetaTypeMapTemplate) (x := text! "full_type")
          (by decide +kernel)
        rw [e1, map_full ok hf hmap]
        simp only [hne, Bool.false_eq_true, if_false]
      · simp only [hne, Bool.false_eq_true, if_false]

end

theorem enumMeta_eq {o : Options} {c : Ctx} (hf : PlainFile o c) {e : EnumD} (he : PlainEnum e) :
    enumMeta o c e = qualified (enumListName o (c.package ++ [e.name]) .global) := by
  have hp : Good' (c.package ++ [e.name]) := good_snoc hf.package he.1
  have e1 := call_type (keys := enumKeys) (vars := globalEnumVars o c e) (t := tDeclareMetaTypeListTemplate) (x := text! "full_list_type")
    (by decide +kernel)
  unfold enumMeta
  rw [e1]
  have e2 : (globalEnumVars o c e).val (text! "full_list_type") =
      qualify (getNamespacesString kScope ((if o.extra = [] then [] else [o.extra]) ++ getNamespaces (some (typeD c (c.package ++ [e.name]))) ++
        [upperCaseName ((c.package ++ [e.name]).getLastD []) ++ kGadget])) (upperCaseName ((c.package ++ [e.name]).getLastD []) ++ kRepeated) := rfl
  rw [e2, good_namespaces c hp.2]
  have hn := outer_name (o := o) hf.extra hp
  have i1 := name_id (good_last hp).2
  have hng : ∀ s ∈ extraNs o ++ (c.package ++ [e.name]).dropLast ++ [upperCaseName ((c.package ++ [e.name]).getLastD []) ++ kGadget], Name s := by
    intro s hs
    rcases List.mem_append.1 hs with hs | hs
    · exact hn s hs
    · rw [List.mem_singleton.1 hs]; exact name_gadget i1
  have := lexemes_qualify hng (name_id (name_repeated i1))
  simpa [enumListName, extraNs] using this

/-! ### What is found in a class -/

theorem propertiesIn_append (a b : List Event) : propertiesIn (a ++ b) = propertiesIn a ++ propertiesIn b := by
  simp [propertiesIn, callsIn]

theorem propertiesIn_flatMap {α : Type} (l : List α) (f : α → List Event) :
    propertiesIn (l.flatMap f) = l.flatMap fun a => propertiesIn (f a) := by
  induction l with
  | nil => rfl
  | cons a l ih => rw [List.flatMap_cons, propertiesIn_append, ih, List.flatMap_cons]

theorem body_properties {o : Options} {c : Ctx} {m : Cur} (ok : MsgOk o c m) (sc : List Text) :
    propertiesIn (bodyEvents (o := o) (c := c) (m := m) sc) = (expected o c m.path m.fields).map fun p => (sc, some p) := by
  have h1 : propertiesIn (m.fields.map fun f => propEvent (o := o) (c := c) (m := m) f sc) =
      (m.fields.map fun f =>
        (⟨propertyType o c m.path f, (fieldProperty o.qml c.package f).name, (fieldProperty o.qml c.package f).read,
          (fieldProperty o.qml c.package f).write, some (signalName f), scriptable o c f⟩ : Prop')).map fun p => (sc, some p) := by
    rw [List.map_eq_flatMap, propertiesIn_flatMap, List.map_map, List.map_eq_flatMap]
    apply flatMap_congr'
    intro f hf
    simp [propertiesIn, callsIn, propEvent, first_property ok hf]
  have h2 : propertiesIn (m.fields.flatMap fun f => extraEvents (o := o) (c := c) (m := m) f sc) =
      (m.fields.flatMap fun f => (extraProperty o.qml f).map fun p =>
        (⟨extraType o c f, p.name, p.read, p.write, some (signalName f), extraScriptable f⟩ : Prop')).map
        fun p => (sc, some p) := by
    rw [propertiesIn_flatMap, List.map_flatMap]
    apply flatMap_congr'
    intro f hf
    rw [second_property ok hf sc]
    simp
  have h3 : propertiesIn ((qenums (o := o) (c := c) (m := m)).map fun n => Event.call sc kwEnum [.word n]) = [] := by
    rw [List.map_eq_flatMap, propertiesIn_flatMap]
    apply flatMap_nil'
    intro n _
    simp [propertiesIn, callsIn, show kwEnum ≠ kwProperty by decide]
  have h4 : propertiesIn ((bodyMems o c m).map (Mem.event sc)) = [] := by
    rw [List.map_eq_flatMap, propertiesIn_flatMap]
    exact flatMap_nil' fun x _ => by cases x <;> rfl
  have h5 : propertiesIn [.label sc kwPublic] = [] := rfl
  unfold bodyEvents
  rw [propertiesIn_append, propertiesIn_append, propertiesIn_append, propertiesIn_append, h1, h2, h3, h4, h5]
  simp [expected]

end QtPb.TextProof
