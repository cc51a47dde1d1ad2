import Verif.TextDefs2
import Verif.PropsGenPrint
/-
C95: what generated sources define, read from their text.

`SpecCpp.items` cuts a text into lexemes and groups them by brackets and namespaces: blocks `head { body }` and statements, each with the
namespaces around it. `SpecCpp.fnsIn` reads the heads of functions of classes (result, class, name, parameters, what stands behind, body),
`tablesIn` reads tables, `statementsIn` statements, `typedCall` calls of templates, `namedCalls` calls with a string. Nothing in these readers
knows the generator. What is expected is in SpecDefs.lean.
-/
set_option maxRecDepth 100000

namespace QtPb.Gen.Text
open QtPb.SpecCpp QtPb.Gen.Text.Spec QtPb.TextProof

/-- The classes of the messages of a file, with their fields, in the order in which they are defined. -/
def Spec.allBodies (o : Options) (c : Ctx) (msgs : List Msg) : List (Printed × List FieldD) := msgs.flatMap (bodies (around o c) c.package)

mutual
theorem bodies_class : ∀ (msg : Msg) (ns : List Str) (path : Path), ∀ b ∈ bodies ns path msg, b.1.cpp.getLastD [] = className ⟨b.1.msg, b.2⟩
  | .mk name fields nested e, ns, path, b, hb => by
    rw [bodies, List.mem_append] at hb
    rcases hb with hb | hb
    · exact bodiesList_class nested _ _ fields b hb
    · rw [List.mem_singleton] at hb
      rw [hb]
      simp [className]
theorem bodiesList_class : ∀ (l : List Msg) (ns : List Str) (path : Path) (fields : List FieldD),
    ∀ b ∈ bodiesList ns path fields l, b.1.cpp.getLastD [] = className ⟨b.1.msg, b.2⟩
  | [], ns, path, fields, b, hb => by rw [bodiesList] at hb; simp at hb
  | n :: l, ns, path, fields, b, hb => by
    rw [bodiesList, List.mem_append] at hb
    rcases hb with hb | hb
    · split at hb
      · exact bodies_class n ns path b hb
      · simp at hb
    · exact bodiesList_class l ns path fields b hb
end

section
variable {o : Options} {c : Ctx} {enums : List EnumD} {msgs : List Msg} {header : Str}

theorem allBodies_ok (hf : PlainFile o c) (hm : PlainMsgs msgs) {b : Printed × List FieldD} (hb : b ∈ allBodies o c msgs) :
    MsgOk o c ⟨b.1.msg, b.2⟩ ∧ b.1.cpp.getLastD [] = className ⟨b.1.msg, b.2⟩ ∧ b.1.cpp.dropLast ++ [className ⟨b.1.msg, b.2⟩] = b.1.cpp := by
  obtain ⟨msg, hmsg, hb⟩ := List.mem_flatMap.1 hb
  have h1 := bodies_ok hf msg _ _ (plainMsgs_mem hm msg hmsg) hf.package b hb
  have h2 := bodies_class msg _ _ b hb
  exact ⟨h1.1, h2, by rw [← h2]; exact dropLast_getLastD h1.2⟩

/-- The blocks and statements of a source. -/
def sourceItems (o : Options) (c : Ctx) (header : Str) (enums : List EnumD) (msgs : List Msg) : List Item :=
  .statement [] (topLexemes header (if o.qml then [text! "QQmlEngine"] else [])) ::
    (enums.flatMap (enumItems o c (around o c)) ++ (allBodies o c msgs).flatMap (bodyItems o c))

theorem source_items (hf : PlainFile o c) (hh : Includable header) (he : ∀ e ∈ enums, PlainEnum e) (hm : PlainMsgs msgs) :
    ∃ text, printed (messageSource o c header enums msgs) = some text ∧ items text = some (sourceItems o c header enums msgs) := by
  obtain ⟨text, h1, h2⟩ := items_printed (gives_source hf hh he hm)
  exact ⟨text, h1, h2⟩

theorem source_fns (hf : PlainFile o c) (hm : PlainMsgs msgs) : fnsIn (sourceItems o c header enums msgs) =
    enums.map (fun e => ⟨cpp! "void", around o c ++ [gadget e], cpp! "registerTypes", [], [], enumFnBody o c e⟩) ++
    (allBodies o c msgs).flatMap fun b => classFns o c ⟨b.1.msg, b.2⟩ b.1.cpp := by
  unfold sourceItems
  rw [fnsIn_statement, fnsIn_append, fnsIn_flatMap, fnsIn_flatMap]
  refine congrArg₂' (· ++ ·) ?_ (flatMap_congr' fun b hb => ?_)
  · rw [← List.flatMap_singleton' (enums.map _), List.flatMap_map]
    exact flatMap_congr' fun e _ => fns_enum _
  · obtain ⟨ok, h1, h2⟩ := allBodies_ok hf hm hb
    unfold bodyItems
    rw [fns_class ok, h2]

/-- The functions that the source of a file of messages defines: for every enumeration of the file the one that registers it; for every
message the constructors, the copies, the comparisons, the getters and setters of its fields, the destructor and the one that registers it,
with the results, classes, names and parameters of `sigsOf`. -/
theorem C95_functions_partial (hf : PlainFile o c) (hh : Includable header) (he : ∀ e ∈ enums, PlainEnum e) (hm : PlainMsgs msgs) :
    ∃ text is, printed (messageSource o c header enums msgs) = some text ∧ items text = some is ∧
      (fnsIn is).map Fn.sig = enums.map (enumSig o c) ++ (allBodies o c msgs).flatMap (sigsOf o c) := by
  obtain ⟨text, h1, h2⟩ := source_items hf hh he hm
  refine ⟨text, _, h1, h2, ?_⟩
  rw [source_fns hf hm, List.map_append, List.map_map, List.map_flatMap]
  refine congrArg₂' (· ++ ·) rfl (flatMap_congr' fun b hb => ?_)
  obtain ⟨ok, h1, h2⟩ := allBodies_ok hf hm hb
  exact sigs_class ok rfl h1

/-- Every constructor in the source of a file of messages gives every member its value: the parameter, a new object or null for members that
are messages, the value of the type or of the enumeration otherwise. -/
theorem C95_constructors_partial (hf : PlainFile o c) (hh : Includable header) (he : ∀ e ∈ enums, PlainEnum e) (hm : PlainMsgs msgs) :
    ∃ text is, printed (messageSource o c header enums msgs) = some text ∧ items text = some is ∧
      ((fnsIn is).filter Fn.isCtor).map (fun f => (f.cls, f.inits)) = (allBodies o c msgs).flatMap (ctorsOf o c) := by
  obtain ⟨text, h1, h2⟩ := source_items hf hh he hm
  refine ⟨text, _, h1, h2, ?_⟩
  rw [source_fns hf hm, List.filter_append, List.map_append, List.filter_flatMap, List.map_flatMap]
  have e : (enums.map fun e => (⟨cpp! "void", around o c ++ [gadget e], cpp! "registerTypes", [], [], enumFnBody o c e⟩ : Fn)).filter Fn.isCtor = [] := by
    apply List.filter_eq_nil_iff.2
    intro f hf
    obtain ⟨e, _, rfl⟩ := List.mem_map.1 hf
    simp [Fn.isCtor]
  rw [e]
  refine flatMap_congr' fun b hb => ?_
  obtain ⟨ok, h1, h2⟩ := allBodies_ok hf hm hb
  exact ctors_class ok rfl h1

/-- The table in which the library looks for fields: one for every class; number of the field, index of its property, name in JSON. -/
theorem C95_ordering_partial (hf : PlainFile o c) (hh : Includable header) (he : ∀ e ∈ enums, PlainEnum e) (hm : PlainMsgs msgs) :
    ∃ text is, printed (messageSource o c header enums msgs) = some text ∧ items text = some is ∧
      tablesIn (text! "propertyOrdering") is = (allBodies o c msgs).map fun b => (b.1.cpp, some (orderingOf b.2)) := by
  obtain ⟨text, h1, h2⟩ := source_items hf hh he hm
  refine ⟨text, _, h1, h2, ?_⟩
  unfold sourceItems
  rw [tables_statement, tables_append, tables_flatMap _ _ _ (fun e _ => tables_enum _ _), List.nil_append]
  have := fun b (hb : b ∈ allBodies o c msgs) => allBodies_ok hf hm hb
  revert this
  generalize allBodies o c msgs = l
  intro h
  induction l with
  | nil => rfl
  | cons b l ih =>
    obtain ⟨ok, h1, h2⟩ := h b (by simp)
    rw [List.flatMap_cons, tables_append, ih (fun x hx => h x (by simp [hx])), List.map_cons]
    have := tables_class ok b.1.cpp.dropLast
    rw [h2] at this
    exact congrArg₂' (· ++ ·) this rfl

/-- The other statements of the source: the header and the namespace of the library; for every enumeration the object that registers it; for
every class the object that registers it and its meta object. -/
theorem C95_statements_partial (hf : PlainFile o c) (hh : Includable header) (he : ∀ e ∈ enums, PlainEnum e) (hm : PlainMsgs msgs) :
    ∃ text is, printed (messageSource o c header enums msgs) = some text ∧ items text = some is ∧
      statementsIn is = ([], topStatement header (if o.qml then [text! "QQmlEngine"] else [])) ::
        (enums.map (enumStatement o c) ++ (allBodies o c msgs).flatMap statementsOf) := by
  obtain ⟨text, h1, h2⟩ := source_items hf hh he hm
  refine ⟨text, _, h1, h2, ?_⟩
  have e : ∀ l, statementsIn (.statement [] (topLexemes header (if o.qml then [text! "QQmlEngine"] else [])) :: l) =
    ([], topLexemes header (if o.qml then [text! "QQmlEngine"] else [])) :: statementsIn l := fun l => rfl
  unfold sourceItems
  rw [e, statements_append, statements_flatMap, statements_flatMap]
  refine congrArg₂' List.cons ?_ (congrArg₂' (· ++ ·) ?_ (flatMap_congr' fun b hb => ?_))
  · cases o.qml <;> rfl
  · rw [← List.flatMap_singleton' (enums.map _), List.flatMap_map]
    exact flatMap_congr' fun e _ => rfl
  · obtain ⟨ok, h1, h2⟩ := allBodies_ok hf hm hb
    unfold bodyItems statementsOf
    rw [statements_class, h1]
    rfl

theorem registers_class (m : Cur) (cls : List Text) :
    (classFns o c m cls).filter (fun f => f.result == (cpp! "void") && f.name == cpp! "registerTypes") =
      [⟨cpp! "void", cls, cpp! "registerTypes", [], [], registerBody o c m⟩] := by
  have h1 : ((List.range (m.fields.length + 1)).map (ctorFn o c m cls)).filter
      (fun f => f.result == (cpp! "void") && f.name == cpp! "registerTypes") = [] := by
    apply List.filter_eq_nil_iff.2
    intro f hf
    obtain ⟨n, _, rfl⟩ := List.mem_map.1 hf
    simp [ctorFn]
  have h2 : (dateFns m cls).filter (fun f => f.result == (cpp! "void") && f.name == cpp! "registerTypes") = [] := by
    unfold dateFns; split <;> rfl
  have h3 : (commonFns c m cls).filter (fun f => f.result == (cpp! "void") && f.name == cpp! "registerTypes") = [] := by
    simp [commonFns]
  have h4 : (m.fields.flatMap (getterFns o c m cls)).filter (fun f => f.result == (cpp! "void") && f.name == cpp! "registerTypes") = [] := by
    apply List.filter_eq_nil_iff.2
    intro f hf
    obtain ⟨g, _, hg⟩ := List.mem_flatMap.1 hf
    have : f.result.getLast? ≠ some (.word (text! "void")) := by
      unfold getterFns at hg
      simp only [List.mem_append] at hg
      rcases hg with hg | hg
      · split at hg <;> simp at hg
        rcases hg with rfl | rfl <;> simp
      · split at hg <;> simp at hg
        subst hg
        simp [List.getLast?_cons]
    intro h
    simp only [Bool.and_eq_true, beq_iff_eq] at h
    rw [h.1] at this
    exact this rfl
  have h5 : (m.fields.flatMap (setterFns o c m cls)).filter (fun f => f.result == (cpp! "void") && f.name == cpp! "registerTypes") = [] := by
    apply List.filter_eq_nil_iff.2
    intro f hf
    obtain ⟨g, _, hg⟩ := List.mem_flatMap.1 hf
    have hne : ∀ w : Text, g.setter ++ w ≠ text! "registerTypes" := by
      intro w h
      have : g.setter = text! "set" ++ cap g := rfl
      rw [this] at h
      exact absurd (congrArg List.head? h) (by simp)
    unfold setterFns at hg
    split at hg
    · split at hg
      · simp only [List.mem_cons, List.not_mem_nil, or_false] at hg
        rcases hg with rfl | rfl
        · simpa using hne _
        · simpa using hne []
      · simp only [List.mem_cons, List.not_mem_nil, or_false] at hg
        subst hg
        simpa using hne []
    · simp at hg
  unfold classFns
  simp only [List.filter_append, h1, h2, h3, h4, h5, List.append_nil]
  rfl

/-- What the functions that register classes do: every statement in them is a call of a template, and the calls are those of `registrations`:
the names under which types can be found at run time are the full names of the types. -/
theorem C95_registration_partial (hf : PlainFile o c) (hh : Includable header) (he : ∀ e ∈ enums, PlainEnum e) (hm : PlainMsgs msgs) :
    ∃ text is, printed (messageSource o c header enums msgs) = some text ∧ items text = some is ∧
      ((fnsIn is).filter fun f => f.result == (cpp! "void") && f.name == cpp! "registerTypes").map (fun f => (f.cls, (SpecCpp.cut f.body).map typedCall)) =
        enums.map (fun e => (gadgetClass o c e, (enumRegistrations o c e).map some)) ++
        (allBodies o c msgs).map fun b => (b.1.cpp, (registrations o c b).map some) := by
  obtain ⟨text, h1, h2⟩ := source_items hf hh he hm
  refine ⟨text, _, h1, h2, ?_⟩
  rw [source_fns hf hm, List.filter_append, List.map_append, List.filter_flatMap, List.map_flatMap]
  refine congrArg₂' (· ++ ·) ?_ ?_
  · rw [List.filter_eq_self.2 (by
      intro f hf
      obtain ⟨e, _, rfl⟩ := List.mem_map.1 hf
      rfl), List.map_map]
    exact List.map_congr_left fun e h => by
      simp only [Function.comp_apply, calls_enum hf (he e h)]
      rfl
  · rw [← List.flatMap_singleton' (List.map _ (allBodies o c msgs)), List.flatMap_map]
    refine flatMap_congr' fun b hb => ?_
    obtain ⟨ok, h1, h2⟩ := allBodies_ok hf hm hb
    rw [registers_class, List.map_singleton, calls_class ok rfl h1]

/-! ### Header and source together -/

/-- The name of a function without its tilde or the word operator, if it has one. -/
def Spec.plainName (f : Fn) : Option Text :=
  match f.name.getLast? with
  | some (.word w) => some w
  | _ => none

theorem sig_member (b : Printed × List FieldD) (g : Sig) (hg : g ∈ sigsOf o c b) (w : Text) (hw : g.name.getLast? = some (.word w)) :
    g.cls = b.1.cpp ∧ ∃ sec, (sec, w) ∈ membersOf o c b := by
  have hpub : ∀ w, w ∈ publicOf o b → ∃ sec, (sec, w) ∈ membersOf o c b := fun w h =>
    ⟨kwPublic, by unfold membersOf; simp only [List.mem_append, List.mem_map]; exact Or.inl (Or.inl (Or.inr ⟨w, h, rfl⟩))⟩
  have hpri : ∀ w, w ∈ privateOf o c b.2 → ∃ sec, (sec, w) ∈ membersOf o c b := fun w h =>
    ⟨kwPrivate, by unfold membersOf; simp only [List.mem_append, List.mem_map]; exact Or.inr ⟨w, h, rfl⟩⟩
  have hname : b.1.cpp.getLastD [] ∈ publicOf o b := by simp [publicOf]
  unfold sigsOf at hg
  simp only [List.mem_append, List.mem_cons, List.not_mem_nil, or_false] at hg
  rcases hg with ((((( rfl | rfl) | hg) | hg) | hg) | hg) | hg
  · simp at hw; subst hw; exact ⟨rfl, hpub _ (by simpa using hname)⟩
  · simp at hw; subst hw; exact ⟨rfl, hpub _ (by simp [publicOf])⟩
  · obtain ⟨n, _, rfl⟩ := List.mem_map.1 hg
    simp [ctorSig] at hw; subst hw; exact ⟨rfl, hpub _ (by simpa using hname)⟩
  · unfold dateSigs at hg
    split at hg
    · rename_i ht
      simp only [List.mem_cons, List.not_mem_nil, or_false] at hg
      rcases hg with rfl | rfl
      · simp at hw; subst hw; exact ⟨rfl, hpub _ (by simp [publicOf, ht])⟩
      · simp at hw; subst hw; exact ⟨rfl, hpub _ (by simp [publicOf, ht])⟩
    · simp at hg
  · unfold commonSigs at hg
    simp only [List.mem_cons, List.not_mem_nil, or_false] at hg
    rcases hg with rfl | rfl | rfl | rfl | rfl | rfl
    · simp at hw; subst hw; exact ⟨rfl, hpub _ (by simpa using hname)⟩
    · simp at hw
    · simp at hw; subst hw; exact ⟨rfl, hpub _ (by simpa using hname)⟩
    · simp at hw
    · simp at hw
    · simp at hw
  · obtain ⟨f, hf, hg⟩ := List.mem_flatMap.1 hg
    unfold getterSigs at hg
    simp only [List.mem_append] at hg
    rcases hg with hg | hg
    · split at hg
      · rename_i hp
        simp only [List.mem_cons, List.not_mem_nil, or_false] at hg
        rcases hg with rfl | rfl
        · simp at hw; subst hw
          exact ⟨rfl, hpri _ (by simp only [privateOf, List.mem_append, List.mem_map, List.mem_filter]; exact Or.inl (Or.inl ⟨f, ⟨hf, hp⟩, rfl⟩))⟩
        · simp at hw; subst hw
          refine ⟨rfl, hpub _ ?_⟩
          simp only [publicOf, List.mem_append, List.mem_flatMap]
          refine Or.inl (Or.inl (Or.inr ⟨f, hf, ?_⟩))
          unfold gettersOf; (repeat' split) <;> simp
      · simp at hg
    · split at hg
      · rename_i hp
        simp only [Bool.and_eq_true, isList, Bool.not_eq_true', beq_iff_eq] at hp
        simp only [List.mem_cons, List.not_mem_nil, or_false] at hg
        subst hg
        simp [List.getLast?_cons] at hw; subst hw
        refine ⟨rfl, hpub _ ?_⟩
        simp only [publicOf, List.mem_append, List.mem_flatMap]
        refine Or.inl (Or.inl (Or.inr ⟨f, hf, ?_⟩))
        simp [gettersOf, hp]
      · simp at hg
  · obtain ⟨f, hf, hg⟩ := List.mem_flatMap.1 hg
    unfold setterSigs at hg
    split at hg
    · simp only [List.mem_append, List.mem_cons, List.not_mem_nil, or_false] at hg
      rcases hg with hg | rfl
      · split at hg
        · rename_i hp
          simp only [List.mem_cons, List.not_mem_nil, or_false] at hg
          subst hg
          simp at hw; subst hw
          exact ⟨rfl, hpri _ (by simp only [privateOf, List.mem_append, List.mem_map, List.mem_filter]; exact Or.inl (Or.inr ⟨f, ⟨hf, hp⟩, rfl⟩))⟩
        · simp at hg
      · simp at hw; subst hw
        exact ⟨rfl, hpub _ (by simp only [publicOf, List.mem_append, List.mem_map]; exact Or.inl (Or.inr ⟨f, hf, rfl⟩))⟩
    · simp at hg

/-- Every function with a name that the source defines is declared, under this name, in its class in the header. -/
theorem C95_declared_partial {external internal : List Str} (hf : PlainFile o c) (hx : ∀ i ∈ external, Name i) (hi : ∀ i ∈ internal, Includable i)
    (hh : Includable header) (he : ∀ e ∈ enums, PlainEnum e) (hm : PlainMsgs msgs) :
    ∃ hText evs sText is, printed (messageHeader o c external internal enums msgs) = some hText ∧ read hText = some evs ∧
      printed (messageSource o c header enums msgs) = some sText ∧ items sText = some is ∧
      ∀ f ∈ fnsIn is, ∀ w, plainName f = some w → ∃ sec, (f.cls, sec, w) ∈ membersIn evs := by
  obtain ⟨t1, evs, a1, a2, a3⟩ := C94_header_members_partial hf hx hi he hm
  obtain ⟨t2, is, b1, b2, b3⟩ := C95_functions_partial hf hh he hm
  refine ⟨t1, evs, t2, is, a1, a2, b1, b2, fun f hfn w hw => ?_⟩
  have hs : f.sig ∈ (fnsIn is).map Fn.sig := List.mem_map_of_mem hfn
  have hw' : f.sig.name.getLast? = some (.word w) := by
    unfold plainName at hw
    split at hw
    · rename_i h
      cases hw
      exact h
    · simp at hw
  rw [b3] at hs
  rw [a3]
  rcases List.mem_append.1 hs with hs | hs
  · obtain ⟨e, hmem, hse⟩ := List.mem_map.1 hs
    have hc : f.cls = gadgetClass o c e := (congrArg Sig.cls hse).symm
    rw [← hse] at hw'
    simp [enumSig] at hw'
    subst hw'
    refine ⟨kwPublic, List.mem_append_left _ (List.mem_flatMap.2 ⟨e, hmem, ?_⟩)⟩
    rw [hc]
    simp [gadgetMembers]
  · obtain ⟨b, hmem, hb⟩ := List.mem_flatMap.1 hs
    obtain ⟨hc, sec, hsec⟩ := sig_member b f.sig hb w hw'
    refine ⟨sec, List.mem_append_right _ (List.mem_flatMap.2 ⟨b, hmem, ?_⟩)⟩
    have : f.cls = b.1.cpp := hc
    rw [this]
    exact List.mem_map.2 ⟨_, hsec, rfl⟩

theorem filter_class {α β γ : Type} [BEq α] [LawfulBEq α] (g : β → List γ) (key : β → α) : ∀ (l : List β), (l.map key).Nodup → ∀ b ∈ l,
    (l.flatMap fun x => (g x).map fun y => (key x, y)).filter (fun p => p.1 == key b) = (g b).map fun y => (key b, y)
  | [], _, b, hb => by simp at hb
  | x :: l, hn, b, hb => by
    rw [List.map_cons, List.nodup_cons] at hn
    rw [List.flatMap_cons, List.filter_append]
    have other : ∀ y ∈ l, key y ≠ key x := fun y hy e => hn.1 (List.mem_map.2 ⟨y, hy, e⟩)
    rcases List.mem_cons.1 hb with rfl | hb
    · rw [List.filter_eq_self.2 (by
        intro p hp; obtain ⟨y, _, rfl⟩ := List.mem_map.1 hp; simp), List.filter_eq_nil_iff.2 (by
        intro p hp
        obtain ⟨z, hz, hp⟩ := List.mem_flatMap.1 hp
        obtain ⟨y, _, rfl⟩ := List.mem_map.1 hp
        simpa using other z hz), List.append_nil]
    · rw [filter_class g key l hn.2 b hb, List.filter_eq_nil_iff.2 (by
        intro p hp
        obtain ⟨y, _, rfl⟩ := List.mem_map.1 hp
        simpa using fun e => other b hb e.symm), List.nil_append]

/-- The tables of the source fit the properties of the header: an entry (number, index, JSON name) of the table of a class is that of a field,
and the property of the class at this index (0 is the one of QObject) is the property of this field. -/
theorem C95_index_partial {external internal : List Str} (hf : PlainFile o c) (hx : ∀ i ∈ external, Name i) (hi : ∀ i ∈ internal, Includable i)
    (hh : Includable header) (he : ∀ e ∈ enums, PlainEnum e) (hm : PlainMsgs msgs) (hn : ((allBodies o c msgs).map (·.1.cpp)).Nodup) :
    ∃ hText evs sText is, printed (messageHeader o c external internal enums msgs) = some hText ∧ read hText = some evs ∧
      printed (messageSource o c header enums msgs) = some sText ∧ items sText = some is ∧
      ∀ cls table, (cls, some table) ∈ tablesIn (text! "propertyOrdering") is → ∀ entry ∈ table,
        ∃ (b : Printed × List FieldD) (f : FieldD) (k : Nat) (p : Prop'), b ∈ allBodies o c msgs ∧ b.1.cpp = cls ∧ b.2[k]? = some f ∧
          entry = ((toString f.number).toList, (toString (k + 1)).toList, f.json) ∧
          ((propertiesIn evs).filter (·.1 == cls))[k]? = some (cls, some p) ∧
          p.name = (fieldProperty o.qml c.package f).name ∧ p.read = (fieldProperty o.qml c.package f).read ∧
          p.write = (fieldProperty o.qml c.package f).write := by
  obtain ⟨t1, evs, a1, a2, a3⟩ := C94_header_properties_partial hf hx hi he hm
  obtain ⟨t2, is, b1, b2, b3⟩ := C95_ordering_partial hf hh he hm
  refine ⟨t1, evs, t2, is, a1, a2, b1, b2, fun cls table ht entry hent => ?_⟩
  rw [b3] at ht
  obtain ⟨b, hmem, hb⟩ := List.mem_map.1 ht
  simp only [Prod.mk.injEq, Option.some.injEq] at hb
  obtain ⟨rfl, rfl⟩ := hb
  unfold orderingOf at hent
  obtain ⟨q, hq, rfl⟩ := List.mem_map.1 hent
  have hk := List.mem_zipIdx_iff_getElem?.1 hq
  have hall : (expected o c b.1.msg b.2)[q.2]? = some ⟨propertyType o c b.1.msg q.1, (fieldProperty o.qml c.package q.1).name,
      (fieldProperty o.qml c.package q.1).read, (fieldProperty o.qml c.package q.1).write, some (signalName q.1), scriptable o c q.1⟩ := by
    have hlt : q.2 < b.2.length := (List.getElem?_eq_some_iff.1 hk).1
    unfold expected
    rw [List.getElem?_append_left (by simpa using hlt), List.getElem?_map, hk]
    rfl
  refine ⟨b, q.1, q.2, ⟨propertyType o c b.1.msg q.1, (fieldProperty o.qml c.package q.1).name,
      (fieldProperty o.qml c.package q.1).read, (fieldProperty o.qml c.package q.1).write, some (signalName q.1), scriptable o c q.1⟩,
      hmem, rfl, hk, rfl, ?_, rfl, rfl, rfl⟩
  · have := filter_class (fun b : Printed × List FieldD => (expected o c b.1.msg b.2).map some) (fun b => b.1.cpp) (allBodies o c msgs) hn b hmem
    have e : propertiesIn evs = (allBodies o c msgs).flatMap fun x => ((expected o c x.1.msg x.2).map some).map fun y => (x.1.cpp, y) := by
      rw [a3]
      refine flatMap_congr' fun x _ => ?_
      rw [List.map_map]
      rfl
    rw [e, this, List.getElem?_map, List.getElem?_map, hall]
    rfl

end

section
variable {o : Options} {c : Ctx} {services : List ServiceText} {header : Str}

/-- The functions that the source of the clients of a file defines, with the calls they make: each calls the method it is named after, with
what it was given. The constructor hands the full name of the service to the client of the library. -/
theorem C95_clients_partial (hf : PlainFile o c) (hh : Includable header) (hs : ∀ s ∈ services, PlainService s) :
    ∃ text is, printed (clientSourceText o c header services) = some text ∧ items text = some is ∧
      (fnsIn is).map (fun f => (f.sig, namedCalls f.body)) = services.flatMap (clientSigs o c) ∧
      ((fnsIn is).filter Fn.isCtor).map (fun f => (f.cls, f.inits)) =
        services.map (fun s => (around o c ++ [upperCaseName s.name ++ text! "Client"], clientInits c s)) ∧
      statementsIn is = [([], topStatement header (if o.qml then [text! "QQmlEngine", text! "QJSEngine", text! "QJSValue"] else []))] := by
  obtain ⟨text, h1, h2⟩ := items_printed (gives_clientSource hf hh hs)
  refine ⟨text, _, h1, h2, ?_, ?_, ?_⟩
  · rw [fnsIn_statement, fnsIn_flatMap, List.map_flatMap]
    exact flatMap_congr' fun s h => (fns_client (hs s h).2 _ rfl).1
  · rw [fnsIn_statement, fnsIn_flatMap, List.filter_flatMap, List.map_flatMap, ← List.flatMap_singleton' (services.map _), List.flatMap_map]
    exact flatMap_congr' fun s h => (fns_client (hs s h).2 _ rfl).2.2
  · have e : ∀ x l, statementsIn (.statement [] x :: l) = ([], x) :: statementsIn l := fun x l => rfl
    rw [e, statements_flatMap, flatMap_nil' fun s h => (fns_client (o := o) (c := c) (hs s h).2 ([] ++ outerNs o c) rfl).2.1]
    cases o.qml <;> rfl

end

/-! ### The hypotheses can be met -/

namespace Sample

theorem hdr : Includable (text! "sample.qpb") := by unfold Includable; decide

/-- The functions of the sample file: two classes and an enumeration. -/
example : ∃ text is, printed (messageSource opts ctx (text! "sample.qpb") [global] [outer]) = some text ∧ items text = some is ∧
    ((fnsIn is).map Fn.sig).length = 32 ∧
    (⟨cpp! "void", [text! "pkg", text! "sub", text! "Outer"], cpp! "setInner_p",
      [(cpp! "Outer_QtProtobufNested::Inner *", text! "inner")], false⟩ : Sig) ∈ (fnsIn is).map Fn.sig := by
  obtain ⟨text, is, h1, h2, h3⟩ := C95_functions_partial plainFile hdr plainEnums plainMsgs
  exact ⟨text, is, h1, h2, by rw [h3]; decide +kernel, by rw [h3]; decide +kernel⟩

/-- The constructor that takes two fields: the second member is a new object with the value given, the others have the values of their types. -/
example : ∃ text is, printed (messageSource opts ctx (text! "sample.qpb") [global] [outer]) = some text ∧ items text = some is ∧
    ([text! "pkg", text! "sub", text! "Outer"], [some (text! "QObject", cpp! "parent"), some (text! "m_id_proto", cpp! "id_proto"),
      some (text! "m_inner", cpp! "new Outer_QtProtobufNested::Inner(inner)"), some (text! "m_e", cpp! "Outer::E::A")]) ∈
      ((fnsIn is).filter Fn.isCtor).map (fun f => (f.cls, f.inits)) := by
  obtain ⟨text, is, h1, h2, h3⟩ := C95_constructors_partial plainFile hdr plainEnums plainMsgs
  exact ⟨text, is, h1, h2, by rw [h3]; decide +kernel⟩

/-- The tables of the two classes: numbers 1, 3, 4, 5, 6 are the properties 1 to 5. -/
example : ∃ text is, printed (messageSource opts ctx (text! "sample.qpb") [global] [outer]) = some text ∧ items text = some is ∧
    tablesIn (text! "propertyOrdering") is =
      [([text! "pkg", text! "sub", text! "Outer_QtProtobufNested", text! "Inner"], some [(text! "1", text! "1", text! "x")]),
       ([text! "pkg", text! "sub", text! "Outer"], some [(text! "1", text! "1", text! "id"), (text! "3", text! "2", text! "inner"),
         (text! "4", text! "3", text! "inners"), (text! "5", text! "4", text! "e"), (text! "6", text! "5", text! "m")])] := by
  obtain ⟨text, is, h1, h2, h3⟩ := C95_ordering_partial plainFile hdr plainEnums plainMsgs
  exact ⟨text, is, h1, h2, by rw [h3]; rfl⟩

example : ∃ text is, printed (messageSource opts ctx (text! "sample.qpb") [global] [outer]) = some text ∧ items text = some is ∧
    (statementsIn is).length = 6 ∧ statementsIn is ≠ [] := by
  obtain ⟨text, is, h1, h2, h3⟩ := C95_statements_partial plainFile hdr plainEnums plainMsgs
  exact ⟨text, is, h1, h2, by rw [h3]; decide +kernel, by rw [h3]; simp⟩

/-- The nested class is registered under the name it has in the schema, the map with the types of keys and values. -/
example : ∃ text is, printed (messageSource opts ctx (text! "sample.qpb") [global] [outer]) = some text ∧ items text = some is ∧
    ∃ calls, (([text! "pkg", text! "sub", text! "Outer"], calls) ∈
      ((fnsIn is).filter fun f => f.result == (cpp! "void") && f.name == cpp! "registerTypes").map (fun f => (f.cls, (SpecCpp.cut f.body).map typedCall))) ∧
      calls.length = 12 ∧ some (text! "qRegisterProtobufMapType", cpp! "QtProtobuf::int32, QString", []) ∈ calls := by
  obtain ⟨text, is, h1, h2, h3⟩ := C95_registration_partial plainFile hdr plainEnums plainMsgs
  refine ⟨text, is, h1, h2, (registrations opts ctx ((allBodies opts ctx [outer])[1])).map some, ?_, by decide +kernel, by decide +kernel⟩
  rw [h3]
  decide +kernel

/-- The header and the source of the sample: class names are distinct. -/
example : ∃ hText evs sText is, printed (messageHeader opts ctx [text! "QObject"] [text! "other.qpb"] [global] [outer]) = some hText ∧
    read hText = some evs ∧ printed (messageSource opts ctx (text! "sample.qpb") [global] [outer]) = some sText ∧ items sText = some is ∧
    ((propertiesIn evs).filter (·.1 == [text! "pkg", text! "sub", text! "Outer"])).length = 7 ∧ fnsIn is ≠ [] := by
  obtain ⟨hText, evs, sText, is, h1, h2, h3, h4, h5⟩ := C95_index_partial (external := [text! "QObject"]) (internal := [text! "other.qpb"]) plainFile
    (by intro i hi; rw [List.mem_singleton.1 hi]; exact name_of (by decide)) (by intro i hi; rw [List.mem_singleton.1 hi]; unfold Includable; decide)
    hdr plainEnums plainMsgs (by decide +kernel)
  obtain ⟨t1, e1, a1, a2, a3⟩ := C94_header_properties_partial (external := [text! "QObject"]) (internal := [text! "other.qpb"]) plainFile
    (by intro i hi; rw [List.mem_singleton.1 hi]; exact name_of (by decide)) (by intro i hi; rw [List.mem_singleton.1 hi]; unfold Includable; decide)
    plainEnums plainMsgs
  obtain ⟨t2, is2, b1, b2, b3⟩ := C95_functions_partial plainFile hdr plainEnums plainMsgs
  have e : t1 = hText := Option.some.inj (a1.symm.trans h1)
  subst e
  have e : e1 = evs := Option.some.inj (a2.symm.trans h2)
  subst e
  have e : t2 = sText := Option.some.inj (b1.symm.trans h3)
  subst e
  have e : is2 = is := Option.some.inj (b2.symm.trans h4)
  subst e
  refine ⟨_, _, _, _, h1, h2, h3, h4, by rw [a3]; decide +kernel, fun h => ?_⟩
  rw [h] at b3
  exact absurd (congrArg List.length b3) (by decide +kernel)

/-- A client with a method and a stream. -/
example : ∃ text is, printed (clientSourceText opts ctx (text! "sample.qpb") [service]) = some text ∧ items text = some is ∧
    (fnsIn is).length = 9 ∧
    (⟨cpp! "QtProtobuf::QGrpcStreamShared", [text! "pkg", text! "sub", text! "TestsClient"], cpp! "streamUpd", [(cpp! "const a::B &", text! "arg")], false⟩,
      [(text! "stream", text! "upd", [cpp! "arg"])]) ∈ (fnsIn is).map (fun f => (f.sig, namedCalls f.body)) := by
  obtain ⟨text, is, h1, h2, h3, _⟩ := C95_clients_partial plainFile hdr plainService
  refine ⟨text, is, h1, h2, ?_, by rw [h3]; decide +kernel⟩
  have := congrArg List.length h3
  rw [List.length_map] at this
  rw [this]
  decide +kernel

end Sample

end QtPb.Gen.Text
