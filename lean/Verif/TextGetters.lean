import Verif.TextSetters
/-
Getters of generated classes and the functions with pointers, run. (Helpers for the theorems about generated sources.)
-/
set_option linter.unusedVariables false
set_option maxRecDepth 100000
namespace QtPb.TextProof
open QtPb.Gen QtPb.Gen.Text QtPb.Gen.Text.Spec QtPb.SpecCpp

/-! ### Functions without parameters -/

section
variable {o : Options} {c : Ctx} {m : Cur}

/-- The functions without parameters of a field. -/
def fieldGetters (o : Options) (c : Ctx) (m : Cur) (f : FieldD) : List (Text × List Lexeme) :=
  [(f.prop, if isPureMessage c.package f then Src.getterBody f.prop else returnBody f.prop)] ++
  (if isPureMessage c.package f then [(f.prop ++ text! "_p", Src.pGetterBody f.prop)] else []) ++
  (if hasQmlAlias o.qml f then [(f.prop ++ text! "_p", returnBody f.prop)] else []) ++
  (if isList f && f.type == .message && !isQtType c.package f && o.qml then
    [(f.prop ++ text! "_l", Src.listBody (valueType o c m.path f false) f.prop)] else [])

theorem getter_nullary {cls : List Text} {f : FieldD} : ∀ x ∈ getterFns o c m cls f, ∃ y ∈ fieldGetters o c m f, x.function = ⟨y.1, [], y.2⟩ := by
  intro x hx
  unfold getterFns at hx
  simp only [List.mem_append] at hx
  rcases hx with hx | hx
  · split at hx
    · rename_i hp
      simp only [List.mem_cons, List.not_mem_nil, or_false] at hx
      rcases hx with rfl | rfl
      · exact ⟨(f.prop ++ text! "_p", Src.pGetterBody f.prop), by simp [fieldGetters, hp], by simp [Fn.function, flatName]⟩
      · exact ⟨(f.prop, Src.getterBody f.prop), by simp [fieldGetters, hp], by simp [Fn.function, flatName]⟩
    · cases hx
  · split at hx
    · rename_i hp
      simp only [List.mem_cons, List.not_mem_nil, or_false] at hx
      subst hx
      exact ⟨(f.prop ++ text! "_l", Src.listBody (valueType o c m.path f false) f.prop), by simp only [fieldGetters, List.mem_append]; rw [if_pos hp]; simp, by simp [Fn.function, flatName]⟩
    · cases hx

theorem isPure_not_repeated {f : FieldD} (h : f.repeated = true) : isPureMessage c.package f = false := by
  simp [isPureMessage, h]

theorem declaredGetter_nullary {s : List Text} {f : FieldD} : ∀ x ∈ getterDeclared c s f, ∃ y ∈ fieldGetters o c m f, x.function = some ⟨y.1, [], y.2⟩ := by
  intro x hx
  unfold getterDeclared at hx
  simp only [List.mem_append] at hx
  have key : isPureMessage c.package f = false → x = .fn s f.prop [] (returnBody f.prop) → ∃ y ∈ fieldGetters o c m f, x.function = some ⟨y.1, [], y.2⟩ := by
    rintro hp rfl
    exact ⟨(f.prop, returnBody f.prop), by simp [fieldGetters, hp], rfl⟩
  rcases hx with hx | hx
  · split at hx
    · cases hx
    · rename_i hp
      exact key (by simpa using hp) (by simpa using hx)
  · split at hx
    · rename_i hr
      exact key (isPure_not_repeated hr) (by simpa using hx)
    · cases hx

/-- The functions without parameters are the destructor, the registration, a conversion, and those of the fields. -/
theorem nullary_cases {cls : List Text} : ∀ x ∈ classFunctions o c m cls, x.params = [] →
    x.name = (text! "~" ++ className m) ∨ x.name = text! "registerTypes" ∨ x.name = text! "operator QDateTime" ∨
      ∃ f ∈ m.fields, ∃ y ∈ fieldGetters o c m f, x = ⟨y.1, [], y.2⟩ := by
  intro x hx hp
  rw [classFunctions_parts, List.mem_append, List.mem_append] at hx
  rcases hx with (hx | hx) | hx
  · obtain ⟨y, hy, rfl⟩ := List.mem_map.1 hx
    have hp : y.params = [] := hp
    simp only [beforeCommon, List.mem_append, List.mem_cons, List.not_mem_nil, or_false, List.mem_map] at hy
    rcases hy with ((rfl | rfl) | ⟨n, -, rfl⟩) | hy
    · exact Or.inl (by simp [Fn.function, flatName])
    · exact Or.inr (Or.inl (by simp [Fn.function, flatName]))
    · simp [ctorFn] at hp
    · unfold dateFns at hy
      split at hy
      · simp only [List.mem_cons, List.not_mem_nil, or_false] at hy
        rcases hy with rfl | rfl
        · simp at hp
        · exact Or.inr (Or.inr (Or.inl (by simp [Fn.function, flatName])))
      · cases hy
  · obtain ⟨y, hy, rfl⟩ := List.mem_map.1 hx
    have hp : y.params = [] := hp
    simp only [commonFns, List.mem_cons, List.not_mem_nil, or_false] at hy
    rcases hy with rfl | rfl | rfl | rfl | rfl | rfl <;> simp at hp
  · refine Or.inr (Or.inr (Or.inr ?_))
    simp only [afterCommon, List.mem_append, List.mem_map, List.mem_filterMap, List.mem_flatMap] at hx
    rcases hx with ⟨y, ⟨f, hf, hy⟩ | ⟨f, hf, hy⟩, rfl⟩ | ⟨y, hy, hx⟩
    · obtain ⟨z, hz, e⟩ := getter_nullary y hy
      exact ⟨f, hf, z, hz, e⟩
    · obtain ⟨z, hz, t, e⟩ := setter_unary y hy
      rw [e] at hp
      cases hp
    · simp only [classDeclared, List.mem_append, List.mem_map, List.mem_flatMap] at hy
      rcases hy with ((⟨f, hf, hy⟩ | ⟨f, hf, hy⟩) | ⟨f, hf, hy⟩) | ⟨f, hf, rfl⟩
      · obtain ⟨z, hz, e⟩ := declaredGetter_nullary (o := o) (m := m) y hy
        rw [e] at hx
        cases hx
        exact ⟨f, hf, z, hz, rfl⟩
      · unfold setterDeclared at hy
        split at hy
        · simp only [List.mem_cons, List.not_mem_nil, or_false] at hy
          subst hy
          cases hx
          cases hp
        · cases hy
      · unfold aliasDeclared at hy
        split at hy
        · rename_i ha
          simp only [List.mem_cons, List.not_mem_nil, or_false] at hy
          rcases hy with rfl | rfl
          · cases hx
            exact ⟨f, hf, (f.prop ++ text! "_p", returnBody f.prop), by simp [fieldGetters, ha], rfl⟩
          · cases hx
            cases hp
        · cases hy
      · cases hx

theorem getter_fn_mem {f : FieldD} (hf : f ∈ m.fields) {cls : List Text} {x : Fn} (hx : x ∈ getterFns o c m cls f) :
    x.function ∈ classFunctions o c m cls :=
  List.mem_append_left _ (List.mem_map.2 ⟨x, by
    simp only [classFns, List.mem_append]
    exact Or.inl (Or.inr (List.mem_flatMap.2 ⟨f, hf, hx⟩)), rfl⟩)

/-- The getter is there. -/
theorem getter_mem {f : FieldD} (hf : f ∈ m.fields) (cls : List Text) :
    (⟨f.prop, [], if isPureMessage c.package f then Src.getterBody f.prop else returnBody f.prop⟩ : Function) ∈ classFunctions o c m cls := by
  by_cases hp : isPureMessage c.package f = true
  · have := getter_fn_mem (o := o) (c := c) hf (cls := cls)
      (x := ⟨(let T := valueType o c m.path f false; cpp! "@T@ &"), cls, (let N := f.prop; cpp! "$N$"), [], cpp! "const", Src.getterBody f.prop⟩)
      (by unfold getterFns; dsimp only; rw [if_pos hp]; simp)
    rw [if_pos hp]
    simpa [Fn.function, flatName] using this
  · rw [if_neg hp]
    refine List.mem_append_right _ (List.mem_filterMap.2 ⟨.fn cls f.prop [] (returnBody f.prop), ?_, rfl⟩)
    simp only [classDeclared, List.mem_append]
    refine Or.inl (Or.inl (Or.inl (List.mem_flatMap.2 ⟨f, hf, ?_⟩)))
    unfold getterDeclared
    rw [if_neg hp]
    simp

theorem pGetter_mem {f : FieldD} (hf : f ∈ m.fields) (hp : isPureMessage c.package f = true) (cls : List Text) :
    (⟨f.prop ++ text! "_p", [], Src.pGetterBody f.prop⟩ : Function) ∈ classFunctions o c m cls := by
  have := getter_fn_mem (o := o) (c := c) hf (cls := cls)
    (x := ⟨(let T := valueType o c m.path f false; cpp! "@T@ *"), cls, (let N := f.prop; cpp! "$N$_p"), [], cpp! "const", Src.pGetterBody f.prop⟩)
    (by unfold getterFns; dsimp only; rw [if_pos hp]; simp)
  simpa [Fn.function, flatName] using this

theorem aliasGetter_mem {f : FieldD} (hf : f ∈ m.fields) (ha : hasQmlAlias o.qml f = true) (cls : List Text) :
    (⟨f.prop ++ text! "_p", [], returnBody f.prop⟩ : Function) ∈ classFunctions o c m cls := by
  refine List.mem_append_right _ (List.mem_filterMap.2 ⟨.fn cls (f.prop ++ text! "_p") [] (returnBody f.prop), ?_, rfl⟩)
  simp only [classDeclared, List.mem_append]
  refine Or.inl (Or.inr (List.mem_flatMap.2 ⟨f, hf, ?_⟩))
  unfold aliasDeclared
  rw [if_pos ha]
  simp

theorem setter_of_prop {f g : FieldD} (h : f.prop = g.prop) : f.setter = g.setter := by unfold FieldD.setter; rw [h]

theorem setter_of_p {f g : FieldD} (hg : g.prop ≠ []) (h : f.prop = g.prop ++ text! "_p") : f.setter = g.setter ++ text! "_p" := by
  unfold FieldD.setter
  rw [h]
  cases hp : g.prop with
  | nil => exact absurd hp hg
  | cons x l => rfl

theorem append_ne_last {a b : Text} {x y : Char} (h : x ≠ y) : a ++ [x] ≠ b ++ [y] := by
  intro e
  have := congrArg List.getLast? e
  simp at this
  exact h this

theorem name_no_char {n : Text} (h : Name n) {x : Char} (hx : x ∈ n) (hi : isWord x = false) : False := by
  have := h.2.1 x hx
  rw [hi] at this
  cases this

/-- The functions without parameters that have the name of a getter. -/
theorem named_getter (hn : (m.fields.flatMap fun f => [f.setter, f.setter ++ text! "_p"]).Nodup) (hg : Getters m.fields) (names : ∀ f ∈ m.fields, Name f.prop)
    {f : FieldD} (hf : f ∈ m.fields) {cls : List Text} {x : Function} (hx : x ∈ classFunctions o c m cls) (hp : x.params = []) (he : x.name = f.prop) :
    x.body = if isPureMessage c.package f then Src.getterBody f.prop else returnBody f.prop := by
  have ne : ∀ g ∈ m.fields, g.prop ≠ [] := fun g hg => (names g hg).1
  rcases nullary_cases x hx hp with h | h | h | ⟨g, hg', y, hy, rfl⟩
  · exact absurd (names f hf) fun hw => name_no_char hw (x := '~') (by rw [← he, h]; simp) (by decide)
  · exact absurd (he.symm.trans h) (hg.fixed f hf)
  · exact absurd (names f hf) fun hw => name_no_char hw (x := ' ') (by rw [← he, h]; simp) (by decide)
  · have he : y.1 = f.prop := he
    simp only [fieldGetters, List.mem_append, List.mem_cons, List.not_mem_nil, or_false] at hy
    have notP : g.prop ++ text! "_p" ≠ f.prop := fun e => by
      have hs := setter_of_p (ne g hg') e.symm
      have hfg : f = g := mem_flatMap_unique hn hf hg' (x := f.setter) (by simp) (by rw [hs]; simp)
      subst hfg
      simp at e
    rcases hy with ((rfl | hy) | hy) | hy
    · have hfg : f = g := mem_flatMap_unique hn hf hg' (x := f.setter) (by simp) (by rw [setter_of_prop he]; simp)
      subst hfg
      rfl
    · split at hy
      · simp only [List.mem_cons, List.not_mem_nil, or_false] at hy; subst hy; exact absurd he notP
      · cases hy
    · split at hy
      · simp only [List.mem_cons, List.not_mem_nil, or_false] at hy; subst hy; exact absurd he notP
      · cases hy
    · split at hy
      · simp only [List.mem_cons, List.not_mem_nil, or_false] at hy; subst hy; exact absurd he.symm (hg.lists f hf g hg')
      · cases hy

theorem alias_not_pure {f : FieldD} (h : hasQmlAlias o.qml f = true) : isPureMessage c.package f = false := by
  cases hp : isPureMessage c.package f with
  | false => rfl
  | true => simp [hasQmlAlias, pure_message hp] at h

/-- The functions without parameters that have the name of a getter for QML. -/
theorem named_pGetter (hn : (m.fields.flatMap fun f => [f.setter, f.setter ++ text! "_p"]).Nodup) (names : ∀ f ∈ m.fields, Name f.prop)
    {f : FieldD} (hf : f ∈ m.fields) {cls : List Text} {x : Function} (hx : x ∈ classFunctions o c m cls) (hp : x.params = [])
    (he : x.name = f.prop ++ text! "_p") : x.body = if isPureMessage c.package f then Src.pGetterBody f.prop else returnBody f.prop := by
  have ne : ∀ g ∈ m.fields, g.prop ≠ [] := fun g hg => (names g hg).1
  have nf := names f hf
  rcases nullary_cases x hx hp with h | h | h | ⟨g, hg', y, hy, rfl⟩
  · have e := he.symm.trans h
    cases hq : f.prop with
    | nil => exact absurd hq (ne f hf)
    | cons a l =>
      rw [hq] at e
      simp only [List.cons_append, List.cons.injEq] at e
      exact absurd nf fun hw => name_no_char hw (x := '~') (by rw [hq, e.1]; simp) (by decide)
  · have e := congrArg List.getLast? (he.symm.trans h)
    simp at e
  · have e := congrArg List.getLast? (he.symm.trans h)
    simp at e
  · have he : y.1 = f.prop ++ text! "_p" := he
    simp only [fieldGetters, List.mem_append, List.mem_cons, List.not_mem_nil, or_false] at hy
    have eqP : g.prop ++ text! "_p" = f.prop ++ text! "_p" → f = g := fun e => by
      have : g.prop = f.prop := by simpa using e
      exact mem_flatMap_unique hn hf hg' (x := f.setter) (by simp) (by rw [setter_of_prop this]; simp)
    rcases hy with ((rfl | hy) | hy) | hy
    · have hs := setter_of_p (ne f hf) he
      have hfg : f = g := mem_flatMap_unique hn hf hg' (x := g.setter) (by rw [hs]; simp) (by simp)
      subst hfg
      simp at he
    · split at hy
      · rename_i hpu
        simp only [List.mem_cons, List.not_mem_nil, or_false] at hy
        subst hy
        have := eqP he
        subst this
        rw [if_pos hpu]
      · cases hy
    · split at hy
      · rename_i hal
        simp only [List.mem_cons, List.not_mem_nil, or_false] at hy
        subst hy
        have := eqP he
        subst this
        rw [if_neg (by simp [alias_not_pure (c := c) hal])]
      · cases hy
    · split at hy
      · simp only [List.mem_cons, List.not_mem_nil, or_false] at hy
        subst hy
        have := congrArg List.getLast? he
        simp at this
      · cases hy

/-! ### Setters for QML -/

theorem pSetter_mem {f : FieldD} (hf : f ∈ m.fields) (hp : isPureMessage c.package f = true) (cls : List Text) :
    (f.setter ++ text! "_p", f.prop, Src.pSetterBody f.prop) ∈ (classFunctions o c m cls).filterMap Function.unary := by
  have ht : (f.type == .message || f.type == .string || f.type == .bytes) = true := by simp [pure_message hp]
  refine List.mem_filterMap.2 ⟨Fn.function ⟨cpp! "void", cls, (let S := f.setter; cpp! "$S$_p"),
    [(let T := valueType o c m.path f (isList f); cpp! "@T@ *", f.prop)], [], Src.pSetterBody f.prop⟩, List.mem_append_left _ (List.mem_map.2 ⟨_, ?_, rfl⟩), ?_⟩
  · simp only [classFns, List.mem_append]
    refine Or.inr (List.mem_flatMap.2 ⟨f, hf, ?_⟩)
    unfold setterFns
    rw [if_pos ht, if_pos hp]
    simp
  · simp [Function.unary, Fn.function, flatName]

theorem aliasSetter_mem {f : FieldD} (hf : f ∈ m.fields) (ha : hasQmlAlias o.qml f = true) (cls : List Text) :
    (f.setter ++ text! "_p", f.prop, Src.complexSetterBody f.prop) ∈ (classFunctions o c m cls).filterMap Function.unary := by
  refine List.mem_filterMap.2 ⟨⟨set' (cap f) ++ text! "_p", [(let T := ty o c m f (text! "qml_alias_type"); cpp! "const @T@ &", f.prop)],
    Src.complexSetterBody f.prop⟩, List.mem_append_right _ (List.mem_filterMap.2 ⟨.fn cls (set' (cap f) ++ text! "_p")
      [(let T := ty o c m f (text! "qml_alias_type"); cpp! "const @T@ &", f.prop)] (Src.complexSetterBody f.prop), ?_, rfl⟩), rfl⟩
  simp only [classDeclared, List.mem_append]
  refine Or.inl (Or.inr (List.mem_flatMap.2 ⟨f, hf, ?_⟩))
  unfold aliasDeclared
  rw [if_pos ha]
  simp

theorem find_pSetter (hn : (m.fields.flatMap fun f => [f.setter, f.setter ++ text! "_p"]).Nodup) {f : FieldD} (hf : f ∈ m.fields) (cls : List Text)
    (h : isPureMessage c.package f = true ∨ hasQmlAlias o.qml f = true) :
    ((classFunctions o c m cls).filterMap Function.unary).find? (·.1 == f.setter ++ text! "_p") =
      some (f.setter ++ text! "_p", f.prop, if isPureMessage c.package f then Src.pSetterBody f.prop else Src.complexSetterBody f.prop) := by
  have hmem : (f.setter ++ text! "_p", f.prop, if isPureMessage c.package f then Src.pSetterBody f.prop else Src.complexSetterBody f.prop) ∈
      (classFunctions o c m cls).filterMap Function.unary := by
    by_cases hp : isPureMessage c.package f = true
    · rw [if_pos hp]; exact pSetter_mem hf hp cls
    · rw [if_neg hp]; exact aliasSetter_mem hf (h.resolve_left hp) cls
  refine find_unique hmem fun y hy e => ?_
  obtain ⟨x, hx, hu⟩ := List.mem_filterMap.1 hy
  have h := unary_some hu
  have e : y.1 = f.setter ++ text! "_p" := e
  have s2 : ∀ t, className m ≠ text! "set" ++ t := fun t => class_ne_set _ t
  have es : f.setter ++ text! "_p" = text! "set" ++ (upperCaseName f.prop ++ text! "_p") := rfl
  rw [classFunctions_parts, List.mem_append, List.mem_append] at hx
  rcases hx with (hx | hx) | hx
  · have := (before_unary x hx h.1).1
    rw [h.2.1, e, es] at this
    exact absurd this.symm (s2 _)
  · exfalso
    rw [e, es] at h
    simp only [commonFns, List.map_cons, List.map_nil, List.mem_cons, List.not_mem_nil, or_false] at hx
    rcases hx with rfl | rfl | rfl | rfl | rfl | rfl <;> simp only [Fn.function, flatName, List.append_nil] at h
    · exact s2 _ h.2.1
    · cases h.2.1
    · exact s2 _ h.2.1
    · cases h.2.1
    · cases h.2.1
    · cases h.2.1
  · obtain ⟨g, hg, z, hz, t, rfl⟩ := after_unary x hx h.1
    have ez : z = y := by
      have h1 : z.1 = y.1 := h.2.1
      have h2 : z.2.1 = y.2.1 := by simpa using h.2.2.1
      have h3 : z.2.2 = y.2.2 := h.2.2.2
      exact Prod.ext h1 (Prod.ext h2 h3)
    subst ez
    have hmem : z.1 ∈ [g.setter, g.setter ++ text! "_p"] := by
      simp only [fieldSetters, List.mem_append, List.mem_cons, List.not_mem_nil, or_false] at hz
      rcases hz with (rfl | hz) | hz
      · simp
      · split at hz
        · simp only [List.mem_cons, List.not_mem_nil, or_false] at hz; subst hz; simp
        · cases hz
      · split at hz
        · simp only [List.mem_cons, List.not_mem_nil, or_false] at hz; subst hz; simp
        · cases hz
    have hfg : f = g := mem_flatMap_unique hn hf hg (x := f.setter ++ text! "_p") (by simp) (by rw [← e]; exact hmem)
    subst hfg
    have hp : f.setter ≠ f.setter ++ text! "_p" := by simp
    simp only [fieldSetters, List.mem_append, List.mem_cons, List.not_mem_nil, or_false] at hz
    rcases hz with (rfl | hz) | hz
    · exact absurd e hp
    · split at hz
      · rename_i hpu
        simp only [List.mem_cons, List.not_mem_nil, or_false] at hz; subst hz; rw [if_pos hpu]
      · cases hz
    · split at hz
      · rename_i hal
        simp only [List.mem_cons, List.not_mem_nil, or_false] at hz; subst hz; rw [if_neg (by simp [alias_not_pure (c := c) hal])]
      · cases hz

end

/-! ### Classes of files -/

theorem class_more {u : Sources} (hu : u.Plain) {b : Printed × List FieldD} (hb : b ∈ u.bodies) {header source : Text}
    (h1 : u.headerText = some header) (h2 : u.sourceText = some source) :
    (∀ name, nullaryOf header source b.1.cpp name =
      some (((classFunctions u.o u.c ⟨b.1.msg, b.2⟩ b.1.cpp).filter fun f => f.name == name && f.params.isEmpty).map (·.body))) ∧
    (∀ {tys : List FieldTy} {p : ClassText}, SpecCpp.classOf header source b.1.cpp tys = some p →
      p.functions = (classFunctions u.o u.c ⟨b.1.msg, b.2⟩ b.1.cpp).filterMap Function.unary) ∧ ∀ f ∈ b.2, Name f.prop := by
  obtain ⟨ok, -, -⟩ := allBodies_ok hu.file hu.msgs (show b ∈ allBodies u.o u.c u.msgs from hb)
  obtain ⟨header', h1', ds, h3, h4⟩ := header_declared hu hb
  cases h1.symm.trans h1'
  obtain ⟨source', h2', h5⟩ := source_items hu.file hu.header hu.enums hu.msgs
  cases h2.symm.trans h2'
  have h6 := source_functions hu hb
  have hfn : functionsOf (sourceItems u.o u.c u.header u.enums u.msgs) ds b.1.cpp = classFunctions u.o u.c ⟨b.1.msg, b.2⟩ b.1.cpp := by
    unfold functionsOf classFunctions
    rw [h6, h4]
  refine ⟨fun name => ?_, fun {tys p} h => ?_, fun f hf => (ok.fields f hf).prop.1⟩
  · unfold nullaryOf
    rw [h3, h5]
    dsimp only
    rw [hfn]
  · unfold SpecCpp.classOf at h
    rw [h3, h5] at h
    split at h
    · rename_i evs ds' is' e1 e2 e3
      cases e2
      cases e3
      dsimp only at h
      split at h
      · split at h
        · cases h
          dsimp only
          rw [hfn]
        · cases h
      · cases h
    · cases h

/-! ### Running -/

theorem reads_returnBody (N : Text) : Reads (returnBody N) [.ret (own' N)] := by
  intro up done; rfl

theorem reads_getter (N : Text) : Reads (Src.getterBody N) [.ret (.deref (own' N))] := by
  intro up done; rfl

/-- `m_N.get()` -/
def got (N : Text) : Expr := .call0 [mem' N, ['.'], text! "get"]

theorem reads_pGetter (N : Text) : Reads (Src.pGetterBody N) [.ret (got N)] := by
  intro up done; rfl

theorem reads_pSetter (N : Text) : Reads (Src.pSetterBody N)
    [.cond (.ne (got N) (.var N)) [.expr (.call1 [mem' N, ['.'], text! "reset"] (.var N)), emit N]] :=
  reads_if (ls := cpp! "if (m_$N$.get() != $N$)") (body := (cpp! "m_$N$.reset($N$);") ++ (cpp! "$N$Changed();"))
    (by simp [inlines_word, inlines_punct, inlines_nil]) rfl ((reads_signal N).before fun _ _ => rfl)

section
variable {lib : Lib} {cls : Cls} {call : Text → Rt → Objects → Res (Rt × Objects)}

theorem name_own {f : FieldD} {ty : FieldTy} (h : HasField cls f ty) {locals : List (Text × Rt)} (hl : locals.lookup (mem' f.prop) = none) :
    nameValue cls locals (mem' f.prop) = .ok (.place (.member .this (mem' f.prop))) := by
  have e : ∀ w : Text, w.head? ≠ some 'm' → mem' f.prop ≠ w := by
    intro w hw e; rw [← e] at hw; exact hw rfl
  simp [nameValue, hl, h.type, e _ (show (text! "true").head? ≠ some 'm' by decide),
    e _ (show (text! "0").head? ≠ some 'm' by decide), e _ (show (text! "this").head? ≠ some 'm' by decide)]

theorem eval_got {f : FieldD} {k : Nat} (h : HasField cls f (.msg k)) {locals : List (Text × Rt)} (hl : locals.lookup (mem' f.prop) = none) (s : Objects) :
    eval lib cls call locals (got f.prop) s = .ok (.pointer (.own .this (mem' f.prop)), s) := by
  simp [got, eval, name_own h hl, getPointer, h.type]

theorem lookup_param (N : Text) (v : Rt) : List.lookup (mem' N) [(N, v)] = none := by
  have : (mem' N == N) = false := by simpa using mem_ne_self N
  simp [List.lookup, this]

theorem run_pSetter {f : FieldD} {k : Nat} (h : HasField cls f (.msg k)) (q : Pointer) (s : Objects) :
    runBody lib cls call f.prop (Src.pSetterBody f.prop) (.pointer q) s = (samePointer (.own .this (mem' f.prop)) q).bind fun same =>
      if same then .ok (.void, s) else
        (resetPointer cls s (.place (.member .this (mem' f.prop))) (.pointer q)).bind fun s' => .ok (.void, s'.emit .this (sig' f.prop)) := by
  unfold runBody
  rw [(reads_pSetter f.prop).stmts]
  dsimp only
  have hl := lookup_param f.prop (.pointer q)
  have hcmp : compareValues lib cls s (.pointer (.own .this (mem' f.prop))) (.pointer q) = samePointer (.own .this (mem' f.prop)) q := rfl
  have hne := eval_ne (eval_got (lib := lib) (call := call) h hl s) (eval_param f.prop _ s) hcmp
  have hc := exec_cond (body := [.expr (.call1 [mem' f.prop, ['.'], text! "reset"] (.var f.prop)), emit f.prop])
    (r := (samePointer (.own .this (mem' f.prop)) q).bind fun r => .ok (!r)) (hne.trans (by cases samePointer (.own .this (mem' f.prop)) q <;> rfl))
  have h1 : ([mem' f.prop, ['.'], text! "reset"] = moveFn) = False := by simp [moveFn]
  have h2 : ([mem' f.prop, ['.'], text! "reset"] = equalFn) = False := by simp [equalFn]
  have hr : execOne lib cls call [(f.prop, .pointer q)] (.expr (.call1 [mem' f.prop, ['.'], text! "reset"] (.var f.prop))) s =
      (resetPointer cls s (.place (.member .this (mem' f.prop))) (.pointer q)).bind fun s' => .ok (none, s') := by
    rw [execOne, eval, eval_param]
    simp only [h1, h2, if_false, Res.bind_eq, Res.bind, name_own h hl]
    rw [if_pos trivial]
    cases resetPointer cls s (.place (.member .this (mem' f.prop))) (.pointer q) <;> rfl
  rw [execAll, hc]
  cases samePointer (.own .this (mem' f.prop)) q with
  | ok b =>
    cases b with
    | true => simp only [Res.bind, Res.bind_eq, Bool.not_true, Bool.false_eq_true, if_false, if_true, execAll_nil]; rfl
    | false =>
      simp only [Res.bind, Res.bind_eq, Bool.not_false, Bool.false_eq_true, if_false, if_true]
      rw [execAll, hr]
      cases resetPointer cls s (.place (.member .this (mem' f.prop))) (.pointer q) with
      | ok s' =>
        simp only [Res.bind, Res.bind_eq]
        rw [execAll_cons (exec_emit h _ _), execAll_nil]
        simp only [execAll_nil]
        rfl
      | _ => rfl
  | _ => rfl

end

section
variable {lib : Lib} {c : Ctx} {m : Cur} {fs : List QtPb.Field} {p : ClassText}

theorem this_at (h : IsClass c m fs p) {a : Obj} (ha : a.length = fs.length) {i : Nat} {f : FieldD} (hi : m.fields[i]? = some f) {x : Val}
    (hx : a[i]? = some x) : (p.objects a []).this (mem' f.prop) = x := by
  have := this_value h ha hi
  rw [hx] at this
  exact Option.some.inj this

theorem values_same (h : IsClass c m fs p) {a : Obj} (ha : a.length = fs.length) : valuesOf (p.objects a []).this p.names = a := by
  have hn : p.names.Nodup := by rw [h.names]; exact h.nodup
  exact lookup_zip_map hn (by rw [h.names]; simp [ha, h.len])

/-- A function that returns a member. -/
theorem call_return (h : IsClass c m fs p) {i : Nat} {f : FieldD} {g : QtPb.Field} (hi : m.fields[i]? = some f) (hg : fs[i]? = some g) {a : Obj}
    (ha : a.length = fs.length) {x : Val} (hx : a[i]? = some x) : p.callGetter lib (returnBody f.prop) a = .ok (.inl (g.ty, x), a, []) := by
  have ok := h.field (zip_at hi hg)
  unfold ClassText.callGetter runNullary
  rw [(reads_returnBody f.prop).stmts]
  simp only [execAll, execOne, own', eval, name_own ok.has (locals := []) rfl, Res.bind_eq, Res.bind, Option.getD_some]
  rw [read_member ok.has]
  simp only [Objects.get, this_at h ha hi hx, values_same h ha]
  rfl

/-- A function that returns the message behind a member. -/
theorem call_deref (h : IsClass c m fs p) {i : Nat} {f : FieldD} {g : QtPb.Field} (hi : m.fields[i]? = some f) (hg : fs[i]? = some g) {k : Nat}
    (hk : g.ty = .msg k) {a : Obj} (ha : a.length = fs.length) {x : Val} (hx : a[i]? = some x) :
    p.callGetter lib (Src.getterBody f.prop) a = .ok (.inr (k, behind lib k x), a, []) := by
  have ok := h.field (zip_at hi hg)
  have hf : HasField p.cls f (.msg k) := hk ▸ ok.has
  unfold ClassText.callGetter runNullary
  rw [(reads_getter f.prop).stmts]
  simp only [execAll, execOne, own', eval, name_own hf (locals := []) rfl, Res.bind_eq, Res.bind, Option.getD_some, derefValue]
  rw [read_content hf]
  simp only [Objects.get, this_at h ha hi hx, values_same h ha]
  rfl

/-- A function that returns the pointer to the message behind a member. -/
theorem call_get (h : IsClass c m fs p) {i : Nat} {f : FieldD} {g : QtPb.Field} (hi : m.fields[i]? = some f) (hg : fs[i]? = some g) {k : Nat}
    (hk : g.ty = .msg k) {a : Obj} (ha : a.length = fs.length) :
    p.callPointer lib (Src.pGetterBody f.prop) a = .ok (.own .this (mem' f.prop), a, []) := by
  have ok := h.field (zip_at hi hg)
  have hf : HasField p.cls f (.msg k) := hk ▸ ok.has
  unfold ClassText.callPointer runNullary
  rw [(reads_pGetter f.prop).stmts]
  simp only [execAll, execOne, eval_got hf (locals := []) rfl, Res.bind_eq, Res.bind, Option.getD_some, values_same h ha]
  rfl

theorem call_pSetter (h : IsClass c m fs p) {f : FieldD} (hs : p.functions.find? (·.1 == f.setter ++ text! "_p") =
      some (f.setter ++ text! "_p", f.prop, Src.pSetterBody f.prop)) {i : Nat} {g : QtPb.Field}
    (hi : m.fields[i]? = some f) (hg : fs[i]? = some g) {k : Nat} (hk : g.ty = .msg k) {a : Obj} (ha : a.length = fs.length) :
    (∀ o, p.callSetter lib (f.setter ++ text! "_p") (.pointer (.given k o)) a = .ok (a.set i (.msg o), [(.this, signalName f)])) ∧
    p.callSetter lib (f.setter ++ text! "_p") (.pointer .null) a = .ok (a.set i .msgNull, [(.this, signalName f)]) ∧
    p.callSetter lib (f.setter ++ text! "_p") (.pointer (.own .this (mem' f.prop))) a = .ok (a, []) := by
  have ok := h.field (zip_at hi hg)
  have hf : HasField p.cls f (.msg k) := hk ▸ ok.has
  have hn : p.names.Nodup := by rw [h.names]; exact h.nodup
  have hl : a.length = p.names.length := by rw [h.names]; simp [ha, h.len]
  have hs' : p.cls.functions.find? (·.1 == f.setter ++ text! "_p") = some (f.setter ++ text! "_p", f.prop, Src.pSetterBody f.prop) := hs
  have put : ∀ v, valuesOf (((p.objects a []).set .this (mem' f.prop) v).emit .this (sig' f.prop)).this p.names = a.set i v := fun v =>
    set_values hn hl (name_at h hi) v
  unfold ClassText.callSetter
  refine ⟨fun o => ?_, ?_, ?_⟩ <;> rw [callFn, hs'] <;> dsimp only <;> rw [run_pSetter hf]
  · simp only [samePointer, resetPointer, hf.type, Res.bind, Bool.false_eq_true, if_false, if_true, put]
    rfl
  · simp only [samePointer, resetPointer, hf.type, Res.bind, Bool.false_eq_true, if_false, put]
    rfl
  · simp only [samePointer, Res.bind, decide_true, and_self, if_true, values_same h ha]
    rfl

theorem call_aliasSetter (h : IsClass c m fs p) {f : FieldD} (hs : p.functions.find? (·.1 == f.setter ++ text! "_p") =
      some (f.setter ++ text! "_p", f.prop, Src.complexSetterBody f.prop)) {i : Nat} {g : QtPb.Field}
    (hi : m.fields[i]? = some f) (hg : fs[i]? = some g) (hm : isMsg g.ty = false) {a : Obj} (ha : a.length = fs.length) {x v : Val} (hx : a[i]? = some x) :
    p.callSetter lib (f.setter ++ text! "_p") (.data g.ty v) a =
      .ok (if lib.same g.ty x v then (a, []) else (a.set i v, [(.this, signalName f)])) := by
  have ok := h.field (zip_at hi hg)
  have hn : p.names.Nodup := by rw [h.names]; exact h.nodup
  have hl : a.length = p.names.length := by rw [h.names]; simp [ha, h.len]
  have hv := this_at h ha hi hx
  unfold ClassText.callSetter
  rw [callFn]
  have hs' : p.cls.functions.find? (·.1 == f.setter ++ text! "_p") = some (f.setter ++ text! "_p", f.prop, Src.complexSetterBody f.prop) := hs
  rw [hs']
  dsimp only
  rw [run_setter ok.has hm (x := v) rfl (by simp)]
  unfold putIf
  rw [hv]
  by_cases hc : lib.same g.ty x v = true
  · simp only [hc, if_true, Res.bind, values_same h ha]
    rfl
  · simp only [hc, if_false, Res.bind, Bool.false_eq_true]
    rw [show valuesOf (((p.objects a []).set .this (mem' f.prop) v).emit .this (sig' f.prop)).this p.names = a.set i v from
      set_values hn hl (name_at h hi) v]
    rfl

end

end QtPb.TextProof
