import Verif.SpecRegister
/-
Lemmas about registrations and lookups.
-/
namespace QtPb.Gen.Reg

/-! ### The registry -/

theorem findHandler_mem {reg : List Entry} {t : CppT} {h : Handler} (hf : findHandler reg t = some h) : (t, h) ∈ reg := by
  induction reg with
  | nil => simp [findHandler] at hf
  | cons e rest ih =>
    simp only [findHandler] at hf
    cases hr : findHandler rest t with
    | some h' =>
      rw [hr] at hf
      simp only [Option.some_or, Option.some.injEq] at hf
      exact List.mem_cons_of_mem _ (ih (by rw [hr, hf]))
    | none =>
      rw [hr] at hf
      by_cases he : e.1 = t
      · simp only [Option.none_or, if_pos he, Option.some.injEq] at hf
        have : e = (t, h) := Prod.ext he hf
        rw [this]
        exact List.mem_cons_self
      · simp [he] at hf

theorem findHandler_isSome {reg : List Entry} {t : CppT} {h : Handler} (hm : (t, h) ∈ reg) : (findHandler reg t).isSome = true := by
  induction reg with
  | nil => simp at hm
  | cons e rest ih =>
    simp only [findHandler]
    rcases List.mem_cons.mp hm with he | hr
    · cases findHandler rest t <;> simp [← he]
    · cases hr' : findHandler rest t with
      | some _ => simp
      | none => rw [hr'] at ih; simp at ih; exact absurd hr ih

/-! ### What is registered -/

/-- Some handler is registered for the type. -/
def Has (p : Program) (t : CppT) : Prop := ∃ h, (t, h) ∈ registrations p

theorem mem_registrations {p : Program} {e : Entry} :
    e ∈ registrations p ↔
      (∃ c ∈ classes p, (∃ f ∈ c.fields, e ∈ registerField p c f) ∨ e = (.ptr (.cls c.path), .object (.cls c.path)) ∨
        e = (.list (.shared (.cls c.path)), .objects (.cls c.path))) ∨
      (∃ q ∈ p.fileEnums, e ∈ registerEnum (.enum q)) ∨ (∃ q ∈ p.qtTypes, e = (.qt q, .qt (.qt q))) := by
  simp only [registrations, registerClass, registerFileEnum, registerQt, List.mem_append, List.mem_flatMap, List.mem_cons, List.not_mem_nil,
    or_false, or_assoc]

theorem mem_registerField {p : Program} {c : Cls} {f : FieldD} (hw : WellFormed p f) {e : Entry} (h : e ∈ registerField p c f) :
    (f.type = .enum ∧ ∃ q, f.enumType = some q ∧ q ∈ p.enumsIn c.path ∧ e ∈ registerEnum (.enum q)) ∨
      (f.isMap = true ∧ e ∈ registerMap (.basic (p.entry (f.msgType.getD [])).1.type) (element c.package (p.entry (f.msgType.getD [])).2)) := by
  rw [registerField] at h
  by_cases he : f.type = .enum
  · obtain ⟨q, hq⟩ := hw.field.enum he
    by_cases hc : q ∈ p.enumsIn c.path
    · rw [if_pos (by simp [he, hq, hc])] at h
      refine .inl ⟨he, q, hq, hc, ?_⟩
      simpa [element, he, hq] using h
    · rw [if_neg (by simp [he, hq, hc])] at h
      by_cases hm : f.isMap = true
      · have := (hw.map hm).1
        rw [he] at this
        simp at this
      · rw [if_neg hm] at h
        simp at h
  · rw [if_neg (by simp [he])] at h
    by_cases hm : f.isMap = true
    · rw [if_pos hm] at h
      obtain ⟨_, _, h1, h2, h3⟩ := hw.map hm
      refine .inr ⟨hm, ?_⟩
      have hk : element c.package (p.entry (f.msgType.getD [])).1 = .basic (p.entry (f.msgType.getD [])).1.type := by
        simp only [element]
      simpa only [hk] using h
    · rw [if_neg hm] at h
      simp at h

theorem element_cases (package : List Str) (f : FieldD) (hn : Named f) :
    (f.type ≠ .message ∧ f.type ≠ .enum ∧ scalarBuiltin f.type = true ∧ element package f = .basic f.type) ∨
      (∃ q, f.type = .enum ∧ f.enumType = some q ∧ element package f = .enum q) ∨
      (∃ q, f.type = .message ∧ f.msgType = some q ∧ StandsForQt package q ∧ element package f = .qt q) ∨
      (∃ q, f.type = .message ∧ f.msgType = some q ∧ ¬ StandsForQt package q ∧ element package f = .cls q) := by
  by_cases hm : f.type = .message
  · obtain ⟨q, hq⟩ := hn.message hm
    by_cases hs : StandsForQt package q
    · refine .inr (.inr (.inl ⟨q, hm, hq, hs, ?_⟩))
      obtain ⟨h1, h2⟩ := hs
      simp [element, hm, hq, isQtType, h1, h2]
    · refine .inr (.inr (.inr ⟨q, hm, hq, hs, ?_⟩))
      have : isQtType package f = false := by
        simp only [isQtType, hq]
        by_cases h1 : q.dropLast = [kQtProtobuf]
        · by_cases h2 : package = [kQtProtobuf]
          · simp [h2]
          · exact absurd ⟨h1, h2⟩ hs
        · simp [h1]
      simp [element, hm, hq, this]
  · by_cases he : f.type = .enum
    · obtain ⟨q, hq⟩ := hn.enum he
      exact .inr (.inl ⟨q, he, hq, by simp [element, he, hq]⟩)
    · refine .inl ⟨hm, he, ?_, ?_⟩
      · have := hn.noGroup
        cases ht : f.type <;> simp_all [scalarBuiltin]
      · simp only [element]

variable {p : Program} (hw : ∀ c ∈ classes p, ∀ f ∈ c.fields, WellFormed p f)

include hw in
/-- All registrations, by shape. -/
theorem registrations_cases {e : Entry} (h : e ∈ registrations p) :
    (∃ q, ClassGenerated p q ∧ (e = (.ptr (.cls q), .object (.cls q)) ∨ e = (.list (.shared (.cls q)), .objects (.cls q)))) ∨
      (∃ q, EnumRegistered p q ∧ (e = (.enum q, .enum (.enum q)) ∨ e = (.list (.enum q), .enums (.enum q)))) ∨
      (∃ q ∈ p.qtTypes, e = (.qt q, .qt (.qt q))) ∨
      (∃ k t, e = (.map (.basic k) (.basic t), .map (.basic k) (.basic t))) ∨
      (∃ k q, e = (.map (.basic k) (.enum q), .map (.basic k) (.enum q))) ∨
      (∃ k q, e = (.map (.basic k) (.qt q), .map (.basic k) (.qt q))) ∨
      (∃ k q, e = (.map (.basic k) (.shared (.cls q)), .map (.basic k) (.cls q))) := by
  rcases mem_registrations.mp h with ⟨c, hc, h⟩ | ⟨q, hq, h⟩ | ⟨q, hq, h⟩
  · rcases h with ⟨f, hf, h⟩ | h | h
    · rcases mem_registerField (hw c hc f hf) h with ⟨ht, q, hq, hl, h⟩ | ⟨hm, h⟩
      · refine .inr (.inl ⟨q, .inr ⟨c, hc, hl, f, hf, ht, hq⟩, ?_⟩)
        simpa [registerEnum] using h
      · rcases element_cases c.package _ ((hw c hc f hf).map hm).2.1 with ⟨_, _, _, he⟩ | ⟨q, _, _, he⟩ | ⟨q, _, _, _, he⟩ | ⟨q, _, _, _, he⟩
        · rw [he] at h
          simp only [registerMap, isObject] at h
          exact .inr (.inr (.inr (.inl ⟨_, _, by simpa using h⟩)))
        · rw [he] at h
          simp only [registerMap, isObject] at h
          exact .inr (.inr (.inr (.inr (.inl ⟨_, _, by simpa using h⟩))))
        · rw [he] at h
          simp only [registerMap, isObject] at h
          exact .inr (.inr (.inr (.inr (.inr (.inl ⟨_, _, by simpa using h⟩)))))
        · rw [he] at h
          simp only [registerMap, isObject] at h
          exact .inr (.inr (.inr (.inr (.inr (.inr ⟨_, _, by simpa using h⟩)))))
    · exact .inl ⟨c.path, ⟨c, hc, rfl⟩, .inl h⟩
    · exact .inl ⟨c.path, ⟨c, hc, rfl⟩, .inr h⟩
  · refine .inr (.inl ⟨q, .inl hq, ?_⟩)
    simpa [registerEnum] using h
  · exact .inr (.inr (.inl ⟨q, hq, h⟩))

include hw in
theorem registered_right {t : CppT} {h : Handler} (hm : (t, h) ∈ registrations p) : Right t (.registered h) := by
  rcases registrations_cases hw hm with ⟨q, _, h | h⟩ | ⟨q, _, h | h⟩ | ⟨q, _, h⟩ | ⟨k, t, h⟩ | ⟨k, q, h⟩ | ⟨k, q, h⟩ | ⟨k, q, h⟩ <;>
    · obtain ⟨rfl, rfl⟩ := Prod.mk.inj h
      constructor

theorem right_unique {t : CppT} {a b : Handler} (ha : Right t (.registered a)) (hb : Right t (.registered b)) : a = b := by
  cases ha <;> cases hb <;> rfl

/-! ### Which types have a handler -/

include hw in
theorem has_class (q : Path) : Has p (.ptr (.cls q)) ↔ ClassGenerated p q := by
  constructor
  · rintro ⟨h, hm⟩
    have := registrations_cases hw hm
    simp only [Prod.mk.injEq, CppT.ptr.injEq, CppT.cls.injEq, reduceCtorEq, false_and, or_false, and_false, exists_false] at this
    obtain ⟨q', hg, rfl, _⟩ := this
    exact hg
  · rintro ⟨c, hc, rfl⟩
    exact ⟨_, mem_registrations.mpr (.inl ⟨c, hc, .inr (.inl rfl)⟩)⟩

include hw in
theorem has_classes (q : Path) : Has p (.list (.shared (.cls q))) ↔ ClassGenerated p q := by
  constructor
  · rintro ⟨h, hm⟩
    have := registrations_cases hw hm
    simp only [Prod.mk.injEq, CppT.list.injEq, CppT.shared.injEq, CppT.cls.injEq, reduceCtorEq, false_and, false_or, or_false, and_false,
      exists_false] at this
    obtain ⟨q', hg, rfl, _⟩ := this
    exact hg
  · rintro ⟨c, hc, rfl⟩
    exact ⟨_, mem_registrations.mpr (.inl ⟨c, hc, .inr (.inr rfl)⟩)⟩

theorem enum_mem {q : Path} (h : EnumRegistered p q) {e : Entry} (he : e ∈ registerEnum (.enum q)) : e ∈ registrations p := by
  rcases h with h | ⟨c, hc, hl, f, hf, ht, hq⟩
  · exact mem_registrations.mpr (.inr (.inl ⟨q, h, he⟩))
  · refine mem_registrations.mpr (.inl ⟨c, hc, .inl ⟨f, hf, ?_⟩⟩)
    rw [registerField, if_pos (by simp [ht, hq, hl])]
    simpa [element, ht, hq] using he

include hw in
theorem has_enum (q : Path) : Has p (.enum q) ↔ EnumRegistered p q := by
  constructor
  · rintro ⟨h, hm⟩
    have := registrations_cases hw hm
    simp only [Prod.mk.injEq, CppT.enum.injEq, reduceCtorEq, false_and, false_or, or_false, and_false, exists_false] at this
    obtain ⟨q', hg, rfl, _⟩ := this
    exact hg
  · intro h
    exact ⟨_, enum_mem h (e := (.enum q, .enum (.enum q))) (by simp [registerEnum])⟩

include hw in
theorem has_enums (q : Path) : Has p (.list (.enum q)) ↔ EnumRegistered p q := by
  constructor
  · rintro ⟨h, hm⟩
    have := registrations_cases hw hm
    simp only [Prod.mk.injEq, CppT.list.injEq, CppT.enum.injEq, reduceCtorEq, false_and, false_or, or_false, and_false,
      exists_false] at this
    obtain ⟨q', hg, rfl, _⟩ := this
    exact hg
  · intro h
    exact ⟨_, enum_mem h (e := (.list (.enum q), .enums (.enum q))) (by simp [registerEnum])⟩

include hw in
theorem has_qt (q : Path) : Has p (.qt q) ↔ q ∈ p.qtTypes := by
  constructor
  · rintro ⟨h, hm⟩
    have := registrations_cases hw hm
    simp only [Prod.mk.injEq, CppT.qt.injEq, reduceCtorEq, false_and, false_or, or_false, and_false, exists_false] at this
    obtain ⟨q', hg, rfl, _⟩ := this
    exact hg
  · intro h
    exact ⟨_, mem_registrations.mpr (.inr (.inr ⟨q, h, rfl⟩))⟩

include hw in
theorem not_has_qts (q : Path) : ¬ Has p (.list (.qt q)) := by
  rintro ⟨h, hm⟩
  have := registrations_cases hw hm
  simp at this

include hw in
theorem not_has_scalars (t : FType) : ¬ Has p (.list (.basic t)) := by
  rintro ⟨h, hm⟩
  have := registrations_cases hw hm
  simp at this

include hw in
theorem not_has_sharedQt (k : CppT) (q : Path) : ¬ Has p (.map k (.shared (.qt q))) := by
  rintro ⟨h, hm⟩
  have := registrations_cases hw hm
  simp at this

/-! ### Lookups -/

variable {reg : List Entry} (hr : AnyOrder p reg)

include hr in
theorem serve_has (t : CppT) (hb : builtin t = false) : (serve reg t).isSome = true ↔ Has p t := by
  simp only [serve, hb, Bool.false_eq_true, if_false, Option.isSome_map]
  constructor
  · intro h
    obtain ⟨x, hx⟩ := Option.isSome_iff_exists.mp h
    exact ⟨x, (hr _).mp (findHandler_mem hx)⟩
  · rintro ⟨h, hm⟩
    exact findHandler_isSome ((hr _).mpr hm)

include hw hr in
theorem serve_right {t : CppT} {s : Server} (h : serve reg t = some s) : Right t s := by
  simp only [serve] at h
  by_cases hb : builtin t = true
  · rw [if_pos hb] at h
    cases h
    cases t with
    | basic t => exact .scalar t
    | list u =>
      cases u with
      | basic t => exact .scalars t
      | _ => simp [builtin] at hb
    | _ => simp [builtin] at hb
  · rw [if_neg hb] at h
    obtain ⟨x, hx, rfl⟩ := Option.map_eq_some_iff.mp h
    exact registered_right hw ((hr _).mp (findHandler_mem hx))

end QtPb.Gen.Reg
