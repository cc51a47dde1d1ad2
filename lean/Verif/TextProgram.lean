import Verif.SpecCppProgram
import Verif.TextInline5
import Verif.TextLib
import Verif.PropsGenDefs
import Verif.PropsGenWords
/-
The classes read from the header and the source of a file. (Helpers for the theorems about generated programs.)
-/
set_option linter.unusedVariables false
set_option maxRecDepth 100000

namespace QtPb.TextProof
open QtPb.Gen QtPb.Gen.Text QtPb.Gen.Text.Spec QtPb.SpecCpp

theorem filter_key {α β κ : Type} [BEq κ] [LawfulBEq κ] {g : β → List α} {key : α → κ} {kb : β → κ} (h : ∀ b x, x ∈ g b → key x = kb b) :
    ∀ {l : List β} {b : β}, (l.map kb).Nodup → b ∈ l → (l.flatMap g).filter (fun x => key x == kb b) = g b
  | [], _, _, hb => by cases hb
  | y :: l, b, hn, hb => by
    rw [List.map_cons, List.nodup_cons] at hn
    rw [List.flatMap_cons, List.filter_append]
    have none' : ∀ (z w : β), kb z ≠ kb w → (g z).filter (fun x => key x == kb w) = [] := fun z w e => by
      apply List.filter_eq_nil_iff.2
      intro x hx
      rw [h z x hx]
      simpa using e
    rcases List.mem_cons.1 hb with rfl | hb
    · have h1 : (g b).filter (fun x => key x == kb b) = g b := List.filter_eq_self.2 fun x hx => by rw [h b x hx]; exact beq_self_eq_true _
      have h2 : (l.flatMap g).filter (fun x => key x == kb b) = [] := by
        apply List.filter_eq_nil_iff.2
        intro x hx
        obtain ⟨z, hz, hx⟩ := List.mem_flatMap.1 hx
        rw [h z x hx]
        have : kb z ≠ kb b := fun e => hn.1 (e ▸ List.mem_map.2 ⟨z, hz, rfl⟩)
        simpa using this
      rw [h1, h2, List.append_nil]
    · have : kb y ≠ kb b := fun e => hn.1 (e ▸ List.mem_map.2 ⟨b, hb, rfl⟩)
      rw [none' y b this, List.nil_append]
      exact filter_key h hn.2 hb

section
variable {o : Options} {c : Ctx} {m : Cur}

theorem classFns_cls (cls : List Text) : ∀ x ∈ classFns o c m cls, x.cls = cls := by
  intro x hx
  simp only [classFns, List.mem_append, List.mem_cons, List.not_mem_nil, or_false, List.mem_map, List.mem_flatMap] at hx
  rcases hx with (((((rfl | rfl) | ⟨n, -, rfl⟩) | hx) | hx) | ⟨f, -, hx⟩) | ⟨f, -, hx⟩
  · rfl
  · rfl
  · rfl
  · unfold dateFns at hx; split at hx <;> simp at hx; rcases hx with rfl | rfl <;> rfl
  · simp [commonFns] at hx; rcases hx with rfl | rfl | rfl | rfl | rfl | rfl <;> rfl
  · unfold getterFns at hx
    simp only [List.mem_append] at hx
    rcases hx with hx | hx
    · split at hx <;> simp at hx; rcases hx with rfl | rfl <;> rfl
    · split at hx <;> simp at hx; rw [hx]
  · unfold setterFns at hx
    (repeat' split at hx) <;> simp at hx
    · rcases hx with rfl | rfl <;> rfl
    · rw [hx]

theorem classDeclared_cls (cls : List Text) : ∀ x ∈ classDeclared o c m cls, x.cls = cls := by
  intro x hx
  simp only [classDeclared, List.mem_append, List.mem_map, List.mem_flatMap] at hx
  rcases hx with ((⟨f, -, hx⟩ | ⟨f, -, hx⟩) | ⟨f, -, hx⟩) | ⟨f, -, rfl⟩
  · unfold getterDeclared at hx
    simp only [List.mem_append] at hx
    rcases hx with hx | hx <;> split at hx <;> simp at hx <;> rw [hx] <;> rfl
  · unfold setterDeclared at hx; split at hx <;> simp at hx; rw [hx]; rfl
  · unfold aliasDeclared at hx; split at hx <;> simp at hx; rcases hx with rfl | rfl <;> rfl
  · rfl

theorem filterMap_nil' {α β : Type} {f : α → Option β} {l : List α} (h : ∀ x ∈ l, f x = none) : l.filterMap f = [] := by
  induction l with
  | nil => rfl
  | cons x l ih => rw [List.filterMap_cons, h x (by simp)]; exact ih fun y hy => h y (by simp [hy])

/-- The functions of a class. -/
def classFunctions (o : Options) (c : Ctx) (m : Cur) (cls : List Text) : List Function :=
  (classFns o c m cls).map Fn.function ++ (classDeclared o c m cls).filterMap Declared.function

end

section
variable {u : Sources} (hu : u.Plain)
include hu

theorem source_functions {b : Printed × List FieldD} (hb : b ∈ u.bodies) :
    ((fnsIn (sourceItems u.o u.c u.header u.enums u.msgs)).filter (·.cls == b.1.cpp)) = classFns u.o u.c ⟨b.1.msg, b.2⟩ b.1.cpp := by
  have hn := List.nodup_append.1 hu.distinct
  rw [source_fns hu.file hu.msgs, List.filter_append]
  have h1 : (u.enums.map fun e => (⟨cpp! "void", around u.o u.c ++ [gadget e], cpp! "registerTypes", [], [], enumFnBody u.o u.c e⟩ : Fn)).filter
      (·.cls == b.1.cpp) = [] := by
    apply List.filter_eq_nil_iff.2
    intro x hx
    obtain ⟨e, he, rfl⟩ := List.mem_map.1 hx
    have := hn.2.2 _ (List.mem_map.2 ⟨e, he, rfl⟩) _ (List.mem_map.2 ⟨b, hb, rfl⟩)
    simp only [beq_iff_eq]
    exact this
  rw [h1, List.nil_append]
  exact filter_key (kb := fun b : Printed × List FieldD => b.1.cpp) (fun b x hx => classFns_cls _ x hx) hn.2.1 hb

theorem header_declared {b : Printed × List FieldD} (hb : b ∈ u.bodies) :
    ∃ text, u.headerText = some text ∧ ∃ ds, SpecCpp.declared text = some ds ∧
      ds.filter (·.cls == b.1.cpp) = classDeclared u.o u.c ⟨b.1.msg, b.2⟩ b.1.cpp := by
  have hn := List.nodup_append.1 hu.distinct
  obtain ⟨text, h1, h2⟩ := (hg_header hu.file hu.external hu.internal hu.enums hu.msgs).declared
  refine ⟨text, h1, _, h2, ?_⟩
  have e : (u.msgs.flatMap fun msg => (bodies ([] ++ outerNs u.o u.c) u.c.package msg).flatMap (bodyDeclared u.o u.c)) =
      u.bodies.flatMap (bodyDeclared u.o u.c) := by
    unfold Sources.bodies
    rw [List.flatMap_assoc]
    rfl
  rw [e, List.filter_append]
  have h1 : (u.enums.flatMap (gadgetDeclared u.o u.c [])).filter (·.cls == b.1.cpp) = [] := by
    apply List.filter_eq_nil_iff.2
    intro x hx
    obtain ⟨e, he, hx⟩ := List.mem_flatMap.1 hx
    simp only [gadgetDeclared, List.mem_cons, List.not_mem_nil, or_false] at hx
    subst hx
    have := hn.2.2 _ (List.mem_map.2 ⟨e, he, rfl⟩) _ (List.mem_map.2 ⟨b, hb, rfl⟩)
    simp only [beq_iff_eq]
    exact this
  rw [h1, List.nil_append]
  exact filter_key (kb := fun b : Printed × List FieldD => b.1.cpp) (fun b x hx => classDeclared_cls _ x hx) hn.2.1 hb

end

/-! ### Names -/

theorem toUpper_ne_s (x : Char) : x.toUpper ≠ 's' := by
  intro e
  have := upper_not_lower x
  rw [e] at this
  exact absurd this (by decide)

theorem class_ne_set (n : Text) (t : Text) : upperCaseName n ≠ text! "set" ++ t := by
  cases n with
  | nil => intro e; cases e
  | cons x l =>
    intro e
    simp only [upperCaseName, List.cons_append, List.cons.injEq] at e
    exact toUpper_ne_s x e.1

theorem word_ne_operator {n : Text} (h : Name n) (t : Text) (ht : '=' ∈ t) : n ≠ t := by
  intro e
  subst e
  exact absurd (h.2.1 _ ht) (by decide)

theorem mem_flatMap_unique {α β : Type} {h : α → List β} : ∀ {l : List α}, (l.flatMap h).Nodup → ∀ {f g : α} {x : β}, f ∈ l → g ∈ l → x ∈ h f →
    x ∈ h g → f = g
  | [], _, f, _, _, hf, _, _, _ => by cases hf
  | a :: l, hn, f, g, x, hf, hg, hx, hy => by
    rw [List.flatMap_cons, List.nodup_append] at hn
    rcases List.mem_cons.1 hf with e | hf' <;> rcases List.mem_cons.1 hg with e' | hg'
    · rw [e, e']
    · subst e; exact absurd rfl (hn.2.2 x hx x (List.mem_flatMap.2 ⟨g, hg', hy⟩))
    · subst e'; exact absurd rfl (hn.2.2 x hy x (List.mem_flatMap.2 ⟨f, hf', hx⟩))
    · exact mem_flatMap_unique hn.2.1 hf' hg' hx hy

theorem find_unique {α β : Type} [BEq α] [LawfulBEq α] {l : List (α × β)} {x : α × β} (hx : x ∈ l) (hu : ∀ y ∈ l, y.1 = x.1 → y = x) :
    l.find? (·.1 == x.1) = some x := by
  cases hf : l.find? (·.1 == x.1) with
  | none => exact absurd (beq_self_eq_true x.1) (by simpa using List.find?_eq_none.1 hf x hx)
  | some y =>
    have h1 := List.find?_some hf
    have h2 := List.mem_of_find?_eq_some hf
    rw [hu y h2 (by simpa using h1)]

/-! ### Functions of a class -/

section
variable {o : Options} {c : Ctx} {m : Cur}

/-- The setters of a field. -/
def fieldSetters (o : Options) (c : Ctx) (f : FieldD) : List (Text × Text × List Lexeme) :=
  [(f.setter, f.prop, if isPureMessage c.package f then Src.messageSetterBody f.prop else Src.complexSetterBody f.prop)] ++
  (if isPureMessage c.package f then [(f.setter ++ text! "_p", f.prop, Src.pSetterBody f.prop)] else []) ++
  (if hasQmlAlias o.qml f then [(f.setter ++ text! "_p", f.prop, Src.complexSetterBody f.prop)] else [])

theorem pure_message {f : FieldD} (h : isPureMessage c.package f = true) : f.type = .message := by
  unfold isPureMessage at h
  simp at h
  exact h.1.1.1

theorem unary_getter {cls : List Text} {f : FieldD} : ∀ x ∈ getterFns o c m cls f, x.params = [] := by
  intro x hx
  unfold getterFns at hx
  simp only [List.mem_append] at hx
  rcases hx with hx | hx
  · split at hx <;> simp at hx; rcases hx with rfl | rfl <;> rfl
  · split at hx <;> simp at hx; rw [hx]

theorem unary_date {cls : List Text} : ∀ x ∈ dateFns m cls, x.params.length ≠ 1 := by
  intro x hx
  unfold dateFns at hx; split at hx <;> simp at hx; rcases hx with rfl | rfl <;> simp

theorem setter_unary {cls : List Text} {f : FieldD} : ∀ x ∈ setterFns o c m cls f, ∃ y ∈ fieldSetters o c f, ∃ t, x.function = ⟨y.1, [(t, y.2.1)], y.2.2⟩ := by
  intro x hx
  unfold setterFns at hx
  split at hx
  · split at hx
    · rename_i hp
      simp only [List.mem_cons, List.not_mem_nil, or_false] at hx
      rcases hx with rfl | rfl
      · exact ⟨(f.setter ++ text! "_p", f.prop, Src.pSetterBody f.prop), by simp [fieldSetters, hp], _, by simp [Fn.function, flatName]; rfl⟩
      · exact ⟨(f.setter, f.prop, Src.messageSetterBody f.prop), by simp [fieldSetters, hp], _, by simp [Fn.function, flatName]; rfl⟩
    · rename_i hp
      simp only [List.mem_cons, List.not_mem_nil, or_false] at hx
      subst hx
      exact ⟨(f.setter, f.prop, Src.complexSetterBody f.prop), by simp [fieldSetters, hp], _, by simp [Fn.function, flatName]; rfl⟩
  · cases hx

theorem declared_unary {s : List Text} {f : FieldD} : ∀ x ∈ setterDeclared o c m s f ++ aliasDeclared o c m s f,
    ∃ y ∈ fieldSetters o c f, x.function = none ∨ (∃ n b, x.function = some ⟨n, [], b⟩) ∨ ∃ t, x.function = some ⟨y.1, [(t, y.2.1)], y.2.2⟩ := by
  intro x hx
  rw [List.mem_append] at hx
  rcases hx with hx | hx
  · unfold setterDeclared at hx
    split at hx
    · rename_i hi
      simp only [List.mem_cons, List.not_mem_nil, or_false] at hx
      subst hx
      have hp : isPureMessage c.package f = false := by
        cases hp : isPureMessage c.package f with
        | false => rfl
        | true => simp [inlineSetter, pure_message hp] at hi
      exact ⟨(f.setter, f.prop, Src.complexSetterBody f.prop), by simp [fieldSetters, hp], Or.inr (Or.inr ⟨_, by rfl⟩)⟩
    · cases hx
  · unfold aliasDeclared at hx
    split at hx
    · rename_i hi
      simp only [List.mem_cons, List.not_mem_nil, or_false] at hx
      refine ⟨(f.setter ++ text! "_p", f.prop, Src.complexSetterBody f.prop), by simp [fieldSetters, hi], Or.inr ?_⟩
      rcases hx with rfl | rfl
      · exact Or.inl ⟨_, _, rfl⟩
      · exact Or.inr ⟨_, by rfl⟩
    · cases hx

/-- What is defined in front of the copies and comparisons, and behind them. -/
def beforeCommon (o : Options) (c : Ctx) (m : Cur) (cls : List Text) : List Fn :=
  [⟨[], cls, let K := className m; cpp! "~$K$", [], [], []⟩, ⟨cpp! "void", cls, cpp! "registerTypes", [], [], registerBody o c m⟩] ++
    (List.range (m.fields.length + 1)).map (ctorFn o c m cls) ++ dateFns m cls

def afterCommon (o : Options) (c : Ctx) (m : Cur) (cls : List Text) : List Function :=
  (m.fields.flatMap (getterFns o c m cls) ++ m.fields.flatMap (setterFns o c m cls)).map Fn.function ++
    (classDeclared o c m cls).filterMap Declared.function

theorem classFunctions_parts (cls : List Text) : classFunctions o c m cls =
    (beforeCommon o c m cls).map Fn.function ++ (commonFns c m cls).map Fn.function ++ afterCommon o c m cls := by
  simp only [classFunctions, classFns, beforeCommon, afterCommon, List.map_append, List.append_assoc]

/-- In front, only the constructor takes one argument. -/
theorem before_unary {cls : List Text} : ∀ x ∈ (beforeCommon o c m cls).map Fn.function, x.params.length = 1 →
    x.name = className m ∧ x.params.map (·.1) = [cpp! "QObject *"] := by
  intro x hx hl
  obtain ⟨y, hy, rfl⟩ := List.mem_map.1 hx
  have hl : y.params.length = 1 := hl
  simp only [beforeCommon, List.mem_append, List.mem_cons, List.not_mem_nil, or_false, List.mem_map] at hy
  rcases hy with ((rfl | rfl) | ⟨n, -, rfl⟩) | hy
  · simp at hl
  · simp at hl
  · refine ⟨by simp [Fn.function, ctorFn, flatName], ?_⟩
    simp only [ctorFn, List.length_append, List.length_map, List.length_cons, List.length_nil] at hl
    have h0 : m.fields.take n = [] := List.length_eq_zero_iff.1 (by omega)
    simp [Fn.function, ctorFn, h0, objectParam]
  · exact absurd hl (unary_date y hy)

/-- Behind, only setters take one argument. -/
theorem after_unary {cls : List Text} : ∀ x ∈ afterCommon o c m cls, x.params.length = 1 →
    ∃ f ∈ m.fields, ∃ y ∈ fieldSetters o c f, ∃ t, x = ⟨y.1, [(t, y.2.1)], y.2.2⟩ := by
  intro x hx hl
  simp only [afterCommon, List.mem_append, List.mem_map, List.mem_filterMap, List.mem_flatMap] at hx
  rcases hx with ⟨y, ⟨f, hf, hy⟩ | ⟨f, hf, hy⟩, rfl⟩ | ⟨y, hy, hx⟩
  · have hl : y.params.length = 1 := hl
    rw [unary_getter y hy] at hl; simp at hl
  · obtain ⟨z, hz, t, e⟩ := setter_unary y hy
    exact ⟨f, hf, z, hz, t, e⟩
  · simp only [classDeclared, List.mem_append, List.mem_map, List.mem_flatMap] at hy
    have key : ∀ f ∈ m.fields, y ∈ setterDeclared o c m cls f ++ aliasDeclared o c m cls f →
        ∃ f ∈ m.fields, ∃ y ∈ fieldSetters o c f, ∃ t, x = ⟨y.1, [(t, y.2.1)], y.2.2⟩ := fun f hf hy => by
      obtain ⟨z, hz, h | ⟨n, b, h⟩ | ⟨t, h⟩⟩ := declared_unary y hy
      · rw [h] at hx; cases hx
      · rw [h] at hx; cases hx; simp at hl
      · rw [h] at hx; cases hx; exact ⟨f, hf, z, hz, t, rfl⟩
    rcases hy with ((⟨f, hf, hy⟩ | ⟨f, hf, hy⟩) | ⟨f, hf, hy⟩) | ⟨f, hf, rfl⟩
    · unfold getterDeclared at hy
      simp only [List.mem_append] at hy
      rcases hy with hy | hy <;> split at hy <;> simp at hy <;> subst hy <;> cases hx <;> simp at hl
    · exact key f hf (List.mem_append_left _ hy)
    · exact key f hf (List.mem_append_right _ hy)
    · cases hx

theorem fieldSetters_name {f : FieldD} : ∀ y ∈ fieldSetters o c f, ∃ t, y.1 = text! "set" ++ t := by
  intro y hy
  simp only [fieldSetters, List.mem_append, List.mem_cons, List.not_mem_nil, or_false] at hy
  rcases hy with (rfl | hy) | hy
  · exact ⟨_, rfl⟩
  · split at hy
    · simp only [List.mem_cons, List.not_mem_nil, or_false] at hy; subst hy; exact ⟨upperCaseName f.prop ++ text! "_p", rfl⟩
    · cases hy
  · split at hy
    · simp only [List.mem_cons, List.not_mem_nil, or_false] at hy; subst hy; exact ⟨upperCaseName f.prop ++ text! "_p", rfl⟩
    · cases hy

theorem taking_none {name : Text} {type : List Lexeme} {x : Function} (h : x.params.length = 1 → ¬ (x.name = name ∧ x.params.map (·.1) = [type])) :
    Function.taking name type x = none := by
  unfold Function.taking
  cases hp : x.params with
  | nil => rfl
  | cons p l =>
    cases l with
    | cons _ _ => rfl
    | nil =>
      dsimp only
      rw [if_neg]
      have := h (by rw [hp]; rfl)
      rwa [hp, List.map_cons, List.map_nil, List.cons.injEq, and_iff_left rfl] at this

theorem filterMap_taking {name : Text} {type : List Lexeme} {cls : List Text} (hs : ∀ t, name ≠ text! "set" ++ t) (ht : type ≠ cpp! "QObject *") :
    (classFunctions o c m cls).filterMap (Function.taking name type) =
      ((commonFns c m cls).map Fn.function).filterMap (Function.taking name type) := by
  rw [classFunctions_parts, List.filterMap_append, List.filterMap_append]
  have h1 : ((beforeCommon o c m cls).map Fn.function).filterMap (Function.taking name type) = [] := filterMap_nil' fun x hx =>
    taking_none fun hl ⟨_, h2⟩ => by
      have := (before_unary x hx hl).2
      rw [h2] at this
      exact ht (by simpa using this)
  have h2 : (afterCommon o c m cls).filterMap (Function.taking name type) = [] := filterMap_nil' fun x hx =>
    taking_none fun hl ⟨h1, _⟩ => by
      obtain ⟨f, hf, y, hy, t, rfl⟩ := after_unary x hx hl
      obtain ⟨t', e⟩ := fieldSetters_name y hy
      exact hs t' (h1.symm.trans e)
  rw [h1, h2, List.nil_append, List.append_nil]

theorem param_name : sourceName m.fields = paramName m := by
  unfold sourceName paramName
  cases m.fields <;> rfl

/-- The copies and moves of a class. -/
theorem the_functions (hK : Name (className m)) (cls : List Text) :
    let K := className m
    theFunction (classFunctions o c m cls) (text! "operator=") (cpp! "const $K$ &") = some (paramName m, assignBody c m) ∧
    theFunction (classFunctions o c m cls) (text! "operator=") (cpp! "$K$ &&") = some (paramName m, moveAssignBody c m) ∧
    theFunction (classFunctions o c m cls) K (cpp! "const $K$ &") = some (paramName m, copyBody c m) ∧
    theFunction (classFunctions o c m cls) K (cpp! "$K$ &&") = some (paramName m, moveBody c m) := by
  intro K
  have k1 : className m ≠ text! "operator=" := word_ne_operator hK _ (by decide)
  have k2 : className m ≠ text! "operator==" := word_ne_operator hK _ (by decide)
  have k3 : className m ≠ text! "operator!=" := word_ne_operator hK _ (by decide)
  have s1 : ∀ t, text! "operator=" ≠ text! "set" ++ t := by intro t e; cases e
  have s2 : ∀ t, className m ≠ text! "set" ++ t := fun t => class_ne_set _ t
  unfold theFunction
  rw [filterMap_taking s1 (by simp), filterMap_taking s1 (by simp), filterMap_taking s2 (by simp), filterMap_taking s2 (by simp)]
  have p := param_name (m := m)
  refine ⟨?_, ?_, ?_, ?_⟩ <;>
    simp [commonFns, Fn.function, flatName, Function.taking, List.filterMap_cons, K, k1, k2, k3, k1.symm, k2.symm, k3.symm, p]

theorem unary_some {x : Function} {y : Text × Text × List Lexeme} (h : x.unary = some y) :
    x.params.length = 1 ∧ x.name = y.1 ∧ x.params.map (·.2) = [y.2.1] ∧ x.body = y.2.2 := by
  unfold Function.unary at h
  split at h
  · rename_i p hp
    cases h
    rw [hp]
    exact ⟨rfl, rfl, rfl, rfl⟩
  · cases h

theorem find_append {α : Type} {l l' : List α} {p : α → Bool} (h : ∀ x ∈ l, p x = false) : (l ++ l').find? p = l'.find? p := by
  rw [List.find?_append, List.find?_eq_none.2 (by simpa using h)]; rfl

/-- The comparisons of a class. -/
theorem find_operators (hK : Name (className m)) (cls : List Text) :
    ((classFunctions o c m cls).filterMap Function.unary).find? (·.1 == text! "operator==") = some (text! "operator==", paramName m, equalBody c m) ∧
    ((classFunctions o c m cls).filterMap Function.unary).find? (·.1 == text! "operator!=") =
      some (text! "operator!=", text! "other", Src.notEqualBody) := by
  have k2 : className m ≠ text! "operator==" := word_ne_operator hK _ (by decide)
  have k3 : className m ≠ text! "operator!=" := word_ne_operator hK _ (by decide)
  have before : ∀ name, className m ≠ name → ∀ x ∈ ((beforeCommon o c m cls).map Fn.function).filterMap Function.unary, (x.1 == name) = false := by
    intro name hn x hx
    obtain ⟨y, hy, hx⟩ := List.mem_filterMap.1 hx
    have hu := unary_some hx
    have := (before_unary y hy hu.1).1
    rw [← hu.2.1, this]
    simpa using hn
  rw [classFunctions_parts, List.filterMap_append, List.filterMap_append, List.append_assoc, find_append (before _ k2), find_append (before _ k3)]
  have p := param_name (m := m)
  constructor <;>
    simp [commonFns, Fn.function, flatName, Function.unary, List.filterMap_cons, k2, k3, p, List.find?_cons]

/-- The setter of a field. -/
def mainSetter (c : Ctx) (f : FieldD) : Text × Text × List Lexeme :=
  (f.setter, f.prop, if isPureMessage c.package f then Src.messageSetterBody f.prop else Src.complexSetterBody f.prop)

theorem mainSetter_mem {f : FieldD} (hf : f ∈ m.fields) (cls : List Text) :
    mainSetter c f ∈ (classFunctions o c m cls).filterMap Function.unary := by
  have inFns : ∀ x ∈ setterFns o c m cls f, x.function.unary = some (mainSetter c f) →
      mainSetter c f ∈ (classFunctions o c m cls).filterMap Function.unary := fun x hx h =>
    List.mem_filterMap.2 ⟨x.function, List.mem_append_left _ (List.mem_map.2 ⟨x, by
      simp only [classFns, List.mem_append]
      exact Or.inr (List.mem_flatMap.2 ⟨f, hf, hx⟩), rfl⟩), h⟩
  by_cases ht : (f.type == .message || f.type == .string || f.type == .bytes) = true
  · by_cases hp : isPureMessage c.package f = true
    · refine inFns ⟨cpp! "void", cls, let S := f.setter; cpp! "$S$", [(let T := valueType o c m.path f (isList f); cpp! "const @T@ &", f.prop)], [],
        Src.messageSetterBody f.prop⟩ (by unfold setterFns; rw [if_pos ht, if_pos hp]; simp) ?_
      simp [Function.unary, Fn.function, flatName, mainSetter, hp]
    · refine inFns ⟨cpp! "void", cls, let S := f.setter; cpp! "$S$", [(let T := valueType o c m.path f (isList f); cpp! "const @T@ &", f.prop)], [],
        Src.complexSetterBody f.prop⟩ (by unfold setterFns; rw [if_pos ht, if_neg hp]; simp) ?_
      simp [Function.unary, Fn.function, flatName, mainSetter, hp]
  · have hp : isPureMessage c.package f = false := by
      cases hp : isPureMessage c.package f with
      | false => rfl
      | true => simp [pure_message hp] at ht
    have hi : inlineSetter f = true := by simpa [inlineSetter] using ht
    refine List.mem_filterMap.2 ⟨⟨set' (cap f), [(let T := valueType o c m.path f (isList f); cpp! "const @T@ &", f.prop)],
      Src.complexSetterBody f.prop⟩, List.mem_append_right _ (List.mem_filterMap.2 ⟨.fn cls (set' (cap f))
        [(let T := valueType o c m.path f (isList f); cpp! "const @T@ &", f.prop)] (Src.complexSetterBody f.prop), ?_, rfl⟩), ?_⟩
    · simp only [classDeclared, List.mem_append]
      refine Or.inl (Or.inl (Or.inr (List.mem_flatMap.2 ⟨f, hf, ?_⟩)))
      unfold setterDeclared
      rw [if_pos hi]
      simp
    · simp [Function.unary, mainSetter, hp]
      rfl

theorem find_setter (hK : Name (className m)) (hn : (m.fields.flatMap fun f => [f.setter, f.setter ++ text! "_p"]).Nodup) {f : FieldD}
    (hf : f ∈ m.fields) (cls : List Text) :
    ((classFunctions o c m cls).filterMap Function.unary).find? (·.1 == f.setter) = some (mainSetter c f) := by
  refine find_unique (x := mainSetter c f) (mainSetter_mem hf cls) fun y hy e => ?_
  obtain ⟨x, hx, hu⟩ := List.mem_filterMap.1 hy
  have h := unary_some hu
  have e : y.1 = f.setter := e
  rw [classFunctions_parts, List.mem_append, List.mem_append] at hx
  rcases hx with (hx | hx) | hx
  · have := (before_unary x hx h.1).1
    rw [h.2.1, e] at this
    exact absurd this.symm (class_ne_set _ _)
  · exfalso
    rw [e] at h
    have s2 : ∀ t, className m ≠ text! "set" ++ t := fun t => class_ne_set _ t
    simp only [commonFns, List.map_cons, List.map_nil, List.mem_cons, List.not_mem_nil, or_false] at hx
    rcases hx with rfl | rfl | rfl | rfl | rfl | rfl <;> simp only [Fn.function, flatName, List.flatMap_cons, List.flatMap_nil, List.append_nil] at h
    · exact s2 _ h.2.1
    · cases h.2.1
    · exact s2 _ h.2.1
    · cases h.2.1
    · cases h.2.1
    · cases h.2.1
  · obtain ⟨g, hg, z, hz, t, rfl⟩ := after_unary x hx h.1
    have ez : z = y := by
      have h1 : z.1 = y.1 := h.2.1
      have h2 : z.2.1 = y.2.1 := by simpa using h.2.2.1
      have h3 : z.2.2 = y.2.2 := h.2.2.2
      exact Prod.ext h1 (Prod.ext h2 h3)
    subst ez
    have hmem : z.1 ∈ [g.setter, g.setter ++ text! "_p"] := by
      simp only [fieldSetters, List.mem_append, List.mem_cons, List.not_mem_nil, or_false] at hz
      rcases hz with (rfl | hz) | hz
      · simp
      · split at hz
        · simp only [List.mem_cons, List.not_mem_nil, or_false] at hz; subst hz; simp
        · cases hz
      · split at hz
        · simp only [List.mem_cons, List.not_mem_nil, or_false] at hz; subst hz; simp
        · cases hz
    have hfg : f = g := mem_flatMap_unique hn hf hg (x := f.setter) (by simp) (by rw [← e]; exact hmem)
    subst hfg
    have hp : f.setter ++ text! "_p" ≠ f.setter := by simp
    simp only [fieldSetters, List.mem_append, List.mem_cons, List.not_mem_nil, or_false] at hz
    rcases hz with (rfl | hz) | hz
    · rfl
    · split at hz
      · simp only [List.mem_cons, List.not_mem_nil, or_false] at hz; subst hz; exact absurd e hp
      · cases hz
    · split at hz
      · simp only [List.mem_cons, List.not_mem_nil, or_false] at hz; subst hz; exact absurd e hp
      · cases hz

end

/-! ### Classes of files -/

theorem nodup_members {fields : List FieldD} (h : (fields.flatMap fun f => [f.setter, f.setter ++ text! "_p"]).Nodup) :
    (fields.map fun f => mem' f.prop).Nodup := by
  induction fields with
  | nil => simp
  | cons f l ih =>
    rw [List.flatMap_cons, List.nodup_append] at h
    rw [List.map_cons, List.nodup_cons]
    refine ⟨fun hm => ?_, ih h.2.1⟩
    obtain ⟨g, hg, e⟩ := List.mem_map.1 hm
    have e : g.prop = f.prop := by simpa [mem'] using e
    have es : g.setter = f.setter := by unfold FieldD.setter; rw [e]
    exact h.2.2 f.setter (by simp) g.setter (List.mem_flatMap.2 ⟨g, hg, by simp⟩) es.symm

theorem members_found (o : Options) (c : Ctx) (m : Cur) (cls : List Text) :
    (classDeclared o c m cls).filterMap Declared.memberName = m.fields.map fun f => mem' f.prop := by
  unfold classDeclared
  have none' : ∀ l : List Declared, (∀ x ∈ l, ∃ c n p b, x = .fn c n p b) → l.filterMap Declared.memberName = [] := fun l h =>
    filterMap_nil' fun x hx => by obtain ⟨_, _, _, _, rfl⟩ := h x hx; rfl
  rw [List.filterMap_append, none', List.nil_append, List.filterMap_map]
  · have : Declared.memberName ∘ memberDeclared o c m cls = fun f => some (mem' f.prop) := rfl
    rw [this, ← List.filterMap_eq_map]
    rfl
  · intro x hx
    simp only [List.mem_append, List.mem_flatMap] at hx
    rcases hx with (⟨f, -, hx⟩ | ⟨f, -, hx⟩) | ⟨f, -, hx⟩
    · unfold getterDeclared at hx
      simp only [List.mem_append] at hx
      rcases hx with hx | hx <;> split at hx <;> simp at hx <;> exact ⟨_, _, _, _, hx⟩
    · unfold setterDeclared at hx; split at hx <;> simp at hx; exact ⟨_, _, _, _, hx⟩
    · unfold aliasDeclared at hx; split at hx <;> simp at hx; rcases hx with hx | hx <;> exact ⟨_, _, _, _, hx⟩

/-- The class of a message, read from the text. -/
theorem class_of {u : Sources} (hu : u.Plain) {b : Printed × List FieldD} (hb : b ∈ u.bodies) {fs : List QtPb.Field} (hr : Represents u.c b.2 fs) :
    ∃ header source p, u.headerText = some header ∧ u.sourceText = some source ∧ classOf header source b.1.cpp (fs.map (·.ty)) = some p ∧
      IsClass u.c ⟨b.1.msg, b.2⟩ fs p ∧ ∀ f ∈ b.2, p.functions.find? (·.1 == f.setter) = some (mainSetter u.c f) := by
  obtain ⟨ok, hlast, -⟩ := allBodies_ok hu.file hu.msgs (show b ∈ allBodies u.o u.c u.msgs from hb)
  have hK : Name (className ⟨b.1.msg, b.2⟩) := (good_last ok.path).2
  obtain ⟨header, h1, ds, h2, h3⟩ := header_declared hu hb
  obtain ⟨header', evs, h1', h4, h5⟩ := C94_header_members_partial hu.file hu.external hu.internal hu.enums hu.msgs
  have : header' = header := Option.some.inj (h1'.symm.trans h1)
  subst this
  obtain ⟨source, h6, h7⟩ := source_items hu.file hu.header hu.enums hu.msgs
  have h8 := source_functions hu hb
  have ht := the_functions (o := u.o) (c := u.c) (m := ⟨b.1.msg, b.2⟩) hK b.1.cpp
  have hfn : functionsOf (sourceItems u.o u.c u.header u.enums u.msgs) ds b.1.cpp = classFunctions u.o u.c ⟨b.1.msg, b.2⟩ b.1.cpp := by
    unfold functionsOf classFunctions
    rw [h8, h3]
  have hmn : memberNames ds b.1.cpp = b.2.map fun f => mem' f.prop := by
    unfold memberNames
    rw [h3, members_found]
  refine ⟨header', source, ⟨(b.2.map fun f => mem' f.prop).zip (fs.map (·.ty)), signalsOf evs b.1.cpp,
    (classFunctions u.o u.c ⟨b.1.msg, b.2⟩ b.1.cpp).filterMap Function.unary, (paramName ⟨b.1.msg, b.2⟩, assignBody u.c ⟨b.1.msg, b.2⟩),
    (paramName ⟨b.1.msg, b.2⟩, moveAssignBody u.c ⟨b.1.msg, b.2⟩), (paramName ⟨b.1.msg, b.2⟩, copyBody u.c ⟨b.1.msg, b.2⟩),
    (paramName ⟨b.1.msg, b.2⟩, moveBody u.c ⟨b.1.msg, b.2⟩)⟩, h1, h6, ?_, ?_, fun f hf =>
      find_setter (o := u.o) (c := u.c) (m := ⟨b.1.msg, b.2⟩) hK hr.setters hf b.1.cpp⟩
  · unfold SpecCpp.classOf
    rw [h4, h2, h7]
    dsimp only
    rw [hfn, hlast, hmn, ht.1, ht.2.1, ht.2.2.1, ht.2.2.2]
    dsimp only
    rw [if_pos (by simp [hr.length])]
  · have ops := find_operators (o := u.o) (c := u.c) (m := ⟨b.1.msg, b.2⟩) hK b.1.cpp
    refine ⟨hr.length, ?_, hr.types, hr.noQt, nodup_members hr.setters, ?_, ?_, ops.1, ops.2, rfl, rfl, rfl, rfl⟩
    · rw [List.zip_map]
      rfl
    · intro f hf
      simp only [signalsOf, List.mem_map, List.mem_filter]
      refine ⟨(b.1.cpp, kwSignals, sig' f.prop), ⟨?_, by simp⟩, rfl⟩
      rw [h5]
      refine List.mem_append_right _ (List.mem_flatMap.2 ⟨b, hb, List.mem_map.2 ⟨(kwSignals, sig' f.prop), ?_, rfl⟩⟩)
      simp only [membersOf, List.mem_append, List.mem_map]
      exact Or.inl (Or.inr ⟨_, ⟨f, hf, rfl⟩, rfl⟩)
    · intro x hx hm
      have hf : x.1 ∈ b.2 := (List.of_mem_zip hx).1
      have := find_setter (o := u.o) (c := u.c) (m := ⟨b.1.msg, b.2⟩) hK hr.setters hf b.1.cpp
      unfold mainSetter at this
      rw [if_neg (by rw [pure_fits (hr.noQt _ hf) (hr.types x hx), hm]; simp)] at this
      exact this

theorem isProgram {env : Env} {prog : Nat → ClassText} (h : Generated env prog) : IsProgram env prog := by
  intro k
  obtain ⟨u, b, header, source, hu, hb, hr, h1, h2, h3⟩ := h k
  obtain ⟨header', source', p, h1', h2', h3', h4, -⟩ := class_of hu hb hr
  cases h1.symm.trans h1'
  cases h2.symm.trans h2'
  cases h3.symm.trans h3'
  exact ⟨_, _, h4⟩

end QtPb.TextProof
