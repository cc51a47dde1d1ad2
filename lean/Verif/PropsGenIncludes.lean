import Verif.PropsGenFiles
/-
C58 continued: enumerations, clients of services, what goes wrong, and examples.
-/
namespace QtPb.Gen
open Spec

instance (files : List Str) (dir inc file : Str) : Decidable (Opens files dir inc file) := by unfold Opens; infer_instance

theorem includes_iff {incs : List Inc} {files : List Str} {dir file : Str} : Includes incs files dir file ↔
    (incs.any fun i => match i with | .internal t => decide (Opens files dir t file) | _ => false) = true := by
  simp only [List.any_eq_true]
  constructor
  · rintro ⟨t, ht, ho⟩
    exact ⟨.internal t, ht, by simpa using ho⟩
  · rintro ⟨i, hi, ho⟩
    cases i with
    | internal t => exact ⟨t, hi, by simpa using ho⟩
    | external t => simp at ho
    | globalEnums => simp at ho

instance (incs : List Inc) (files : List Str) (dir file : Str) : Decidable (Includes incs files dir file) := decidable_of_iff _ includes_iff.symm

variable {pkgOf : Path → List Str}

/-! ### Enumerations outside of messages -/

/-- The empty text is in the set only if the include directive for enumerations has been printed. -/
def EmptyMeans (st : List Str × List Inc) : Prop := [] ∈ st.1 → .globalEnums ∈ st.2

theorem emit_empty {st : List Str × List Inc} {n : Str} {inc : Option Inc} (h : EmptyMeans st) (hn : n = [] → inc = some .globalEnums) :
    EmptyMeans (emit st n inc) := by
  unfold emit
  split
  · exact h
  · intro ht
    simp only [List.mem_cons] at ht
    rcases ht with e | ht
    · simp [hn e.symm]
    · simp [h ht]

theorem fold_empty {α : Type} {step : List Str × List Inc → α → List Str × List Inc} :
    ∀ (l : List α) (_ : ∀ (st : List Str × List Inc) (a : α), a ∈ l → EmptyMeans st → EmptyMeans (step st a))
      (st : List Str × List Inc), EmptyMeans st → EmptyMeans (l.foldl step st)
  | [], _, _, h => h
  | a :: l, hs, st, h => fold_empty l (fun st b hb => hs st b (by simp [hb])) (step st a) (hs st a (by simp) h)

theorem getLastD_ne {l : List Str} (hl : l ≠ []) (h : ∀ a ∈ l, a ≠ []) : l.getLastD [] ≠ [] := by
  have : l.getLastD [] = l.getLast hl := by
    rw [List.getLastD_eq_getLast?, List.getLast?_eq_some_getLast hl]; rfl
  rw [this]
  exact h _ (List.getLast_mem hl)

theorem lower_ne {s : Str} (h : s ≠ []) (p : Str) : p ++ toLower s ≠ [] := by simp [toLower, h]

theorem includeFlat_empty {package : List Str} {message : Path} {fd : FieldD} (ho : Outside pkgOf package message fd)
    {st : List Str × List Inc} (h : EmptyMeans st) : EmptyMeans (includeFlat pkgOf package message st fd) := by
  unfold includeFlat
  split
  · exact h
  · rename_i n inc he
    refine emit_empty h fun hn => ?_
    subst hn
    unfold newInclude at he
    split at he
    · split at he
      · simp at he
      · rename_i q hq
        obtain ⟨hne, hnames, hplace⟩ := ho.1 q hq
        have hlast : q.getLastD [] ≠ [] := getLastD_ne hne hnames
        split at he
        · simp only [Option.some.injEq, Prod.mk.injEq] at he
          exact absurd he.1 hlast
        · rename_i hi
          rcases hplace with hqt | ⟨top, r, hp, hown, hd⟩
          · exact absurd ((isQtType_iff hq).mpr hqt) hi
          · have hh := highest_eq hp
            split at he
            · simp only [Option.some.injEq, Prod.mk.injEq] at he
              exact absurd he.1 (lower_ne hlast _)
            · rw [if_pos ⟨hd, by rw [hh]; exact hown⟩] at he
              simp only [Option.some.injEq, Prod.mk.injEq] at he
              rw [hh, getLastD_concat] at he
              exact absurd he.1 (lower_ne (hnames top (by rw [hp]; simp)) _)
    · simp only [Option.some.injEq, Prod.mk.injEq] at he
      exact absurd he.1 (by decide)
    · simp only [Option.some.injEq, Prod.mk.injEq] at he
      exact absurd he.1 (by decide)
    · split at he
      · simp at he
      · rename_i e hen
        split at he
        · simp only [Option.some.injEq, Prod.mk.injEq] at he
          exact he.2.symm
        · rename_i hpl
          have hlen : e.length = (pkgOf e).length + 2 := by
            unfold enumPlace at hpl
            split at hpl
            · simp at hpl
            · split at hpl
              · assumption
              · simp at hpl
          simp only [Option.some.injEq, Prod.mk.injEq] at he
          have h1 : e.dropLast ≠ [] := by
            intro h0
            have := congrArg List.length h0
            simp at this; omega
          have h2 := getLastD_ne h1 (fun a ha => ho.2 e hen a (List.dropLast_subset _ ha))
          exact absurd he.1 (by simpa using lower_ne h2 [])
        · simp at he
    · simp at he

theorem printInclude_empty {package : List Str} {m : Msg}
    (ho : ∀ fd, UsesType (package ++ [m.name]) m fd → Outside pkgOf package (package ++ [m.name]) fd)
    {fd : FieldD} (hfd : fd ∈ m.fields) (hmt : fd.isMap = true → fd.type = .message) {st : List Str × List Inc} (h : EmptyMeans st) :
    EmptyMeans (printInclude pkgOf package (package ++ [m.name]) m.nested st fd) := by
  unfold printInclude
  split
  · rename_i hc
    refine emit_empty (fold_empty _ ?_ _ h) (by intro e; exact absurd e (by decide))
    intro st a ha hst
    exact includeFlat_empty (ho a (entry_uses hfd hc.2 hc.1 ha)) hst
  · rename_i hc
    refine includeFlat_empty (ho fd (Or.inl ⟨hfd, ?_⟩)) h
    cases hm : fd.isMap with
    | false => rfl
    | true => exact absurd ⟨hmt hm, hm⟩ hc

/-- C58, the part that holds for enumerations outside of messages: the header of a message with such a field, or with a map with
such values, includes the header of the enumerations, if no field has a type nested in the message itself. Missing: such fields, see
`C58_global_enum_violated`. -/
theorem C58_global_enum_partial {package : List Str} {m : Msg} (hv : Valid (package ++ [m.name]) m)
    (ho : ∀ fd, UsesType (package ++ [m.name]) m fd → Outside pkgOf package (package ++ [m.name]) fd)
    (hmt : ∀ fd ∈ m.fields, fd.isMap = true → fd.type = .message)
    {fd : FieldD} (hu : UsesType (package ++ [m.name]) m fd) (hty : fd.type = .enum) {e : Path} (he : fd.enumType = some e)
    (hglobal : e.length = (pkgOf e).length + 1) (hlocal : e.dropLast ≠ package ++ [m.name]) :
    .globalEnums ∈ multiIncludes pkgOf package m := by
  have hplace : enumPlace pkgOf (package ++ [m.name]) e = .global := by
    unfold enumPlace
    rw [if_neg hlocal, if_neg (by omega)]
  have hflat : ∀ st : List Str × List Inc, EmptyMeans st → .globalEnums ∈ (includeFlat pkgOf package (package ++ [m.name]) st fd).2 := by
    intro st hst
    unfold includeFlat newInclude
    simp only [hty, he, hplace]
    unfold emit
    split
    · rename_i hc; exact hst (by simpa using hc)
    · simp
  have hinit : EmptyMeans ([], []) := by intro h; simp at h
  unfold multiIncludes
  refine fold_mono (fun st a => includeDep_mono) _ _ ?_
  rcases hu with ⟨hfd, hmap⟩ | ⟨mf, hmf, hmap, hmty, n, hn, hmm, hfd⟩
  · refine mem_fold_of_step (I := EmptyMeans) (fun st a => printInclude_mono) (a := fd) ?_ m.fields ?_ _ hinit hfd
    · intro st hst
      unfold printInclude
      rw [if_neg (by simp [hmap])]
      exact hflat st hst
    · intro st b hb hst
      exact printInclude_empty ho hb (hmt b hb) hst
  · refine mem_fold_of_step (I := EmptyMeans) (fun st a => printInclude_mono) (a := mf) ?_ m.fields ?_ _ hinit hmf
    · intro st hst
      unfold printInclude
      rw [if_pos ⟨hmty, hmap⟩]
      refine emit_mono ?_
      rw [find_entry hv.names hn hmm]
      simp only [Option.map_some, Option.getD_some]
      refine mem_fold_of_step (step := includeFlat pkgOf package (package ++ [m.name])) (I := EmptyMeans) (a := fd)
        (fun st a => includeFlat_mono) hflat n.fields ?_ _ hst hfd
      intro st b hb hst
      exact includeFlat_empty (ho b (Or.inr ⟨mf, hmf, hmap, hmty, n, hn, hmm, hb⟩)) hst
    · intro st b hb hst
      exact printInclude_empty ho hb (hmt b hb) hst

/-! ### Qt classes -/

/-- A text that is the name of a class, not of a header that is generated. -/
def ClassName (t : Str) : Prop := t.map Char.toLower ≠ t ∧ NoSlash t

/-- The name of the class is in the set only if the include directive for it has been printed. -/
def ClassMeans (t : Str) (st : List Str × List Inc) : Prop := t ∈ st.1 → .external t ∈ st.2

theorem emit_class {t : Str} {st : List Str × List Inc} {n : Str} {inc : Option Inc} (h : ClassMeans t st)
    (hn : n = t → inc = some (.external t)) : ClassMeans t (emit st n inc) := by
  unfold emit
  split
  · exact h
  · intro ht
    simp only [List.mem_cons] at ht
    rcases ht with e | ht
    · simp [hn e.symm]
    · simp [h ht]

theorem fold_class {α : Type} {t : Str} {step : List Str × List Inc → α → List Str × List Inc}
    (hs : ∀ (st : List Str × List Inc) (a : α), ClassMeans t st → ClassMeans t (step st a)) :
    ∀ (l : List α) (st : List Str × List Inc), ClassMeans t st → ClassMeans t (l.foldl step st)
  | [], _, h => h
  | a :: l, st, h => fold_class hs l (step st a) (hs st a h)

theorem not_generated {t : Str} (ht : ClassName t) (package p : List Str) (s : Str) : packageDir package p ++ toLower s ≠ t := by
  intro e
  by_cases hs : s = []
  · subst hs
    subst e
    unfold packageDir at ht
    split at ht
    · rename_i hp
      cases p with
      | nil => exact ht.1 rfl
      | cons a p => exact ht.2 (by simp [concat])
    · exact ht.1 rfl
  · exact not_target ht.1 ht.2 (e ▸ target_text hs)

theorem newInclude_class {package : List Str} {message : Path} {fd : FieldD} {t : Str} (ht : ClassName t)
    {n : Str} {inc : Option Inc} (h : newInclude pkgOf package message fd = some (n, inc)) (e : n = t) : inc = some (.external t) := by
  subst e
  unfold newInclude at h
  split at h
  · split at h
    · simp at h
    · split at h
      · simp only [Option.some.injEq, Prod.mk.injEq] at h
        rw [← h.2, h.1]
      · split at h
        · simp only [Option.some.injEq, Prod.mk.injEq] at h
          exact absurd h.1 (not_generated ht _ _ _)
        · split at h
          · simp only [Option.some.injEq, Prod.mk.injEq] at h
            exact absurd h.1 (not_generated ht _ _ _)
          · simp only [Option.some.injEq, Prod.mk.injEq] at h
            exact absurd (by simp [← h.1]) ht.1
  · simp only [Option.some.injEq, Prod.mk.injEq] at h
    rw [← h.2, h.1]
  · simp only [Option.some.injEq, Prod.mk.injEq] at h
    rw [← h.2, h.1]
  · split at h
    · simp at h
    · split at h
      · simp only [Option.some.injEq, Prod.mk.injEq] at h
        exact absurd (by simp [← h.1]) ht.1
      · simp only [Option.some.injEq, Prod.mk.injEq] at h
        exact absurd (by rw [← h.1]; exact lower_idem _) ht.1
      · simp at h
  · simp at h

theorem includeFlat_class {package : List Str} {message : Path} {fd : FieldD} {t : Str} (ht : ClassName t)
    {st : List Str × List Inc} (h : ClassMeans t st) : ClassMeans t (includeFlat pkgOf package message st fd) := by
  unfold includeFlat
  split
  · exact h
  · rename_i n inc he
    exact emit_class h fun e => newInclude_class ht he e

theorem printInclude_class {package : List Str} {message : Path} {nested : List Msg} {fd : FieldD} {t : Str} (ht : ClassName t)
    {st : List Str × List Inc} (h : ClassMeans t st) : ClassMeans t (printInclude pkgOf package message nested st fd) := by
  unfold printInclude
  split
  · exact emit_class (fold_class (fun st a hst => includeFlat_class ht hst) _ _ h) (by rintro rfl; rfl)
  · exact includeFlat_class ht h

theorem emit_prints {t : Str} {st : List Str × List Inc} (h : ClassMeans t st) : .external t ∈ (emit st t (some (.external t))).2 := by
  unfold emit
  split
  · rename_i hc; exact h (by simpa using hc)
  · simp

/-- C58: the header of a message includes the header of the Qt class that a field, or the key or the value of a map, has. -/
theorem C58_class {package : List Str} {m : Msg} (hv : Valid (package ++ [m.name]) m) (hqt : QtNamed package m (package ++ [m.name]))
    {fd : FieldD} (hu : UsesType (package ++ [m.name]) m fd) {t : Str} (huse : UsesClass package fd t) :
    .external t ∈ multiIncludes pkgOf package m := by
  have ht : ClassName t := by
    cases huse with
    | bytes _ => exact ⟨by decide +kernel, by unfold NoSlash; decide +kernel⟩
    | string _ => exact ⟨by decide +kernel, by unfold NoSlash; decide +kernel⟩
    | qt _ hq hi => simpa [ClassName] using hqt fd hu _ hq hi
  have hflat : ∀ st : List Str × List Inc, ClassMeans t st → .external t ∈ (includeFlat pkgOf package (package ++ [m.name]) st fd).2 := by
    intro st hst
    unfold includeFlat newInclude
    cases huse with
    | bytes h => simp only [h]; exact emit_prints hst
    | string h => simp only [h]; exact emit_prints hst
    | qt h hq hi =>
      simp only [h, hq, (isQtType_iff hq).mpr hi, if_true, getLastD_concat]
      exact emit_prints hst
  have hinit : ClassMeans t ([], []) := by intro h; simp at h
  unfold multiIncludes
  refine fold_mono (fun st a => includeDep_mono) _ _ ?_
  rcases hu with ⟨hfd, hmap⟩ | ⟨mf, hmf, hmap, hmty, n, hn, hmm, hfd⟩
  · refine mem_fold_of_step (I := ClassMeans t) (fun st a => printInclude_mono) (a := fd) ?_ m.fields ?_ _ hinit hfd
    · intro st hst
      unfold printInclude
      rw [if_neg (by simp [hmap])]
      exact hflat st hst
    · exact fun st b _ hst => printInclude_class ht hst
  · refine mem_fold_of_step (I := ClassMeans t) (fun st a => printInclude_mono) (a := mf) ?_ m.fields ?_ _ hinit hmf
    · intro st hst
      unfold printInclude
      rw [if_pos ⟨hmty, hmap⟩]
      refine emit_mono ?_
      rw [find_entry hv.names hn hmm]
      simp only [Option.map_some, Option.getD_some]
      exact mem_fold_of_step (step := includeFlat pkgOf package (package ++ [m.name])) (I := ClassMeans t) (a := fd)
        (fun st a => includeFlat_mono) hflat n.fields (fun st b _ hst => includeFlat_class ht hst) _ hst hfd
    · exact fun st b _ hst => printInclude_class ht hst

/-- C58: the header of a message with a map includes the header of the class of maps. -/
theorem C58_map_class {package : List Str} {m : Msg} {fd : FieldD} (hfd : fd ∈ m.fields) (hmap : fd.isMap = true) (hty : fd.type = .message) :
    .external ['Q', 'M', 'a', 'p'] ∈ multiIncludes pkgOf package m := by
  have ht : ClassName ['Q', 'M', 'a', 'p'] := ⟨by decide +kernel, by unfold NoSlash; decide +kernel⟩
  unfold multiIncludes
  refine fold_mono (fun st a => includeDep_mono) _ _ ?_
  refine mem_fold_of_step (I := ClassMeans ['Q', 'M', 'a', 'p']) (fun st a => printInclude_mono) (a := fd) ?_ m.fields
    (fun st b _ hst => printInclude_class ht hst) _ (by intro h; simp at h) hfd
  intro st hst
  unfold printInclude
  rw [if_pos ⟨hty, hmap⟩]
  exact emit_prints (fold_class (fun st a hst => includeFlat_class ht hst) _ _ hst)

/-! ### What goes wrong -/

def fMsg (name : Str) (q : Path) : FieldD := { camel := name, json := name, number := 1, type := .message, msgType := some q }
def fEnum (name : Str) (q : Path) : FieldD := { camel := name, json := name, number := 2, type := .enum, enumType := some q }

/-- A field of a nested message type before a field of an enumeration outside of messages: the header of enumerations is not
included. Both fields put the empty text into the set of existing includes, so the second one is taken for printed. -/
theorem C58_global_enum_violated : ∃ (pkgOf : Path → List Str) (m : Msg) (fd : FieldD) (e : Path), fd ∈ m.fields ∧ fd.type = .enum ∧
    fd.enumType = some e ∧ e.length = (pkgOf e).length + 1 ∧ .globalEnums ∉ multiIncludes pkgOf [['p']] m :=
  ⟨fun _ => [['p']], .mk ['M'] [fMsg ['a'] [['p'], ['M'], ['N']], fEnum ['e'] [['p'], ['E']]] [.mk ['N'] [] [] false] false,
    fEnum ['e'] [['p'], ['E']], [['p'], ['E']], by simp [Msg.fields], rfl, rfl, rfl, by decide +kernel⟩

/-- A field whose type is an enumeration in a message of another package: its header is looked for in the own package. -/
theorem C58_enum_package_violated : ∃ (pkgOf : Path → List Str) (files : List ProtoFile) (f : ProtoFile) (m : Msg) (e : Path) (fd : FieldD),
    f ∈ files ∧ m ∈ f.messages ∧ fd ∈ m.fields ∧ fd.type = .enum ∧ fd.enumType = some e ∧ IsIn files (pkgOf e) ['O'] e ∧
    ∀ t file, .internal t ∈ multiIncludes pkgOf f.package m → ¬ Opens (multiRun true files) (dirOf f.package) t file := by
  refine ⟨fun _ => [['b']], [demoProto [['a']] [.mk ['M'] [fEnum ['e'] [['b'], ['O'], ['E']]] [] false] [], demoProto [['b']] [demoMsg ['O']] []],
    demoProto [['a']] [.mk ['M'] [fEnum ['e'] [['b'], ['O'], ['E']]] [] false] [], .mk ['M'] [fEnum ['e'] [['b'], ['O'], ['E']]] [] false,
    [['b'], ['O'], ['E']], fEnum ['e'] [['b'], ['O'], ['E']], by simp, by simp [demoProto], by simp [Msg.fields], rfl, rfl,
    ⟨⟨_, List.mem_cons_of_mem _ (List.mem_cons_self ..), rfl, demoMsg ['O'], by simp [demoProto], rfl⟩, [['E']], rfl⟩, ?_⟩
  intro t file ht
  have h1 : ∀ i ∈ multiIncludes (fun _ => [['b']]) [['a']] (.mk ['M'] [fEnum ['e'] [['b'], ['O'], ['E']]] [] false), i = .internal ['o'] := by decide +kernel
  have ht' := h1 _ ht
  simp only [Inc.internal.injEq] at ht'
  subst ht'
  rintro ⟨hm, rfl | ⟨rfl, _⟩⟩ <;> revert hm <;> decide +kernel

/-- A repeated field of a nested message: the header of its type is not included. -/
theorem C58_nested_repeated_violated : ∃ (pkgOf : Path → List Str) (f : ProtoFile) (m x : Msg) (qx q : Path) (fd : FieldD),
    m ∈ f.messages ∧ Reached f.package m qx x ∧ fd ∈ x.fields ∧ fd.type = .message ∧ fd.msgType = some q ∧ IsIn [f] (pkgOf q) ['T'] q ∧
    ¬ Includes (multiIncludes pkgOf f.package m) (multiRun true [f]) (dirOf f.package) (headerOf (pkgOf q) ['T']) := by
  let fd : FieldD := { fMsg ['t'] [['p'], ['T']] with repeated := true }
  let n : Msg := .mk ['N'] [fd] [] false
  let m : Msg := .mk ['M'] [fMsg ['a'] [['p'], ['M'], ['N']]] [n] false
  let f : ProtoFile := demoProto [['p']] [m, demoMsg ['T']] []
  refine ⟨fun _ => [['p']], f, m, n, _, [['p'], ['T']], fd, List.mem_cons_self .., .nested (List.mem_cons_self ..) (Or.inr ?_) .self,
    List.mem_cons_self .., rfl, rfl, ⟨⟨f, List.mem_cons_self .., rfl, demoMsg ['T'], List.mem_cons_of_mem _ (List.mem_cons_self ..), rfl⟩, [], rfl⟩, ?_⟩
  · exact ⟨_, List.mem_cons_self .., rfl, rfl⟩
  · decide +kernel

/-- A message of the own package hides a message of that name without a package. -/
theorem C58_hidden_violated : ∃ (pkgOf : Path → List Str) (files : List ProtoFile) (f : ProtoFile) (m : Msg) (q : Path) (fd : FieldD),
    f ∈ files ∧ m ∈ f.messages ∧ fd ∈ m.fields ∧ Singular f.package fd q ∧ IsIn files (pkgOf q) ['T'] q ∧
    ¬ Includes (multiIncludes pkgOf f.package m) (multiRun true files) (dirOf f.package) (headerOf (pkgOf q) ['T']) := by
  let m : Msg := .mk ['M'] [fMsg ['t'] [['T']]] [] false
  let f : ProtoFile := demoProto [['p']] [m, demoMsg ['T']] []
  let g : ProtoFile := demoProto [] [demoMsg ['T']] []
  refine ⟨fun q => q.dropLast, [f, g], f, m, [['T']], fMsg ['t'] [['T']], List.mem_cons_self .., List.mem_cons_self .., List.mem_cons_self ..,
    ⟨rfl, rfl, rfl, rfl, by rintro ⟨h, _⟩; simp at h⟩,
    ⟨⟨g, List.mem_cons_of_mem _ (List.mem_cons_self ..), rfl, demoMsg ['T'], List.mem_cons_self .., rfl⟩, [], rfl⟩, ?_⟩
  decide +kernel

/-- Without FOLDER, the header of a message of another package is written to the output directory and looked for in a directory. -/
theorem C58_no_folder_violated : ∃ (pkgOf : Path → List Str) (files : List ProtoFile) (f : ProtoFile) (m : Msg) (q : Path) (fd : FieldD),
    f ∈ files ∧ m ∈ f.messages ∧ fd ∈ m.fields ∧ Singular f.package fd q ∧ IsIn files (pkgOf q) ['T'] q ∧
    ¬ Includes (multiIncludes pkgOf f.package m) (multiRun false files) [] (['t'] ++ ['.', 'h']) := by
  let m : Msg := .mk ['M'] [fMsg ['t'] [['q'], ['T']]] [] false
  let f : ProtoFile := demoProto [['p']] [m] []
  let g : ProtoFile := demoProto [['q']] [demoMsg ['T']] []
  refine ⟨fun q => q.dropLast, [f, g], f, m, [['q'], ['T']], fMsg ['t'] [['q'], ['T']], List.mem_cons_self .., List.mem_cons_self ..,
    List.mem_cons_self .., ⟨rfl, rfl, rfl, rfl, by rintro ⟨h, _⟩; simp at h⟩,
    ⟨⟨g, List.mem_cons_of_mem _ (List.mem_cons_self ..), rfl, demoMsg ['T'], List.mem_cons_self .., rfl⟩, [], rfl⟩, ?_⟩
  decide +kernel

/-! ### Source files and clients -/

/-- C58: with FOLDER, the source file of a message includes the header of the message. -/
theorem C58_message_source {files : List ProtoFile} {f : ProtoFile} (hf : f ∈ files) {m : Msg} (hm : m ∈ f.messages) :
    Includes [messageSourceInclude m] (multiRun true files) (dirOf f.package) (headerOf f.package m.name) :=
  ⟨toLower m.name, by simp [messageSourceInclude], mem_run_message hf hm, Or.inl (by simp [headerOf, toLower])⟩

/-- No client can be compiled in multi-file mode: its source file includes a header with the name of the service, and what this
opens, if anything, is not the header of the client. -/
theorem C58_client_source_violated (files : List ProtoFile) (f : ProtoFile) (s : ServiceD) :
    ¬ Includes [clientSourceInclude s] (multiRun true files) (dirOf f.package) (clientHeader true f.package s.name) := by
  rintro ⟨t, ht, _, h⟩
  simp only [clientSourceInclude, List.mem_singleton, Inc.internal.injEq] at ht
  subst ht
  have key : ∀ x y : Str, x = y → x.length = y.length := fun x y e => by rw [e]
  rcases h with h | ⟨h, _⟩
  · have := key _ _ h
    simp [clientHeader, generateBaseName, concat_dirOf, kClient, kH] at this
  · have := key _ _ h
    simp [clientHeader, generateBaseName, concat_dirOf, kClient, kH] at this
    omega

/-- C58, the part that holds for clients: with FOLDER, the header of a client includes the headers of the types of the parameters
and results that are top-level messages of the package of the service. Missing: other types (`C58_client_nested_violated`). -/
theorem C58_client_types_partial {files : List ProtoFile} {f g : ProtoFile} (hg : g ∈ files) (hgp : g.package = f.package) {t : Msg}
    (ht : t ∈ g.messages) {s : ServiceD} {me : MethodD} (hme : me ∈ s.methods)
    (htype : me.input = f.package ++ [t.name] ∨ me.output = f.package ++ [t.name]) :
    Includes (clientIncludes s) (multiRun true files) (dirOf f.package) (headerOf f.package t.name) := by
  refine ⟨toLower t.name, ?_, by have := mem_run_message hg ht; rwa [hgp] at this, Or.inl (by simp [headerOf, toLower])⟩
  unfold clientIncludes
  rw [List.mem_eraseDups]
  simp only [List.mem_flatMap]
  refine ⟨me, hme, ?_⟩
  rcases htype with h | h <;> rw [h] <;> simp

/-- A method whose parameter is of a nested type: the header of its top-level message is not included. -/
theorem C58_client_nested_violated : ∃ (f : ProtoFile) (s : ServiceD) (me : MethodD), s ∈ f.services ∧ me ∈ s.methods ∧
    IsIn [f] [['p']] ['M'] me.input ∧ ¬ Includes (clientIncludes s) (multiRun true [f]) (dirOf f.package) (headerOf [['p']] ['M']) := by
  let me : MethodD := ⟨['c'], [['p'], ['M'], ['N']], [['p'], ['T']], false, false⟩
  let f : ProtoFile := demoProto [['p']] [.mk ['M'] [] [demoMsg ['N']] false, demoMsg ['T']] [⟨['S'], [me]⟩]
  refine ⟨f, ⟨['S'], [me]⟩, me, List.mem_cons_self .., List.mem_cons_self ..,
    ⟨⟨f, List.mem_cons_self .., rfl, .mk ['M'] [] [demoMsg ['N']] false, List.mem_cons_self .., rfl⟩, [['N']], rfl⟩, ?_⟩
  decide +kernel

/-! ### The hypotheses can be met -/

/-- The package `p` with the messages M, with a field of type `q.T` and a map with values of type `T.U` of the own package, and T. -/
def incEntry : Msg := .mk ['M', 'E'] [{ camel := ['k'], json := ['k'], number := 1, type := .int32 }, fMsg ['v'] [['p'], ['T'], ['U']]] [] true
def incMap : FieldD := { camel := ['m'], json := ['m'], number := 3, type := .message, repeated := true, isMap := true, msgType := some [['p'], ['M'], ['M', 'E']] }
def incM : Msg := .mk ['M'] [fMsg ['t'] [['q'], ['T']], incMap, fEnum ['e'] [['p'], ['E']]] [incEntry] false
def incF : ProtoFile := demoProto [['p']] [incM, .mk ['T'] [] [demoMsg ['U']] false] []
def incG : ProtoFile := demoProto [['q']] [demoMsg ['T']] []
def incPkg (q : Path) : List Str := q.take 1

theorem incM_uses {fd : FieldD} (h : UsesType [['p'], ['M']] incM fd) :
    fd ∈ [fMsg ['t'] [['q'], ['T']], fEnum ['e'] [['p'], ['E']], { camel := ['k'], json := ['k'], number := 1, type := .int32 }, fMsg ['v'] [['p'], ['T'], ['U']]] := by
  rcases h with ⟨h, hm⟩ | ⟨mf, _, _, _, n, hn, _, hfd⟩
  · simp only [incM, Msg.fields, List.mem_cons, List.not_mem_nil, or_false] at h
    rcases h with rfl | rfl | rfl
    · simp
    · simp [incMap] at hm
    · simp
  · simp only [incM, Msg.nested, List.mem_cons, List.not_mem_nil, or_false] at hn
    subst hn
    simp only [incEntry, Msg.fields, List.mem_cons, List.not_mem_nil, or_false] at hfd
    rcases hfd with rfl | rfl <;> simp

theorem incM_valid : Valid [['p'], ['M']] incM where
  names := by simp [incM, Msg.nested]
  entry_used := by
    intro n hn _
    simp only [incM, Msg.nested, List.mem_cons, List.not_mem_nil, or_false] at hn
    subst hn
    exact ⟨incMap, by simp [incM, Msg.fields], rfl, rfl⟩
  entry_only := by
    rintro n hn _ ⟨fd, hfd, hm, ht⟩
    simp only [incM, Msg.nested, List.mem_cons, List.not_mem_nil, or_false] at hn
    subst hn
    simp only [incM, Msg.fields, List.mem_cons, List.not_mem_nil, or_false] at hfd
    rcases hfd with rfl | rfl | rfl
    · simp [fMsg, incEntry, Msg.name] at ht
    · simp [incMap] at hm
    · simp [fEnum] at ht
  entry_leaf := by simp [incM, Msg.entry]

theorem incM_qt : QtNamed [['p']] incM [['p'], ['M']] := by
  intro fd hu t ht hq
  have := incM_uses hu
  simp only [List.mem_cons, List.not_mem_nil, or_false] at this
  rcases this with rfl | rfl | rfl | rfl
  · simp [fMsg] at ht; subst ht; simp [IsQt] at hq
  · simp [fEnum] at ht
  · simp at ht
  · simp [fMsg] at ht; subst ht; simp [IsQt] at hq

/-- The hypotheses of `C58_class` and `C58_map_class`: a field of bytes, one of type `QtProtobuf.QUrl`, and a map. -/
example : let m : Msg := .mk ['M'] [{ camel := ['b'], json := ['b'], number := 1, type := .bytes }, fMsg ['u'] [['Q', 't', 'P', 'r', 'o', 't', 'o', 'b', 'u', 'f'], ['Q', 'U', 'r', 'l']]] [] false
    .external ['Q', 'B', 'y', 't', 'e', 'A', 'r', 'r', 'a', 'y'] ∈ multiIncludes incPkg [['p']] m ∧ .external ['Q', 'U', 'r', 'l'] ∈ multiIncludes incPkg [['p']] m := by
  intro m
  have hv : Valid ([['p']] ++ [m.name]) m := ⟨by simp [m, Msg.nested], by simp [m, Msg.nested], by simp [m, Msg.nested], by simp [m, Msg.entry]⟩
  have hqt : QtNamed [['p']] m ([['p']] ++ [m.name]) := by
    intro fd hu t ht _
    rcases hu with ⟨h, _⟩ | ⟨mf, _, _, _, n, hn, _⟩
    · simp only [m, Msg.fields, List.mem_cons, List.not_mem_nil, or_false] at h
      rcases h with rfl | rfl
      · simp at ht
      · simp only [fMsg, Option.some.injEq] at ht
        subst ht
        exact ⟨by decide +kernel, by unfold NoSlash; decide +kernel⟩
    · simp [m, Msg.nested] at hn
  exact ⟨C58_class hv hqt (Or.inl ⟨List.mem_cons_self .., rfl⟩) (.bytes rfl),
    C58_class hv hqt (Or.inl ⟨List.mem_cons_of_mem _ (List.mem_cons_self ..), rfl⟩)
      (.qt (p := [['Q', 't', 'P', 'r', 'o', 't', 'o', 'b', 'u', 'f']]) rfl rfl (by simp [IsQt]))⟩
example : .external ['Q', 'M', 'a', 'p'] ∈ multiIncludes incPkg [['p']] incM :=
  C58_map_class (fd := incMap) (List.mem_cons_of_mem _ (List.mem_cons_self ..)) rfl rfl

/-- The type of another package. -/
example : Includes (multiIncludes incPkg incF.package incM) (multiRun true [incF, incG]) (dirOf incF.package) (headerOf [['q']] ['T']) :=
  C58_field_type_partial (f := incF) (m := incM) (fd := fMsg ['t'] [['q'], ['T']]) (q := [['q'], ['T']]) incM_valid incM_qt
    (Or.inl ⟨List.mem_cons_self .., rfl⟩) rfl rfl (by simp [IsQt])
    ⟨⟨incG, by simp, rfl, demoMsg ['T'], List.mem_cons_self .., rfl⟩, [], rfl⟩ (by decide) (by decide) (by decide) (Or.inr (Or.inr (by decide +kernel)))
/-- The value of the map. -/
example : Includes (multiIncludes incPkg incF.package incM) (multiRun true [incF, incG]) (dirOf incF.package) (headerOf [['p']] ['T']) :=
  C58_field_type_partial (f := incF) (m := incM) (fd := fMsg ['v'] [['p'], ['T'], ['U']]) (q := [['p'], ['T'], ['U']]) incM_valid incM_qt
    (Or.inr ⟨incMap, List.mem_cons_of_mem _ (List.mem_cons_self ..), rfl, rfl, incEntry, List.mem_cons_self .., rfl,
      List.mem_cons_of_mem _ (List.mem_cons_self ..)⟩) rfl rfl (by simp [IsQt])
    ⟨⟨incF, by simp, rfl, .mk ['T'] [] [demoMsg ['U']] false, List.mem_cons_of_mem _ (List.mem_cons_self ..), rfl⟩, [['U']], rfl⟩
    (by decide) (by decide) (by decide) (Or.inl rfl)
example : multiIncludes incPkg incF.package incM =
    [.internal ['q', '/', 't'], .internal ['t'], .external ['Q', 'M', 'a', 'p'], .globalEnums] := by decide +kernel

theorem incM_outside : ∀ fd, UsesType [['p'], ['M']] incM fd → Outside incPkg [['p']] [['p'], ['M']] fd := by
  intro fd hu
  have := incM_uses hu
  simp only [List.mem_cons, List.not_mem_nil, or_false] at this
  rcases this with rfl | rfl | rfl | rfl
  · refine ⟨fun q hq => ?_, by simp [fMsg]⟩
    simp only [fMsg, Option.some.injEq] at hq; subst hq
    exact ⟨by simp, by simp, Or.inr ⟨['T'], [], rfl, by decide, by decide⟩⟩
  · exact ⟨by simp [fEnum], by simp [fEnum]⟩
  · exact ⟨by simp, by simp⟩
  · refine ⟨fun q hq => ?_, by simp [fMsg]⟩
    simp only [fMsg, Option.some.injEq] at hq; subst hq
    exact ⟨by simp, by simp, Or.inr ⟨['T'], [['U']], rfl, by decide, by decide⟩⟩

example : .globalEnums ∈ multiIncludes incPkg [['p']] incM :=
  C58_global_enum_partial (fd := fEnum ['e'] [['p'], ['E']]) incM_valid incM_outside
    (by simp [incM, Msg.fields, incMap, fMsg, fEnum])
    (Or.inl ⟨List.mem_cons_of_mem _ (List.mem_cons_of_mem _ (List.mem_cons_self ..)), rfl⟩) rfl rfl rfl (by decide)

example : ∀ t, .internal t ∈ multiIncludes incPkg incF.package incM → ∃ file, Opens (multiRun true [incF, incG]) (dirOf incF.package) t file := by
  have hT : ∀ q, (q = [['q'], ['T']] ∨ q = [['p'], ['T'], ['U']]) → ∃ top, IsIn [incF, incG] (incPkg q) top q := by
    rintro q (rfl | rfl)
    · exact ⟨['T'], ⟨incG, by simp, rfl, demoMsg ['T'], List.mem_cons_self .., rfl⟩, [], rfl⟩
    · exact ⟨['T'], ⟨incF, by simp, rfl, .mk ['T'] [] [demoMsg ['U']] false, List.mem_cons_of_mem _ (List.mem_cons_self ..), rfl⟩, [['U']], rfl⟩
  refine C58_no_broken_include_partial ?_ ?_ ?_
  · intro fd q hu _ hq _
    have := incM_uses hu
    simp only [List.mem_cons, List.not_mem_nil, or_false] at this
    rcases this with rfl | rfl | rfl | rfl
    · simp [fMsg] at hq; exact hT q (Or.inl hq.symm)
    · simp [fEnum] at hq
    · simp at hq
    · simp [fMsg] at hq; exact hT q (Or.inr hq.symm)
  · intro fd e hu hty he hlen
    have : fd = fEnum ['e'] [['p'], ['E']] := by
      rcases hu with hu | hu
      · have := incM_uses hu
        simp only [List.mem_cons, List.not_mem_nil, or_false] at this
        rcases this with rfl | rfl | rfl | rfl
        · simp [fMsg] at hty
        · rfl
        · simp at hty
        · simp [fMsg] at hty
      · simp only [incM, Msg.fields, List.mem_cons, List.not_mem_nil, or_false] at hu
        rcases hu with rfl | rfl | rfl
        · simp [fMsg] at hty
        · simp [incMap] at hty
        · rfl
    subst this
    simp only [fEnum, Option.some.injEq] at he
    subst he
    simp [incPkg] at hlen
  · intro qx x fd q hr hfd hs
    cases hr with
    | self =>
      simp only [incM, Msg.fields, List.mem_cons, List.not_mem_nil, or_false] at hfd
      obtain ⟨h1, h2, _, h4, _⟩ := hs
      rcases hfd with rfl | rfl | rfl
      · simp [fMsg] at h4; exact hT q (Or.inl h4.symm)
      · simp [incMap] at h2
      · simp [fEnum] at h1
    | nested hn hv _ =>
      simp only [incM, Msg.nested, List.mem_cons, List.not_mem_nil, or_false] at hn
      subst hn
      rcases hv with hv | ⟨g, hg, hm, ht⟩
      · simp [incM, Msg.fields] at hv
      · simp only [incM, Msg.fields, List.mem_cons, List.not_mem_nil, or_false] at hg
        rcases hg with rfl | rfl | rfl
        · exact absurd ht (by decide +kernel)
        · simp [incMap] at hm
        · simp [fEnum] at ht

/-- The hypotheses of `C58_nested_type_partial`: A message N nested in M has a field of type T. -/
example : let n : Msg := .mk ['N'] [fMsg ['t'] [['p'], ['T']]] [] false
    let m : Msg := .mk ['M'] [fMsg ['a'] [['p'], ['M'], ['N']]] [n] false
    let f : ProtoFile := demoProto [['p']] [m, demoMsg ['T']] []
    Includes (multiIncludes incPkg f.package m) (multiRun true [f]) (dirOf f.package) (headerOf [['p']] ['T']) := by
  intro n m f
  refine C58_nested_type_partial (f := f) (x := n) (fd := fMsg ['t'] [['p'], ['T']]) (q := [['p'], ['T']])
    (.nested (List.mem_cons_self ..) (Or.inr ⟨_, List.mem_cons_self .., rfl, rfl⟩) .self) ?_ (List.mem_cons_self ..)
    ⟨rfl, rfl, rfl, rfl, by simp [IsQt]⟩ ⟨⟨f, List.mem_cons_self .., rfl, demoMsg ['T'], List.mem_cons_of_mem _ (List.mem_cons_self ..), rfl⟩, [], rfl⟩
    (by decide) (Or.inl rfl)
  intro fd hu t ht hq
  rcases hu with ⟨h, _⟩ | ⟨mf, hmf, hmap, _⟩
  · have h' : fd = fMsg ['a'] [['p'], ['M'], ['N']] := by simpa [m, Msg.fields] using h
    subst h'
    simp only [fMsg, Option.some.injEq] at ht
    subst ht
    simp [IsQt] at hq
  · have h' : mf = fMsg ['a'] [['p'], ['M'], ['N']] := by simpa [m, Msg.fields] using hmf
    subst h'
    simp [fMsg] at hmap

/-- The hypotheses of `C58_client_types_partial`. -/
example : Includes (clientIncludes ⟨['S'], [⟨['c'], [['p'], ['M']], [['p'], ['T']], false, false⟩]⟩) (multiRun true [incF]) (dirOf incF.package)
    (headerOf incF.package ['M']) :=
  C58_client_types_partial (f := incF) (t := incM) (List.mem_cons_self ..) rfl (List.mem_cons_self ..) (List.mem_cons_self ..) (Or.inl rfl)

end QtPb.Gen
