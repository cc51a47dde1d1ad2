import Verif.GenMulti
import Verif.TextFound
import Verif.TextProgram
/-
Lemmas on the text that is printed in multi-file mode.
-/
set_option maxRecDepth 100000

namespace QtPb.TextProof
open QtPb.Gen QtPb.Gen.Text QtPb.Gen.Text.Spec QtPb.SpecCpp

/-! ### Texts of parts -/

/-- Calls that begin with an empty line. -/
def Section (ops : List Op) : Prop := ∃ rest, ops = .print [] (text! "\n") :: rest

theorem run_section {ops : List Op} (h : Section ops) (n : Nat) (start : Bool) : run n start ops = run n true ops := by
  obtain ⟨rest, rfl⟩ := h
  rfl

/-- What calls print at the beginning of a line without indentation. -/
def textOf (ops : List Op) : Text := (printed ops).getD []

/-- The calls print something and leave the indentation as it was. -/
def Prints (ops : List Op) : Prop := ∀ start, ∃ text start', run 0 start ops = some (text, 0, start')

theorem Eff.prints {out : Bool} {ops : List Op} {e : List Frame → List Event} (h : Eff out false false ops [] [] e) : Prints ops := by
  intro start
  obtain ⟨text, start', -, -, h1, -⟩ := h 0 start (.code []) ⟨[], rfl, fun _ => rfl, by decide, fun _ => rfl⟩
  exact ⟨text, start', h1⟩

theorem run_one {ops : List Op} (h : Prints ops) (hs : Section ops) (start : Bool) : ∃ start', run 0 start ops = some (textOf ops, 0, start') := by
  obtain ⟨text, start', h1⟩ := h true
  refine ⟨start', ?_⟩
  rw [run_section hs, h1]
  simp [textOf, printed, h1]

theorem run_all {α : Type} {f : α → List Op} : ∀ {l : List α}, (∀ x ∈ l, Prints (f x)) → (∀ x ∈ l, Section (f x)) → ∀ start,
    ∃ start', run 0 start (l.flatMap f) = some (l.flatMap fun x => textOf (f x), 0, start')
  | [], _, _, start => ⟨start, rfl⟩
  | x :: l, h, hs, start => by
    obtain ⟨s1, h1⟩ := run_one (h x (by simp)) (hs x (by simp)) start
    obtain ⟨s2, h2⟩ := run_all (l := l) (fun y hy => h y (by simp [hy])) (fun y hy => hs y (by simp [hy])) s1
    refine ⟨s2, ?_⟩
    rw [List.flatMap_cons, run_append, h1]
    simp [h2]

theorem printed_parts {α : Type} {top : List Op} (ht : Prints top) {f : α → List Op} {l : List α} (h : ∀ x ∈ l, Prints (f x))
    (hs : ∀ x ∈ l, Section (f x)) : printed (top ++ l.flatMap f) = some (textOf top ++ l.flatMap fun x => textOf (f x)) := by
  obtain ⟨t, s1, h1⟩ := ht true
  obtain ⟨s2, h2⟩ := run_all h hs s1
  have : textOf top = t := by simp [textOf, printed, h1]
  unfold printed
  rw [run_append, h1]
  simp [h2, this]

theorem printed_part {top ops : List Op} (ht : Prints top) (h : Prints ops) (hs : Section ops) :
    printed (top ++ ops) = some (textOf top ++ textOf ops) := by
  have := printed_parts (l := [()]) (f := fun _ => ops) ht (fun _ _ => h) (fun _ _ => hs)
  simpa using this

theorem textOf_read {out : Bool} {ops : List Op} {e : List Frame → List Event} (h : Eff out false false ops [] [] e) :
    read (textOf ops) = some (e []) := by
  obtain ⟨text, h1, h2⟩ := read_printed h
  simpa [textOf, h1] using h2

theorem section_class (o : Options) (c : Ctx) (m : Msg) : Section (classDeclaration o c m) :=
  ⟨_, rfl⟩
theorem section_definition (o : Options) (c : Ctx) (m : Msg) : Section (classDefinition o c m) :=
  ⟨_, rfl⟩
theorem section_enum (o : Options) (c : Ctx) (e : EnumD) : Section (enumDeclaration o c e) :=
  ⟨_, rfl⟩
theorem section_enumDefinition (o : Options) (c : Ctx) (e : EnumD) : Section (enumDefinition o c e) :=
  ⟨_, rfl⟩
theorem section_client (o : Options) (c : Ctx) (s : ServiceText) : Section (clientDeclaration o c s) :=
  ⟨_, rfl⟩
theorem section_clientDefinition (o : Options) (c : Ctx) (s : ServiceText) : Section (clientDefinition o c s) :=
  ⟨_, rfl⟩

/-! ### Names of included files -/

theorem lower_eq {x : Char} (hx : ∀ k : Fin 26, (Char.ofNat (65 + k.val)).toLower ≠ x) {c : Char} (h : c.toLower = x) : c = x := by
  by_cases hu : c.isUpper
  · exfalso
    simp only [Char.isUpper, Bool.and_eq_true, decide_eq_true_eq] at hu
    obtain ⟨ha, hb⟩ := hu
    have ha' : 65 ≤ c.toNat := ha
    have hb' : c.toNat ≤ 90 := hb
    have hc : c = Char.ofNat (65 + (c.toNat - 65)) := by
      have : 65 + (c.toNat - 65) = c.toNat := by omega
      rw [this, Char.ofNat_toNat]
    exact hx ⟨c.toNat - 65, by omega⟩ (by rw [← hc]; exact h)
  · have : c.toLower = c := by
      simp only [Char.isUpper, Bool.and_eq_true, decide_eq_true_eq] at hu
      unfold Char.toLower
      split
      · rename_i h'; exact absurd h' (by simpa [Char.isUpper] using hu)
      · rfl
    rw [this] at h; exact h

theorem includable_name {s : Str} (h : Name s) : Includable s := fun x hx => by
  have := h.2.1 x hx
  refine ⟨?_, ?_, ?_⟩ <;> · rintro rfl; revert this; decide

theorem includable_lower {s : Str} (h : Includable s) : Includable (toLower s) := by
  intro x hx
  obtain ⟨c, hc, rfl⟩ := List.mem_map.1 hx
  have hc := h c hc
  exact ⟨fun e => hc.1 (lower_eq (by decide +kernel) e), fun e => hc.2.1 (lower_eq (by decide +kernel) e),
    fun e => hc.2.2 (lower_eq (by decide +kernel) e)⟩

theorem includable_append {s t : Str} (h : Includable s) (k : Includable t) : Includable (s ++ t) := fun x hx =>
  (List.mem_append.1 hx).elim (h x) (k x)

theorem includable_nil : Includable [] := fun x hx => by simp at hx

theorem includable_concat {l : List Str} (h : ∀ s ∈ l, Name s) : Includable (concat ['/'] l) := by
  induction l with
  | nil => exact includable_nil
  | cons s l ih =>
    rw [concat]
    refine includable_append (includable_append (includable_name (h s (by simp))) ?_) (ih fun t ht => h t (by simp [ht]))
    intro x hx
    rw [List.mem_singleton.1 hx]
    decide

theorem includable_dir {package other : List Str} (h : ∀ s ∈ other, Name s) : Includable (packageDir package other) := by
  unfold packageDir
  split
  · exact includable_concat h
  · exact includable_nil

/-- What an include directive needs to be one. -/
def GoodInc : Inc → Prop
  | .internal t => Includable t
  | .external t => Name t
  | .globalEnums => True

theorem includeOp_quiet {out : Bool} {i : Inc} (h : GoodInc i) : Quiet out [includeOp i] := by
  cases i with
  | internal t => exact include_quiet h
  | «external» t => exact external_quiet h
  | globalEnums =>
    exact quiet_of (keys := []) (.cons (value_of_B (by decide)) (Or.inl (by decide)) .nil) (by simp) (by cases out <;> decide +kernel)

theorem includeOp_hq {i : Inc} (h : GoodInc i) : HQ [includeOp i] := by
  cases i with
  | internal t =>
    refine ⟨_, lx_internal h, heff_plain ?_ rfl⟩
    intro x hx
    simp only [List.mem_cons, List.not_mem_nil, or_false] at hx
    rcases hx with rfl | rfl | rfl
    · exact ⟨by simp, by simp, by simp⟩
    · exact ⟨by simp, by simp, fun w e => by cases e; decide⟩
    · exact ⟨by simp, by simp, by simp⟩
  | «external» t =>
    refine ⟨_, lx_external h, heff_plain ?_ rfl⟩
    intro x hx
    simp only [List.mem_cons, List.not_mem_nil, or_false] at hx
    rcases hx with rfl | rfl | rfl | rfl | rfl
    · exact ⟨by simp, by simp, by simp⟩
    · exact ⟨by simp, by simp, fun w e => by cases e; decide⟩
    · exact ⟨by simp, by simp, by simp⟩
    · exact ⟨by simp, by simp, fun w e => by cases e; exact name_section h⟩
    · exact ⟨by simp, by simp, by simp⟩
  | globalEnums => exact hq_of (keys := []) (.cons (value_of_B (by decide)) (Or.inl (by decide)) .nil) (by simp) (by decide +kernel)

/-! ### The include directives of a message -/

section
variable {pkgOf : Path → List Str} {package : List Str} (hp : ∀ q, ∀ s ∈ pkgOf q, Named s)
include hp

theorem good_newInclude {message : Path} {f : FieldD} (hf : PlainField f) {n : Str} {i : Inc}
    (h : newInclude pkgOf package message f = some (n, some i)) : GoodInc i := by
  have hdir : ∀ q, Includable (packageDir package (pkgOf q)) := fun q => includable_dir fun s hs => (hp q s hs).1
  have hlast : ∀ q : Path, (∀ s ∈ q, Named s) → Includable (toLower (q.getLastD [])) := fun q hq => by
    refine includable_lower ?_
    cases hl : q.getLast? with
    | none => rw [List.getLastD_eq_getLast?, hl]; exact includable_nil
    | some x => rw [List.getLastD_eq_getLast?, hl]; exact includable_name (hq x (List.mem_of_getLast? hl)).1
  unfold newInclude at h
  split at h
  · rename_i ht
    have hm := hf.message ht
    split at h
    · simp at h
    · rename_i q hq
      rw [hq] at hm
      have hqn : ∀ s ∈ q, Named s := hm.2
      have hq0 : q ≠ [] := hm.1
      split at h
      · simp only [Option.some.injEq, Prod.mk.injEq] at h
        obtain ⟨-, rfl⟩ := h
        rw [GoodInc, List.getLastD_eq_getLast?, List.getLast?_eq_some_getLast hq0]
        exact (hqn _ (List.getLast_mem hq0)).1
      · split at h
        · simp only [Option.some.injEq, Prod.mk.injEq] at h
          obtain ⟨-, rfl⟩ := h
          exact includable_append (hdir q) (hlast q hqn)
        · split at h
          · simp only [Option.some.injEq, Prod.mk.injEq] at h
            obtain ⟨-, rfl⟩ := h
            exact includable_append (hdir q) (hlast _ fun s hs => hqn s (List.mem_of_mem_take hs))
          · simp at h
  · simp only [Option.some.injEq, Prod.mk.injEq] at h
    obtain ⟨-, rfl⟩ := h
    exact ⟨by decide, by decide, by decide⟩
  · simp only [Option.some.injEq, Prod.mk.injEq] at h
    obtain ⟨-, rfl⟩ := h
    exact ⟨by decide, by decide, by decide⟩
  · rename_i ht
    have hm := hf.enum ht
    split at h
    · simp at h
    · rename_i e he
      rw [he] at hm
      have hqn : ∀ s ∈ e, Named s := hm.2
      split at h
      · simp only [Option.some.injEq, Prod.mk.injEq] at h
        obtain ⟨-, rfl⟩ := h
        trivial
      · simp only [Option.some.injEq, Prod.mk.injEq] at h
        obtain ⟨-, rfl⟩ := h
        exact hlast _ fun s hs => hqn s (List.dropLast_subset _ hs)
      · simp at h
  · simp at h

omit hp in
theorem good_emit {st : List Str × List Inc} (h : ∀ i ∈ st.2, GoodInc i) {n : Str} {inc : Option Inc} (hi : ∀ i, inc = some i → GoodInc i) :
    ∀ i ∈ (Gen.emit st n inc).2, GoodInc i := by
  unfold Gen.emit
  split
  · exact h
  · intro i hm
    rcases List.mem_append.1 hm with hm | hm
    · exact h i hm
    · exact hi i (by simpa using hm)

theorem good_flat {message : Path} {st : List Str × List Inc} (h : ∀ i ∈ st.2, GoodInc i) {f : FieldD} (hf : PlainField f) :
    ∀ i ∈ (includeFlat pkgOf package message st f).2, GoodInc i := by
  unfold includeFlat
  split
  · exact h
  · rename_i n inc hn
    exact good_emit h fun i hi => good_newInclude hp hf (hi ▸ hn)

omit hp in
theorem good_foldl {α : Type} {g : List Str × List Inc → α → List Str × List Inc} {P : α → Prop}
    (hg : ∀ st a, (∀ i ∈ st.2, GoodInc i) → P a → ∀ i ∈ (g st a).2, GoodInc i) : ∀ (l : List α) (st : List Str × List Inc), (∀ i ∈ st.2, GoodInc i) →
    (∀ a ∈ l, P a) → ∀ i ∈ (l.foldl g st).2, GoodInc i
  | [], st, h, _ => h
  | a :: l, st, h, hl => good_foldl hg l (g st a) (hg st a h (hl a (by simp))) fun b hb => hl b (by simp [hb])

omit hp in
theorem plain_fields {msg : Msg} (h : PlainMsg msg) : ∀ f ∈ msg.fields, PlainField f := by
  cases msg; rw [PlainMsg] at h; exact h.2.1
omit hp in
theorem plain_nested {msg : Msg} (h : PlainMsg msg) : PlainMsgs msg.nested := by
  cases msg; rw [PlainMsg] at h; exact h.2.2
omit hp in
theorem plain_named {msg : Msg} (h : PlainMsg msg) : Named msg.name := by
  cases msg; rw [PlainMsg] at h; exact h.1

theorem good_include {message : Path} {nested : List Msg} (hn : PlainMsgs nested) {st : List Str × List Inc} (h : ∀ i ∈ st.2, GoodInc i) {f : FieldD}
    (hf : PlainField f) : ∀ i ∈ (printInclude pkgOf package message nested st f).2, GoodInc i := by
  unfold printInclude
  split
  · refine good_emit (good_foldl (P := PlainField) (fun st a h ha => good_flat hp h ha) _ _ h ?_) ?_
    · intro a ha
      cases he : nested.find? (fun n => some (message ++ [n.name]) == f.msgType) with
      | none => rw [he] at ha; simp at ha
      | some n =>
        rw [he] at ha
        exact plain_fields (plainMsgs_mem hn n (List.mem_of_find?_eq_some he)) a (by simpa using ha)
    · rintro i hi
      cases hi
      exact ⟨by decide, by decide, by decide⟩
  · exact good_flat hp h hf

omit hp in
/-- The full name of a type that is plain. -/
theorem pure_named {fields : List FieldD} (h : ∀ f ∈ fields, PlainField f) {q : Path} (hq : q ∈ pureTypes package fields) :
    q ≠ [] ∧ ∀ s ∈ q, Named s := by
  obtain ⟨f, hf, he⟩ := List.mem_filterMap.1 hq
  obtain ⟨hf, hpure⟩ := List.mem_filter.1 hf
  have ht : f.type = .message := by
    unfold isPureMessage at hpure
    simp only [Bool.and_eq_true, beq_iff_eq] at hpure
    exact hpure.1.1.1
  have := (h f hf).message ht
  rw [he] at this
  exact this

omit hp in
mutual
theorem nested_named : ∀ (msg : Msg) (path : Path), PlainMsg msg → ∀ q ∈ nestedDeps package path msg, q ≠ [] ∧ ∀ s ∈ q, Named s
  | .mk name fields nested _, path, h, q, hq => by
    rw [PlainMsg] at h
    rw [nestedDeps] at hq
    exact nestedList_named nested fields _ h.2.2 q hq
theorem nestedList_named : ∀ (l : List Msg) (fields : List FieldD) (path : Path), PlainMsgs l → ∀ q ∈ nestedDepsList package path fields l,
    q ≠ [] ∧ ∀ s ∈ q, Named s
  | [], fields, path, _, q, hq => by rw [nestedDepsList] at hq; simp at hq
  | n :: l, fields, path, h, q, hq => by
    rw [PlainMsgs] at h
    rw [nestedDepsList, List.mem_append] at hq
    rcases hq with hq | hq
    · split at hq
      · rcases List.mem_append.1 hq with hq | hq
        · exact pure_named (plain_fields h.1) hq
        · exact nested_named n path h.1 q hq
      · simp at hq
    · exact nestedList_named l fields path h.2 q hq
end

omit hp in
theorem dependency_named {m : Msg} (h : PlainMsg m) {q : Path} (hq : q ∈ dependencies package m) : q ≠ [] ∧ ∀ s ∈ q, Named s := by
  rcases List.mem_append.1 hq with hq | hq
  · exact nested_named m package h q hq
  · exact pure_named (plain_fields h) hq

theorem good_includes {m : Msg} (h : PlainMsg m) : ∀ i ∈ multiIncludes pkgOf package m, GoodInc i := by
  refine good_foldl (P := fun q : Path => ∀ s ∈ q, Spec.Named s) (fun st q hst hq => ?_) _ _ ?_ fun q hq => (dependency_named h hq).2
  · refine good_emit hst ?_
    rintro i hi
    cases hi
    refine includable_append (includable_dir fun s hs => (hp q s hs).1) (includable_lower ?_)
    cases hl : (highest pkgOf q).getLast? with
    | none => rw [List.getLastD_eq_getLast?, hl]; exact includable_nil
    | some x => rw [List.getLastD_eq_getLast?, hl]; exact includable_name (hq x (List.mem_of_mem_take (List.mem_of_getLast? hl))).1
  · exact good_foldl (P := PlainField) (fun st a hst ha => good_include hp (plain_nested h) hst ha) _ _ (fun i hi => by cases hi) (plain_fields h)

/-! ### Forward declarations of dependencies -/

theorem dep_names {q : Path} (hq : ∀ s ∈ q, Named s) : ∀ n ∈ depNamespaces pkgOf q, Name n := by
  intro n hn
  rcases List.mem_append.1 hn with hn | hn
  · exact (hp q n hn).1
  · obtain ⟨s, hs, rfl⟩ := List.mem_map.1 hn
    exact name_nested (name_id (hq s (List.mem_of_mem_drop (List.dropLast_subset _ hs))).1)

omit hp in
theorem dep_last {q : Path} (hq0 : q ≠ []) (hq : ∀ s ∈ q, Named s) : Name (upperCaseName (q.getLastD [])) := by
  rw [List.getLastD_eq_getLast?, List.getLast?_eq_some_getLast hq0]
  exact (hq _ (List.getLast_mem hq0)).2

/-- What is found for the dependencies of a message. -/
def depEvents (pkgOf : Path → List Str) (message q : Path) : List Event :=
  if q.dropLast = message then [] else [.forward (depNamespaces pkgOf q) (upperCaseName (q.getLastD []))]

theorem forwardDep_eff {message q : Path} (hq0 : q ≠ []) (hq : ∀ s ∈ q, Named s) :
    Eff false false false (forwardDepOps pkgOf message q) [] [] (fun st => if q.dropLast = message then [] else
      [.forward (scopeOf st ++ depNamespaces pkgOf q) (upperCaseName (q.getLastD []))]) := by
  unfold forwardDepOps
  split
  · exact Eff.nil _ _
  · have hc := dep_last hq0 hq
    have h1 := Eff.of (out := false) (vars := [(text! "classname", upperCaseName (q.getLastD []))]) (keys := [text! "classname"]) (s0 := []) (s1 := [])
      (evs := [.forward [] [.var (text! "classname")]]) (t := tProtoClassForwardDeclarationTemplate) (q := false)
      (.cons (name_value hc) (Or.inr (name_id hc)) .nil) (by simp [Vars.get]) (by decide +kernel)
    have h2 := Eff.inNamespaces (dep_names hp hq) h1
    have h3 := h2.congr (e' := fun st => [.forward (scopeOf st ++ depNamespaces pkgOf q) (upperCaseName (q.getLastD []))]) (fun st => by
      simp [instE, val, tokVal, Vars.val, Vars.get, scopeOf_spaces])
    simpa [printNamespaces, encloseNamespaces] using h3

theorem forwardDep_hq {message q : Path} (hq0 : q ≠ []) (hq : ∀ s ∈ q, Named s) : HQ (forwardDepOps pkgOf message q) := by
  unfold forwardDepOps
  split
  · exact HQ.nil
  · have hc := dep_last hq0 hq
    have h1 : HQ [.print [(text! "classname", upperCaseName (q.getLastD []))] tProtoClassForwardDeclarationTemplate] :=
      hq_of (keys := [text! "classname"]) (.cons (name_value hc) (Or.inr (name_id hc)) .nil) (by simp [Vars.get]) (by decide +kernel)
    have h2 := HG.inNamespaces (dep_names hp hq) h1
    simpa [printNamespaces, encloseNamespaces] using h2

/-! ### The part before the class -/

theorem multiTop_eff {o : Options} {c : Ctx} {m : Msg} (h : PlainMsg m) :
    Eff false false false (multiTop o c pkgOf m) [] []
      (fun st => (dependencies c.package m).flatMap fun q => if q.dropLast = c.package ++ [m.name] then [] else
        [.forward (scopeOf st ++ depNamespaces pkgOf q) (upperCaseName (q.getLastD []))]) := by
  have h0 : Quiet false ([.print [] tDisclaimerTemplate, .print [] tPreambleTemplate, .print [] tDefaultProtobufIncludesTemplate] ++
      (if o.qml then [.print [] tQmlProtobufIncludesTemplate] else [])) := by
    refine Quiet.append ?_ ?_
    · exact .cons (quiet_nil (by decide +kernel)) (.cons (quiet_nil (by decide +kernel)) (quiet_nil (by decide +kernel)))
    · exact Quiet.ite (fun _ => quiet_nil (by decide +kernel)) (fun _ => Quiet.nil)
  have h1 : Quiet false ((multiIncludes pkgOf c.package m).map includeOp) := Quiet.map fun i hi => includeOp_quiet (good_includes hp h i hi)
  have h2 := Eff.flatMap (l := dependencies c.package m) (f := forwardDepOps pkgOf (c.package ++ [m.name])) (s := [])
    (fun q hq => forwardDep_eff hp (message := c.package ++ [m.name]) (dependency_named h hq).1 (dependency_named h hq).2)
  exact (Eff.append (Quiet.append h0 h1) h2).congr (by simp)

theorem multiTop_hq {o : Options} {c : Ctx} {m : Msg} (h : PlainMsg m) : HQ (multiTop o c pkgOf m) := by
  unfold multiTop
  refine HQ.append (HQ.append (HQ.append ?_ ?_) (HQ.map fun i hi => includeOp_hq (good_includes hp h i hi))) (HQ.flatMap fun q hq =>
    forwardDep_hq hp (dependency_named h hq).1 (dependency_named h hq).2)
  · exact .cons (hq_nil (by decide +kernel)) (.cons (hq_nil (by decide +kernel)) (hq_nil (by decide +kernel)))
  · exact HQ.ite (fun _ => hq_nil (by decide +kernel)) (fun _ => HQ.nil)

end

end QtPb.TextProof
