import Verif.TextMsg
/-
What the calls of the Printer made for the source of a message do to the reader of the text: there is nothing to find, and all brackets
are closed. (Helpers for the theorems about generated text.)
-/
namespace QtPb.TextProof
open QtPb.Gen QtPb.Gen.Text QtPb.Gen.Text.Spec QtPb.SpecCpp

section
variable {o : Options} {c : Ctx} {m : Cur} (ok : MsgOk o c m)
include ok

/-- `{`, indented statements, `}`. -/
theorem block_quiet {a b : List Op} (ha : Eff true false false a [] [.brace] (fun _ => [])) (hb : Quiet true b) : Quiet true (a ++ block b) := by
  have := Quiet.enclose ha hb.indented (close_block trivial)
  simpa [block, List.append_assoc] using this

theorem open_own {t : Str} (h : effect true (fun _ => true) ownKeys [] t = some ([.brace], [], false)) :
    Eff true false false [.print (own o c m) t] [] [.brace] (fun _ => []) := eff_own ok (s0 := []) (s1 := [.brace]) (evs := []) h

theorem defDestructor_quiet : Quiet true (defDestructor o c m) := by
  unfold defDestructor
  exact .cons (q_own ok (by decide +kernel)) <| .cons (q_own ok (by decide +kernel)) .nil

omit ok in
theorem order_quiet {f : FieldD} (hf : PlainField f) (i : Nat) :
    Quiet true [.print [(text! "field_number", (toString f.number).toList), (text! "property_number", (toString (i + 1)).toList),
      (text! "json_name", f.json)] tFieldOrderTemplate] := by
  refine eff_print (inCode := fun x => x != text! "json_name") (keys := [text! "field_number", text! "property_number", text! "json_name"])
    (s0 := []) (s1 := []) (evs := []) ?_ (by simp [Vars.get]) (by decide +kernel)
  intro x v hx
  have hm := get_mem hx
  simp only [List.mem_cons, Prod.mk.injEq, List.not_mem_nil, or_false] at hm
  rcases hm with ⟨rfl, rfl⟩ | ⟨rfl, rfl⟩ | ⟨rfl, rfl⟩
  · exact ⟨ok_quoted (value_nat _).1, fun _ => value_nat _, fun h => absurd h (by decide)⟩
  · exact ⟨ok_quoted (value_nat _).1, fun _ => value_nat _, fun h => absurd h (by decide)⟩
  · exact ⟨hf.json, fun h => by simp at h, fun h => absurd h (by decide)⟩

omit ok in
theorem ordering_quiet : ∀ (l : List FieldD) (i : Nat), (∀ f ∈ l, PlainField f) → Quiet true (orderingOps i l)
  | [], i, _ => by rw [orderingOps]; exact Quiet.nil
  | f :: fs, i, h => by
    rw [orderingOps]
    refine Quiet.append (Quiet.append ?_ (order_quiet (h f (by simp)) i)) (ordering_quiet fs (i + 1) fun g hg => h g (by simp [hg]))
    exact Quiet.ite (fun _ => Quiet.nil) (fun _ => quiet_nil (by decide +kernel))

theorem printFieldsOrdering_quiet : Quiet true (printFieldsOrdering o c m) := by
  unfold printFieldsOrdering
  have h1 : Eff true false false [.print [(text! "type", (own o c m).val (text! "classname"))] tFieldsOrderingContainerTemplate] [] [.brace]
      (fun _ => []) := by
    refine Eff.of (keys := [text! "type"]) (s0 := []) (s1 := [.brace]) (evs := []) ?_ (by simp [Vars.get]) (by decide +kernel)
    exact .cons ((own_good ok).val _) (Or.inl (by decide)) .nil
  have h2 := Quiet.enclose h1 (ordering_quiet m.fields 0 ok.fields).indented (close_semicolon trivial)
  have := Quiet.append h2 newline
  simpa [List.append_assoc] using this

theorem printRegisterBody_quiet : Quiet true (printRegisterBody o c m) := by
  unfold printRegisterBody
  refine Quiet.enclose (open_own ok (by decide +kernel)) (Quiet.append ?_ ?_).indented (close_block trivial)
  · exact Quiet.ite (fun _ => .cons (q_own ok (by decide +kernel)) (q_own ok (by decide +kernel))) (fun _ => Quiet.nil)
  · refine Quiet.flatMap fun f hf => ?_
    unfold registerOps
    refine Quiet.ite (fun _ => q_pv ok hf (by decide +kernel)) (fun _ => ?_)
    exact Quiet.ite (fun _ => q_pv ok hf (by decide +kernel)) (fun _ => Quiet.nil)

theorem initializer_value {f : FieldD} (hf : f ∈ m.fields) : Value (initializer o c m f) := by
  unfold initializer
  split
  · split
    all_goals first
      | exact value_of_B (by decide +kernel)
      | exact value_scope.2 ⟨(pv_good ok hf).val _, name_value (ok.file.first _)⟩
  · exact value_nil

theorem initOps_quiet {f : FieldD} (hf : f ∈ m.fields) (given : Bool) : Quiet true (initOps o c m given f) := by
  unfold initOps
  have hg : GoodL ((text! "initializer", initializer o c m f) :: pv o c m f) :=
    .cons (initializer_value ok hf) (Or.inl (by decide)) (pv_good ok hf)
  have hk : ∀ x ∈ text! "initializer" :: propKeys,
      (Vars.get ((text! "initializer", initializer o c m f) :: pv o c m f) x).isSome = true := by
    intro x hx
    rcases List.mem_cons.1 hx with rfl | hx
    · rfl
    · have := propertyVars_keys o c m.path f x hx
      unfold Vars.get at *
      simp only [List.find?_cons]
      split
      · rfl
      · exact this
  refine Quiet.ite (fun _ => ?_) (fun _ => ?_)
  · exact Quiet.ite (fun _ => quiet_of hg hk (by decide +kernel)) (fun _ => quiet_of hg hk (by decide +kernel))
  · refine Quiet.ite (fun _ => quiet_of hg hk (by decide +kernel)) (fun _ => ?_)
    exact Quiet.ite (fun _ => Quiet.nil) (fun _ => quiet_of hg hk (by decide +kernel))

theorem defConstructor_quiet (n : Nat) : Quiet true (defConstructor o c m n) := by
  unfold defConstructor initList
  have h1 := Quiet.enclose (f := .paren) (eff_own (out := true) ok (s0 := []) (s1 := [.paren]) (evs := []) (t := tProtoConstructorDefinitionBeginTemplate)
    (by decide +kernel)) (parameters_quiet ok n)
    (eff_own (out := true) ok (s0 := [.paren]) (s1 := []) (evs := []) (t := tProtoConstructorDefinitionEndTemplate) (q := false) (by decide +kernel))
  refine Quiet.append (Quiet.append h1 (Quiet.append ?_ ?_)) (quiet_nil (by decide +kernel))
  · exact Quiet.flatMap fun f hf => initOps_quiet ok (List.mem_of_mem_take hf) _
  · exact Quiet.flatMap fun f hf => initOps_quiet ok (List.mem_of_mem_drop hf) _

theorem defConstructors_quiet : Quiet true (defConstructors o c m) := by
  unfold defConstructors
  exact Quiet.append (Quiet.flatMap fun n _ => defConstructor_quiet ok n)
    (Quiet.ite (fun _ => quiet_nil (by decide +kernel)) (fun _ => Quiet.nil))

theorem nullOps_quiet {f : FieldD} (hf : f ∈ m.fields) : Quiet true (nullOps o c m f) := by
  unfold nullOps
  exact Quiet.ite (fun _ => q_pv ok hf (by decide +kernel)) (fun _ => Quiet.nil)

omit ok in
theorem open_body : Eff true false false [.print [] (text! "\n{\n")] [] [.brace] (fun _ => []) :=
  Eff.of (keys := []) (s0 := []) (s1 := [.brace]) (evs := []) .nil (by simp) (by decide +kernel)

omit ok in
theorem Eff.after_quiet {a b : List Op} {s : List Frame} (ha : Quiet true a) (hb : Eff true false false b [] s (fun _ => [])) :
    Eff true false false (a ++ b) [] s (fun _ => []) := (Eff.append ha hb).congr (by simp)

theorem q_own_if {p : Prop} [Decidable p] {a b : Str} (ha : effect true (fun _ => true) ownKeys [] a = some ([], [], false))
    (hb : effect true (fun _ => true) ownKeys [] b = some ([], [], false)) : Quiet true [.print (own o c m) (if p then a else b)] := by
  split
  · exact q_own ok ha
  · exact q_own ok hb

theorem open_own_if {p : Prop} [Decidable p] {a b : Str} (ha : effect true (fun _ => true) ownKeys [] a = some ([.brace], [], false))
    (hb : effect true (fun _ => true) ownKeys [] b = some ([.brace], [], false)) :
    Eff true false false [.print (own o c m) (if p then a else b)] [] [.brace] (fun _ => []) := by
  split
  · exact open_own ok ha
  · exact open_own ok hb

theorem q_pv_if {f : FieldD} (hf : f ∈ m.fields) {p : Prop} [Decidable p] {a b : Str}
    (ha : effect true (fun _ => true) propKeys [] a = some ([], [], false))
    (hb : effect true (fun _ => true) propKeys [] b = some ([], [], false)) : Quiet true [.print (pv o c m f) (if p then a else b)] := by
  split
  · exact q_pv ok hf ha
  · exact q_pv ok hf hb

theorem defCopy_quiet : Quiet true (defCopy o c m) := by
  have h1 : Quiet true (([.print (own o c m)
      (if m.fields.isEmpty then tEmptyCopyConstructorDefinitionTemplate else tCopyConstructorDefinitionTemplate)] ++
      m.fields.flatMap (nullOps o c m) ++ [.print [] (text! "\n{\n")]) ++
      block (m.fields.map fun f =>
        .print (pv o c m f) (if isPureMessage c.package f then tCopyComplexFieldTemplate else tCopyFieldTemplate))) :=
    block_quiet ok (Eff.after_quiet (Quiet.append (q_own_if ok (by decide +kernel) (by decide +kernel))
      (Quiet.flatMap fun f hf => nullOps_quiet ok hf)) open_body)
      (Quiet.map fun f hf => q_pv_if ok hf (by decide +kernel) (by decide +kernel))
  have h2 : Quiet true ([.print (own o c m)
      (if m.fields.isEmpty then tEmptyAssignmentOperatorDefinitionTemplate else tAssignmentOperatorDefinitionTemplate)] ++
      block ((m.fields.map fun f =>
        .print (pv o c m f) (if isPureMessage c.package f then tAssignComplexFieldTemplate else tCopyFieldTemplate)) ++
        [.print [] tAssignmentOperatorReturnTemplate])) :=
    block_quiet ok (open_own_if ok (by decide +kernel) (by decide +kernel))
      (Quiet.append (Quiet.map fun f hf => q_pv_if ok hf (by decide +kernel) (by decide +kernel)) (quiet_nil (by decide +kernel)))
  have := h1.append h2
  unfold defCopy
  simpa only [List.append_assoc] using this

theorem q_move {f : FieldD} (hf : f ∈ m.fields) {a b : Str} (ha : effect true (fun _ => true) propKeys [] a = some ([], [], false))
    (hb : effect true (fun _ => true) propKeys [] b = some ([], [], false)) : Quiet true [.print (pv o c m f) (moveTemplate c a b f)] := by
  unfold moveTemplate
  split
  · exact q_pv_if ok hf ha hb
  · exact q_pv_if ok hf (by decide +kernel) (by decide +kernel)

theorem defMove_quiet : Quiet true (defMove o c m) := by
  have h1 : Quiet true (([.print (own o c m)
      (if m.fields.isEmpty then tEmptyMoveConstructorDefinitionTemplate else tMoveConstructorDefinitionTemplate)] ++
      m.fields.flatMap (nullOps o c m) ++ [.print [] (text! "\n{\n")]) ++
      block (m.fields.map fun f =>
        .print (pv o c m f) (moveTemplate c tMoveMessageFieldTemplate tMoveComplexFieldConstructorTemplate f))) :=
    block_quiet ok (Eff.after_quiet (Quiet.append (q_own_if ok (by decide +kernel) (by decide +kernel))
      (Quiet.flatMap fun f hf => nullOps_quiet ok hf)) open_body)
      (Quiet.map fun f hf => q_move ok hf (by decide +kernel) (by decide +kernel))
  have h2 : Quiet true ([.print (own o c m)
      (if m.fields.isEmpty then tEmptyMoveAssignmentOperatorDefinitionTemplate else tMoveAssignmentOperatorDefinitionTemplate)] ++
      block ((m.fields.map fun f =>
        .print (pv o c m f) (moveTemplate c tMoveAssignMessageFieldTemplate tMoveComplexFieldTemplate f)) ++
        [.print [] tAssignmentOperatorReturnTemplate])) :=
    block_quiet ok (open_own_if ok (by decide +kernel) (by decide +kernel))
      (Quiet.append (Quiet.map fun f hf => q_move ok hf (by decide +kernel) (by decide +kernel)) (quiet_nil (by decide +kernel)))
  have := h1.append h2
  unfold defMove
  simpa only [List.append_assoc] using this

/-- A comparison, which may end with a word. -/
theorem equal_eff {f : FieldD} (hf : f ∈ m.fields) : Eff true false true [.print (pv o c m f) (equalTemplate c f)] [] [] (fun _ => []) := by
  unfold equalTemplate
  split
  · exact Eff.weaken (q_pv ok hf (by decide +kernel))
  · split
    · exact Eff.weaken (q_pv ok hf (by decide +kernel))
    · exact Eff.of (s0 := []) (s1 := []) (evs := []) (pv_good ok hf) (propertyVars_keys o c m.path f) (by decide +kernel)

theorem and_eff : ∀ (l : List FieldD), (∀ f ∈ l, f ∈ m.fields) →
    Eff true true true (l.flatMap fun g => [.print [] (text! "\n&& "), .print (pv o c m g) (equalTemplate c g)]) [] [] (fun _ => [])
  | [], _ => Eff.nil _ _
  | f :: l, h => by
    have h1 : Eff true true false [.print [] (text! "\n&& ")] [] [] (fun _ => []) :=
      Eff.after_word (c := '\n') (ts := [.ch '&', .ch '&', .ch ' ']) (quiet_nil (by decide +kernel)) (by decide +kernel) (by decide)
    have := (h1.append (equal_eff ok (h f (by simp)))).append (and_eff l (fun g hg => h g (by simp [hg])))
    exact this.congr (by simp)

theorem defCompare_quiet : Quiet true (defCompare o c m) := by
  unfold defCompare
  split
  · exact .cons (q_own ok (by decide +kernel)) (q_own ok (by decide +kernel))
  · rename_i f fs e
    have h0 : Eff true false false [.print (own o c m) tEqualOperatorDefinitionTemplate] [] [.brace] (fun _ => []) :=
      open_own ok (by decide +kernel)
    have h1 := (Eff.append (equal_eff ok (f := f) (by rw [e]; simp)) (and_eff ok fs (fun g hg => by rw [e]; simp [hg]))).congr
      (e' := fun _ => []) (by simp)
    have h2 : Eff true true false [.print [] (text! ";\n")] [] [] (fun _ => []) :=
      Eff.after_word (c := ';') (ts := [.ch '\n']) (quiet_nil (by decide +kernel)) (by decide +kernel) (by decide)
    have h3 := ((h1.indented.indented.append h2).within [.brace])
    have h4 : Eff true false false [.print [] tSimpleBlockEnclosureTemplate] [.brace] [] (fun _ => []) := close_block trivial
    have h5 : Quiet true [.print (own o c m) tNotEqualOperatorDefinitionTemplate] := q_own ok (by decide +kernel)
    have := (((h0.append h3).append h4).append h5).congr (e' := fun _ => []) (by simp)
    simpa [QtPb.Gen.Text.indented, List.append_assoc, Quiet] using this

theorem defGetterOps_quiet {f : FieldD} (hf : f ∈ m.fields) : Quiet true (defGetterOps o c m f) := by
  unfold defGetterOps
  refine Quiet.append ?_ ?_
  · exact Quiet.ite (fun _ => .cons (q_pv ok hf (by decide +kernel)) (q_pv ok hf (by decide +kernel))) (fun _ => Quiet.nil)
  · exact Quiet.ite (fun _ => q_pv ok hf (by decide +kernel)) (fun _ => Quiet.nil)

theorem defSetterOps_quiet {f : FieldD} (hf : f ∈ m.fields) : Quiet true (defSetterOps o c m f) := by
  unfold defSetterOps
  split
  · exact Quiet.ite (fun _ => .cons (q_pv ok hf (by decide +kernel)) (q_pv ok hf (by decide +kernel)))
      (fun _ => q_pv ok hf (by decide +kernel))
  · exact q_pv ok hf (by decide +kernel)
  · exact q_pv ok hf (by decide +kernel)
  · exact Quiet.nil

theorem defClass_quiet : Quiet true (defClass o c m) := by
  unfold defClass
  refine Quiet.append (Quiet.append (Quiet.append (Quiet.append (Quiet.append (Quiet.append (Quiet.append (Quiet.append
    (defDestructor_quiet ok) (printFieldsOrdering_quiet ok)) (printRegisterBody_quiet ok)) (defConstructors_quiet ok)) (defCopy_quiet ok))
    (defMove_quiet ok)) (defCompare_quiet ok)) ?_) ?_
  · exact Quiet.flatMap fun f hf => defGetterOps_quiet ok hf
  · exact Quiet.flatMap fun f hf => defSetterOps_quiet ok hf

end

mutual
theorem defineOps_quiet {o : Options} {c : Ctx} (hf : PlainFile o c) : ∀ (msg : Msg) (path : Path), PlainMsg msg → (∀ s ∈ path, Named s) →
    Quiet true (defineOps o c path msg)
  | .mk name fields nested en, path, hm, hp => by
    rw [PlainMsg] at hm
    obtain ⟨hn, hfi, hne⟩ := hm
    have hg := good_snoc hp hn
    have ok : MsgOk o c ⟨path ++ [name], fields⟩ := ⟨hf, hg, hfi⟩
    have h1 := Eff.inNested (o := o) (c := c) (path := path) (fields := fields) hn
      (defineOpsList_quiet hf nested fields (path ++ [name]) hne hg.2)
    rw [defineOps]
    exact Quiet.append (Quiet.ite (fun _ => h1) (fun _ => Quiet.nil)) (defClass_quiet ok)
theorem defineOpsList_quiet {o : Options} {c : Ctx} (hf : PlainFile o c) : ∀ (l : List Msg) (fields : List FieldD) (path : Path),
    PlainMsgs l → (∀ s ∈ path, Named s) → Quiet true (defineOpsList o c ⟨path, fields⟩ l)
  | [], fields, path, _, _ => by rw [defineOpsList]; exact Quiet.nil
  | n :: rest, fields, path, hm, hp => by
    rw [PlainMsgs] at hm
    rw [defineOpsList]
    exact Quiet.append (Quiet.ite (fun _ => defineOps_quiet hf n path hm.1 hp) (fun _ => Quiet.nil))
      (defineOpsList_quiet hf rest fields path hm.2 hp)
end

theorem classDefinition_quiet {o : Options} {c : Ctx} (hf : PlainFile o c) {msg : Msg} (hm : PlainMsg msg) : Quiet true (classDefinition o c msg) :=
  Eff.inNamespaces (outer_names hf) (defineOps_quiet hf msg c.package hm hf.package)

end QtPb.TextProof
