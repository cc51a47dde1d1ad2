import Verif.SpecWire
import Verif.PropsGenGet
import Verif.PropsGenDefs
import Std.Data.String.ToNat
/-
Proofs for C104: what is read from the generated files about the properties of a class.
-/
namespace QtPb.Meta
open QtPb.SpecCpp QtPb.Gen QtPb.Gen.Spec QtPb.Gen.Text QtPb.Gen.Text.Spec QtPb.Meta.Spec

theorem number_toString (n : Nat) : number (toString n).toList = some n := by
  unfold number
  rw [String.ofList_toList]
  exact Nat.toNat?_repr n

theorem mapM_number : ∀ (l : List (FieldD × Nat)),
    (l.map fun p => ((toString p.1.number).toList, (toString (p.2 + 1)).toList, p.1.json)).mapM
      (fun e : Text × Text × Text => (number e.1).bind fun a => (number e.2.1).bind fun b => some (a, b)) =
      some (l.map fun p => (p.1.number, p.2 + 1))
  | [] => rfl
  | x :: l => by
    rw [List.map_cons, List.mapM_cons, mapM_number l, number_toString, number_toString]
    rfl

theorem mapM_some' {α : Type} : ∀ (l : List α) (f : α → α), (l.map fun x => some (f x)).mapM id = some (l.map f)
  | [], _ => rfl
  | x :: l, f => by
    rw [List.map_cons, List.mapM_cons, mapM_some' l f]
    rfl

theorem find_nodup {α β γ : Type} [BEq β] [LawfulBEq β] (key : α → β) (val : α → γ) : ∀ (l : List α), (l.map key).Nodup → ∀ x ∈ l,
    (l.map fun y => (key y, val y)).find? (·.1 == key x) = some (key x, val x)
  | [], _, x, hx => by simp at hx
  | y :: l, hn, x, hx => by
    rw [List.map_cons, List.nodup_cons] at hn
    rw [List.map_cons, List.find?_cons]
    rcases List.mem_cons.1 hx with rfl | hx
    · simp
    · have : (key y == key x) = false := by
        rw [beq_eq_false_iff_ne]
        intro e
        exact hn.1 (e ▸ List.mem_map.2 ⟨x, hx, rfl⟩)
      simp only [this]
      exact find_nodup key val l hn.2 x hx

theorem flatMap_congr' {α β : Type} {l : List α} {f g : α → List β} (h : ∀ x ∈ l, f x = g x) : l.flatMap f = l.flatMap g := by
  induction l with
  | nil => rfl
  | cons x l ih => rw [List.flatMap_cons, List.flatMap_cons, h x (by simp), ih fun y hy => h y (by simp [hy])]

section
variable {u : Sources} {b : Printed × List FieldD} {fs : List QtPb.Field} {c : Class}

theorem cpp_nodup (h : u.Plain) : (u.bodies.map (·.1.cpp)).Nodup := (List.nodup_append.1 h.distinct).2.1

/-- The table that is read. -/
theorem table_eq (h : GeneratedFor u b fs c) : c.table = some (b.2.zipIdx.map fun p => (p.1.number, p.2 + 1)) := by
  obtain ⟨text, is, h1, h2, h3⟩ := C95_ordering_partial h.plain.file h.plain.header h.plain.enums h.plain.msgs
  have e : text = c.source := Option.some.inj (h1.symm.trans h.source)
  subst e
  unfold Class.table
  rw [h2]
  dsimp only
  rw [h3, h.name]
  have := find_nodup (fun b : Printed × List FieldD => b.1.cpp) (fun b => some (orderingOf b.2)) (allBodies u.o u.c u.msgs) (cpp_nodup h.plain) b h.body
  rw [this]
  exact mapM_number _

theorem mapM_snd {α β γ : Type} (k : α) (l : List γ) (g : γ → β) : (l.map fun x => (k, some (g x))).mapM (fun p : α × Option β => p.2) = some (l.map g) := by
  induction l with
  | nil => rfl
  | cons x l ih =>
    rw [List.map_cons, List.mapM_cons, ih]
    rfl

/-- The properties that are read. -/
theorem properties_eq (h : GeneratedFor u b fs c) : c.properties = some (expected u.o u.c b.1.msg b.2) := by
  obtain ⟨text, evs, h1, h2, h3⟩ := C94_header_properties_partial h.plain.file h.plain.external h.plain.internal h.plain.enums h.plain.msgs
  have e : text = c.header := Option.some.inj (h1.symm.trans h.header)
  subst e
  unfold Class.properties
  rw [h2]
  dsimp only
  have hf := filter_class (fun b : Printed × List FieldD => (expected u.o u.c b.1.msg b.2).map some) (fun b => b.1.cpp) (allBodies u.o u.c u.msgs)
    (cpp_nodup h.plain) b h.body
  have e : propertiesIn evs = (allBodies u.o u.c u.msgs).flatMap fun x => ((expected u.o u.c x.1.msg x.2).map some).map fun y => (x.1.cpp, y) := by
    rw [h3]
    refine flatMap_congr' fun x _ => ?_
    rw [List.map_map]
    rfl
  rw [e, h.name, hf, List.map_map]
  have := mapM_snd b.1.cpp (expected u.o u.c b.1.msg b.2) id
  rw [List.map_id] at this
  exact this

/-- The property of a field. -/
def propOf (u : Sources) (b : Printed × List FieldD) (f : FieldD) : Prop' :=
  let p := fieldProperty u.o.qml u.c.package f
  ⟨propertyType u.o u.c b.1.msg f, p.name, p.read, p.write, some (signalName f), scriptable u.o u.c f⟩

theorem property_eq (h : GeneratedFor u b fs c) {i : Nat} {f : FieldD} (hf : b.2[i]? = some f) : c.property (i + 1) = some (propOf u b f) := by
  unfold Class.property
  rw [properties_eq h]
  show (expected u.o u.c b.1.msg b.2)[i]? = _
  unfold expected
  rw [List.getElem?_append_left (by simpa using (List.getElem?_eq_some_iff.1 hf).1), List.getElem?_map, hf]
  rfl

theorem names_eq (u : Sources) (b : Printed × List FieldD) :
    (expected u.o u.c b.1.msg b.2).map Prop'.name = ((Gen.properties u.o.qml u.c.package b.2).map Property.name) := by
  unfold expected Gen.properties
  rw [List.map_append, List.map_append, List.map_map, List.map_map, List.map_flatMap, List.map_flatMap]
  congr 1
  refine flatMap_congr' fun f _ => ?_
  rw [List.map_map]
  rfl

theorem find_name {ps : List Prop'} (hn : (ps.map Prop'.name).Nodup) {p : Prop'} (hp : p ∈ ps) : ps.find? (·.name == p.name) = some p := by
  have := find_nodup Prop'.name id ps hn p hp
  induction ps with
  | nil => simp at hp
  | cons q ps ih =>
    rw [List.find?_cons]
    rw [List.map_cons, List.nodup_cons] at hn
    rcases List.mem_cons.1 hp with rfl | hp
    · simp
    · have : (q.name == p.name) = false := by
        rw [beq_eq_false_iff_ne]
        intro e
        exact hn.1 (e ▸ List.mem_map.2 ⟨p, hp, rfl⟩)
      simp only [this]
      exact ih hn.2 hp (find_nodup Prop'.name id ps hn.2 p hp)

/-- The name of the property of a field leads to this property. -/
theorem named_eq (h : GeneratedFor u b fs c) (hd : NoDataNames b.2) (last : Bool) {i : Nat} {f : FieldD} (hf : b.2[i]? = some f) :
    c.named last (propOf u b f).name = some (propOf u b f) := by
  have hn : ((expected u.o u.c b.1.msg b.2).map Prop'.name).Nodup := by
    rw [names_eq]
    exact (C55_names_partial h.valid hd u.o.qml u.c.package).1
  have hm : propOf u b f ∈ expected u.o u.c b.1.msg b.2 := by
    unfold expected
    exact List.mem_append_left _ (List.mem_map.2 ⟨f, List.mem_of_getElem? hf, rfl⟩)
  unfold Class.named
  rw [properties_eq h]
  cases last with
  | true =>
    show (List.reverse _).find? _ = _
    refine find_name (ps := List.reverse _) ?_ (List.mem_reverse.2 hm)
    rw [List.map_reverse]
    exact List.pairwise_reverse.2 (hn.imp fun h => Ne.symm h)
  | false => exact find_name hn hm

theorem prop_cases (h : GeneratedFor u b fs c) {i : Nat} {f : FieldD} {g : QtPb.Field} (hf : b.2[i]? = some f) (hg : fs[i]? = some g) :
    (∃ m, g.ty = .msg m ∧ (propOf u b f).read = f.prop ++ text! "_p" ∧ (propOf u b f).write = some (f.setter ++ text! "_p")) ∨
    ((∀ m, g.ty ≠ .msg m) ∧ (propOf u b f).read = f.prop ∧ (propOf u b f).write = some f.setter) := by
  have hz : (f, g) ∈ b.2.zip fs := by
    refine List.mem_of_getElem? (i := i) ?_
    rw [List.getElem?_zip_eq_some]
    exact ⟨hf, hg⟩
  have hp := TextProof.pure_fits (h.fields.noQt f (List.mem_of_getElem? hf)) (h.fields.types _ hz)
  cases hty : g.ty with
  | msg m =>
    rw [hty] at hp
    have hp : isPureMessage u.c.package f = true := hp
    left
    refine ⟨m, rfl, ?_, ?_⟩ <;> simp only [propOf, fieldProperty, if_pos hp] <;> rfl
  | _ =>
    right
    rw [hty] at hp
    have hp : ¬ isPureMessage u.c.package f = true := by rw [hp]; simp [TextProof.isMsg]
    refine ⟨fun m => by simp, ?_, ?_⟩ <;> simp only [propOf, fieldProperty, if_neg hp] <;> (repeat' split) <;> rfl

/-- Reading the property of a field gives its type and value. -/
theorem read_eq (h : GeneratedFor u b fs c) {lib : Lib} {i : Nat} {f : FieldD} {g : QtPb.Field} (hf : b.2[i]? = some f) (hg : fs[i]? = some g)
    {a : Obj} (ha : a.length = fs.length) {x : Val} (hx : a[i]? = some x) : c.read lib (propOf u b f) a = .ok (g.ty, x) := by
  have h3 : SpecCpp.classOf c.header c.source b.1.cpp (fs.map (·.ty)) = some c.text := h.name ▸ h.text
  have hc := the_class h.plain h.body h.fields h.header h.source h3
  unfold Class.read
  rcases prop_cases h hf hg with ⟨m, hm, hr, -⟩ | ⟨hm, hr, -⟩
  · obtain ⟨bodies, e1, e2, e3⟩ := C96_pointer_getter h.plain h.body h.fields h.header h.source h3 (lib := lib) hf hg hm
    rw [hr, h.name, e1]
    cases bodies with
    | nil => exact absurd rfl e2
    | cons body rest =>
      dsimp only
      have hcall := e3 body (by simp) a ha
      unfold ClassText.callPointer at hcall
      obtain ⟨x1, k1, k2⟩ := Res.bind_eq_ok.1 hcall
      rw [k1]
      dsimp only [Res.bind]
      obtain ⟨r1, s1⟩ := x1
      dsimp only at k2 ⊢
      cases r1 with
      | pointer r =>
        cases k2' : r with
        | own w mm =>
          subst k2'
          simp only [Res.ok.injEq, Prod.mk.injEq, Pointer.own.injEq] at k2
          obtain ⟨⟨rfl, rfl⟩, k3, -⟩ := k2
          have ok := hc.field (TextProof.zip_at (m := ⟨b.1.msg, b.2⟩) hf hg)
          have ht : c.text.cls.types (SpecCpp.memberName f) = some g.ty := ok.has.type
          dsimp only
          rw [ht]
          have hv : s1.this (SpecCpp.memberName f) = x := by
            have hn := TextProof.name_at hc hf
            rw [← k3] at hx
            unfold valuesOf at hx
            rw [List.getElem?_map, hn] at hx
            exact Option.some.inj hx
          show Res.ok (g.ty, s1.this _) = _
          rw [hv]
        | _ => subst k2'; simp at k2
      | _ => simp at k2
  · obtain ⟨bodies, e1, e2, e3⟩ := C96_getter h.plain h.body h.fields h.getters h.header h.source h3 (lib := lib) hf hg hm
    rw [hr, h.name, e1]
    cases bodies with
    | nil => exact absurd rfl e2
    | cons body rest =>
      dsimp only
      have hcall := e3 body (by simp) a x ha hx
      unfold ClassText.callGetter at hcall
      obtain ⟨x1, k1, k2⟩ := Res.bind_eq_ok.1 hcall
      rw [k1]
      dsimp only [Res.bind]
      obtain ⟨v, k3, k4⟩ := Res.bind_eq_ok.1 k2
      simp only [Res.ok.injEq, Prod.mk.injEq] at k4
      obtain ⟨rfl, -, -⟩ := k4
      obtain ⟨r1, s1⟩ := x1
      dsimp only at k3 ⊢
      split
      · simp [readValue] at k3
      · rw [k3]

/-- Writing the property of a field stores the value as `writeVal` says. -/
theorem write_prop (h : GeneratedFor u b fs c) {env : Env} {q : Containers} (hq : Gen.Text.Spec.Pointers q) {lib : Lib} (hl : lib.same = wholeEq q) {i : Nat} {f : FieldD} {g : QtPb.Field}
    (hf : b.2[i]? = some f) (hg : fs[i]? = some g) {a : Obj} (ha : a.length = fs.length) {x v : Val} (hx : a[i]? = some x)
    (hv : QtPb.Spec.HasTy env g.ty v) : c.write lib (propOf u b f) g.ty v a = .ok (a.set i (writeVal g.ty x v)) := by
  have h3 : SpecCpp.classOf c.header c.source b.1.cpp (fs.map (·.ty)) = some c.text := h.name ▸ h.text
  unfold Class.write
  rcases prop_cases h hf hg with ⟨m, hm, -, hw⟩ | ⟨hm, -, hw⟩
  · rw [hw]
    rw [hm] at hv ⊢
    cases hv with
    | null =>
      dsimp only [argument]
      rw [(C96_pointer_setter h.plain h.body h.fields h.header h.source h3 (lib := lib) hf hg hm ha).2.1]
      rfl
    | msg h1 h2 =>
      dsimp only [argument]
      rw [(C96_pointer_setter h.plain h.body h.fields h.header h.source h3 (lib := lib) hf hg hm ha).1]
      rfl
  · rw [hw]
    have he : argument g.ty v = .data g.ty v := by
      unfold argument
      split
      · exact absurd ‹_› (hm _)
      · exact absurd ‹_› (hm _)
      · rfl
    dsimp only
    rw [he, C96_setter h.plain h.body h.fields h.header h.source h3 hf hg hm ha hx, hl]
    have hm' : TextProof.isMsg g.ty = false := by
      cases e : g.ty with
      | msg m => exact absurd e (hm m)
      | _ => rfl
    rw [← TextProof.write_eq hq g.ty x v hm']
    by_cases hc : wholeEq q g.ty x v = true
    · simp only [hc, if_true, Res.bind]
      congr 1
      refine List.ext_getElem? fun j => ?_
      rw [List.getElem?_set]
      split
      · rename_i e
        subst e
        rw [if_pos (List.getElem?_eq_some_iff.1 hx).1, hx]
      · rfl
    · simp only [hc, if_false, Res.bind, Bool.false_eq_true]

/-- The table, from the fields. -/
theorem table_fields (h : GeneratedFor u b fs c) : c.table = some (fs.zipIdx.map fun p => (p.1.num, p.2 + 1)) := by
  rw [table_eq h]
  congr 1
  have : ∀ (l : List FieldD) (l' : List QtPb.Field) (k : Nat), l.map FieldD.number = l'.map QtPb.Field.num →
      ((l.zipIdx k).map fun p => (p.1.number, p.2 + 1)) = (l'.zipIdx k).map fun p => (p.1.num, p.2 + 1) := by
    intro l
    induction l with
    | nil => intro l' k e; cases l' with
      | nil => rfl
      | cons y l' => simp at e
    | cons x l ih => intro l' k e; cases l' with
      | nil => simp at e
      | cons y l' =>
        rw [List.map_cons, List.map_cons, List.cons.injEq] at e
        rw [List.zipIdx_cons, List.zipIdx_cons, List.map_cons, List.map_cons, e.1, ih l' (k + 1) e.2]
  exact this _ _ _ h.numbers

theorem field_at (h : GeneratedFor u b fs c) {i : Nat} {g : QtPb.Field} (hg : fs[i]? = some g) : ∃ f, b.2[i]? = some f := by
  have := (List.getElem?_eq_some_iff.1 hg).1
  rw [← h.fields.length] at this
  exact ⟨_, List.getElem?_eq_getElem this⟩

end

theorem find_number (num : Nat) : ∀ (fs : List QtPb.Field) (k : Nat),
    ((fs.zipIdx k).map fun p => (p.1.num, p.2 + 1)).find? (·.1 == num) = (findField fs num).map fun i => (num, i + k + 1)
  | [], _ => rfl
  | f :: fs, k => by
    rw [List.zipIdx_cons, List.map_cons, List.find?_cons]
    unfold findField
    rw [List.findIdx?_cons]
    by_cases e : f.num = num
    · subst e
      simp
    · have : (f.num == num) = false := by simpa using e
      simp only [this, if_false, Bool.false_eq_true]
      rw [find_number num fs (k + 1)]
      unfold findField
      cases List.findIdx? (fun f => f.num == num) fs with
      | none => rfl
      | some i => simp; omega

theorem findField_at {fs : List QtPb.Field} {num i : Nat} (h : findField fs num = some i) : ∃ g, fs[i]? = some g := by
  unfold findField at h
  obtain ⟨hl, -⟩ := List.findIdx?_eq_some_iff_getElem.1 h
  exact ⟨_, List.getElem?_eq_getElem hl⟩

section
variable {env : Env}

theorem msgList_congr {rec1 rec2 : Nat → Obj → Res Bytes} (hr : ∀ m o, QtPb.Spec.WellTyped env m o → rec1 m o = rec2 m o) (num m : Nat) :
    ∀ (l : List Val), (∀ v ∈ l, QtPb.Spec.HasTy env (.msg m) v) → serializeMsgList rec1 num m l = serializeMsgList rec2 num m l
  | [], _ => rfl
  | v :: l, h => by
    have ih := msgList_congr hr num m l fun w hw => h w (by simp [hw])
    have hv := h v (by simp)
    cases v with
    | msg o => rw [serializeMsgList, serializeMsgList, hr m o hv, ih]
    | _ => exact ih

theorem map_congr {rec1 rec2 : Nat → Obj → Res Bytes} (hr : ∀ m o, QtPb.Spec.WellTyped env m o → rec1 m o = rec2 m o) (num : Nat) (kk : Kind) (vt : MapVal) :
    ∀ (l : List (Scalar × Val)), (∀ e ∈ l, QtPb.Spec.HasTy env (QtPb.Spec.MapVal.toTy vt) e.2) → serializeMap env rec1 num kk vt l = serializeMap env rec2 num kk vt l
  | [], _ => rfl
  | (k, v) :: l, h => by
    have ih := map_congr hr num kk vt l fun w hw => h w (by simp [hw])
    have hv := h (k, v) (by simp)
    have he : serializeMapValue env rec1 vt v = serializeMapValue env rec2 vt v := by
      unfold serializeMapValue
      split
      · rfl
      · rfl
      · rw [hr _ _ hv]
      · rfl
    cases v <;> simp only [serializeMap, ih, he]

theorem property_congr {rec1 rec2 : Nat → Obj → Res Bytes} (hr : ∀ m o, QtPb.Spec.WellTyped env m o → rec1 m o = rec2 m o) (num : Nat) {ty : FieldTy} {v : Val}
    (hv : QtPb.Spec.HasTy env ty v) : serializeProperty env rec1 num ty v = serializeProperty env rec2 num ty v := by
  cases hv with
  | null m =>
    simp only [serializeProperty, serializeMsgField, materialize]
    rw [hr m _ (QtPb.default_safe m).hasTy]
  | msg h1 h2 =>
    simp only [serializeProperty, serializeMsgField, materialize]
    rw [hr _ _ (QtPb.Spec.HasTy.msg h1 h2)]
  | msgList h => exact msgList_congr hr num _ _ h
  | map h1 h2 h3 => exact map_congr hr num _ _ _ h2
  | _ => rfl

variable {classes : Nat → Class} {lib : Lib} {last : Bool}

theorem serialize_eq (hp : Program env classes) (n : Nat) : ∀ (m : Nat) (obj : Obj), QtPb.Spec.WellTyped env m obj →
    serializeMessage env classes lib last n m obj = QtPb.serializeMessage env n m obj := by
  induction n with
  | zero => intros; rfl
  | succ n ih =>
    intro m obj ho
    obtain ⟨u, b, h, hd⟩ := hp m
    rw [serializeMessage, QtPb.serializeMessage, table_fields h]
    dsimp only
    congr 1
    refine List.map_congr_left fun i _ => ?_
    rw [List.getElem?_map, List.getElem?_zipIdx]
    cases hg : (env.sch m)[i]? with
    | none => rfl
    | some g =>
      cases ho with
      | msg hl ht =>
        have hi : i < obj.length := by rw [hl]; exact (List.getElem?_eq_some_iff.1 hg).1
        have hx := List.getElem?_eq_getElem hi
        obtain ⟨f, hf⟩ := field_at h hg
        simp only [Option.map_some, Nat.zero_add]
        rw [property_eq h hf, Option.bind_some, named_eq h hd last hf]
        dsimp only
        rw [read_eq h hf hg hl hx, hx]
        exact property_congr ih _ (ht i g _ hg hx)

theorem step_eq (hp : Program env classes) {q : Containers} (hq : Gen.Text.Spec.Pointers q) (hl : lib.same = wholeEq q) {rec : Nat → Bytes → MsgResult}
    (hr : QtPb.RecTyped env rec) (m n : Nat) (it : It) {obj : Obj} (ho : QtPb.Spec.WellTyped env m obj) :
    deserializeProperty env classes lib rec m n it obj = QtPb.deserializeProperty env rec m n it obj := by
  obtain ⟨u, b, h, hd⟩ := hp m
  unfold deserializeProperty QtPb.deserializeProperty
  simp only [Res.bind_eq]
  congr 1
  funext ⟨hd, it⟩
  dsimp only
  split
  · rfl
  rw [table_fields h]
  dsimp only
  rw [find_number]
  cases hi : findField (env.sch m) hd.num with
  | none => rfl
  | some i =>
    obtain ⟨g, hg⟩ := findField_at hi
    obtain ⟨f, hf⟩ := field_at h hg
    cases ho with
    | msg hlen ht =>
      have hlt : i < obj.length := by rw [hlen]; exact (List.getElem?_eq_some_iff.1 hg).1
      have hx := List.getElem?_eq_getElem hlt
      simp only [Option.map_some, Nat.add_zero]
      rw [property_eq h hf, hg, hx]
      dsimp only
      rw [read_eq h hf hg hlen hx]
      simp only [Res.bind]
      cases hv : deserializeValue env rec g.ty n obj[i] it with
      | ok r =>
        obtain ⟨v, it'⟩ := r
        simp only [Res.bind]
        rw [write_prop h hq hl hf hg hlen hx (deserializeValue_typed hr (ht i g _ hg hx) hv)]
      | _ => rfl

theorem step_typed {rec : Nat → Bytes → MsgResult} (hr : QtPb.RecTyped env rec) {m n : Nat} {it it' : It} {o o' : Obj} (ho : QtPb.Spec.WellTyped env m o)
    (h : QtPb.deserializeProperty env rec m n it o = .ok (it', o')) : QtPb.Spec.WellTyped env m o' := by
  simp only [QtPb.deserializeProperty, Res.bind_eq, Res.bind_eq_ok] at h
  obtain ⟨⟨hd, it1⟩, _, h⟩ := h
  simp only at h
  split at h
  · cases h
  · split at h
    · simp only [Res.bind_eq_ok] at h
      obtain ⟨it2, _, h⟩ := h
      simp only [Res.ok.injEq, Prod.mk.injEq] at h
      rw [← h.2]; exact ho
    · split at h
      · rename_i i _ _ _ f cur hf hcur
        simp only [Res.bind_eq_ok] at h
        obtain ⟨⟨v, it2⟩, hv, h⟩ := h
        simp only [Res.ok.injEq, Prod.mk.injEq] at h
        rw [← h.2]
        have hc : QtPb.Spec.HasTy env f.ty cur := by
          cases ho with | msg _ hh => exact hh i f cur hf hcur
        have hv' := deserializeValue_typed hr hc hv
        refine set_typed ho hf ?_
        by_cases hty : ∃ m2, f.ty = .msg m2
        · obtain ⟨m2, hty⟩ := hty
          rw [hty] at hv' ⊢
          exact hv'
        · exact (writeVal_hasTy (fun m2 h => hty ⟨m2, h⟩) hc hv').2
      · cases h

theorem loop_eq (hp : Program env classes) {q : Containers} (hq : Gen.Text.Spec.Pointers q) (hl : lib.same = wholeEq q) {rec : Nat → Bytes → MsgResult}
    (hr : QtPb.RecTyped env rec) (m : Nat) : ∀ (n : Nat) (it : It) {obj : Obj}, QtPb.Spec.WellTyped env m obj →
    messageLoop env classes lib rec m n it obj = QtPb.messageLoop env rec m n it obj
  | 0, _, _, _ => rfl
  | n + 1, it, obj, ho => by
    rw [messageLoop, QtPb.messageLoop, step_eq hp hq hl hr m n it ho]
    split
    · rfl
    · cases hs : QtPb.deserializeProperty env rec m n it obj with
      | ok r =>
        obtain ⟨it', obj'⟩ := r
        exact loop_eq hp hq hl hr m n it' (step_typed hr ho hs)
      | _ => rfl

theorem deserialize_eq (hp : Program env classes) {q : Containers} (hq : Gen.Text.Spec.Pointers q) (hl : lib.same = wholeEq q) (n : Nat) :
    deserializeMessage env classes lib n = QtPb.deserializeMessage env n := by
  induction n with
  | zero => rfl
  | succ n ih =>
    funext m data
    rw [deserializeMessage, QtPb.deserializeMessage, ih]
    exact loop_eq hp hq hl (fun m body => deserializeMessage_typed n m body) m _ _ (default_safe m).hasTy

end

end QtPb.Meta
