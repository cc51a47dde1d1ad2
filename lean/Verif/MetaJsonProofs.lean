import Verif.SpecMetaJson
import Verif.MetaProofs
import Verif.PropsJsonSafe
/-
Proofs for C105: the JSON serializer through the tables and properties of the generated text.
-/
namespace QtPb.MetaJson
open QtPb.SpecCpp QtPb.Meta QtPb.Meta.Spec QtPb.Json QtPb.Gen QtPb.Gen.Spec QtPb.Gen.Text QtPb.Gen.Text.Spec

theorem mapM_json : ∀ (l : List (FieldD × Nat)),
    (l.map fun p => ((toString p.1.number).toList, (toString (p.2 + 1)).toList, p.1.json)).mapM
      (fun e : Text × Text × Text => (number e.2.1).bind fun b => some (b, e.2.2)) = some (l.map fun p => (p.2 + 1, p.1.json))
  | [] => rfl
  | x :: l => by
    rw [List.map_cons, List.mapM_cons, mapM_json l, number_toString]
    rfl

theorem table_eq {u : Sources} {b : Printed × List FieldD} {fs : List QtPb.Field} {c : Meta.Class} (h : GeneratedFor u b fs c) :
    table c = some (b.2.zipIdx.map fun p => (p.2 + 1, p.1.json)) := by
  obtain ⟨text, is, h1, h2, h3⟩ := C95_ordering_partial h.plain.file h.plain.header h.plain.enums h.plain.msgs
  have e : text = c.source := Option.some.inj (h1.symm.trans h.source)
  subst e
  unfold table
  rw [h2]
  dsimp only
  rw [h3, h.name]
  have := find_nodup (fun b : Printed × List FieldD => b.1.cpp) (fun b => some (orderingOf b.2)) (allBodies u.o u.c u.msgs) (cpp_nodup h.plain) b h.body
  rw [this]
  exact mapM_json _

theorem table_at (l : List FieldD) (i : Nat) : (l.zipIdx.map fun p => (p.2 + 1, p.1.json))[i]? = l[i]?.map fun f => (i + 1, f.json) := by
  rw [List.getElem?_map, List.getElem?_zipIdx]
  cases l[i]? <;> simp

section
variable {env : JEnv}

theorem listObjects_congr {rec1 rec2 : Nat → Obj → Res Bytes} (hr : ∀ m o, QtPb.Spec.WellTyped env.toEnv m o → rec1 m o = rec2 m o) (m : Nat) :
    ∀ (l : List Val), (∀ v ∈ l, QtPb.Spec.HasTy env.toEnv (.msg m) v) → listObjects rec1 m l = listObjects rec2 m l
  | [], _ => rfl
  | v :: l, h => by
    have ih := listObjects_congr hr m l fun w hw => h w (by simp [hw])
    have hv := h v (by simp)
    cases v with
    | msg o => rw [listObjects, listObjects, hr m o hv, ih]
    | _ => exact ih

theorem mapPairs_congr {rec1 rec2 : Nat → Obj → Res Bytes} (hr : ∀ m o, QtPb.Spec.WellTyped env.toEnv m o → rec1 m o = rec2 m o) (m i : Nat) (kk : Kind) (vt : MapVal) :
    ∀ (l : List (Scalar × Val)), (∀ e ∈ l, QtPb.Spec.HasTy env.toEnv (QtPb.Spec.MapVal.toTy vt) e.2) → mapPairs env rec1 m i kk vt l = mapPairs env rec2 m i kk vt l
  | [], _ => rfl
  | (k, v) :: l, h => by
    have ih := mapPairs_congr hr m i kk vt l fun w hw => h w (by simp [hw])
    have hv := h (k, v) (by simp)
    have he : mapValue env rec1 m i vt v = mapValue env rec2 m i vt v := by
      unfold mapValue
      split
      · rfl
      · rfl
      · rw [hr _ _ hv]
      · rfl
    cases v <;> simp only [mapPairs, ih, he]

theorem value_congr {rec1 rec2 : Nat → Obj → Res Bytes} (hr : ∀ m o, QtPb.Spec.WellTyped env.toEnv m o → rec1 m o = rec2 m o) (m i : Nat) {ty : FieldTy} {v : Val}
    (hv : QtPb.Spec.HasTy env.toEnv ty v) : serializeValue env rec1 m i ty v = serializeValue env rec2 m i ty v := by
  cases hv with
  | null m =>
    simp only [serializeValue, materialize]
    rw [hr m _ (QtPb.default_safe m).hasTy]
  | msg h1 h2 =>
    simp only [serializeValue, materialize]
    rw [hr _ _ (QtPb.Spec.HasTy.msg h1 h2)]
  | msgList h => simp only [serializeValue]; rw [listObjects_congr hr _ _ h]
  | map h1 h2 h3 => simp only [serializeValue]; rw [mapPairs_congr hr _ _ _ _ _ h2]
  | _ => rfl

variable {classes : Nat → Meta.Class} {lib : Lib} {last : Bool}

theorem members_eq {u : Sources} {b : Printed × List FieldD} {m : Nat} (h : GeneratedFor u b (env.sch m) (classes m)) (hd : NoDataNames b.2)
    (hj : ∀ (i : Nat) (f : FieldD), b.2[i]? = some f → env.jsonName m i = f.json) {rec1 rec2 : Nat → Obj → Res Bytes}
    (hr : ∀ m o, QtPb.Spec.WellTyped env.toEnv m o → rec1 m o = rec2 m o) {obj : Obj} (ho : QtPb.Spec.WellTyped env.toEnv m obj) : ∀ (is : List Nat),
    members env classes lib last rec1 m (b.2.zipIdx.map fun p => (p.2 + 1, p.1.json)) obj is = Json.members env rec2 m obj is
  | [] => rfl
  | i :: is => by
    have ih := members_eq h hd hj hr ho is
    rw [members, Json.members, table_at, ih]
    have hlen := h.fields.length
    cases ho with
    | msg hl ht =>
      cases hg : (env.sch m)[i]? with
      | none =>
        have : b.2[i]? = none := by
          rw [List.getElem?_eq_none_iff] at hg ⊢
          omega
        rw [this]
        rfl
      | some g =>
        have hi : i < obj.length := by rw [hl]; exact (List.getElem?_eq_some_iff.1 hg).1
        have hx := List.getElem?_eq_getElem hi
        obtain ⟨f, hf⟩ := field_at h hg
        rw [hf]
        simp only [Option.map_some]
        rw [property_eq h hf, Option.bind_some, named_eq h hd last hf]
        dsimp only
        rw [read_eq h hf hg hl hx, hx]
        simp only [Res.bind_eq, Res.bind, Json.serializeProperty]
        rw [value_congr hr m i (ht i g _ hg hx), hj i f hf]
        cases Json.serializeValue env rec2 m i g.ty obj[i] <;> simp only [Res.bind]

theorem serialize_eq (hp : MetaJson.Spec.Program env classes) (n : Nat) : ∀ (m : Nat) (obj : Obj), QtPb.Spec.WellTyped env.toEnv m obj →
    serializeObject env classes lib last n m obj = Json.serializeObject env n m obj := by
  induction n with
  | zero => intros; rfl
  | succ n ih =>
    intro m obj ho
    obtain ⟨u, b, h, hd, hj⟩ := hp m
    rw [serializeObject, Json.serializeObject, table_eq h]
    dsimp only
    rw [members_eq h hd hj ih ho]

end

section
variable {env : REnv} {classes : Nat → Meta.Class} {lib : Lib}

theorem writeNull_eq (env : REnv) {u : Sources} {b : Printed × List FieldD} {fs : List QtPb.Field} {c : Meta.Class} (h : GeneratedFor u b fs c) {q : Containers}
    (hq : Gen.Text.Spec.Pointers q) (hl : lib.same = wholeEq q) {i : Nat} {f : FieldD} {g : QtPb.Field} (hf : b.2[i]? = some f) (hg : fs[i]? = some g) {a : Obj}
    (ha : a.length = fs.length) {x : Val} (hx : a[i]? = some x) : writeNull lib c (propOf u b f) g.ty a = .ok (a.set i (nulled g.ty x)) := by
  by_cases e : g.ty = .enum
  · rw [e]
    show Res.ok a = .ok (a.set i x)
    congr 1
    refine List.ext_getElem? fun j => ?_
    rw [List.getElem?_set]
    split
    · rename_i e
      subst e
      rw [if_pos (List.getElem?_eq_some_iff.1 hx).1, hx]
    · rfl
  · have h1 : writeNull lib c (propOf u b f) g.ty a = c.write lib (propOf u b f) g.ty (defaultVal g.ty) a := by
      cases hty : g.ty <;> first | exact absurd hty e | rfl
    have h2 : nulled g.ty x = writeVal g.ty x (defaultVal g.ty) := by
      cases hty : g.ty <;> first | exact absurd hty e | rfl
    rw [h1, h2]
    exact write_prop (env := env.toEnv) h hq hl hf hg ha hx (defaultVal_safe g.ty).hasTy

theorem find_congr {α : Type} {p q : α → Bool} : ∀ {l : List α}, (∀ x ∈ l, p x = q x) → l.find? p = l.find? q
  | [], _ => rfl
  | x :: l, h => by
    rw [List.find?_cons, List.find?_cons, h x (by simp), find_congr fun y hy => h y (by simp [hy])]

theorem readMembers_eq {u : Sources} {b : Printed × List FieldD} {m : Nat} (h : GeneratedFor u b (env.sch m) (classes m))
    (hj : ∀ (i : Nat) (f : FieldD), b.2[i]? = some f → env.jsonName m i = f.json) (hv : QtPb.Spec.ValidOrder env.toEnv) {q : Containers}
    (hq : Gen.Text.Spec.Pointers q) (hl : lib.same = wholeEq q) {rec : Nat → Bytes → MsgResult} (hr : ∀ m data, QtPb.Spec.WellTyped env.toEnv m (rec m data).2) :
    ∀ (es : List (Bytes × JType × Bytes)) {obj : Obj}, QtPb.Spec.WellTyped env.toEnv m obj →
    readMembers env classes lib rec m (b.2.zipIdx.map fun p => (p.2 + 1, p.1.json)) es obj = Json.readMembers env rec m es obj
  | [], _, _ => rfl
  | e :: es, obj, ho => by
    have ih : ∀ {obj : Obj}, QtPb.Spec.WellTyped env.toEnv m obj →
      readMembers env classes lib rec m (b.2.zipIdx.map fun p => (p.2 + 1, p.1.json)) es obj = Json.readMembers env rec m es obj :=
      fun ho => readMembers_eq h hj hv hq hl hr es ho
    have hat : ∀ {i : Nat}, i ∈ env.ord m → ∃ f g, b.2[i]? = some f ∧ (env.sch m)[i]? = some g := fun {i} hi => by
      have hi := List.mem_range.1 ((hv m).mem_iff.1 hi)
      have hg := List.getElem?_eq_getElem hi
      obtain ⟨f, hf⟩ := field_at h hg
      exact ⟨f, _, hf, hg⟩
    have hfind : ((env.ord m).find? fun i => ((b.2.zipIdx.map fun p => (p.2 + 1, p.1.json))[i]?.map (·.2)) == some (env.fromUtf8 e.1)) =
        findName env m e.1 := by
      unfold findName
      refine find_congr fun i hi => ?_
      obtain ⟨f, g, hf, -⟩ := hat hi
      rw [table_at, hf, hj i f hf]
      rfl
    rw [readMembers, Json.readMembers, hfind]
    cases hn : findName env m e.1 with
    | none => exact ih ho
    | some i =>
      obtain ⟨f, g, hf, hg⟩ := hat (List.mem_of_find?_eq_some hn)
      have ho' := ho
      cases ho' with
      | msg hlen ht =>
        have hlt : i < obj.length := by rw [hlen]; exact (List.getElem?_eq_some_iff.1 hg).1
        have hx := List.getElem?_eq_getElem hlt
        dsimp only
        rw [table_at, hf]
        simp only [Option.map_some, Option.bind_some]
        rw [property_eq h hf, hg, hx]
        dsimp only
        rw [read_eq h hf hg hlen hx]
        dsimp only
        have hc := ht i g _ hg hx
        split
        · rw [writeNull_eq env h hq hl hf hg hlen hx]
          exact ih (set_typed ho hg (nulled_typed hc))
        · cases hd : Json.deserializeValue env rec m i g.ty e.2.1 e.2.2 with
          | ok r =>
            obtain ⟨v, ok⟩ := r
            cases ok with
            | true =>
              have tv := Json.deserializeValue_typed hr hd
              dsimp only
              rw [write_prop h hq hl hf hg hlen hx tv]
              exact ih (set_typed ho hg (write_typed hc tv))
            | false => exact ih ho
          | _ => rfl

theorem deserialize_eq (hp : MetaJson.Spec.Program env.toJEnv classes) (hv : QtPb.Spec.ValidOrder env.toEnv) {q : Containers} (hq : Gen.Text.Spec.Pointers q)
    (hl : lib.same = wholeEq q) (n : Nat) : deserializeMessage env classes lib n = Json.deserializeMessage env n := by
  induction n with
  | zero => rfl
  | succ n ih =>
    funext m data
    obtain ⟨u, b, h, -, hj⟩ := hp m
    rw [deserializeMessage, Json.deserializeMessage, ih, table_eq h]
    dsimp only
    cases env.objectOf data with
    | ok es => exact readMembers_eq h hj hv hq hl (fun m data => C66_typed n m data) es (default_safe m).hasTy
    | _ => rfl

end

end QtPb.MetaJson
