import Verif.MetaJsonProofs
import Verif.PropsMeta
import Verif.PropsJsonRead
/-
C105: objects of generated classes in JSON, with the tables and properties of the classes read from the text of the generated files and their functions run from it.
-/
set_option maxRecDepth 100000

namespace QtPb.MetaJson
open QtPb.SpecCpp QtPb.Meta QtPb.Meta.Spec QtPb.Json QtPb.Gen QtPb.Gen.Spec QtPb.Gen.Text QtPb.Gen.Text.Spec
open QtPb.Spec (ValidOrder NoRepeatedBool Same WellTyped HasTy Safe JVal readJson Shows Printable QtNumbers QtReads ReadsJson Document quoteEscape DistinctNames NoBoolKeys
  NoNullName Exact ExactNames)

/-- C105: messages that are in files with plain names, with the numbers and JSON names of their fields, make a program. -/
theorem C105_program_partial {env : JEnv} (h : ∀ k, ∃ (u : Sources) (b : Printed × List FieldD), u.Plain ∧ b ∈ u.bodies ∧ Represents u.c b.2 (env.sch k) ∧
      b.2.map FieldD.number = (env.sch k).map QtPb.Field.num ∧ ValidFields b.2 ∧ Getters b.2 ∧ NoDataNames b.2 ∧
      ∀ (i : Nat) (f : FieldD), b.2[i]? = some f → env.jsonName k i = f.json) :
    ∃ classes, MetaJson.Spec.Program env classes := by
  have : ∀ k, ∃ c : Meta.Class, ∃ u b, GeneratedFor u b (env.sch k) c ∧ NoDataNames b.2 ∧ ∀ (i : Nat) (f : FieldD), b.2[i]? = some f → env.jsonName k i = f.json := fun k => by
    obtain ⟨u, b, hu, hb, hr, hn, hv, hg, hd, hj⟩ := h k
    obtain ⟨header, source, p, h1, h2, h3, -⟩ := C96_class_partial hu hb hr
    exact ⟨⟨header, source, b.1.cpp, p⟩, u, b, ⟨hu, hb, hr, hn, hv, hg, h1, h2, rfl, h3⟩, hd, hj⟩
  exact ⟨fun k => Classical.choose (this k), fun k => Classical.choose_spec (this k)⟩

/-! ### The serializer of the other models -/

/-- C105: through the tables and functions of the generated text the JSON serializer writes what the model of `Verif/Json.lean` writes, and reads what that of
`Verif/JsonRead.lean` reads; so what is proved about these (C47, C64, C65, C66) holds for generated classes. -/
theorem C105_codec_partial {env : REnv} {classes : Nat → Meta.Class} {q : Containers} {last : Bool} (hp : MetaJson.Spec.Program env.toJEnv classes)
    (hq : Gen.Text.Spec.Pointers q) (ho : ValidOrder env.toEnv) (d n : Nat) :
    (∀ m obj, WellTyped env.toEnv m obj →
      serializeObject env.toJEnv classes (libOf env.toEnv q classes d) last n m obj = Json.serializeObject env.toJEnv n m obj) ∧
    ∀ m data, deserializeMessage env classes (libOf env.toEnv q classes d) n m data = Json.deserializeMessage env n m data :=
  ⟨fun m obj h => serialize_eq hp n m obj h, fun m data => by rw [deserialize_eq hp ho hq (lib_same d) n]⟩

/-! ### Documents -/

/-- C105: what is written for an object of a generated class is a JSON document with a member for every field, with the JSON name that the field has in the .proto file and
a value that shows that of the field. -/
theorem C105_document_partial {env : JEnv} {classes : Nat → Meta.Class} {q : Containers} {last : Bool} (hp : MetaJson.Spec.Program env classes) (ho : ValidOrder env.toEnv)
    (hn : QtNumbers env) (d : Nat) {m : Nat} {o : Obj} (hw : WellTyped env.toEnv m o) (h : Printable env 0 0 (.msg m) (.msg o)) :
    ∃ N bs j, (∀ n, N ≤ n → serializeObject env classes (libOf env.toEnv q classes d) last n m o = .ok bs) ∧ readJson bs = some j ∧
      Shows env 0 0 (.msg m) (.msg o) j := by
  obtain ⟨N, bs, j, h1, h2, h3⟩ := C47_document_partial ho hn h
  exact ⟨N, bs, j, fun n hN => (serialize_eq hp n m o hw).trans (h1 n hN), h2, h3⟩

section
variable {env : REnv} {classes : Nat → Meta.Class} {q : Containers} {last : Bool}

/-- C105: a document that stands for a message is read into an object of the generated class whose properties, read through their functions in the text, have the values of
the message. -/
theorem C105_reads_partial (hp : MetaJson.Spec.Program env.toJEnv classes) (hq : Gen.Text.Spec.Pointers q) (hm : ReadsJson env) (hr : QtReads env) (ho : ValidOrder env.toEnv)
    (hd : DistinctNames env.toJEnv) (hb : NoRepeatedBool env.toEnv) (hk : NoBoolKeys env.toEnv) (hnull : NoNullName env) (d : Nat) {m : Nat} {t : Bytes} {o : Obj}
    (h : Document env quoteEscape m t o) :
    ∃ N o', (∀ n, N ≤ n → deserializeMessage env classes (libOf env.toEnv q classes d) n m t = (.ok (), o')) ∧
      ∀ (i : Nat) (g : QtPb.Field) (v : Val), (env.sch m)[i]? = some g → o[i]? = some v →
        ∃ p, (classes m).property (i + 1) = some p ∧ (classes m).read (libOf env.toEnv q classes d) p o' = .ok (g.ty, v) := by
  obtain ⟨N, hN⟩ := C64_reads_partial hm hr ho hd hb hk hnull h
  refine ⟨N, o, fun n hn => ?_, fun i g v hg hv => ?_⟩
  · rw [deserialize_eq hp ho hq (lib_same d) n]
    exact (hN n hn).1
  · obtain ⟨u, b, hc, -⟩ := hp m
    obtain ⟨f, hf⟩ := field_at hc hg
    have hlen : o.length = (env.sch m).length := by
      have := C66_typed (env := env) N m t
      rw [(hN N (Nat.le_refl N)).1] at this
      cases this
      assumption
    exact ⟨_, property_eq hc hf, read_eq hc hf hg hlen hv⟩

/-- What arrives at an object of the same class. -/
theorem arrival (hp : MetaJson.Spec.Program env.toJEnv classes) (hq : Gen.Text.Spec.Pointers q) (hm : ReadsJson env) (hr : QtReads env) (hn : QtNumbers env.toJEnv)
    (ho : ValidOrder env.toEnv) (hd : DistinctNames env.toJEnv) (he : ExactNames env) (hb : NoRepeatedBool env.toEnv) (hk : NoBoolKeys env.toEnv) (hnull : NoNullName env)
    (d : Nat) {m : Nat} {o : Obj} (h : Exact env 0 0 (.msg m) (.msg o)) :
    ∃ N bs o', (∀ n, N ≤ n → serializeObject env.toJEnv classes (libOf env.toEnv q classes d) last n m o = .ok bs) ∧
      (∀ n, N ≤ n → deserializeMessage env classes (libOf env.toEnv q classes d) n m bs = (.ok (), o')) ∧
      Same env.toEnv (.msg m) (.msg o) (.msg o') ∧ Safe env.toEnv (.msg m) (.msg o') := by
  obtain ⟨N, bs, j, h1, h2, h3⟩ := C47_document_partial ho hn (exact_printable he h)
  obtain ⟨v', g1, g2⟩ := exact_back ho hn hd he h j h3
  cases g1 with
  | @msg _ _ _ ms o' vs a1 a2 a3 a4 a5 a6 a7 =>
  have hmeans : QtPb.Spec.Means env quoteEscape 0 0 (.msg m) (.obj ms) (.msg o') := .msg vs a1 a2 a3 a4 a5 a6 a7
  obtain ⟨N', hN'⟩ := document_read hm hr ho hd hb hk hnull h2 hmeans
  refine ⟨max N N', bs, o', fun n hn => ?_, fun n hn => ?_, g2, means_safe hmeans⟩
  · exact (serialize_eq hp n m o (exact_isPlain h).safe.hasTy).trans (h1 n (by omega))
  · rw [deserialize_eq hp ho hq (lib_same d) n]
    exact hN' n (by omega)

/-- C105: from property to property. A property of an object is written, the object is written as JSON, and the document is read into a new object. Then this property of the
new object has the value that was written, and the others have those that the object had. -/
theorem C105_properties_partial (hp : MetaJson.Spec.Program env.toJEnv classes) (hq : Gen.Text.Spec.Pointers q) (hm : ReadsJson env) (hr : QtReads env)
    (hn : QtNumbers env.toJEnv) (ho : ValidOrder env.toEnv) (hd : DistinctNames env.toJEnv) (he : ExactNames env) (hb : NoRepeatedBool env.toEnv)
    (hk : NoBoolKeys env.toEnv) (hnull : NoNullName env) (d : Nat) {m : Nat} {obj : Obj} (h : Exact env 0 0 (.msg m) (.msg obj)) {i : Nat} {g : QtPb.Field}
    (hg : (env.sch m)[i]? = some g) {v : Val} (tv : Exact env m i g.ty v) :
    ∃ p obj' N bs o', (classes m).property (i + 1) = some p ∧ (classes m).write (libOf env.toEnv q classes d) p g.ty v obj = .ok obj' ∧
      (∀ n, N ≤ n → serializeObject env.toJEnv classes (libOf env.toEnv q classes d) last n m obj' = .ok bs) ∧
      (∀ n, N ≤ n → deserializeMessage env classes (libOf env.toEnv q classes d) n m bs = (.ok (), o')) ∧
      (∃ y, (classes m).read (libOf env.toEnv q classes d) p o' = .ok (g.ty, y) ∧ Same env.toEnv g.ty v y) ∧
      ∀ (j : Nat) (g' : QtPb.Field), j ≠ i → (env.sch m)[j]? = some g' → ∃ p' x y, (classes m).property (j + 1) = some p' ∧
        (classes m).read (libOf env.toEnv q classes d) p' obj = .ok (g'.ty, x) ∧ (classes m).read (libOf env.toEnv q classes d) p' o' = .ok (g'.ty, y) ∧
        Same env.toEnv g'.ty x y := by
  obtain ⟨u, b, hc, -⟩ := hp m
  obtain ⟨f, hf⟩ := field_at hc hg
  have la : obj.length = (env.sch m).length := by cases h; assumption
  have at' : ∀ {o : Obj} {j : Nat} {g' : QtPb.Field}, o.length = (env.sch m).length → (env.sch m)[j]? = some g' → ∃ x, o[j]? = some x := fun l e =>
    ⟨_, List.getElem?_eq_getElem (l ▸ (List.getElem?_eq_some_iff.1 e).1)⟩
  obtain ⟨x, hx⟩ := at' la hg
  have pv := exact_isPlain tv
  have hw := write_prop hc hq (lib_same (env := env.toEnv) (classes := classes) d) hf hg la hx pv.safe.hasTy
  have tx : Exact env m i g.ty x := by cases h with | msg _ _ h => exact h i g x hg hx
  have hz : Same env.toEnv g.ty (writeVal g.ty x v) v ∧ Safe env.toEnv g.ty (writeVal g.ty x v) := by
    have := writeVal_mirrors (exact_isPlain tx).safe pv.safe
    exact ⟨this.1.toSame pv, this.2⟩
  have tz : Exact env m i g.ty (writeVal g.ty x v) := by
    have : writeVal g.ty x v = x ∨ writeVal g.ty x v = v := by
      unfold writeVal
      repeat' split
      all_goals first | exact Or.inl rfl | exact Or.inr rfl
    rcases this with e | e <;> rw [e] <;> assumption
  have hset : Exact env 0 0 (.msg m) (.msg (obj.set i (writeVal g.ty x v))) := by
    refine .msg (fun e => by rw [e] at hg; simp at hg) (by simpa using la) fun j g' w hg' hj => ?_
    rw [List.getElem?_set] at hj
    split at hj
    · rename_i e
      subst e
      cases hg.symm.trans hg'
      split at hj <;> cases hj
      exact tz
    · cases h with | msg _ _ h => exact h j g' w hg' hj
  obtain ⟨N, bs, o', h1, k1, k2, k3⟩ := arrival (last := last) hp hq hm hr hn ho hd he hb hk hnull d hset
  have lb : o'.length = (env.sch m).length := by cases k3; assumption
  have hzi : (obj.set i (writeVal g.ty x v))[i]? = some (writeVal g.ty x v) := by
    rw [List.getElem?_set_self (la ▸ (List.getElem?_eq_some_iff.1 hg).1)]
  refine ⟨_, _, N, bs, o', property_eq hc hf, hw, h1, k1, ?_, fun j g' hj hg' => ?_⟩
  · obtain ⟨y, hy⟩ := at' lb hg
    have ty : Safe env.toEnv g.ty y := by cases k3 with | msg _ h => exact h i g y hg hy
    exact ⟨y, read_eq hc hf hg lb hy, hz.1.symm.trans (field_same k2 hg hzi hy) pv.safe hz.2 ty⟩
  · obtain ⟨f', hf'⟩ := field_at hc hg'
    obtain ⟨x', hx'⟩ := at' la hg'
    obtain ⟨y', hy'⟩ := at' lb hg'
    have hs : (obj.set i (writeVal g.ty x v))[j]? = some x' := by rw [List.getElem?_set_ne (Ne.symm hj), hx']
    exact ⟨_, x', y', property_eq hc hf', read_eq hc hf' hg' la hx', read_eq hc hf' hg' lb hy', field_same k2 hg' hs hy'⟩

end

/-! ### The name of a property -/

namespace Sample
open QtPb.Meta.Sample QtPb.Gen.Text.Sample

/-- The messages of `C104_name_violated`, with the JSON names of their fields. -/
def clashEnv : JEnv := { demoJ with
  sch := Meta.Sample.clashEnv.sch
  ord := Meta.Sample.clashEnv.ord
  jsonName := fun k i => match k with
    | 0 => ((clashFile.bodies[1]).2[i]?.map FieldD.json).getD []
    | _ => [] }

end Sample

open Meta.Sample QtPb.Gen.Text.Sample in
/-- C105 does not hold for a field called like the list of another: with `message Clash { repeated Nothing x = 1; string xData = 2; }` two properties are called "xData", and the
serializer, which looks properties up by name, writes one of them for both fields. Where the last property of a name is found (Qt 5) the text is written for `x` too,
`{"x":"h","xData":"h"}`; where the first is found (Qt 6) the list is written for the text, `{"x":[],"xData":[]}`. -/
theorem C105_name_violated : ∃ (env : JEnv) (classes : Nat → Meta.Class) (obj : Obj),
    (∀ k, ∃ u b, GeneratedFor u b (env.sch k) (classes k) ∧ ∀ (i : Nat) (f : FieldD), b.2[i]? = some f → env.jsonName k i = f.json) ∧ ValidOrder env.toEnv ∧
    QtNumbers env ∧ Printable env 0 0 (.msg 0) (.msg obj) ∧ ∀ lib n last,
      ∃ bs j, serializeObject env classes lib last (n + 1) 0 obj = .ok bs ∧ readJson bs = some j ∧ ¬ Shows env 0 0 (.msg 0) (.msg obj) j := by
  let classes := fun k => Classical.choose (clashClass k)
  have hc : ∀ k, ∃ b, GeneratedFor clashFile b (Sample.clashEnv.sch k) (classes k) ∧ (k = 0 → b = clashFile.bodies[1]) := fun k => Classical.choose_spec (clashClass k)
  obtain ⟨b, h, hb⟩ := hc 0
  have hb := hb rfl
  subst hb
  let obj : Obj := [.msgList [], .sc (.str (some ['h']))]
  have f0 : (clashFile.bodies[1]).2[0]? = some { camel := text! "x", json := text! "x", number := 1, type := .message, repeated := true, msgType := some (sub ++ [text! "Nothing"]) } := rfl
  have f1 : (clashFile.bodies[1]).2[1]? = some { camel := text! "xData", json := text! "xData", number := 2, type := .string } := rfl
  have key : ∀ last, (classes 0).named last (text! "xData") =
      some (propOf clashFile clashFile.bodies[1] (if last then { camel := text! "xData", json := text! "xData", number := 2, type := .string }
        else { camel := text! "x", json := text! "x", number := 1, type := .message, repeated := true, msgType := some (sub ++ [text! "Nothing"]) })) := by
    intro last
    unfold Class.named
    rw [properties_eq h]
    cases last <;> decide +kernel
  have r0 : ∀ lib, (classes 0).read lib _ obj = _ := fun lib => read_eq h f0 (g := ⟨1, .msgList 1⟩) rfl (a := obj) rfl (x := .msgList []) rfl
  have r1 : ∀ lib, (classes 0).read lib _ obj = _ := fun lib => read_eq h f1 (g := ⟨2, .scalar .string⟩) rfl (a := obj) rfl (x := .sc (.str (some ['h']))) rfl
  have n0 : (propOf clashFile clashFile.bodies[1] { camel := text! "x", json := text! "x", number := 1, type := .message, repeated := true, msgType := some (sub ++ [text! "Nothing"]) }).name =
    text! "xData" := by decide +kernel
  have n1 : (propOf clashFile clashFile.bodies[1] { camel := text! "xData", json := text! "xData", number := 2, type := .string }).name = text! "xData" := by decide +kernel
  have ht : table (classes 0) = some [(1, text! "x"), (2, text! "xData")] := (table_eq h).trans rfl
  have p0 : ∀ last, ((classes 0).property 1).bind (fun p => (classes 0).named last p.name) = _ := fun last => by
    rw [show (1 : Nat) = 0 + 1 from rfl, property_eq h f0, Option.bind_some, n0, key last]
  have p1 : ∀ last, ((classes 0).property 2).bind (fun p => (classes 0).named last p.name) = _ := fun last => by
    rw [show (2 : Nat) = 1 + 1 from rfl, property_eq h f1, Option.bind_some, n1, key last]
  refine ⟨Sample.clashEnv, classes, obj, fun k => ?_, ?_, ⟨demoJ_numbers.1, demoJ_numbers.2, demoJ_numbers.3⟩, ?_, fun lib n last => ?_⟩
  · match k with
    | 0 => exact ⟨_, _, h, fun i f hf => by show Option.getD (Option.map _ ((clashFile.bodies[1]).2[i]?)) _ = _; rw [hf]; rfl⟩
    | k + 1 =>
      obtain ⟨b, h, -⟩ := hc (k + 1)
      refine ⟨_, b, h, fun i f hf => ?_⟩
      have h1 := (List.getElem?_eq_some_iff.1 hf).1
      rw [h.fields.length] at h1
      exact absurd h1 (Nat.not_lt_zero i)
  · intro k
    match k with
    | 0 => exact List.Perm.refl _
    | k + 1 => exact List.Perm.refl _
  · refine .msg (by decide) rfl ?_ ?_
    · have : ∀ i : Fin 2, ∀ b ∈ Sample.clashEnv.toUtf8 (Sample.clashEnv.jsonName 0 i.val), 0x20 ≤ b ∧ b ≠ 0x22 ∧ b ≠ 0x5c := by decide +kernel
      exact fun i hi => this ⟨i, hi⟩
    · intro i f v hf hv
      match i, hf, hv with
      | 0, hf, hv => cases hf; cases hv; exact .msgList (by simp) (by simp)
      | 1, hf, hv => cases hf; cases hv; exact .sc rfl (demoR_clean rfl)
      | i + 2, hf, hv => cases hf
  · cases last with
    | true =>
      refine ⟨([123, 34, 120, 34, 58, 34, 104, 34, 44, 34, 120, 68, 97, 116, 97, 34, 58, 34, 104, 34, 125] : Bytes), .obj [([120], .str [104]), ([120, 68, 97, 116, 97], .str [104])], ?_, by with_unfolding_all rfl, ?_⟩
      · rw [serializeObject, ht]
        show (members _ _ _ _ _ _ _ _ [0, 1]).bind _ = _
        simp only [members, List.getElem?_cons_zero, List.getElem?_cons_succ, p0, p1, if_true]
        rw [r1]
        rfl
      · intro hs
        cases hs with
        | msg _ hs =>
          have := hs 0 0 ⟨1, .msgList 1⟩ (.msgList []) [120] (.str [104]) rfl rfl rfl rfl
          cases this
    | false =>
      refine ⟨([123, 34, 120, 34, 58, 91, 93, 44, 34, 120, 68, 97, 116, 97, 34, 58, 91, 93, 125] : Bytes), .obj [([120], .arr []), ([120, 68, 97, 116, 97], .arr [])], ?_, by with_unfolding_all rfl, ?_⟩
      · rw [serializeObject, ht]
        show (members _ _ _ _ _ _ _ _ [0, 1]).bind _ = _
        simp only [members, List.getElem?_cons_zero, List.getElem?_cons_succ, p0, p1, Bool.false_eq_true, if_false]
        rw [r0]
        rfl
      · intro hs
        cases hs with
        | msg _ hs =>
          have := hs 1 1 ⟨2, .scalar .string⟩ (.sc (.str (some ['h']))) [120, 68, 97, 116, 97] (.arr []) rfl rfl rfl rfl
          cases this with
          | sc h => exact h

/-! ### The hypotheses can be met -/

namespace Sample
open QtPb.Meta.Sample QtPb.Gen.Text.Sample

/-- The fields of the messages in the sample file. -/
def fieldsOf : Nat → List FieldD
  | 0 => (file.bodies[1]).2
  | 1 => (file.bodies[0]).2
  | _ => []

/-- The messages of the sample file of C104, with the JSON names of their fields, and the JSON library and conversions of C64. -/
def env : REnv := { demoR (fun _ => []) with
  sch := outerEnv.sch
  ord := fun k => (List.range (outerEnv.sch k).length).reverse
  jsonName := fun k i => ((fieldsOf k)[i]?.map FieldD.json).getD [] }

theorem program : ∃ classes, MetaJson.Spec.Program env.toJEnv classes := by
  refine C105_program_partial fun k => ?_
  match k with
  | 0 => exact ⟨file, _, filePlain, member 1 (by decide), represents_of (by decide +kernel), by decide +kernel, valid_of (by decide +kernel), getters_of (by decide +kernel),
      data_of (by decide +kernel), fun i f hf => by show Option.getD (Option.map _ ((file.bodies[1]).2[i]?)) _ = _; rw [hf]; rfl⟩
  | 1 => exact ⟨file, _, filePlain, member 0 (by decide), represents_of (by decide +kernel), by decide +kernel, valid_of (by decide +kernel), getters_of (by decide +kernel),
      data_of (by decide +kernel), fun i f hf => by show Option.getD (Option.map _ ((file.bodies[0]).2[i]?)) _ = _; rw [hf]; rfl⟩
  | k + 2 => exact ⟨file, _, filePlain, member 4 (by decide), represents_of (by show representsB _ _ [] = true; decide +kernel),
      by show _ = List.map QtPb.Field.num []; decide +kernel, valid_of (by decide +kernel), getters_of (by decide +kernel), data_of (by decide +kernel),
      fun i f hf => by simp [show (file.bodies[4]).2 = [] from rfl] at hf⟩

theorem numbers : QtNumbers env.toJEnv := ⟨demoJ_numbers.1, demoJ_numbers.2, demoJ_numbers.3⟩

theorem order : ValidOrder env.toEnv := fun _ => List.reverse_perm _

/-- Statements about the names of fields, one by one. -/
theorem names {P : Nat → Nat → Prop} (h0 : ∀ i : Fin 5, P 0 i.val) (h1 : ∀ i : Fin 1, P 1 i.val) : ∀ m i, i < (env.sch m).length → P m i := by
  intro m i hi
  match m with
  | 0 => exact h0 ⟨i, hi⟩
  | 1 => exact h1 ⟨i, hi⟩
  | m + 2 => exact absurd hi (by show ¬ i < ([] : List QtPb.Field).length; simp)

theorem distinct : DistinctNames env.toJEnv := by
  intro m a b ha hb
  refine names (P := fun m a => ∀ b, b < (env.sch m).length → env.jsonName m a = env.jsonName m b → a = b) ?_ ?_ m a ha b hb
  · have : ∀ a b : Fin 5, env.jsonName 0 a.val = env.jsonName 0 b.val → a.val = b.val := by decide +kernel
    exact fun a b hb e => this a ⟨b, hb⟩ e
  · intro a b hb _
    have : b < 1 := hb
    omega

theorem exactNames : ExactNames env where
  plain := names (P := fun m i => QtPb.Spec.NoEscapes (env.toUtf8 (env.jsonName m i)))
    (by show ∀ i : Fin 5, ∀ b ∈ env.toUtf8 (env.jsonName 0 i.val), 0x20 ≤ b ∧ b ≠ 0x22 ∧ b ≠ 0x5c; decide +kernel)
    (by show ∀ i : Fin 1, ∀ b ∈ env.toUtf8 (env.jsonName 1 i.val), 0x20 ≤ b ∧ b ≠ 0x22 ∧ b ≠ 0x5c; decide +kernel)
  exact := names (P := fun m i => env.fromUtf8 (env.toUtf8 (env.jsonName m i)) = env.jsonName m i) (by decide +kernel) (by decide +kernel)
  enums := (demoR_exact (fun _ => []) (fun _ => by simp)).enums

theorem schema : NoRepeatedBool env.toEnv ∧ NoBoolKeys env.toEnv :=
  ⟨sampleSchema.2.2.2, sample_all (P := fun _ f => ∀ vt, f.ty ≠ .map .bool vt) (by simp [outerEnv]) (by simp [outerEnv])⟩

theorem inner_exact (m i : Nat) (x : BitVec 32) : Exact env m i (.msg 1) (.msg [.sc (.w32 x)]) := by
  refine .msg (by decide) rfl ?_
  intro i f v hf hv
  match i, hf, hv with
  | 0, hf, hv => cases hf; cases hv; exact .sc rfl trivial
  | i + 1, hf, hv => cases hf

theorem obj_exact : Exact env 0 0 (.msg 0) (.msg sampleObj) := by
  refine .msg (by decide) rfl ?_
  intro i f v hf hv
  match i, hf, hv with
  | 0, hf, hv => cases hf; cases hv; exact .sc rfl trivial
  | 1, hf, hv => cases hf; cases hv; exact inner_exact _ _ _
  | 2, hf, hv =>
    cases hf; cases hv
    refine .msgList ?_ ?_ <;> intro v hv <;> simp only [List.mem_cons, List.not_mem_nil, or_false] at hv <;> rcases hv with rfl | rfl
    · exact ⟨_, rfl⟩
    · exact ⟨_, rfl⟩
    · exact inner_exact _ _ _
    · exact inner_exact _ _ _
  | 3, hf, hv => cases hf; cases hv; exact .enum (name := [79, 78]) rfl (demoR_clean rfl)
  | 4, hf, hv =>
    cases hf; cases hv
    refine .map rfl (by simp) ?_ ?_ ?_ (by simp) <;> intro e he <;> rcases List.mem_singleton.1 he with rfl
    · exact ⟨rfl, trivial⟩
    · simp
    · exact .sc rfl ⟨demoR_clean rfl, by decide +kernel⟩
  | i + 5, hf, hv => cases hf

/-- The hypotheses of the theorems, and the text that is written for the message of C104:
`{"m":{"3":"hi"},"e":"ON","inners":[{"x":0},{"x":1}],"inner":{"x":-1},"id":7}`. -/
example : (∃ classes, MetaJson.Spec.Program env.toJEnv classes ∧ ∀ q d last, serializeObject env.toJEnv classes (libOf env.toEnv q classes d) last 2 0 sampleObj =
      .ok (([123, 34, 109, 34, 58, 123, 34, 51, 34, 58, 34, 104, 105, 34, 125, 44, 34, 101, 34, 58, 34, 79, 78, 34, 44, 34, 105, 110, 110, 101, 114, 115, 34, 58, 91, 123, 34, 120, 34, 58, 48, 125, 44, 123, 34, 120, 34, 58, 49, 125, 93, 44, 34, 105, 110, 110, 101, 114, 34, 58, 123, 34, 120, 34, 58, 45, 49, 125, 44, 34, 105, 100, 34, 58, 55, 125] : Bytes))) ∧
    Gen.Text.Spec.Pointers swapping ∧ ReadsJson env ∧ QtReads env ∧ QtNumbers env.toJEnv ∧ ValidOrder env.toEnv ∧ DistinctNames env.toJEnv ∧ ExactNames env ∧
    NoRepeatedBool env.toEnv ∧ NoBoolKeys env.toEnv ∧ NoNullName env ∧ Exact env 0 0 (.msg 0) (.msg sampleObj) ∧ Exact env 0 1 (.msg 1) (.msg [.sc (.w32 9#32)]) ∧
    Printable env.toJEnv 0 0 (.msg 0) (.msg sampleObj) ∧ WellTyped env.toEnv 0 sampleObj ∧ 
    ∃ t o, Document env quoteEscape 0 t o ∧ Same env.toEnv (.msg 0) (.msg sampleObj) (.msg o) := by
  obtain ⟨classes, hp⟩ := program
  have hw : WellTyped env.toEnv 0 sampleObj := (exact_isPlain obj_exact).safe.hasTy
  have hpr := exact_printable exactNames obj_exact
  refine ⟨⟨classes, hp, fun q d last => (serialize_eq hp 2 0 _ hw).trans (by decide +kernel)⟩, fun _ _ h => by simp [swapping] at h, micro_reads rfl rfl rfl rfl, qt_reads rfl rfl,
    numbers, order, distinct, exactNames, schema.1, schema.2, demoR_null (fun _ => []), obj_exact, inner_exact _ _ _, hpr, hw, ?_⟩
  obtain ⟨N, bs, j, h1, h2, h3⟩ := C47_document_partial order (env := env.toJEnv) numbers hpr
  obtain ⟨v', g1, g2⟩ := exact_back order numbers distinct exactNames obj_exact j h3
  cases g1 with
  | @msg _ _ _ ms o' vs a1 a2 a3 a4 a5 a6 a7 => exact ⟨bs, o', ⟨_, h2, .msg vs a1 a2 a3 a4 a5 a6 a7⟩, g2⟩

end Sample

end QtPb.MetaJson
