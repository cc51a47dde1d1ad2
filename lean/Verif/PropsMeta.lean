import Verif.MetaProofs
import Verif.PropsReference
/-
C104: objects of generated classes on the wire, with the tables and properties of the classes read from the text of the generated files and their functions run
from it.
-/
set_option maxRecDepth 100000

namespace QtPb.Meta
open QtPb.SpecCpp QtPb.Gen QtPb.Gen.Spec QtPb.Gen.Text QtPb.Gen.Text.Spec QtPb.Meta.Spec
open QtPb.Spec (ValidSchema ValidOrder Acyclic NoRepeatedBool Clean Same WellTyped HasTy Safe)

/-- C104: messages that are in files with plain names, with their numbers, make a program. -/
theorem C104_program_partial {env : Env} (h : ∀ k, ∃ (u : Sources) (b : Printed × List FieldD), u.Plain ∧ b ∈ u.bodies ∧ Represents u.c b.2 (env.sch k) ∧
      b.2.map FieldD.number = (env.sch k).map QtPb.Field.num ∧ ValidFields b.2 ∧ Getters b.2 ∧ NoDataNames b.2) :
    ∃ classes, Program env classes := by
  have : ∀ k, ∃ c : Class, ∃ u b, GeneratedFor u b (env.sch k) c ∧ NoDataNames b.2 := fun k => by
    obtain ⟨u, b, hu, hb, hr, hn, hv, hg, hd⟩ := h k
    obtain ⟨header, source, p, h1, h2, h3, -⟩ := C96_class_partial hu hb hr
    exact ⟨⟨header, source, b.1.cpp, p⟩, u, b, ⟨hu, hb, hr, hn, hv, hg, h1, h2, rfl, h3⟩, hd⟩
  exact ⟨fun k => Classical.choose (this k), fun k => Classical.choose_spec (this k)⟩

section
variable {env : Env} {classes : Nat → Class} {q : Containers} {last : Bool}

/-- The library a program runs with. -/
abbrev libOf (env : Env) (q : Containers) (classes : Nat → Class) (d : Nat) : Lib := libAt env q (fun k => (classes k).text) d

theorem lib_same (d : Nat) : (libOf env q classes d).same = wholeEq q := by cases d <;> rfl

/-! ### The serializer of the other models -/

/-- C104: through the tables and functions of the generated text the serializer writes what the model of `Verif/Codec.lean` writes, and reads what it reads; so what is
proved there about the wire format holds for generated classes. Missing: names that are not plain, messages of Qt types, fields called "xData" beside a repeated message
field "x" (see `C104_name_violated`). -/
theorem C104_codec_partial (hp : Program env classes) (hq : Gen.Text.Spec.Pointers q) (d n : Nat) :
    (∀ m obj, WellTyped env m obj → serializeMessage env classes (libOf env q classes d) last n m obj = QtPb.serializeMessage env n m obj) ∧
    ∀ m data, deserializeMessage env classes (libOf env q classes d) n m data = QtPb.deserializeMessage env n m data :=
  ⟨fun m obj ho => serialize_eq hp n m obj ho, fun m data => by rw [deserialize_eq hp hq (lib_same d) n]⟩

/-! ### A peer that follows the protobuf specification -/

/-- C104: what is written for an object of a generated class is read by the reference decoder as the same message, field by field. -/
theorem C104_wire_partial (hp : Program env classes) (hv : ValidSchema env) (ho : ValidOrder env) {rank : Nat → Nat} (ha : Acyclic env rank) (hb : NoRepeatedBool env)
    (hE : env.fromUtf8 (env.toUtf8 []) = []) (d : Nat) {m : Nat} {obj : Obj} (hobj : Clean env (.msg m) (.msg obj)) :
    ∃ N bs, (∀ n, N ≤ n → serializeMessage env classes (libOf env q classes d) last n m obj = .ok bs) ∧
      (bs.length < 2 ^ 31 → ∃ o', Ref.decode env m bs = some o' ∧ Same env (.msg m) (.msg obj) (.msg o')) := by
  obtain ⟨N, bs, h1, h2⟩ := C21_reference hv ho ha hb hE hobj
  exact ⟨N, bs, fun n hn => (serialize_eq hp n m obj hobj.plain.safe.hasTy).trans (h1 n hn), h2⟩

theorem field_same {m : Nat} {a b : Obj} (h : Same env (.msg m) (.msg a) (.msg b)) {i : Nat} {f : QtPb.Field} {x y : Val} (hf : (env.sch m)[i]? = some f)
    (hx : a[i]? = some x) (hy : b[i]? = some y) : Same env f.ty x y := (same_msg_iff.1 h) i f x y hf hx hy

/-- What arrives at an object of the same class. -/
theorem arrival (hp : Program env classes) (hq : Gen.Text.Spec.Pointers q) (hv : ValidSchema env) (ho : ValidOrder env) {rank : Nat → Nat} (ha : Acyclic env rank)
    (hb : NoRepeatedBool env) (hE : env.fromUtf8 (env.toUtf8 []) = []) (d : Nat) {m : Nat} {obj : Obj} (hobj : Clean env (.msg m) (.msg obj)) :
    ∃ N bs, (∀ n, N ≤ n → serializeMessage env classes (libOf env q classes d) last n m obj = .ok bs) ∧
      (bs.length < 2 ^ 31 → ∀ n, bs.length < n → ∃ o', deserializeMessage env classes (libOf env q classes d) n m bs = (.ok (), o') ∧
        Same env (.msg m) (.msg obj) (.msg o') ∧ Safe env (.msg m) (.msg o')) := by
  have hw : WellTyped env m obj := hobj.plain.safe.hasTy
  obtain ⟨N, bs, hs⟩ := C20_serialize_terminates_partial ha hb hw
  refine ⟨N, bs, fun n hn => (serialize_eq hp n m obj hw).trans (hs n hn), fun hlen n hn => ?_⟩
  obtain ⟨o', h1, h2⟩ := C01_roundtrip_exact hv ho hw (hs N (Nat.le_refl N)) hlen hn
  refine ⟨o', ?_, arrives_same hE h2 hobj⟩
  rw [deserialize_eq hp hq (lib_same d) n]
  exact h1

/-- C104: from getter to getter. An object is serialized and the bytes are read into a new object. For every field that is not a message the getter of the new object,
run from the text, returns the value that the getter of the sent object returns. -/
theorem C104_getters_partial (hp : Program env classes) (hq : Gen.Text.Spec.Pointers q) (hv : ValidSchema env) (ho : ValidOrder env) {rank : Nat → Nat}
    (ha : Acyclic env rank) (hb : NoRepeatedBool env) (hE : env.fromUtf8 (env.toUtf8 []) = []) (d : Nat) {m : Nat} {obj : Obj}
    (hobj : Clean env (.msg m) (.msg obj)) {u : Sources} {b : Printed × List FieldD} (hc : GeneratedFor u b (env.sch m) (classes m)) :
    ∃ N bs, (∀ n, N ≤ n → serializeMessage env classes (libOf env q classes d) last n m obj = .ok bs) ∧
      (bs.length < 2 ^ 31 → ∀ n, bs.length < n → ∃ o', deserializeMessage env classes (libOf env q classes d) n m bs = (.ok (), o') ∧
        ∀ (i : Nat) (f : FieldD) (g : QtPb.Field), b.2[i]? = some f → (env.sch m)[i]? = some g → (∀ k, g.ty ≠ .msg k) →
          ∃ bodies x y, nullaryOf (classes m).header (classes m).source (classes m).name f.prop = some bodies ∧ bodies ≠ [] ∧ Same env g.ty x y ∧
            ∀ body ∈ bodies, (classes m).text.callGetter (libOf env q classes d) body obj = .ok (.inl (g.ty, x), obj, []) ∧
              (classes m).text.callGetter (libOf env q classes d) body o' = .ok (.inl (g.ty, y), o', [])) := by
  obtain ⟨N, bs, h1, h2⟩ := arrival (last := last) hp hq hv ho ha hb hE d hobj
  refine ⟨N, bs, h1, fun hlen n hn => ?_⟩
  obtain ⟨o', k1, k2, k3⟩ := h2 hlen n hn
  refine ⟨o', k1, fun i f g hf hg hm => ?_⟩
  have h3 : SpecCpp.classOf (classes m).header (classes m).source b.1.cpp ((env.sch m).map (·.ty)) = some (classes m).text := hc.name ▸ hc.text
  obtain ⟨bodies, e1, e2, e3⟩ := C96_getter hc.plain hc.body hc.fields hc.getters hc.header hc.source h3 (lib := libOf env q classes d) hf hg hm
  have la : obj.length = (env.sch m).length := by cases hobj; assumption
  have lb : o'.length = (env.sch m).length := by cases k3; assumption
  have hi : i < (env.sch m).length := (List.getElem?_eq_some_iff.1 hg).1
  have hx := List.getElem?_eq_getElem (la ▸ hi)
  have hy := List.getElem?_eq_getElem (lb ▸ hi)
  exact ⟨bodies, _, _, hc.name ▸ e1, e2, field_same k2 hg hx hy, fun body hbody => ⟨e3 body hbody _ _ la hx, e3 body hbody _ _ lb hy⟩⟩

/-- C104: from property to property. A property of an object is written, the object is serialized, and the bytes are read into a new object. Then this property of the new
object has the value that was written, and the others have those that the object had. -/
theorem C104_properties_partial (hp : Program env classes) (hq : Gen.Text.Spec.Pointers q) (hv : ValidSchema env) (ho : ValidOrder env) {rank : Nat → Nat}
    (ha : Acyclic env rank) (hb : NoRepeatedBool env) (hE : env.fromUtf8 (env.toUtf8 []) = []) (d : Nat) {m : Nat} {obj : Obj}
    (hobj : Clean env (.msg m) (.msg obj)) {i : Nat} {g : QtPb.Field} (hg : (env.sch m)[i]? = some g) {v : Val} (tv : Clean env g.ty v) :
    ∃ p obj' N bs, (classes m).property (i + 1) = some p ∧ (classes m).write (libOf env q classes d) p g.ty v obj = .ok obj' ∧
      (∀ n, N ≤ n → serializeMessage env classes (libOf env q classes d) last n m obj' = .ok bs) ∧
      (bs.length < 2 ^ 31 → ∀ n, bs.length < n → ∃ o', deserializeMessage env classes (libOf env q classes d) n m bs = (.ok (), o') ∧
        (∃ y, (classes m).read (libOf env q classes d) p o' = .ok (g.ty, y) ∧ Same env g.ty v y) ∧
        ∀ (j : Nat) (g' : QtPb.Field), j ≠ i → (env.sch m)[j]? = some g' → ∃ p' x y, (classes m).property (j + 1) = some p' ∧
          (classes m).read (libOf env q classes d) p' obj = .ok (g'.ty, x) ∧ (classes m).read (libOf env q classes d) p' o' = .ok (g'.ty, y) ∧ Same env g'.ty x y) := by
  obtain ⟨u, b, hc, hd⟩ := hp m
  obtain ⟨f, hf⟩ := field_at hc hg
  have la : obj.length = (env.sch m).length := by cases hobj; assumption
  have at' : ∀ {o : Obj} {j : Nat} {g' : QtPb.Field}, o.length = (env.sch m).length → (env.sch m)[j]? = some g' → ∃ x, o[j]? = some x := fun l e =>
    ⟨_, List.getElem?_eq_getElem (l ▸ (List.getElem?_eq_some_iff.1 e).1)⟩
  obtain ⟨x, hx⟩ := at' la hg
  have hw := write_prop hc hq (lib_same (env := env) (classes := classes) d) hf hg la hx tv.plain.safe.hasTy
  have tx : Clean env g.ty x := by cases hobj with | msg _ h => exact h i g x hg hx
  have hz : Same env g.ty (writeVal g.ty x v) v ∧ Safe env g.ty (writeVal g.ty x v) := by
    have := writeVal_mirrors tx.plain.safe tv.plain.safe
    exact ⟨this.1.toSame tv.plain, this.2⟩
  have tz : Clean env g.ty (writeVal g.ty x v) := by
    have : writeVal g.ty x v = x ∨ writeVal g.ty x v = v := by
      unfold writeVal
      repeat' split
      all_goals first | exact Or.inl rfl | exact Or.inr rfl
    rcases this with e | e <;> rw [e] <;> assumption
  have hset : Clean env (.msg m) (.msg (obj.set i (writeVal g.ty x v))) := by
    refine .msg (by simpa using la) fun j g' w hg' hj => ?_
    rw [List.getElem?_set] at hj
    split at hj
    · rename_i e
      subst e
      cases hg.symm.trans hg'
      split at hj <;> cases hj
      exact tz
    · cases hobj with | msg _ h => exact h j g' w hg' hj
  obtain ⟨N, bs, h1, h2⟩ := arrival (last := last) hp hq hv ho ha hb hE d hset
  refine ⟨_, _, N, bs, property_eq hc hf, hw, h1, fun hlen n hn => ?_⟩
  obtain ⟨o', k1, k2, k3⟩ := h2 hlen n hn
  have lb : o'.length = (env.sch m).length := by cases k3; assumption
  have hzi : (obj.set i (writeVal g.ty x v))[i]? = some (writeVal g.ty x v) := by
    rw [List.getElem?_set_self (la ▸ (List.getElem?_eq_some_iff.1 hg).1)]
  refine ⟨o', k1, ?_, fun j g' hj hg' => ?_⟩
  · obtain ⟨y, hy⟩ := at' lb hg
    have ty : Safe env g.ty y := by cases k3 with | msg _ h => exact h i g y hg hy
    exact ⟨y, read_eq hc hf hg lb hy, hz.1.symm.trans (field_same k2 hg hzi hy) tv.plain.safe hz.2 ty⟩
  · obtain ⟨f', hf'⟩ := field_at hc hg'
    obtain ⟨x', hx'⟩ := at' la hg'
    obtain ⟨y', hy'⟩ := at' lb hg'
    have hs : (obj.set i (writeVal g.ty x v))[j]? = some x' := by rw [List.getElem?_set_ne (Ne.symm hj), hx']
    exact ⟨_, x', y', property_eq hc hf', read_eq hc hf' hg' la hx', read_eq hc hf' hg' lb hy', field_same k2 hg' hs hy'⟩

end

/-! ### The name of a property -/

namespace Sample
open QtPb.Gen.Text.Sample

/-- `message Clash { repeated Nothing x = 1; string xData = 2; }` -/
def clash : Msg := .mk (text! "Clash")
  [{ camel := text! "x", json := text! "x", number := 1, type := .message, repeated := true, msgType := some (sub ++ [text! "Nothing"]) },
   { camel := text! "xData", json := text! "xData", number := 2, type := .string }] [] false

def clashFile : Sources := { file with msgs := [nothing, clash] }

theorem clashPlain : clashFile.Plain where
  file := plainFile
  external := includes.1
  internal := includes.2
  header := by intro x hx; revert x; decide
  enums := plainEnums
  msgs := by
    refine ⟨?_, ?_, trivial⟩
    all_goals
      first | rw [nothing] | rw [clash]
      rw [PlainMsg, PlainMsgs]
      exact ⟨named_of (by decide), fields_of (by decide), trivial⟩
  distinct := by decide +kernel

def clashEnv : Env := { demoEnv with
  sch := fun k => match k with
    | 0 => [⟨1, .msgList 1⟩, ⟨2, .scalar .string⟩]
    | _ => []
  ord := fun k => match k with
    | 0 => [0, 1]
    | _ => [] }

theorem clashMember (i : Nat) (h : i < 2) : clashFile.bodies[i]'(by rw [show clashFile.bodies.length = 2 from rfl]; exact h) ∈ clashFile.bodies := List.getElem_mem _

theorem valid_of {fields : List FieldD} (h : (decide (fields.map FieldD.number).Nodup && decide (fields.map FieldD.camel).Nodup &&
    fields.all fun f => !f.camel.isEmpty && !f.camel.contains '_' && match f.camel.head? with | some c => !c.isUpper | none => true) = true) : ValidFields fields := by
  simp only [Bool.and_eq_true, decide_eq_true_eq, List.all_eq_true, Bool.not_eq_true', List.contains_eq_mem, decide_eq_false_iff_not, List.isEmpty_eq_false_iff] at h
  refine ⟨h.1.1, h.1.2, fun f hf => (h.2 f hf).1.1, fun f hf => (h.2 f hf).1.2, fun f hf c hc => ?_⟩
  have := (h.2 f hf).2
  rw [hc] at this
  simpa using this

theorem getters_of {fields : List FieldD} (h : (fields.all fun f => decide (f.prop ≠ text! "registerTypes") && fields.all fun g => decide (f.prop ≠ g.prop ++ text! "_l")) = true) :
    Getters fields := by
  simp only [List.all_eq_true, Bool.and_eq_true, decide_eq_true_eq] at h
  exact ⟨fun f hf => (h f hf).1, fun f hf => (h f hf).2⟩

theorem data_of {fields : List FieldD} (h : (fields.all fun f => fields.all fun g => !(g.type == .message && g.repeated && f.camel == g.prop ++ kData)) = true) :
    NoDataNames fields := by
  simp only [List.all_eq_true, Bool.not_eq_true', Bool.and_eq_false_iff, beq_eq_false_iff_ne] at h
  intro f hf g hg ht hr
  rcases h f hf g hg with (h | h) | h
  · exact absurd ht h
  · rw [hr] at h; cases h
  · exact h

theorem clashClass (k : Nat) : ∃ c, ∃ b, GeneratedFor clashFile b (clashEnv.sch k) c ∧ (k = 0 → b = clashFile.bodies[1]) := by
  have mk : ∀ {b : Printed × List FieldD} {fs : List QtPb.Field}, b ∈ clashFile.bodies → Represents clashFile.c b.2 fs → b.2.map FieldD.number = fs.map QtPb.Field.num →
      ValidFields b.2 → Getters b.2 → ∃ c, GeneratedFor clashFile b fs c := fun hb hr hn hv hg => by
    obtain ⟨header, source, p, h1, h2, h3, -⟩ := C96_class_partial clashPlain hb hr
    exact ⟨⟨header, source, _, p⟩, clashPlain, hb, hr, hn, hv, hg, h1, h2, rfl, h3⟩
  match k with
  | 0 =>
    obtain ⟨c, hc⟩ := mk (fs := clashEnv.sch 0) (clashMember 1 (by decide)) (represents_of (by decide +kernel)) (by decide +kernel) (valid_of (by decide +kernel))
      (getters_of (by decide +kernel))
    exact ⟨c, _, hc, fun _ => rfl⟩
  | k + 1 =>
    obtain ⟨c, hc⟩ := mk (fs := []) (clashMember 0 (by decide)) (represents_of (by decide +kernel)) (by decide +kernel) (valid_of (by decide +kernel))
      (getters_of (by decide +kernel))
    exact ⟨c, _, hc, fun h => by omega⟩

end Sample

open Sample QtPb.Gen.Text.Sample in
/-- C104 does not hold for a field called like the list of another: with `message Clash { repeated Nothing x = 1; string xData = 2; }` two properties are called "xData",
and the serializer, which looks properties up by name, writes one of them for both fields. Where the last property of a name is found (Qt 5) the text is written for
field 1 too, and the reference decoder rejects the bytes; where the first is found (Qt 6) the text is not written at all. -/
theorem C104_name_violated : ∃ (env : Env) (classes : Nat → Class) (obj : Obj), (∀ k, ∃ u b, GeneratedFor u b (env.sch k) (classes k)) ∧ ValidSchema env ∧
    ValidOrder env ∧ (∃ rank, Acyclic env rank) ∧ NoRepeatedBool env ∧ Clean env (.msg 0) (.msg obj) ∧ ∀ lib n,
      (∃ bs, serializeMessage env classes lib true (n + 1) 0 obj = .ok bs ∧ Ref.decode env 0 bs = none) ∧
      (∃ bs o', serializeMessage env classes lib false (n + 1) 0 obj = .ok bs ∧ Ref.decode env 0 bs = some o' ∧ ¬ Same env (.msg 0) (.msg obj) (.msg o')) := by
  let classes := fun k => Classical.choose (clashClass k)
  have hc : ∀ k, ∃ b, GeneratedFor clashFile b (clashEnv.sch k) (classes k) ∧ (k = 0 → b = clashFile.bodies[1]) := fun k => Classical.choose_spec (clashClass k)
  obtain ⟨b, h, hb⟩ := hc 0
  have hb := hb rfl
  subst hb
  let obj : Obj := [.msgList [], .sc (.str (some ['h']))]
  have f0 : (clashFile.bodies[1]).2[0]? = some { camel := text! "x", json := text! "x", number := 1, type := .message, repeated := true, msgType := some (sub ++ [text! "Nothing"]) } := rfl
  have f1 : (clashFile.bodies[1]).2[1]? = some { camel := text! "xData", json := text! "xData", number := 2, type := .string } := rfl
  have key : ∀ last, (classes 0).named last (text! "xData") =
      some (propOf clashFile clashFile.bodies[1] (if last then { camel := text! "xData", json := text! "xData", number := 2, type := .string }
        else { camel := text! "x", json := text! "x", number := 1, type := .message, repeated := true, msgType := some (sub ++ [text! "Nothing"]) })) := by
    intro last
    unfold Class.named
    rw [properties_eq h]
    cases last <;> decide +kernel
  have r0 : ∀ lib, (classes 0).read lib _ obj = _ := fun lib => read_eq h f0 (g := ⟨1, .msgList 1⟩) rfl (a := obj) rfl (x := .msgList []) rfl
  have r1 : ∀ lib, (classes 0).read lib _ obj = _ := fun lib => read_eq h f1 (g := ⟨2, .scalar .string⟩) rfl (a := obj) rfl (x := .sc (.str (some ['h']))) rfl
  have n0 : (propOf clashFile clashFile.bodies[1] { camel := text! "x", json := text! "x", number := 1, type := .message, repeated := true, msgType := some (sub ++ [text! "Nothing"]) }).name =
    text! "xData" := by decide +kernel
  have n1 : (propOf clashFile clashFile.bodies[1] { camel := text! "xData", json := text! "xData", number := 2, type := .string }).name = text! "xData" := by decide +kernel
  have ht : (classes 0).table = some [(1, 1), (2, 2)] := (table_fields h).trans rfl
  have p0 : ∀ last, ((classes 0).property 1).bind (fun p => (classes 0).named last p.name) = _ := fun last => by
    rw [show (1 : Nat) = 0 + 1 from rfl, property_eq h f0, Option.bind_some, n0, key last]
  have p1 : ∀ last, ((classes 0).property 2).bind (fun p => (classes 0).named last p.name) = _ := fun last => by
    rw [show (2 : Nat) = 1 + 1 from rfl, property_eq h f1, Option.bind_some, n1, key last]
  refine ⟨clashEnv, classes, obj, fun k => ?_, ?_, ?_, ⟨fun _ => 0, ?_⟩, ?_, clean_of_cleanB (n := 4) (by decide), fun lib n => ⟨?_, ?_⟩⟩
  · obtain ⟨b, h, -⟩ := hc k
    exact ⟨_, b, h⟩
  · intro k
    match k with
    | 0 => exact ⟨by decide, by decide⟩
    | k + 1 => exact ⟨by show ([] : List Nat).Nodup; simp, by show ∀ f ∈ ([] : List QtPb.Field), _; simp⟩
  · intro k
    match k with
    | 0 => exact List.Perm.refl _
    | k + 1 => exact List.Perm.refl _
  · intro k f hf
    match k with
    | 0 =>
      have hf : f ∈ [(⟨1, .msgList 1⟩ : QtPb.Field), ⟨2, .scalar .string⟩] := hf
      simp only [List.mem_cons, List.not_mem_nil, or_false] at hf
      rcases hf with rfl | rfl <;> simp
    | k + 1 => exact absurd hf (by show f ∉ ([] : List QtPb.Field); simp)
  · intro k f hf
    match k with
    | 0 =>
      have hf : f ∈ [(⟨1, .msgList 1⟩ : QtPb.Field), ⟨2, .scalar .string⟩] := hf
      simp only [List.mem_cons, List.not_mem_nil, or_false] at hf
      rcases hf with rfl | rfl <;> simp
    | k + 1 => exact absurd hf (by show f ∉ ([] : List QtPb.Field); simp)
  · refine ⟨[0x0a, 1, 0x68, 0x12, 1, 0x68], ?_, by decide +kernel⟩
    rw [serializeMessage, ht]
    show concatRes ([0, 1].map _) = _
    simp only [List.map, List.getElem?_cons_zero, List.getElem?_cons_succ, p0, p1, if_true]
    rw [r1]
    rfl
  · refine ⟨[], [.msgList [], .sc (.str none)], ?_, rfl, ?_⟩
    · rw [serializeMessage, ht]
      show concatRes ([0, 1].map _) = _
      simp only [List.map, List.getElem?_cons_zero, List.getElem?_cons_succ, p0, p1, Bool.false_eq_true, if_false]
      rw [r0]
      rfl
    · intro hs
      have := field_same hs (i := 1) (f := ⟨2, .scalar .string⟩) rfl rfl rfl
      cases this with
      | sc h => exact absurd h (by decide)

/-! ### The hypotheses can be met -/

namespace Sample
open QtPb.Gen.Text.Sample

/-- The messages of the sample file, with the numbers of their fields: a number, a sub-message, a list of messages, an enumeration and a map. -/
def sampleEnv : Env := { outerEnv with ord := fun k => (List.range (outerEnv.sch k).length).reverse }

theorem sampleProgram : ∃ classes, Program sampleEnv classes := by
  refine C104_program_partial fun k => ?_
  match k with
  | 0 => exact ⟨file, _, filePlain, member 1 (by decide), represents_of (by decide +kernel), by decide +kernel, valid_of (by decide +kernel), getters_of (by decide +kernel),
      data_of (by decide +kernel)⟩
  | 1 => exact ⟨file, _, filePlain, member 0 (by decide), represents_of (by decide +kernel), by decide +kernel, valid_of (by decide +kernel), getters_of (by decide +kernel),
      data_of (by decide +kernel)⟩
  | k + 2 => exact ⟨file, _, filePlain, member 4 (by decide), represents_of (by show representsB _ _ [] = true; decide +kernel),
      by show _ = List.map QtPb.Field.num []; decide +kernel, valid_of (by decide +kernel), getters_of (by decide +kernel), data_of (by decide +kernel)⟩

/-- The fields of the messages, one by one. -/
theorem sample_all {P : Nat → QtPb.Field → Prop} (h0 : ∀ f ∈ outerEnv.sch 0, P 0 f) (h1 : ∀ f ∈ outerEnv.sch 1, P 1 f) : ∀ m, ∀ f ∈ sampleEnv.sch m, P m f := by
  intro m f hf
  match m with
  | 0 => exact h0 f hf
  | 1 => exact h1 f hf
  | m + 2 => exact absurd hf (by show f ∉ ([] : List QtPb.Field); simp)

theorem sampleSchema : ValidSchema sampleEnv ∧ ValidOrder sampleEnv ∧ Acyclic sampleEnv (fun m => if m = 0 then 1 else 0) ∧ NoRepeatedBool sampleEnv := by
  refine ⟨fun m => ⟨?_, sample_all (P := fun _ f => 1 ≤ f.num ∧ f.num < 2 ^ 29) (by decide) (by decide) m⟩, fun m => List.reverse_perm _,
    sample_all (by simp [outerEnv]) (by simp [outerEnv]), sample_all (by simp [outerEnv]) (by simp [outerEnv])⟩
  match m with
  | 0 => decide
  | 1 => decide
  | m + 2 => show ([] : List Nat).Nodup; simp

/-- A message with a value in every field. -/
def sampleObj : Obj := [.sc (.w32 7#32), .msg [.sc (.w32 0xffffffff#32)], .msgList [.msg [.sc (.w32 0#32)], .msg [.sc (.w32 1#32)]], .enum 1#32,
  .map [(.w32 3#32, .sc (.str (some ['h', 'i'])))]]

/-- The hypotheses of the theorems, and the bytes that are written for this message. -/
example : (∃ classes, Program sampleEnv classes ∧ ∀ q d last, serializeMessage sampleEnv classes (libOf sampleEnv q classes d) last 2 0 sampleObj =
      .ok [0x32, 6, 8, 3, 0x12, 2, 0x68, 0x69, 0x28, 1, 0x22, 0, 0x22, 2, 8, 1, 0x1a, 6, 8, 0xff, 0xff, 0xff, 0xff, 0x0f, 8, 7]) ∧
    Gen.Text.Spec.Pointers swapping ∧ ValidSchema sampleEnv ∧ ValidOrder sampleEnv ∧ (∃ rank, Acyclic sampleEnv rank) ∧ NoRepeatedBool sampleEnv ∧
    sampleEnv.fromUtf8 (sampleEnv.toUtf8 []) = [] ∧ Clean sampleEnv (.msg 0) (.msg sampleObj) ∧ Clean sampleEnv (.msg 1) (.msg [.sc (.w32 9#32)]) := by
  have hc : Clean sampleEnv (.msg 0) (.msg sampleObj) := clean_of_cleanB (n := 4) (by decide)
  obtain ⟨classes, hp⟩ := sampleProgram
  refine ⟨⟨classes, hp, fun q d last => (serialize_eq hp 2 0 _ hc.plain.safe.hasTy).trans ?_⟩, fun _ _ h => by simp [swapping] at h, sampleSchema.1, sampleSchema.2.1,
    ⟨_, sampleSchema.2.2.1⟩, sampleSchema.2.2.2, rfl, hc, clean_of_cleanB (n := 4) (by decide)⟩
  rfl

end Sample

end QtPb.Meta
