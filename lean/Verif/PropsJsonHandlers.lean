import Verif.SpecJsonHandlers
import Verif.PropsRegister
/-
Property C107: the JSON serializer has the functions for the type of every field of every generated class.
-/
namespace QtPb.Gen.Reg.Json
open QtPb.Gen QtPb.Gen.Reg

section
variable {p : Program} (hw : ∀ c ∈ classes p, ∀ f ∈ c.fields, WellFormed p f) {reg : List Entry} (hr : AnyOrder p reg)
include hw hr

/-- No handler is registered for a type of the built-in tables. -/
theorem registered_not_builtin {t : CppT} {h : Handler} (hf : findHandler reg t = some h) :
    builtin t = false ∧ Right t (.registered h) := by
  have hR := registered_right hw ((hr _).mp (findHandler_mem hf))
  refine ⟨?_, hR⟩
  cases hR <;> rfl

/-- The JSON serializer reads the types for which the binary serializer has a handler. -/
theorem reader_serve (t : CppT) : reader reg t = (serve reg t).map fun
    | .builtin => .table
    | .registered h => .registered h := by
  have hb : tableReads t = builtin t := by
    cases t with
    | basic t => rfl
    | list u => cases u <;> rfl
    | _ => rfl
  unfold reader serve
  cases hf : findHandler reg t with
  | some h => simp [(registered_not_builtin hw hr hf).1]
  | none => cases h : builtin t <;> simp [hb, h]

theorem readable_iff (t : CppT) : (∀ u ∈ readTypes reg t, (reader reg u).isSome = true) ↔ property reg t = true := by
  have hs : ∀ u, (reader reg u).isSome = (serve reg u).isSome := fun u => by rw [reader_serve hw hr]; simp
  unfold readTypes property
  simp only [List.forall_mem_cons, hs]
  rw [reader_serve hw hr t]
  cases h : serve reg t with
  | none => simp
  | some s => cases s <;> simp

theorem right_writer_iff (t : CppT) : RightWriter t (writer reg t) ↔ (serve reg t).isSome = true := by
  unfold writer serve
  cases hf : findHandler reg t with
  | some h =>
    obtain ⟨hb, hR⟩ := registered_not_builtin hw hr hf
    simp only [hb, Bool.false_eq_true, if_false, Option.map_some, Option.isSome_some, iff_true]
    exact .registered t h hR
  | none =>
    simp only [Option.map_none]
    constructor
    · intro h
      cases t with
      | basic t => cases t <;> first | rfl | (cases h; simp_all)
      | list u =>
        cases u with
        | basic t => cases t <;> first | rfl | cases h
        | _ => cases h
      | _ => cases h
    · intro h
      cases t with
      | basic t =>
        cases t <;> first
          | exact .asPrinted _ (by decide)
          | exact .table _ (by decide)
          | exact absurd h (by simp [builtin, scalarBuiltin])
      | list u =>
        cases u with
        | basic t => cases t <;> first | exact .lists _ | cases h
        | _ => cases h
      | _ => cases h

omit hr in
/-- The key of a registered map is a scalar of the tables, and so is the value if it is a scalar. -/
theorem key_builtin {t k v : CppT} (h : (t, Handler.map k v) ∈ registrations p) :
    builtin k = true ∧ ∀ x, v = .basic x → builtin v = true := by
  rcases mem_registrations.mp h with ⟨c, hc, ⟨f, hf, h⟩ | h | h⟩ | ⟨q, hq, h⟩ | ⟨q, hq, h⟩
  · rcases mem_registerField (hw c hc f hf) h with ⟨ht, q, hq, hl, h⟩ | ⟨hm, h⟩
    · simp [registerEnum] at h
    · obtain ⟨_, hn, h1, h2, h3⟩ := (hw c hc f hf).map hm
      have hk : k = .basic (p.entry (f.msgType.getD [])).1.type ∧ v = element c.package (p.entry (f.msgType.getD [])).2 := by
        unfold registerMap at h
        split at h <;> simp at h <;> exact h.2
      obtain ⟨rfl, rfl⟩ := hk
      refine ⟨by cases ht : (p.entry (f.msgType.getD [])).1.type <;> simp_all [builtin, scalarBuiltin], fun x hx => ?_⟩
      rcases element_cases c.package _ hn with ⟨_, _, hs, he⟩ | ⟨q, _, _, he⟩ | ⟨q, _, _, _, he⟩ | ⟨q, _, _, _, he⟩
      · rw [he]; exact hs
      all_goals rw [he] at hx; cases hx
  · simp at h
  · simp at h
  · simp [registerEnum] at h
  · simp at h

theorem writable_iff (t : CppT) : (∀ u ∈ written reg t, RightWriter u (writer reg u)) ↔ property reg t = true := by
  simp only [right_writer_iff hw hr]
  unfold written property
  simp only [List.forall_mem_cons]
  unfold writer
  cases hh : findHandler reg t with
  | none =>
    have : serve reg t = if builtin t then some .builtin else none := by simp [serve, hh]
    rw [this]
    cases builtin t
    · simp
    · simp only [if_true, Option.isSome_some, true_and, iff_true]
      cases tableWrites t <;> simp
  | some h =>
    have hs : serve reg t = some (.registered h) := by simp [serve, hh, (registered_not_builtin hw hr hh).1]
    rw [hs]
    simp only [Option.isSome_some, true_and]
    cases h with
    | map k v =>
      have hk := (key_builtin hw ((hr _).mp (findHandler_mem hh))).1
      have : (serve reg k).isSome = true := by simp [serve, hk]
      simp [passesOn, asksFor, this]
    | _ => simp [passesOn, asksFor]

/-- C107. Whatever type is looked up, and in whatever order the registrars have run: what reads a value is the function that reads
values of this type. -/
theorem C107_right (t : CppT) (r : Reader) (h : reader reg t = some r) : RightReader t r := by
  unfold reader at h
  cases hf : findHandler reg t with
  | some x =>
    rw [hf] at h
    cases h
    exact .registered t x (registered_not_builtin hw hr hf).2
  | none =>
    rw [hf] at h
    simp only at h
    cases t with
    | basic t => cases t <;> first | (cases h; exact .scalar _) | cases h
    | list u =>
      cases u with
      | basic t => cases t <;> first | (cases h; exact .lists _) | cases h
      | _ => cases h
    | _ => cases h

/-- C107, exactly. In whatever order the registrars have run: the value of a field, and the values in it if it is a map, are written in
the right way if and only if the field is supported (the same fields as with the binary serializer, C81). -/
theorem C107_write_exactly (c : Cls) (hc : c ∈ classes p) (f : FieldD) (hf : f ∈ c.fields) :
    (∀ u ∈ written reg (propertyType p c.package f), RightWriter u (writer reg u)) ↔ Supported p c.package f :=
  (writable_iff hw hr _).trans (C81_exactly hw hr c hc f hf)

/-- C107, exactly. There is something that reads the value of a field, and the keys and values in it if it is a map, if and only if the
field is supported. -/
theorem C107_read_exactly (c : Cls) (hc : c ∈ classes p) (f : FieldD) (hf : f ∈ c.fields) :
    (∀ u ∈ readTypes reg (propertyType p c.package f), (reader reg u).isSome = true) ↔ Supported p c.package f :=
  (readable_iff hw hr _).trans (C81_exactly hw hr c hc f hf)

/-- C107 for the supported fields. Missing: the fields of the other kinds. -/
theorem C107_handlers_partial (c : Cls) (hc : c ∈ classes p) (f : FieldD) (hf : f ∈ c.fields) (hs : Supported p c.package f) :
    (∀ u ∈ written reg (propertyType p c.package f), RightWriter u (writer reg u)) ∧
      ∀ u ∈ readTypes reg (propertyType p c.package f), ∃ r, reader reg u = some r ∧ RightReader u r :=
  ⟨(C107_write_exactly hw hr c hc f hf).mpr hs, fun u hu => by
    obtain ⟨r, h⟩ := Option.isSome_iff_exists.mp ((C107_read_exactly hw hr c hc f hf).mpr hs u hu)
    exact ⟨r, h, C107_right hw hr u r h⟩⟩

/-- C107 for the other fields: no error is reported as by the binary serializer (which throws, C81). The value of the field, or the
values in the map, are written as the text that Qt makes of them, without quotes and brackets, and are not read at all. -/
theorem C107_unsupported (c : Cls) (hc : c ∈ classes p) (f : FieldD) (hf : f ∈ c.fields) (hs : ¬ Supported p c.package f) :
    ∃ u ∈ written reg (propertyType p c.package f), u ∈ readTypes reg (propertyType p c.package f) ∧
      writer reg u = .text ∧ reader reg u = none ∧ ∀ t, u ≠ .basic t := by
  have hn : ∀ u, (serve reg u).isSome = false → writer reg u = .text ∧ reader reg u = none := by
    intro u hu
    have hu' : serve reg u = none := by simpa using hu
    refine ⟨?_, by rw [reader_serve hw hr, hu']; rfl⟩
    unfold writer
    cases hh : findHandler reg u with
    | some h => simp [serve, hh, (registered_not_builtin hw hr hh).1] at hu'
    | none =>
      have hb : builtin u = false := by
        cases h : builtin u
        · rfl
        · simp [serve, h] at hu'
      cases u with
      | basic t => cases t <;> first | rfl | cases hb
      | list v =>
        cases v with
        | basic t => cases t <;> first | rfl | cases hb
        | _ => rfl
      | _ => rfl
  have hp : property reg (propertyType p c.package f) = false := by
    cases h : property reg (propertyType p c.package f)
    · rfl
    · exact absurd ((C81_exactly hw hr c hc f hf).mp h) hs
  have hsc : ∀ t, propertyType p c.package f = .basic t → builtin (.basic t) = true := by
    intro t ht
    rcases element_cases c.package f (hw c hc f hf).field with ⟨_, _, hs, he⟩ | ⟨q, _, _, he⟩ | ⟨q, _, _, _, he⟩ | ⟨q, _, _, _, he⟩ <;>
      simp only [propertyType, he] at ht <;> split at ht <;> (try split at ht) <;> cases ht
    exact hs
  generalize propertyType p c.package f = t at hp hsc ⊢
  by_cases ht : (serve reg t).isSome = false
  · refine ⟨t, by simp [written], by simp [readTypes], (hn t ht).1, (hn t ht).2, ?_⟩
    rintro b rfl
    simp [serve, hsc b rfl] at ht
  · unfold property at hp
    cases h : serve reg t with
    | none => simp [h] at ht
    | some s =>
      cases s with
      | builtin => simp [h] at hp
      | registered h' =>
        rw [h] at hp
        simp only at hp
        have hR := serve_right hw hr h
        have hh : findHandler reg t = some h' := by
          unfold serve at h
          split at h
          · cases h
          · simpa using h
        cases h' with
        | map k v =>
          obtain ⟨hk, hv⟩ := key_builtin hw ((hr _).mp (findHandler_mem hh))
          have hk' : (serve reg k).isSome = true := by simp [serve, hk]
          simp only [asksFor, List.all_cons, List.all_nil, Bool.and_true, hk', Bool.true_and] at hp
          obtain ⟨a, b⟩ := hn _ hp
          refine ⟨_, by simp [written, writer, hh, passesOn], by simp [readTypes, reader, hh, asksFor], a, b, ?_⟩
          intro x hx
          split at hx
          · cases hx
          · have hb := hv x hx
            rw [if_neg (by assumption)] at hp
            simp [serve, hb] at hp
        | _ => simp [asksFor] at hp

end

/-- C107. The order in which the registrars run, and running them again, change nothing. -/
theorem C107_order {p : Program} (hw : ∀ c ∈ classes p, ∀ f ∈ c.fields, WellFormed p f) {reg reg' : List Entry} (hr : AnyOrder p reg)
    (hr' : AnyOrder p reg') (t : CppT) : reader reg t = reader reg' t ∧ writer reg t = writer reg' t := by
  have hs := C81_order hw hr hr' t
  refine ⟨by rw [reader_serve hw hr, reader_serve hw hr', hs], ?_⟩
  have : findHandler reg t = findHandler reg' t := by
    cases h : findHandler reg t with
    | some x =>
      have hb := (registered_not_builtin hw hr h).1
      have := hs.symm
      simp [serve, hb, h] at this
      exact this.symm
    | none =>
      cases h' : findHandler reg' t with
      | none => rfl
      | some x =>
        have hb := (registered_not_builtin hw hr' h').1
        simp [serve, hb, h, h'] at hs
  simp only [writer, this]

open Example in
/-- C107 is violated: an enum that is declared in a message which has no field of this type, and used in a field of another message,
is written without quotes and not read. -/
theorem C107_neighbour_enum_violated :
    levelField ∈ user.fields ∧ propertyType program [['t']] levelField = .enum [['t'], ['O'], ['L']] ∧
      writer (registrations program) (.enum [['t'], ['O'], ['L']]) = .text ∧ reader (registrations program) (.enum [['t'], ['O'], ['L']]) = none := by
  refine ⟨?_, ?_, ?_, ?_⟩ <;> decide +kernel

open Example in
/-- C107 is violated: a list of bool is written as the text of the QVariant, which is empty, and not read. -/
theorem C107_bools_violated :
    flagsField ∈ user.fields ∧ propertyType program [['t']] flagsField = .list (.basic .bool) ∧
      writer (registrations program) (.list (.basic .bool)) = .text ∧ reader (registrations program) (.list (.basic .bool)) = none := by
  refine ⟨?_, ?_, ?_, ?_⟩ <;> decide +kernel

open Example in
/-- C107 is violated: a map with values of a Qt type is written as the text of the QVariant and not read, although the Qt type itself
has a handler. -/
theorem C107_qt_map_violated :
    linksField ∈ user.fields ∧
      writer (registrations program) (propertyType program [['t']] linksField) = .text ∧
      reader (registrations program) (propertyType program [['t']] linksField) = none ∧
      writer (registrations program) (propertyType program [['t']] homeField) =
        .registered (.qt (.qt [kQtProtobuf, ['Q', 'U', 'r', 'l']])) := by
  refine ⟨?_, ?_, ?_, ?_⟩ <;> decide +kernel

/-- The hypotheses of the theorems hold for the example: a map of messages is supported, a list of bool is not. -/
example : (∀ u ∈ written (registrations Example.program) (propertyType Example.program [['t']] Example.byIdField),
      RightWriter u (writer (registrations Example.program) u)) ∧
    ¬ ∀ u ∈ written (registrations Example.program) (propertyType Example.program [['t']] Example.flagsField),
      RightWriter u (writer (registrations Example.program) u) := by
  have hc : (⟨[['t']], [['t'], ['U']], Example.user.fields⟩ : Cls) ∈ classes Example.program := by
    have h : classes Example.program = [⟨[['t']], [['t'], ['O']], Example.owner.fields⟩, ⟨[['t']], [['t'], ['U']], Example.user.fields⟩] := by
      rfl
    rw [h]; simp
  have hr : AnyOrder Example.program (registrations Example.program) := fun _ => Iff.rfl
  constructor
  · refine (C107_write_exactly Example.wellFormed hr _ hc _ (by simp [Example.user, Msg.fields])).mpr ?_
    refine (C81_exactly Example.wellFormed hr _ hc _ (by simp [Example.user, Msg.fields])).mp ?_
    decide +kernel
  · intro h
    have := (C107_write_exactly Example.wellFormed hr _ hc _ (by simp [Example.user, Msg.fields])).mp h
    have := (C81_exactly Example.wellFormed hr _ hc _ (by simp [Example.user, Msg.fields])).mpr this
    revert this
    decide +kernel

end QtPb.Gen.Reg.Json
