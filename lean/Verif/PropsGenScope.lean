import Verif.SpecMembers
import Verif.PropsGenClass
import Verif.PropsGenWords
/-
C63: no name is declared twice in a generated class, and constants have the numbers of the schema.
-/
namespace QtPb.Gen
namespace Spec

/-- The names that a message of a schema puts into its scope, beside its fields: enumerations, their values, and nested messages (with those
protoc makes for maps). protoc guarantees that they are distinct. `nested` has the names of the nested messages that classes are made for,
`maps` those of the entries of maps. -/
def scopeNames (enums : List EnumD) (nested maps : List Str) : List Str :=
  (enums.flatMap fun e => e.name :: e.values.map (·.1)) ++ nested ++ maps

/-- The members every generated class has, with the number of parameters of functions: the macros Q_OBJECT and Q_PROTOBUF_OBJECT
(qprotobufobject.h:56-60), and `registerTypes` (templates.cpp:58-59). -/
def fixedMembers : List (Str × Option Nat) := [
  (['r', 'e', 'g', 'i', 's', 't', 'e', 'r', 'T', 'y', 'p', 'e', 's'], some 0),
  (['m', 'e', 't', 'a', 'O', 'b', 'j', 'e', 'c', 't'], some 0),
  (['s', 't', 'a', 't', 'i', 'c', 'M', 'e', 't', 'a', 'O', 'b', 'j', 'e', 'c', 't'], none),
  (['p', 'r', 'o', 'p', 'e', 'r', 't', 'y', 'O', 'r', 'd', 'e', 'r', 'i', 'n', 'g'], none),
  (['p', 'r', 'o', 't', 'o', 'b', 'u', 'f', 'M', 'e', 't', 'a', 'O', 'b', 'j', 'e', 'c', 't'], none)]

/-- A function with this name and number of parameters cannot stand beside the member: the member is no function, or one with as many
parameters. -/
def Clashes (name : Str) (arity : Nat) (m : Str × Option Nat) : Prop := m.1 = name ∧ (m.2 = none ∨ m.2 = some arity)

end Spec
open Spec

/-! ### Lemmas -/

instance (s : Str) : Decidable (Capital s) := inferInstanceAs (Decidable (upperCaseName s = s))

theorem perm_pairs {α β : Type} (l : List α) (f g : α → β) : (l.flatMap fun x => [f x, g x]).Perm (l.map f ++ l.map g) := by
  induction l with
  | nil => exact List.Perm.refl _
  | cons a l ih =>
    simp only [List.flatMap_cons, List.map_cons, List.cons_append, List.nil_append]
    exact ((ih.cons (g a)).trans (List.perm_middle.symm)).cons (f a)

theorem nodup_map_append_right {l : List Str} (s : Str) : (l.map (· ++ s)).Nodup ↔ l.Nodup := by
  constructor
  · intro h
    exact (List.pairwise_map.mp h).imp fun hab e => hab (by rw [e])
  · intro h
    exact List.pairwise_map.mpr (List.Pairwise.imp (fun hab e => hab (List.append_cancel_right e)) h)

/-- What `Capital` says about the first letter. -/
theorem capital_iff (s : Str) : Capital s ↔ ∀ c, s.head? = some c → c.isLower = false := by
  cases s with
  | nil => simp [Capital, upperCaseName]
  | cons c s =>
    simp only [Capital, upperCaseName, List.cons.injEq, and_true, List.head?_cons, Option.some.injEq, forall_eq']
    constructor
    · intro h
      rw [← h]
      exact upper_not_lower c
    · intro h
      unfold Char.toUpper
      rw [dif_neg]
      simpa [Char.isLower] using h

theorem fieldConstants_nodup {fields : List FieldD} (h : ValidFields fields) : ((fieldConstants fields).map (·.1)).Nodup := by
  rw [fieldConstants, List.map_map]
  have hn : fields.Pairwise fun f g => f.camel ≠ g.camel := List.pairwise_map.mp h.names
  refine List.pairwise_map.mpr (hn.imp_of_mem fun {f g} hf hg hfg e => hfg ?_)
  exact prop_inj (h.named hf) (h.named hg) (List.append_cancel_right (upper_inj (h.named hf) (h.named hg) e))

/-- The parts of a class: names from the schema, lists, and the enumeration of field numbers. -/
theorem classNames_perm (fieldEnum : Bool) (path : Path) (fields : List FieldD) (enums : List EnumD) (nested : List Msg) :
    (classNames fieldEnum path fields enums nested).Perm
      ((if fieldEnum then kFieldEnumType :: (fieldConstants fields).map (·.1) else []) ++
       ((scopeNames enums ((nested.filter fun n => visits fields (path ++ [n.name])).map Msg.name)
          ((fields.filter (·.isMap)).map fun f => (f.msgType.getD []).getLastD [])).map upperCaseName ++
        ((enums.map EnumD.name ++ (nested.filter fun n => visits fields (path ++ [n.name])).map Msg.name).map upperCaseName).map (· ++ kRepeated))) := by
  unfold classNames scopeNames
  generalize (if fieldEnum then kFieldEnumType :: (fieldConstants fields).map (·.1) else []) = a
  generalize nested.filter (fun n => visits fields (path ++ [n.name])) = ns
  generalize fields.filter (·.isMap) = ms
  have hB : (enums.flatMap fun e => upperCaseName e.name :: (enumConstants e).map (·.1)) =
      (enums.flatMap fun e => e.name :: e.values.map (·.1)).map upperCaseName := by
    simp [List.map_flatMap, enumConstants, List.map_map, Function.comp_def]
  rw [hB]
  have hp := perm_pairs ns (fun n => upperCaseName n.name) (fun n => upperCaseName n.name ++ kRepeated)
  simp only [List.append_assoc, List.map_append, List.map_map, Function.comp_def]
  refine List.Perm.append_left a (List.Perm.append_left _ ?_)
  rw [List.perm_iff_count]
  intro x
  have := List.perm_iff_count.mp hp x
  simp only [List.count_append] at this ⊢
  omega

theorem ends_ne {a b s t : Str} (h : s.getLast? ≠ t.getLast?) (hs : s ≠ []) (ht : t ≠ []) : a ++ s ≠ b ++ t := by
  intro e
  have := congrArg List.getLast? e
  rw [List.getLast?_append, List.getLast?_append, List.getLast?_eq_some_getLast hs, List.getLast?_eq_some_getLast ht] at this
  rw [List.getLast?_eq_some_getLast hs, List.getLast?_eq_some_getLast ht] at h
  exact h (by simpa using this)

/-! ### Properties -/

/-- The names of types and constants in a class are distinct exactly if the names in the schema are distinct when capitalised, none of them is
another one (of an enumeration or message) followed by "Repeated", and (with field numbers) none is "QtProtobufFieldEnum" or a field's constant. -/
theorem C63_types_partial {fields : List FieldD} (h : ValidFields fields) (fieldEnum : Bool) (path : Path) (enums : List EnumD)
    (nested : List Msg) (printed maps : List Str) (hprinted : printed = (nested.filter fun n => visits fields (path ++ [n.name])).map Msg.name)
    (hmaps : maps = (fields.filter (·.isMap)).map fun f => (f.msgType.getD []).getLastD []) :
    (classNames fieldEnum path fields enums nested).Nodup ↔
      ((scopeNames enums printed maps).map upperCaseName).Nodup ∧
      (∀ a ∈ scopeNames enums printed maps, ∀ b ∈ enums.map EnumD.name ++ printed, upperCaseName a ≠ upperCaseName b ++ kRepeated) ∧
      (fieldEnum = true → ∀ a ∈ scopeNames enums printed maps, upperCaseName a ≠ kFieldEnumType ∧
        ∀ f ∈ fields, upperCaseName a ≠ upperCaseName f.prop ++ kFieldNumber) := by
  rw [(classNames_perm fieldEnum path fields enums nested).nodup_iff, ← hprinted, ← hmaps]
  have hsub : (scopeNames enums printed maps).map upperCaseName |>.Nodup → ((enums.map EnumD.name ++ printed).map upperCaseName).Nodup := by
    intro hn
    refine List.Sublist.nodup (List.Sublist.map _ ?_) hn
    unfold scopeNames
    rw [List.append_assoc]
    refine List.Sublist.append ?_ (List.sublist_append_left _ _)
    clear hn
    induction enums with
    | nil => exact List.Sublist.refl _
    | cons e es ih =>
      simp only [List.map_cons, List.flatMap_cons, List.cons_append]
      exact (ih.trans (List.sublist_append_right _ _)).cons_cons _
  generalize scopeNames enums printed maps = t at *
  generalize enums.map EnumD.name ++ printed = l at *
  rw [List.nodup_append, List.nodup_append, nodup_map_append_right]
  constructor
  · rintro ⟨-, ⟨ht, -, hr⟩, hf⟩
    refine ⟨ht, fun a ha b hb => hr _ (List.mem_map_of_mem ha) _ (List.mem_map_of_mem (List.mem_map_of_mem hb)), ?_⟩
    rintro rfl a ha
    have hmem := List.mem_append_left ((l.map upperCaseName).map (· ++ kRepeated)) (List.mem_map_of_mem (f := upperCaseName) ha)
    refine ⟨fun e => hf kFieldEnumType (by simp) _ hmem e.symm, fun f hff e => hf _ ?_ _ hmem e.symm⟩
    simp only [if_true]
    refine List.mem_cons_of_mem _ ?_
    simp only [fieldConstants, List.map_map, List.mem_map, Function.comp_def]
    exact ⟨f, hff, rfl⟩
  · rintro ⟨ht, hr, hf⟩
    refine ⟨?_, ⟨ht, hsub ht, ?_⟩, ?_⟩
    · cases fieldEnum with
      | false => exact List.nodup_nil
      | true =>
        simp only [if_true]
        refine List.nodup_cons.mpr ⟨?_, fieldConstants_nodup h⟩
        simp only [fieldConstants, List.map_map, List.mem_map, Function.comp_def, not_exists, not_and]
        intro f _ e
        exact ends_ne (a := upperCaseName f.prop) (b := []) (by decide) (by decide) (by decide) e
    · intro a ha b hb
      simp only [List.mem_map] at ha hb
      obtain ⟨a, ha, rfl⟩ := ha
      obtain ⟨_, ⟨b, hb, rfl⟩, rfl⟩ := hb
      exact hr a ha b hb
    · intro a ha b hb
      cases fieldEnum with
      | false => simp at ha
      | true =>
        simp only [if_true, List.mem_cons, fieldConstants, List.map_map, List.mem_map, Function.comp_def] at ha
        simp only [List.mem_append, List.mem_map] at hb
        rcases hb with ⟨b, hb, rfl⟩ | ⟨_, ⟨b, hb, rfl⟩, rfl⟩
        · rcases ha with rfl | ⟨f, hff, rfl⟩
          · exact ((hf rfl b hb).1).symm
          · exact ((hf rfl b hb).2 f hff).symm
        · rcases ha with rfl | ⟨f, hff, rfl⟩
          · exact ends_ne (a := []) (by decide) (by decide) (by decide)
          · exact ends_ne (by decide) (by decide) (by decide)

/-- If the names of enumerations, values and nested messages start with a capital, are distinct (as protoc demands) and do not end in "Repeated",
"ProtoFieldNumber" or "QtProtobufFieldEnum", all names of types and constants in the class are distinct. -/
theorem C63_types_capital_partial {fields : List FieldD} (h : ValidFields fields) (fieldEnum : Bool) (path : Path) (enums : List EnumD)
    (nested : List Msg) (printed maps : List Str) (hprinted : printed = (nested.filter fun n => visits fields (path ++ [n.name])).map Msg.name)
    (hmaps : maps = (fields.filter (·.isMap)).map fun f => (f.msgType.getD []).getLastD [])
    (hnodup : (scopeNames enums printed maps).Nodup) (hcap : ∀ a ∈ scopeNames enums printed maps, Capital a)
    (hends : ∀ a ∈ scopeNames enums printed maps, ¬ kRepeated <:+ a ∧ ¬ kFieldNumber <:+ a ∧ ¬ kFieldEnumType <:+ a) :
    (classNames fieldEnum path fields enums nested).Nodup := by
  rw [C63_types_partial h fieldEnum path enums nested printed maps hprinted hmaps, (capital_map hcap).1]
  refine ⟨hnodup, fun a ha b _ e => (hends a ha).1 ?_, fun _ a ha => ⟨fun e => (hends a ha).2.2 ?_, fun f _ e => (hends a ha).2.1 ?_⟩⟩
  · rw [hcap a ha] at e
    rw [e]
    exact List.suffix_append _ _
  · rw [hcap a ha] at e
    rw [e]
    exact List.suffix_refl _
  · rw [hcap a ha] at e
    rw [e]
    exact List.suffix_append _ _

/-- The name of the class itself is not declared in it exactly if no enumeration, value, nested message or map has it when capitalised
(or with "Repeated" after it), and it is not a constant or the enumeration of field numbers. -/
theorem C63_own_partial (own : Str) (fieldEnum : Bool) (path : Path) (fields : List FieldD) (enums : List EnumD)
    (nested : List Msg) (printed maps : List Str) (hprinted : printed = (nested.filter fun n => visits fields (path ++ [n.name])).map Msg.name)
    (hmaps : maps = (fields.filter (·.isMap)).map fun f => (f.msgType.getD []).getLastD []) :
    upperCaseName own ∈ classNames fieldEnum path fields enums nested ↔
      (∃ a ∈ scopeNames enums printed maps, upperCaseName a = upperCaseName own) ∨
      (∃ b ∈ enums.map EnumD.name ++ printed, upperCaseName b ++ kRepeated = upperCaseName own) ∨
      (fieldEnum = true ∧ (upperCaseName own = kFieldEnumType ∨ ∃ f ∈ fields, upperCaseName own = upperCaseName f.prop ++ kFieldNumber)) := by
  rw [(classNames_perm fieldEnum path fields enums nested).mem_iff, ← hprinted, ← hmaps]
  have : upperCaseName own ∈ (if fieldEnum = true then kFieldEnumType :: (fieldConstants fields).map (·.1) else []) ↔
      (fieldEnum = true ∧ (upperCaseName own = kFieldEnumType ∨ ∃ f ∈ fields, upperCaseName own = upperCaseName f.prop ++ kFieldNumber)) := by
    cases fieldEnum with
    | false => simp
    | true => simp [fieldConstants, List.mem_map, eq_comm]
  rw [List.mem_append, List.mem_append, this]
  generalize enums.map EnumD.name ++ printed = l
  simp only [List.mem_map]
  constructor
  · rintro (h | h | ⟨_, ⟨b, hb, rfl⟩, h⟩)
    · exact Or.inr (Or.inr h)
    · exact Or.inl h
    · exact Or.inr (Or.inl ⟨b, hb, h⟩)
  · rintro (h | ⟨b, hb, h⟩ | h)
    · exact Or.inr (Or.inl h)
    · exact Or.inr (Or.inr ⟨_, ⟨b, hb, rfl⟩, h⟩)
    · exact Or.inl h

/-- The constants of fields have the numbers of the fields: a look-up by the name of a field finds its number and no other. -/
theorem C63_numbers {fields : List FieldD} (h : ValidFields fields) {f : FieldD} (hf : f ∈ fields) (n : Nat) :
    (upperCaseName f.prop ++ kFieldNumber, n) ∈ fieldConstants fields ↔ n = f.number := by
  simp only [fieldConstants, List.mem_map, Prod.mk.injEq]
  constructor
  · rintro ⟨g, hg, e, rfl⟩
    have e' := prop_inj (h.named hg) (h.named hf) (List.append_cancel_right (upper_inj (h.named hg) (h.named hf) e))
    have hn : fields.Pairwise fun f g => f.camel ≠ g.camel := List.pairwise_map.mp h.names
    have : g = f := by
      obtain ⟨i, hi, ei⟩ := List.mem_iff_getElem.mp hg
      obtain ⟨j, hj, ej⟩ := List.mem_iff_getElem.mp hf
      rw [List.pairwise_iff_getElem] at hn
      rcases Nat.lt_trichotomy i j with hij | hij | hij
      · exact absurd (by rw [ei, ej]; exact e') (hn i j hi hj hij)
      · subst hij
        rw [← ei, ej]
      · exact absurd (by rw [ei, ej]; exact e'.symm) (hn j i hj hi hij)
    rw [this]
  · rintro rfl
    exact ⟨f, hf, rfl, rfl⟩

/-- The constants of an enumeration are its values in the same order, with their numbers. -/
theorem C63_enum_numbers (e : EnumD) : (enumConstants e).map (·.2) = e.values.map (·.2) ∧
    ((∀ v ∈ e.values, Capital v.1) → enumConstants e = e.values) := by
  refine ⟨by simp [enumConstants], fun h => ?_⟩
  have : ∀ v ∈ e.values, (fun v : Str × Int => (upperCaseName v.1, v.2)) v = id v := fun v hv => by
    show (upperCaseName v.1, v.2) = v
    rw [h v hv]
  rw [enumConstants, List.map_congr_left this, List.map_id]

theorem method_head {qml : Bool} {package : List Str} {f : FieldD} (h : Named f) {m : Method} (hm : m ∈ fieldMethods qml package f) :
    ∃ c s, m.name = c :: s ∧ c.isUpper = false := by
  obtain ⟨c, s, e, hc⟩ := prop_head h
  rcases mem_fieldMethods hm with rfl | rfl | rfl | rfl | rfl | rfl
  · exact ⟨c, s, e, hc⟩
  · exact ⟨c, s ++ kL, by simp [e], hc⟩
  · exact ⟨'s', _, rfl, rfl⟩
  · exact ⟨c, s ++ kChanged, by simp [e], hc⟩
  · exact ⟨c, s ++ kP, by simp [e], hc⟩
  · exact ⟨'s', _, rfl, rfl⟩

/-- No method has the name of a type or constant of the class, if the names in the schema start with letters. -/
theorem C63_methods_partial {fields : List FieldD} (h : ValidFields fields) {qml fieldEnum : Bool} {package : List Str} (path : Path)
    (enums : List EnumD) (nested : List Msg) (printed maps : List Str)
    (hprinted : printed = (nested.filter fun n => visits fields (path ++ [n.name])).map Msg.name)
    (hmaps : maps = (fields.filter (·.isMap)).map fun f => (f.msgType.getD []).getLastD [])
    (hletter : ∀ a ∈ scopeNames enums printed maps, ∃ c r, a = c :: r ∧ c.isAlpha = true)
    (hfield : ∀ f ∈ fields, ∃ c r, f.camel = c :: r ∧ c.isAlpha = true)
    {m : Method} (hm : m ∈ methods qml package fields) : m.name ∉ classNames fieldEnum path fields enums nested := by
  have up : ∀ c : Char, c.isAlpha = true → c.toUpper.isUpper = true := by
    intro c hc
    simp only [Char.isAlpha, Bool.or_eq_true] at hc
    unfold Char.toUpper
    split
    · rename_i hl
      have h1 : 97 ≤ c.val.toNat ∧ c.val.toNat ≤ 122 := hl
      have e : ('A'.val - 'a'.val).toNat = 4294967264 := by decide
      have hv : (c.val + ('A'.val - 'a'.val)).toNat = c.val.toNat - 32 := by
        rw [UInt32.toNat_add, e]
        omega
      have ea : 'A'.val.toNat = 65 := by decide
      have ez : 'Z'.val.toNat = 90 := by decide
      simp only [Char.isUpper, ge_iff_le, UInt32.le_iff_toNat_le, decide_eq_true_eq, hv]
      omega
    · rename_i hl
      rcases hc with hc | hc
      · exact hc
      · exact absurd (by simpa [Char.isLower] using hc) hl
  obtain ⟨f, hf, hmf⟩ := List.mem_flatMap.mp hm
  obtain ⟨c, s, e, hc⟩ := method_head (h.named hf) hmf
  have upper : ∀ a r : Str, (∃ c r, a = c :: r ∧ c.isAlpha = true) → m.name ≠ upperCaseName a ++ r := by
    rintro _ r ⟨d, t, rfl, hd⟩ e'
    rw [e, upperCaseName, List.cons_append, List.cons.injEq] at e'
    rw [e'.1, up d hd] at hc
    cases hc
  rw [(classNames_perm fieldEnum path fields enums nested).mem_iff, ← hprinted, ← hmaps]
  simp only [List.mem_append, List.mem_map, not_or]
  refine ⟨?_, ?_, ?_⟩
  · split
    · simp only [fieldConstants, List.mem_cons, List.map_map, List.mem_map, Function.comp_def, not_or, not_exists, not_and]
      refine ⟨fun e' => ?_, fun g hg e' => ?_⟩
      · rw [e, kFieldEnumType, kQtProtobuf, List.cons_append, List.cons.injEq] at e'
        rw [e'.1] at hc
        revert hc
        decide
      · refine upper g.prop kFieldNumber ?_ e'.symm
        obtain ⟨d, t, ed, hd⟩ := hfield g hg
        rcases prop_cases (h.named hg) with e2 | e2
        · exact ⟨d, t, by rw [e2, ed], hd⟩
        · exact ⟨d, t ++ kProto, by rw [e2, ed, List.cons_append], hd⟩
    · simp
  · rintro ⟨a, ha, e'⟩
    exact upper a [] (hletter a ha) (by rw [List.append_nil, e'])
  · rintro ⟨_, ⟨b, hb, rfl⟩, e'⟩
    refine upper b kRepeated (hletter b ?_) e'.symm
    simp only [scopeNames, List.mem_append, List.mem_flatMap]
    rcases hb with ⟨x, hx, rfl⟩ | hb
    · exact Or.inl (Or.inl ⟨x, hx, by simp⟩)
    · exact Or.inl (Or.inr hb)

theorem prop_short {f : FieldD} (h : Named f) {c : Char} (e : f.prop = [c]) : f.camel = [c] := by
  rcases prop_cases h with e2 | e2
  · rw [← e2, e]
  · have h1 := congrArg List.length (e2.symm.trans e)
    have := List.length_pos_iff.mpr h.nonempty
    simp [kProto] at h1

/-- A method has the name of a data member only if there is a field "m", and the name is "m_p" or "m_l" with a field "p" or "l". -/
theorem C63_members_partial {fields : List FieldD} (h : ValidFields fields) {qml : Bool} {package : List Str} {m : Method}
    (hm : m ∈ methods qml package fields) (hmem : m.name ∈ members fields) :
    ∃ f ∈ fields, f.camel = ['m'] ∧ ∃ g ∈ fields, (m.name = ['m', '_', 'p'] ∧ g.camel = ['p']) ∨ (m.name = ['m', '_', 'l'] ∧ g.camel = ['l']) := by
  obtain ⟨f, hf, hmf⟩ := List.mem_flatMap.mp hm
  obtain ⟨g, hg, eg⟩ := List.mem_map.mp hmem
  have e : m.name = 'm' :: '_' :: g.prop := eg.symm
  have hp : ∀ s : Str, f.prop ++ s = 'm' :: '_' :: g.prop → f.camel = ['m'] ∧ s = '_' :: g.prop := by
    intro s e
    have hcam := (h.named hf).camel
    have hne := (h.named hf).nonempty
    have : ∃ t, f.camel ++ t = 'm' :: '_' :: g.prop := by
      rcases prop_cases (h.named hf) with e2 | e2
      · exact ⟨s, by rw [← e2, e]⟩
      · exact ⟨kProto ++ s, by rw [← List.append_assoc, ← e2, e]⟩
    obtain ⟨t, et⟩ := this
    have hm1 : f.camel = ['m'] := by
      cases hcc : f.camel with
      | nil => exact absurd hcc hne
      | cons a b =>
        rw [hcc, List.cons_append, List.cons.injEq] at et
        cases b with
        | nil => rw [et.1]
        | cons b c =>
          rw [List.cons_append, List.cons.injEq] at et
          rw [hcc, et.2.1] at hcam
          exact absurd (by simp) hcam
    have hprop : f.prop = ['m'] := by
      rw [FieldD.prop, hm1]
      decide
    rw [hprop] at e
    simpa [hm1] using e
  refine ⟨f, hf, ?_⟩
  rcases mem_fieldMethods hmf with rfl | rfl | rfl | rfl | rfl | rfl
  · have := hp [] (by rw [List.append_nil]; exact e)
    simp at this
  · obtain ⟨h1, h2⟩ := hp kL e
    simp only [kL, List.cons.injEq, true_and] at h2
    exact ⟨h1, g, hg, Or.inr ⟨by rw [e, ← h2], prop_short (h.named hg) h2.symm⟩⟩
  · simp [FieldD.setter, kSet] at e
  · obtain ⟨h1, h2⟩ := hp kChanged e
    simp [kChanged] at h2
  · obtain ⟨h1, h2⟩ := hp kP e
    simp only [kP, List.cons.injEq, true_and] at h2
    exact ⟨h1, g, hg, Or.inl ⟨by rw [e, ← h2], prop_short (h.named hg) h2.symm⟩⟩
  · simp [FieldD.setter, kSet] at e

/-- A method clashes with a member that every class has exactly if it is the getter of a field with the name of such a member. -/
theorem C63_fixed_partial {fields : List FieldD} (h : ValidFields fields) {qml : Bool} {package : List Str} :
    (∃ m ∈ methods qml package fields, ∃ x ∈ fixedMembers, Clashes m.name m.arity x) ↔ ∃ f ∈ fields, f.camel ∈ fixedMembers.map (·.1) := by
  constructor
  · rintro ⟨m, hm, x, hx, hname, harity⟩
    obtain ⟨f, hf, hmf⟩ := List.mem_flatMap.mp hm
    refine ⟨f, hf, ?_⟩
    have hno : ∀ x ∈ fixedMembers, '_' ∉ x.1 ∧ kSet.isPrefixOf x.1 = false ∧ kChanged.isSuffixOf x.1 = false := by decide +kernel
    obtain ⟨h1, h2, h3⟩ := hno x hx
    have hset : ∀ s, m.name ≠ kSet ++ s := by
      intro s e
      rw [hname, e, List.isPrefixOf_iff_prefix.mpr (List.prefix_append _ _)] at h2
      cases h2
    rw [hname] at h1
    rcases mem_fieldMethods hmf with rfl | rfl | rfl | rfl | rfl | rfl
    · rcases prop_cases (h.named hf) with e | e
      · rw [← e]
        exact List.mem_map.mpr ⟨x, hx, hname⟩
      · exact absurd (by simp [e, kProto]) h1
    · exact absurd (by simp [kL]) h1
    · exact absurd (by rw [FieldD.setter]) (hset (upperCaseName f.prop))
    · rw [hname, List.isSuffixOf_iff_suffix.mpr (List.suffix_append _ _)] at h3
      cases h3
    · exact absurd (by simp [kP]) h1
    · exact absurd (by simp [kP]) h1
  · rintro ⟨f, hf, hx⟩
    obtain ⟨x, hx, e⟩ := List.mem_map.mp hx
    refine ⟨⟨f.prop, 0, .get f.member⟩, List.mem_flatMap.mpr ⟨f, hf, by simp [fieldMethods]⟩, x, hx, ?_⟩
    have hprop : f.prop = f.camel := by
      have hq : ∀ x ∈ fixedMembers, qualifiedName x.1 = x.1 := by decide +kernel
      rw [FieldD.prop, lowerCase_eq (h.named hf).lower, ← e, hq x hx]
    have ha : ∀ x ∈ fixedMembers, x.2 = none ∨ x.2 = some 0 := by decide +kernel
    exact ⟨by rw [e, hprop], ha x hx⟩

/-- message M { M2 m = 1; int32 p = 2; }: a method and a data member are both called "m_p". -/
theorem C63_members_violated : ∃ (package : List Str) (fields : List FieldD), ValidFields fields ∧
    ∀ qml, ∃ m ∈ methods qml package fields, m.name ∈ members fields := by
  refine ⟨[], [⟨['m'], [], 1, .message, false, false, some [['N']], none⟩, ⟨['p'], [], 2, .int32, false, false, none, none⟩],
    ⟨by decide, by decide, by decide, by decide, by simp⟩, fun qml => ?_⟩
  cases qml <;> decide +kernel

/-- message M { int32 register_types = 1; }: the getter clashes with the static method of every class. -/
theorem C63_fixed_violated : ∃ fields : List FieldD, ValidFields fields ∧
    ∀ qml package, ∃ m ∈ methods qml package fields, ∃ x ∈ fixedMembers, Clashes m.name m.arity x := by
  refine ⟨[⟨['r', 'e', 'g', 'i', 's', 't', 'e', 'r', 'T', 'y', 'p', 'e', 's'], [], 1, .int32, false, false, none, none⟩], ?_, fun qml package => ?_⟩
  · exact ⟨by decide, by decide, by decide, by decide, by simp⟩
  · exact (C63_fixed_partial ⟨by decide, by decide, by decide, by decide, by simp⟩).mpr ⟨_, List.mem_singleton.mpr rfl, by decide +kernel⟩

/-- message M { enum E { A = 0; a = 1; } }: the names are distinct, the constants are not. -/
theorem C63_case_violated : ∃ e : EnumD, (scopeNames [e] [] []).Nodup ∧ ∀ fieldEnum, ¬ (classNames fieldEnum [['M']] [] [e] []).Nodup := by
  refine ⟨⟨['E'], [(['A'], 0), (['a'], 1)]⟩, by decide, fun b => ?_⟩
  cases b <;> decide +kernel

/-- message M { message N { } message NRepeated { } }: the list of the first has the name of the second. -/
theorem C63_repeated_violated : ∃ nested : List Msg, (nested.map Msg.name).Nodup ∧ (∀ n ∈ nested, Capital n.name) ∧
    ∀ fieldEnum, ¬ (classNames fieldEnum [['M']] [] [] nested).Nodup := by
  refine ⟨[.mk ['N'] [] [] false, .mk (['N'] ++ kRepeated) [] [] false], by decide, by decide, fun b => ?_⟩
  cases b <;> decide +kernel

/-- message M { message M { } }: the class has a member with its own name. -/
theorem C63_own_violated : ∃ (own : Str) (nested : List Msg), Capital own ∧ ∀ fieldEnum, upperCaseName own ∈ classNames fieldEnum [own] [] [] nested := by
  refine ⟨['M'], [.mk ['M'] [] [] false], by decide, fun b => ?_⟩
  cases b <;> decide +kernel

/-! message M { enum Kind { KIND_A = 0; KIND_B = 1; } message N { } map<int32, N> items = 1; Kind kind = 2; N one = 3; }: all hypotheses hold. -/

def scopeFields : List FieldD := [
  ⟨['i', 't', 'e', 'm', 's'], [], 1, .message, true, true, some [['M'], ['I', 't', 'e', 'm', 's', 'E', 'n', 't', 'r', 'y']], none⟩,
  ⟨['k', 'i', 'n', 'd'], [], 2, .enum, false, false, none, some [['M'], ['K', 'i', 'n', 'd']]⟩,
  ⟨['o', 'n', 'e'], [], 3, .message, false, false, some [['M'], ['N']], none⟩]

def scopeEnums : List EnumD := [⟨['K', 'i', 'n', 'd'], [(['K', 'I', 'N', 'D', '_', 'A'], 0), (['K', 'I', 'N', 'D', '_', 'B'], 1)]⟩]

def scopeNested : List Msg := [.mk ['N'] [] [] false, .mk ['I', 't', 'e', 'm', 's', 'E', 'n', 't', 'r', 'y'] [] [] true]

def scopeMaps : List Str := [['I', 't', 'e', 'm', 's', 'E', 'n', 't', 'r', 'y']]

theorem scopeFields_valid : ValidFields scopeFields := ⟨by decide, by decide, by decide, by decide, by decide⟩

example : (classNames true [['M']] scopeFields scopeEnums scopeNested).Nodup :=
  C63_types_capital_partial scopeFields_valid true [['M']] scopeEnums scopeNested [['N']] scopeMaps (by decide +kernel) (by decide +kernel)
    (by decide +kernel) (by decide +kernel) (by decide +kernel)

example : ¬ upperCaseName ['M'] ∈ classNames true [['M']] scopeFields scopeEnums scopeNested := by
  rw [C63_own_partial ['M'] true [['M']] scopeFields scopeEnums scopeNested [['N']] scopeMaps (by decide +kernel) (by decide +kernel)]
  decide +kernel

example : ∀ m ∈ methods true [] scopeFields, m.name ∉ classNames true [['M']] scopeFields scopeEnums scopeNested := fun m hm =>
  C63_methods_partial scopeFields_valid [['M']] scopeEnums scopeNested [['N']] scopeMaps (by decide +kernel) (by decide +kernel)
    (fun a ha => by
      have : ∀ a ∈ scopeNames scopeEnums [['N']] scopeMaps, (match a with | c :: _ => c.isAlpha | [] => false) = true := by decide +kernel
      cases a with
      | nil => exact absurd (this _ ha) (by decide)
      | cons c r => exact ⟨c, r, rfl, this _ ha⟩)
    (fun f hf => by
      simp only [scopeFields, List.mem_cons, List.not_mem_nil, or_false] at hf
      rcases hf with rfl | rfl | rfl
      · exact ⟨_, _, rfl, by decide⟩
      · exact ⟨_, _, rfl, by decide⟩
      · exact ⟨_, _, rfl, by decide⟩) hm

example : (['I', 't', 'e', 'm', 's'] ++ kFieldNumber, 1) ∈ fieldConstants scopeFields :=
  (C63_numbers scopeFields_valid (f := scopeFields[0]) (by decide) 1).mpr rfl

end QtPb.Gen
