import Verif.RegisterLemmas
import Verif.GenLemmas
/-
Property C81: the serializer has a handler for the type of every field of every generated class.
-/
namespace QtPb.Gen.Reg

/-! ### The classes that register are those that are defined -/

mutual
theorem classesOf_define (package ns : List Str) (path : Path) :
    (m : Msg) → (classesOf package path m).map (·.path) = (define ns path m).map (·.msg)
  | .mk name fields nested _ => by
    simp only [classesOf, define, List.map_append, List.map_cons, List.map_nil]
    congr 1
    split
    · exact classesOfList_define package _ _ fields nested
    · rfl
theorem classesOfList_define (package ns : List Str) (path : Path) (fields : List FieldD) :
    (l : List Msg) → (classesOfList package path fields l).map (·.path) = (defineList ns path fields l).map (·.msg)
  | [] => rfl
  | n :: rest => by
    simp only [classesOfList, defineList, List.map_append]
    rw [classesOfList_define package ns path fields rest]
    congr 1
    split
    · exact classesOf_define package ns path n
    · rfl
end

/-- The classes whose types are registered are those whose definitions are printed. -/
theorem classes_definitions (extra : Str) (p : Program) :
    (classes p).map (·.path) = (p.files.flatMap (File.definitions extra)).map (·.msg) := by
  simp only [classes, File.definitions, List.map_flatMap]
  congr 1
  funext f
  congr 1
  funext m
  exact classesOf_define f.package (fileNs extra f.package) f.package m

mutual
theorem mem_classesOf : ∀ (m : Msg) (package : List Str) (path : Path) (c : Cls),
    c ∈ classesOf package path m ↔ c.package = package ∧ ∃ x, Spec.Reached path m c.path x ∧ c.fields = x.fields
  | .mk name fields nested e, package, path, c => by
    have hl := mem_classesOfList nested package (path ++ [name]) (.mk name fields nested e) c
    simp only [Msg.fields] at hl
    have hif : (c ∈ if hasNested (path ++ [name]) fields nested then classesOfList package (path ++ [name]) fields nested else []) ↔
        c ∈ classesOfList package (path ++ [name]) fields nested := by
      cases hh : hasNested (path ++ [name]) fields nested with
      | true => rfl
      | false =>
        simp only [Bool.false_eq_true, if_false, List.not_mem_nil, false_iff]
        rw [hl]
        rintro ⟨-, n, hn, hv, -⟩
        rw [noNested hh n hn] at hv
        cases hv
    rw [classesOf, List.mem_append, hif, hl, List.mem_singleton]
    constructor
    · rintro (⟨hp, n, hn, hv, x, hx, hf⟩ | rfl)
      · exact ⟨hp, x, .nested (m := .mk name fields nested e) hn ((visits_iff (x := .mk name fields nested e)).mp hv) hx, hf⟩
      · exact ⟨rfl, _, .self (m := .mk name fields nested e), rfl⟩
    · rintro ⟨hp, x, hx, hf⟩
      obtain ⟨cp, cq, cf⟩ := c
      simp only at hp hx hf
      subst hp hf
      cases hx with
      | self => exact Or.inr rfl
      | nested hn hv hx => exact Or.inl ⟨rfl, _, hn, (visits_iff (x := .mk name fields nested e)).mpr hv, x, hx, rfl⟩
theorem mem_classesOfList : ∀ (l : List Msg) (package : List Str) (path : Path) (k : Msg) (c : Cls),
    c ∈ classesOfList package path k.fields l ↔
      c.package = package ∧ ∃ n ∈ l, visits k.fields (path ++ [n.name]) = true ∧ ∃ x, Spec.Reached path n c.path x ∧ c.fields = x.fields
  | [], package, path, k, c => by simp [classesOfList]
  | n :: l, package, path, k, c => by
    rw [classesOfList, List.mem_append, mem_classesOfList l package path k c]
    have := mem_classesOf n package path c
    by_cases hv : visits k.fields (path ++ [n.name]) = true
    · rw [if_pos hv, this]
      simp [hv, and_or_left]
    · rw [if_neg hv]
      simp [hv]
end

/-! ### The property -/

/-- C81. The classes that register types, each with the fields of its message: those of the top-level messages of the files, and,
from a message with a class, of the messages nested in it that one of its fields has as type, or of all if it has no fields. -/
theorem C81_classes (p : Program) (c : Cls) :
    c ∈ classes p ↔ ∃ f ∈ p.files, c.package = f.package ∧ ∃ m ∈ f.messages, ∃ x, Spec.Reached f.package m c.path x ∧ c.fields = x.fields := by
  simp only [classes, List.mem_flatMap, mem_classesOf]
  constructor
  · rintro ⟨f, hf, m, hm, hp, x, hx⟩
    exact ⟨f, hf, hp, m, hm, x, hx⟩
  · rintro ⟨f, hf, hp, m, hm, x, hx⟩
    exact ⟨f, hf, m, hm, hp, x, hx⟩

section
variable {p : Program} (hw : ∀ c ∈ classes p, ∀ f ∈ c.fields, WellFormed p f) {reg : List Entry} (hr : AnyOrder p reg)
include hw hr

/-- C81. Whatever type is looked up, and in whatever order the registrars have run: a handler that is found is the one that converts
values of this type. -/
theorem C81_right (t : CppT) (s : Server) (h : serve reg t = some s) : Right t s := serve_right hw hr h

/-- The fields with handlers, exactly. -/
theorem property_iff (package : List Str) (f : FieldD) (hf : WellFormed p f)
    (hmap : f.isMap = true → ∃ c ∈ classes p, c.package = package ∧ f ∈ c.fields) :
    property reg (propertyType p package f) = true ↔ Supported p package f := by
  have found : ∀ t, builtin t = false → (∀ h, Right t (.registered h) → asksFor h = []) → (property reg t = true ↔ Has p t) := by
    intro t hb hl
    rw [← serve_has hr t hb, property]
    cases hs : serve reg t with
    | none => simp
    | some s =>
      cases s with
      | builtin => simp
      | registered h =>
        have hx := hl h (serve_right hw hr hs)
        simp [hx]
  by_cases hm : f.isMap = true
  · obtain ⟨c, hc, rfl, hfc⟩ := hmap hm
    obtain ⟨hty, hn, h1, h2, h3⟩ := hf.map hm
    have hk : element c.package (p.entry (f.msgType.getD [])).1 = .basic (p.entry (f.msgType.getD [])).1.type := by simp only [element]
    have hkb : scalarBuiltin (p.entry (f.msgType.getD [])).1.type = true := by
      cases ht : (p.entry (f.msgType.getD [])).1.type <;> simp_all [scalarBuiltin]
    have hks : (serve reg (.basic (p.entry (f.msgType.getD [])).1.type)).isSome = true := by simp [serve, builtin, hkb]
    have hreg : ∀ e, e ∈ registerMap (element c.package (p.entry (f.msgType.getD [])).1) (element c.package (p.entry (f.msgType.getD [])).2) →
        e ∈ registrations p := by
      intro e he
      refine mem_registrations.mpr (.inl ⟨c, hc, .inl ⟨f, hfc, ?_⟩⟩)
      rw [registerField, if_neg (by simp [hty]), if_pos hm]
      exact he
    rw [hk] at hreg
    -- the handler of a registered map, and what it asks for
    have served : ∀ t k v, builtin t = false → (t, Handler.map k v) ∈ registrations p →
        (property reg t = true ↔ (serve reg k).isSome = true ∧ (serve reg (if isObject v then .ptr v else v)).isSome = true) := by
      intro t k v hb hmem
      have hs := (serve_has hr t hb).mpr ⟨_, hmem⟩
      obtain ⟨s, hs'⟩ := Option.isSome_iff_exists.mp hs
      have hR := serve_right hw hr hs'
      simp only [serve, hb, Bool.false_eq_true, if_false] at hs'
      obtain ⟨h, hfh, rfl⟩ := Option.map_eq_some_iff.mp hs'
      have : h = .map k v := right_unique hR (registered_right hw hmem)
      subst this
      simp only [property, serve, hb, Bool.false_eq_true, if_false, hfh, Option.map_some, asksFor, List.all_cons, List.all_nil, Bool.and_true,
        Bool.and_eq_true]
    have hSup : Supported p c.package f ↔ ValueSupported p c.package (p.entry (f.msgType.getD [])).2 := by
      constructor
      · rintro (⟨h, _, _⟩ | ⟨_, h, _, _, _⟩ | ⟨_, h, _, _, _, _⟩ | ⟨_, h, _, _, _, _, _⟩ | ⟨_, h⟩)
        · rw [hm] at h; cases h
        · rw [hm] at h; cases h
        · rw [hm] at h; cases h
        · rw [hm] at h; cases h
        · exact h
      · exact .map hm
    rw [hSup]
    rcases element_cases c.package _ hn with ⟨ha, hb, hs, he⟩ | ⟨q, ha, hq, he⟩ | ⟨q, ha, hq, hQ, he⟩ | ⟨q, ha, hq, hQ, he⟩
    · rw [propertyType, if_pos hm]
      simp only [hk, he]
      rw [if_neg (by simp [ha]), served (.map (.basic (p.entry (f.msgType.getD [])).1.type) (.basic (p.entry (f.msgType.getD [])).2.type)) (.basic (p.entry (f.msgType.getD [])).1.type) (.basic (p.entry (f.msgType.getD [])).2.type) rfl (hreg _ (by rw [he]; simp [registerMap, isObject]))]
      exact ⟨fun _ => .scalar ⟨ha, hb⟩, fun _ => ⟨hks, by simp [serve, builtin, hs, isObject]⟩⟩
    · rw [propertyType, if_pos hm]
      simp only [hk, he]
      rw [if_neg (by simp [ha]), served (.map (.basic (p.entry (f.msgType.getD [])).1.type) (.enum q)) (.basic (p.entry (f.msgType.getD [])).1.type) (.enum q) rfl (hreg _ (by rw [he]; simp [registerMap, isObject]))]
      simp only [hks, true_and, isObject, Bool.false_eq_true, if_false]
      rw [serve_has hr _ rfl, has_enum hw]
      constructor
      · exact .enum q ha hq
      · rintro (⟨h, h'⟩ | ⟨q', h, hq', h'⟩ | ⟨q', h, _, _, _⟩)
        · exact absurd ha h'
        · rw [hq] at hq'; cases hq'; exact h'
        · rw [ha] at h; cases h
    · rw [propertyType, if_pos hm]
      simp only [hk, he]
      rw [if_pos (by simp [ha])]
      constructor
      · intro h
        exfalso
        have hb : builtin (.map (.basic (p.entry (f.msgType.getD [])).1.type) (.shared (.qt q))) = false := rfl
        have hno := not_has_sharedQt hw (.basic (p.entry (f.msgType.getD [])).1.type) q
        rw [← serve_has hr _ hb] at hno
        rw [property] at h
        cases hs : serve reg (.map (.basic (p.entry (f.msgType.getD [])).1.type) (.shared (.qt q))) with
        | none => rw [hs] at h; simp at h
        | some s => rw [hs] at hno; simp at hno
      · rintro (⟨h, h'⟩ | ⟨q', h, hq', h'⟩ | ⟨q', h, hq', hn', _⟩)
        · exact absurd ha h
        · rw [ha] at h; cases h
        · rw [hq] at hq'; cases hq'; exact absurd hQ hn'
    · rw [propertyType, if_pos hm]
      simp only [hk, he]
      rw [if_pos (by simp [ha]), served (.map (.basic (p.entry (f.msgType.getD [])).1.type) (.shared (.cls q))) (.basic (p.entry (f.msgType.getD [])).1.type) (.cls q) rfl (hreg _ (by rw [he]; simp [registerMap, isObject]))]
      simp only [hks, true_and, isObject, if_true]
      rw [serve_has hr _ rfl, has_class hw]
      constructor
      · exact .message q ha hq hQ
      · rintro (⟨h, h'⟩ | ⟨q', h, hq', h'⟩ | ⟨q', h, hq', hn', hc'⟩)
        · exact absurd ha h
        · rw [ha] at h; cases h
        · rw [hq] at hq'; cases hq'; exact hc'
  · have hm' : f.isMap = false := by simpa using hm
    rw [propertyType, if_neg hm]
    rcases element_cases package f hf.field with ⟨ha, hb, hs, he⟩ | ⟨q, ha, hq, he⟩ | ⟨q, ha, hq, hQ, he⟩ | ⟨q, ha, hq, hQ, he⟩
    · simp only [he]
      by_cases hrep : f.repeated = true
      · rw [if_pos hrep]
        by_cases hbool : f.type = .bool
        · constructor
          · intro h
            exfalso
            rw [found _ (by simp [builtin, hbool]) (by intro h hR; cases hR)] at h
            exact not_has_scalars hw _ h
          · rintro (⟨_, _, h⟩ | ⟨_, _, h, _, _⟩ | ⟨_, _, h, _, _, _⟩ | ⟨_, _, h, _, _, _, _⟩ | ⟨h, _⟩)
            · exact absurd ⟨hrep, hbool⟩ h
            · exact absurd h hb
            · exact absurd h ha
            · exact absurd h ha
            · exact absurd h hm
        · refine ⟨fun _ => .scalar hm' ⟨ha, hb⟩ (fun h => hbool h.2), fun _ => ?_⟩
          simp [property, serve, builtin, hs, hbool]
      · rw [if_neg hrep]
        refine ⟨fun _ => .scalar hm' ⟨ha, hb⟩ (fun h => hrep h.1), fun _ => ?_⟩
        simp [property, serve, builtin, hs]
    · simp only [he]
      have key : property reg (if f.repeated = true then .list (.enum q) else .enum q) = true ↔ EnumRegistered p q := by
        split
        · rw [found _ rfl (by intro h hR; cases hR; rfl), has_enums hw]
        · rw [found _ rfl (by intro h hR; cases hR; rfl), has_enum hw]
      rw [key]
      constructor
      · exact .enum q hm' ha hq
      · rintro (⟨_, h, _⟩ | ⟨q', _, h, hq', hr'⟩ | ⟨_, _, h, _, _, _⟩ | ⟨_, _, h, _, _, _, _⟩ | ⟨h, _⟩)
        · exact absurd ha h.2
        · rw [hq] at hq'; cases hq'; exact hr'
        · rw [ha] at h; cases h
        · rw [ha] at h; cases h
        · exact absurd h hm
    · simp only [he]
      by_cases hrep : f.repeated = true
      · rw [if_pos hrep, found _ rfl (by intro h hR; cases hR)]
        constructor
        · intro h
          exact absurd h (not_has_qts hw q)
        · rintro (⟨_, h, _⟩ | ⟨_, _, h, _, _⟩ | ⟨q', _, _, hq', hn, _⟩ | ⟨_, _, _, _, _, h, _⟩ | ⟨h, _⟩)
          · exact absurd ha h.1
          · rw [ha] at h; cases h
          · rw [hq] at hq'; cases hq'; exact absurd hQ hn
          · rw [hrep] at h; cases h
          · exact absurd h hm
      · rw [if_neg hrep, found _ rfl (by intro h hR; cases hR; rfl), has_qt hw]
        constructor
        · exact .qt q hm' ha hq hQ (by simpa using hrep)
        · rintro (⟨_, h, _⟩ | ⟨_, _, h, _, _⟩ | ⟨q', _, _, hq', hn, _⟩ | ⟨q', _, _, hq', _, _, h⟩ | ⟨h, _⟩)
          · exact absurd ha h.1
          · rw [ha] at h; cases h
          · rw [hq] at hq'; cases hq'; exact absurd hQ hn
          · rw [hq] at hq'; cases hq'; exact h
          · exact absurd h hm
    · simp only [he]
      have key : property reg (if f.repeated = true then .list (.shared (.cls q)) else .ptr (.cls q)) = true ↔ ClassGenerated p q := by
        split
        · rw [found _ rfl (by intro h hR; cases hR; rfl), has_classes hw]
        · rw [found _ rfl (by intro h hR; cases hR; rfl), has_class hw]
      rw [key]
      constructor
      · exact .message q hm' ha hq hQ
      · rintro (⟨_, h, _⟩ | ⟨_, _, h, _, _⟩ | ⟨q', _, _, hq', _, h⟩ | ⟨q', _, _, hq', h, _, _⟩ | ⟨h, _⟩)
        · exact absurd ha h.1
        · rw [ha] at h; cases h
        · rw [hq] at hq'; cases hq'; exact h
        · rw [hq] at hq'; cases hq'; exact absurd h hQ
        · exact absurd h hm

/-- C81, exactly. In whatever order the registrars have run: all the lookups for the property of a field find a handler if and only
if the field is supported, that is: a scalar that is not a list of bool; an enum of a file, or an enum of a generated message that has
a field of this enum itself; a message with a generated class; a single value of a registered Qt type; or a map whose values are
scalars, such enums, or messages with a generated class. -/
theorem C81_exactly (c : Cls) (hc : c ∈ classes p) (f : FieldD) (hf : f ∈ c.fields) :
    property reg (propertyType p c.package f) = true ↔ Supported p c.package f :=
  property_iff hw hr c.package f (hw c hc f hf) fun _ => ⟨c, hc, rfl, hf⟩

/-- C81 for the supported fields. Missing: the fields of the other kinds, for which there is no handler. -/
theorem C81_handlers_partial (c : Cls) (hc : c ∈ classes p) (f : FieldD) (hf : f ∈ c.fields) (hs : Supported p c.package f) :
    property reg (propertyType p c.package f) = true := (C81_exactly hw hr c hc f hf).mpr hs

end

/-- C81. The order in which the registrars run, and running them again, change nothing. -/
theorem C81_order {p : Program} (hw : ∀ c ∈ classes p, ∀ f ∈ c.fields, WellFormed p f) {reg reg' : List Entry} (hr : AnyOrder p reg)
    (hr' : AnyOrder p reg') (t : CppT) : serve reg t = serve reg' t := by
  by_cases hb : builtin t = true
  · simp [serve, hb]
  · have hb' : builtin t = false := by simpa using hb
    have h1 := serve_has hr t hb'
    have h2 := serve_has hr' t hb'
    cases hs : serve reg t with
    | none =>
      cases hs' : serve reg' t with
      | none => rfl
      | some s =>
        have := h1.mpr (h2.mp (by simp [hs']))
        simp [hs] at this
    | some s =>
      cases hs' : serve reg' t with
      | none =>
        have := h2.mpr (h1.mp (by simp [hs]))
        simp [hs'] at this
      | some s' =>
        have a := serve_right hw hr hs
        have b := serve_right hw hr' hs'
        simp only [serve, hb', Bool.false_eq_true, if_false] at hs hs'
        obtain ⟨x, _, rfl⟩ := Option.map_eq_some_iff.mp hs
        obtain ⟨y, _, rfl⟩ := Option.map_eq_some_iff.mp hs'
        rw [right_unique a b]

/-! ### Fields without a handler -/

namespace Example

/-- `package t; message Owner { enum Mode { OFF = 0; } Mode used = 1; enum Level { LOW = 0; } map<string, Level> levels = 2; }`
`message User { Owner.Level level = 1; Owner.Mode mode = 2; repeated Owner owners = 3; map<sint32, Owner> byId = 4; repeated bool flags = 5;`
`map<string, QtProtobuf.QUrl> links = 6; repeated fixed32 numbers = 7; QtProtobuf.QUrl home = 8; }` -/
def owner : Msg := .mk ['O']
  [{ camel := ['u'], json := ['u'], number := 1, type := .enum, enumType := some [['t'], ['O'], ['M']] },
   { camel := ['l'], json := ['l'], number := 2, type := .message, repeated := true, isMap := true, msgType := some [['t'], ['O'], ['E']] }]
  [.mk ['E'] [{ camel := ['k'], json := ['k'], number := 1, type := .string },
              { camel := ['v'], json := ['v'], number := 2, type := .enum, enumType := some [['t'], ['O'], ['L']] }] [] true] false

/-- See `owner`. -/
def levelField : FieldD := { camel := ['l'], json := ['l'], number := 1, type := .enum, enumType := some [['t'], ['O'], ['L']] }
def modeField : FieldD := { camel := ['m'], json := ['m'], number := 2, type := .enum, enumType := some [['t'], ['O'], ['M']] }
def ownersField : FieldD := { camel := ['o'], json := ['o'], number := 3, type := .message, repeated := true, msgType := some [['t'], ['O']] }
def byIdField : FieldD :=
  { camel := ['b'], json := ['b'], number := 4, type := .message, repeated := true, isMap := true, msgType := some [['t'], ['U'], ['B']] }
def flagsField : FieldD := { camel := ['f'], json := ['f'], number := 5, type := .bool, repeated := true }
def linksField : FieldD :=
  { camel := ['k'], json := ['k'], number := 6, type := .message, repeated := true, isMap := true, msgType := some [['t'], ['U'], ['K']] }
def numbersField : FieldD := { camel := ['n'], json := ['n'], number := 7, type := .fixed32, repeated := true }
def homeField : FieldD := { camel := ['h'], json := ['h'], number := 8, type := .message, msgType := some [kQtProtobuf, ['Q', 'U', 'r', 'l']] }
def levelsField : FieldD :=
  { camel := ['l'], json := ['l'], number := 2, type := .message, repeated := true, isMap := true, msgType := some [['t'], ['O'], ['E']] }

def user : Msg := .mk ['U'] [levelField, modeField, ownersField, byIdField, flagsField, linksField, numbersField, homeField] [] false

def program : Program where
  files := [⟨[['t']], [owner, user]⟩]
  fileEnums := []
  enumsIn := fun q => if q = [['t'], ['O']] then [[['t'], ['O'], ['M']], [['t'], ['O'], ['L']]] else []
  entry := fun q =>
    if q = [['t'], ['O'], ['E']] then
      ({ camel := ['k'], json := ['k'], number := 1, type := .string }, { camel := ['v'], json := ['v'], number := 2, type := .enum, enumType := some [['t'], ['O'], ['L']] })
    else if q = [['t'], ['U'], ['B']] then
      ({ camel := ['k'], json := ['k'], number := 1, type := .sint32 }, { camel := ['v'], json := ['v'], number := 2, type := .message, msgType := some [['t'], ['O']] })
    else
      ({ camel := ['k'], json := ['k'], number := 1, type := .string },
       { camel := ['v'], json := ['v'], number := 2, type := .message, msgType := some [kQtProtobuf, ['Q', 'U', 'r', 'l']] })
  qtTypes := [[kQtProtobuf, ['Q', 'U', 'r', 'l']]]

theorem wellFormed : ∀ c ∈ classes program, ∀ f ∈ c.fields, WellFormed program f := by
  have h : classes program = [⟨[['t']], [['t'], ['O']], owner.fields⟩, ⟨[['t']], [['t'], ['U']], user.fields⟩] := by rfl
  rw [h]
  intro c hc f hf
  simp only [List.mem_cons, List.not_mem_nil, or_false] at hc
  rcases hc with rfl | rfl
  · simp only [owner, Msg.fields, List.mem_cons, List.not_mem_nil, or_false] at hf
    rcases hf with rfl | rfl <;>
      exact ⟨⟨by simp, by simp, by simp⟩, by simp [program]; try exact ⟨by simp, by simp, by simp⟩⟩
  · simp only [user, Msg.fields, List.mem_cons, List.not_mem_nil, or_false] at hf
    rcases hf with rfl | rfl | rfl | rfl | rfl | rfl | rfl | rfl <;>
      exact ⟨⟨by simp [levelField, modeField, ownersField, byIdField, flagsField, linksField, numbersField, homeField],
        by simp [levelField, modeField, ownersField, byIdField, flagsField, linksField, numbersField, homeField],
        by simp [levelField, modeField, ownersField, byIdField, flagsField, linksField, numbersField, homeField]⟩,
        by simp [levelField, modeField, ownersField, byIdField, flagsField, linksField, numbersField, homeField, program]
           try exact ⟨by simp, by simp, by simp⟩⟩

end Example

open Example in
/-- C81 is violated: an enum that is declared in a message which has no field of this type, and used in a field of another message,
has no handler. -/
theorem C81_neighbour_enum_violated :
    levelField ∈ user.fields ∧ property (registrations program) (propertyType program [['t']] levelField) = false := by
  constructor <;> decide +kernel

open Example in
/-- C81 is violated: the values of a map have no handler if their type is an enum of the message that is used in no other way. -/
theorem C81_enum_map_violated :
    levelsField ∈ owner.fields ∧ property (registrations program) (propertyType program [['t']] levelsField) = false := by
  constructor <;> decide +kernel

open Example in
/-- C81 is violated: a map with values of a Qt type has no handler, although the Qt type has one; the handler is registered for another
type than that of the property. -/
theorem C81_qt_map_violated :
    linksField ∈ user.fields ∧ property (registrations program) (propertyType program [['t']] linksField) = false ∧
      property (registrations program) (propertyType program [['t']] homeField) = true := by
  refine ⟨?_, ?_, ?_⟩ <;> decide +kernel

/-- The other fields of the example are supported and have handlers, among them an enum of another message, a list of messages, and
a map. -/
example : (∀ f ∈ [Example.modeField, Example.ownersField, Example.byIdField, Example.numbersField, Example.homeField],
    f ∈ Example.user.fields ∧ property (registrations Example.program) (propertyType Example.program [['t']] f) = true) := by
  decide +kernel

/-- The hypotheses of the theorems hold for the example. -/
example : property (registrations Example.program) (propertyType Example.program [['t']] Example.byIdField) = true ↔
    Supported Example.program [['t']] Example.byIdField :=
  C81_exactly Example.wellFormed (fun _ => Iff.rfl) ⟨[['t']], [['t'], ['U']], Example.user.fields⟩ (by
    have h : classes Example.program = [⟨[['t']], [['t'], ['O']], Example.owner.fields⟩, ⟨[['t']], [['t'], ['U']], Example.user.fields⟩] := by
      rfl
    rw [h]; simp) _ (by simp [Example.user, Msg.fields])

end QtPb.Gen.Reg
