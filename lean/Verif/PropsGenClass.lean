import Verif.Gen
/-
C41: the table of fields of a generated class.
-/
namespace QtPb.Gen

/-! ### Specification -/

namespace Spec

/-- A generated class as Qt sees it: its Q_PROPERTYs (in the order of their declaration; the one with index 0 is "objectName" of
QObject) and its methods. -/
structure Class where
  properties : List Property
  methods : List Method

/-- Reading property number `i` of an object calls a method that gives the data member `mem`: there is such a method, and all
methods of that name that give a value give this one. -/
def Class.Reads (c : Class) (i : Nat) (mem : Str) : Prop :=
  ∃ j p, i = j + 1 ∧ c.properties[j]? = some p ∧ (∃ m ∈ c.methods, m.name = p.read ∧ m.arity = 0 ∧ m.act = .get mem) ∧
    ∀ m ∈ c.methods, m.name = p.read → m.arity = 0 → ∀ x, m.act = .get x → x = mem

/-- No signal has the name of the method that reads property number `i` (such a class does not compile: the signal, which gives
no value, is the better overload for an object that is not const). -/
def Class.Unambiguous (c : Class) (i : Nat) : Prop :=
  ∃ j p, i = j + 1 ∧ c.properties[j]? = some p ∧ ∀ m ∈ c.methods, m.name = p.read → m.arity = 0 → m.act ≠ .signal

/-- Writing property number `i` of an object calls a method that sets the data member `mem`. -/
def Class.Writes (c : Class) (i : Nat) (mem : Str) : Prop :=
  ∃ j p w, i = j + 1 ∧ c.properties[j]? = some p ∧ p.write = some w ∧ (∃ m ∈ c.methods, m.name = w ∧ m.arity = 1) ∧
    ∀ m ∈ c.methods, m.name = w → m.arity = 1 → m.act = .set mem

/-- What protoc guarantees about the fields of a message: distinct numbers, and camel case names that are distinct, not empty,
without underscores and without a capital at the start. -/
structure ValidFields (fields : List FieldD) : Prop where
  numbers : (fields.map FieldD.number).Nodup
  names : (fields.map FieldD.camel).Nodup
  nonempty : ∀ f ∈ fields, f.camel ≠ []
  camel : ∀ f ∈ fields, '_' ∉ f.camel
  lower : ∀ f ∈ fields, ∀ c, f.camel.head? = some c → c.isUpper = false

/-- No field is called like the signal of another one ("xChanged"). -/
def NoSignalNames (fields : List FieldD) : Prop := ∀ f ∈ fields, ∀ g ∈ fields, f.camel ≠ g.prop ++ kChanged

/-- No field is called like a repeated message field with "Data" after it. -/
def NoDataNames (fields : List FieldD) : Prop :=
  ∀ f ∈ fields, ∀ g ∈ fields, g.type = .message → g.repeated = true → f.camel ≠ g.prop ++ kData

/-- The one property with the name `n` gives the data member `mem` when it is read (by name, as QML does). -/
def Class.NameReads (c : Class) (n mem : Str) : Prop :=
  ∃ i, c.Reads i mem ∧ ∀ (j : Nat) (p : Property), c.properties[j]? = some p → (p.name = n ↔ i = j + 1)

end Spec
open Spec

/-- The class that is printed for a message. -/
def classOf (qml : Bool) (package : List Str) (fields : List FieldD) : Class := ⟨properties qml package fields, methods qml package fields⟩

/-! ### Lemmas -/

theorem toLower_of_not_upper {c : Char} (h : c.isUpper = false) : c.toLower = c := by
  simp only [Char.isUpper, ge_iff_le, decide_eq_false_iff_not] at h
  unfold Char.toLower
  split
  · rename_i h'
    exact absurd h' h
  · rfl

theorem toUpper_inj {c d : Char} (hc : c.isUpper = false) (hd : d.isUpper = false) (h : c.toUpper = d.toUpper) : c = d := by
  have val : ∀ x : Char, x.toUpper.val.toNat = if 97 ≤ x.val.toNat ∧ x.val.toNat ≤ 122 then x.val.toNat - 32 else x.val.toNat := by
    intro x
    unfold Char.toUpper
    by_cases hx : 'a'.val ≤ x.val ∧ x.val ≤ 'z'.val
    · have h1 : 97 ≤ x.val.toNat ∧ x.val.toNat ≤ 122 := hx
      rw [dif_pos hx, if_pos h1]
      have e : ('A'.val - 'a'.val).toNat = 4294967264 := by decide
      show (x.val + ('A'.val - 'a'.val)).toNat = _
      rw [UInt32.toNat_add, e]
      omega
    · have h1 : ¬ (97 ≤ x.val.toNat ∧ x.val.toNat ≤ 122) := hx
      rw [dif_neg hx, if_neg h1]
  have hc' : ¬ (65 ≤ c.val.toNat ∧ c.val.toNat ≤ 90) := by
    simpa [Char.isUpper, UInt32.le_iff_toNat_le] using hc
  have hd' : ¬ (65 ≤ d.val.toNat ∧ d.val.toNat ≤ 90) := by
    simpa [Char.isUpper, UInt32.le_iff_toNat_le] using hd
  have hv := congrArg (fun x : Char => x.val.toNat) h
  simp only [val] at hv
  have : c.val.toNat = d.val.toNat := by
    split at hv <;> split at hv <;> omega
  exact Char.ext (UInt32.toNat_inj.mp this)

theorem lowerCase_eq {s : Str} (h : ∀ c, s.head? = some c → c.isUpper = false) : lowerCaseName s = s := by
  cases s with
  | nil => rfl
  | cons c s => rw [lowerCaseName, toLower_of_not_upper (h c rfl)]

theorem qualified_cases (s : Str) : qualifiedName s = s ∨ qualifiedName s = s ++ kProto := by
  unfold qualifiedName
  split
  · exact Or.inr rfl
  · exact Or.inl rfl

/-- The names of a field that occur in the class, under what protoc guarantees. -/
structure Named (f : FieldD) : Prop where
  nonempty : f.camel ≠ []
  camel : '_' ∉ f.camel
  lower : ∀ c, f.camel.head? = some c → c.isUpper = false

theorem Spec.ValidFields.named {fields : List FieldD} (h : ValidFields fields) {f : FieldD} (hf : f ∈ fields) : Named f :=
  ⟨h.nonempty f hf, h.camel f hf, h.lower f hf⟩

theorem prop_cases {f : FieldD} (h : Named f) : f.prop = f.camel ∨ f.prop = f.camel ++ kProto := by
  rw [FieldD.prop, lowerCase_eq h.lower]
  exact qualified_cases _

theorem split_underscore {a b r s : Str} (ha : '_' ∉ a) (hb : '_' ∉ b) (h : a ++ '_' :: r = b ++ '_' :: s) : a = b ∧ r = s := by
  induction a generalizing b with
  | nil =>
    cases b with
    | nil => simpa using h
    | cons c b =>
      simp only [List.nil_append, List.cons_append, List.cons.injEq] at h
      exact absurd (by simp [← h.1]) hb
  | cons d a ih =>
    cases b with
    | nil =>
      simp only [List.nil_append, List.cons_append, List.cons.injEq] at h
      exact absurd (by simp [h.1]) ha
    | cons c b =>
      simp only [List.mem_cons, not_or] at ha hb
      simp only [List.cons_append, List.cons.injEq] at h
      obtain ⟨h1, h2⟩ := ih ha.2 hb.2 h.2
      exact ⟨by rw [h.1, h1], h2⟩

theorem no_underscore {a b r : Str} (ha : '_' ∉ a) : a ≠ b ++ '_' :: r := by
  rintro rfl
  exact ha (by simp)

theorem prop_inj {f g : FieldD} (hf : Named f) (hg : Named g) (h : f.prop = g.prop) : f.camel = g.camel := by
  rcases prop_cases hf with e | e <;> rcases prop_cases hg with e' | e' <;> rw [e, e'] at h
  · exact h
  · exact absurd h (no_underscore hf.camel)
  · exact absurd h.symm (no_underscore hg.camel)
  · exact (split_underscore hf.camel hg.camel h).1

/-- A property name is not another one with "_p" or "_l" after it. -/
theorem prop_ne_suffix {f g : FieldD} (hf : Named f) (hg : Named g) {c : Char} (hc : c ≠ 'o') : f.prop ≠ g.prop ++ ['_', c] := by
  intro h
  rcases prop_cases hf with e | e <;> rw [e] at h
  · exact no_underscore hf.camel h
  · have h1 := congrArg List.getLast? h
    simp [kProto] at h1
    exact hc h1.symm

theorem append_right {a b c : Str} (h : a ++ c = b ++ c) : a = b := List.append_cancel_right h

theorem last_ne {a b c d : Str} {x y : Char} (hxy : x ≠ y) (hc : c.getLast? = some x) (hd : d.getLast? = some y) : a ++ c ≠ b ++ d := by
  intro h
  have h1 := congrArg List.getLast? h
  rw [List.getLast?_append, List.getLast?_append, hc, hd] at h1
  simp at h1
  exact hxy h1

theorem prop_ne_signal {f g : FieldD} (hf : Named f) (h : f.camel ≠ g.prop ++ kChanged) : f.prop ≠ g.prop ++ kChanged := by
  rcases prop_cases hf with e | e <;> rw [e]
  · exact h
  · exact last_ne (x := 'o') (y := 'd') (by decide) (by decide) (by decide)

theorem prop_head {f : FieldD} (h : Named f) : ∃ c s, f.prop = c :: s ∧ c.isUpper = false := by
  cases hc : f.camel with
  | nil => exact absurd hc h.nonempty
  | cons c s =>
    have := h.lower c (by simp [hc])
    rcases prop_cases h with e | e <;> rw [e, hc]
    · exact ⟨c, s, rfl, this⟩
    · exact ⟨c, s ++ kProto, rfl, this⟩

theorem upper_inj {f g : FieldD} (hf : Named f) (hg : Named g) {a b : Str}
    (h : upperCaseName f.prop ++ a = upperCaseName g.prop ++ b) : f.prop ++ a = g.prop ++ b := by
  obtain ⟨c, s, e, hc⟩ := prop_head hf
  obtain ⟨d, t, e', hd⟩ := prop_head hg
  rw [e, e'] at h ⊢
  simp only [upperCaseName, List.cons_append, List.cons.injEq] at h ⊢
  exact ⟨toUpper_inj hc hd h.1, h.2⟩

theorem setter_inj {f g : FieldD} (hf : Named f) (hg : Named g) {a b : Str} (h : f.setter ++ a = g.setter ++ b) :
    f.prop ++ a = g.prop ++ b := by
  simp only [FieldD.setter, List.append_assoc, List.append_cancel_left_eq] at h
  exact upper_inj hf hg h

/-! What a getter of a field with the name `p`, or with "_p" after it, does. -/

theorem mem_fieldMethods {qml : Bool} {package : List Str} {f : FieldD} {m : Method} (h : m ∈ fieldMethods qml package f) :
    m = ⟨f.prop, 0, .get f.member⟩ ∨ m = ⟨f.prop ++ kL, 0, .get f.member⟩ ∨ m = ⟨f.setter, 1, .set f.member⟩ ∨
    m = ⟨f.prop ++ kChanged, 0, .signal⟩ ∨ m = ⟨f.prop ++ kP, 0, .get f.member⟩ ∨ m = ⟨f.setter ++ kP, 1, .set f.member⟩ := by
  simp only [fieldMethods, List.mem_append] at h
  rcases h with ((((h | h) | h) | h) | h) | h
  · simp_all
  · split at h
    · simp only [List.mem_append, List.mem_singleton] at h
      rcases h with h | h
      · exact Or.inl h
      · split at h
        · simp_all
        · simp at h
    · simp at h
  · simp_all
  · simp_all
  · split at h
    · simp only [List.mem_cons, List.not_mem_nil, or_false] at h
      rcases h with h | h <;> simp [h]
    · simp at h
  · split at h
    · simp only [List.mem_cons, List.not_mem_nil, or_false] at h
      rcases h with h | h <;> simp [h]
    · simp at h

theorem getter_prop {f g : FieldD} (hf : Named f) (hg : Named g) {qml : Bool}
    {package : List Str} {m : Method} (hm : m ∈ fieldMethods qml package g) (hname : m.name = f.prop) (ha : m.arity = 0) :
    (m.act = .get g.member ∧ g.prop = f.prop) ∨ (m.act = .signal ∧ g.prop ++ kChanged = f.prop) := by
  rcases mem_fieldMethods hm with rfl | rfl | rfl | rfl | rfl | rfl
  · exact Or.inl ⟨rfl, hname⟩
  · exact absurd hname.symm (prop_ne_suffix hf hg (c := 'l') (by decide))
  · simp at ha
  · exact Or.inr ⟨rfl, hname⟩
  · exact absurd hname.symm (prop_ne_suffix hf hg (c := 'p') (by decide))
  · simp at ha

theorem getter_p {f g : FieldD} (hf : Named f) (hg : Named g) {qml : Bool}
    {package : List Str} {m : Method} (hm : m ∈ fieldMethods qml package g) (hname : m.name = f.prop ++ kP) (ha : m.arity = 0) :
    m.act = .get g.member ∧ g.prop = f.prop := by
  rcases mem_fieldMethods hm with rfl | rfl | rfl | rfl | rfl | rfl
  · exact absurd hname (prop_ne_suffix hg hf (c := 'p') (by decide))
  · exact absurd hname (last_ne (x := 'l') (y := 'p') (by decide) (by decide) (by decide))
  · simp at ha
  · exact absurd hname (last_ne (x := 'd') (y := 'p') (by decide) (by decide) (by decide))
  · exact ⟨rfl, append_right hname⟩
  · simp at ha

theorem setter_prop {f g : FieldD} (hf : Named f) (hg : Named g) {qml : Bool}
    {package : List Str} {m : Method} (hm : m ∈ fieldMethods qml package g) (hname : m.name = f.setter) (ha : m.arity = 1) :
    m.act = .set g.member ∧ g.prop = f.prop := by
  rcases mem_fieldMethods hm with rfl | rfl | rfl | rfl | rfl | rfl
  · simp at ha
  · simp at ha
  · exact ⟨rfl, by simpa using setter_inj hg hf (a := []) (b := []) (by simpa using hname)⟩
  · simp at ha
  · simp at ha
  · have := setter_inj hg hf (a := kP) (b := []) (by simpa using hname)
    rw [List.append_nil] at this
    exact absurd this.symm (prop_ne_suffix hf hg (c := 'p') (by decide))

theorem setter_p {f g : FieldD} (hf : Named f) (hg : Named g) {qml : Bool}
    {package : List Str} {m : Method} (hm : m ∈ fieldMethods qml package g) (hname : m.name = f.setter ++ kP) (ha : m.arity = 1) :
    m.act = .set g.member ∧ g.prop = f.prop := by
  rcases mem_fieldMethods hm with rfl | rfl | rfl | rfl | rfl | rfl
  · simp at ha
  · simp at ha
  · have := setter_inj hg hf (a := []) (b := kP) (by simpa using hname)
    rw [List.append_nil] at this
    exact absurd this (prop_ne_suffix hg hf (c := 'p') (by decide))
  · simp at ha
  · simp at ha
  · exact ⟨rfl, append_right (setter_inj hg hf (a := kP) (b := kP) hname)⟩

theorem getElem_orderingFrom : ∀ (fields : List FieldD) (i j : Nat) (f : FieldD), fields[j]? = some f →
    (fields.map FieldD.number).Nodup → lookup (orderingFrom i fields) f.number = some (i + j + 1, f.json)
  | [], _, _, _, h, _ => by simp at h
  | g :: fs, i, 0, f, h, _ => by
    simp only [List.getElem?_cons_zero, Option.some.injEq] at h
    subst h
    simp [orderingFrom, lookup]
  | g :: fs, i, j + 1, f, h, hn => by
    simp only [List.getElem?_cons_succ] at h
    simp only [List.map_cons, List.nodup_cons, List.mem_map, not_exists, not_and] at hn
    have hne : (g.number == f.number) = false := by
      rw [beq_eq_false_iff_ne]
      exact fun e => hn.1 f (List.mem_of_getElem? h) e.symm
    have ih := getElem_orderingFrom fs (i + 1) j f h hn.2
    simp only [lookup, orderingFrom, List.find?_cons, hne] at ih ⊢
    rw [ih]
    simp only [Option.some.injEq, Prod.mk.injEq, and_true]
    omega

theorem lookup_none : ∀ (fields : List FieldD) (i n : Nat), n ∉ fields.map FieldD.number → lookup (orderingFrom i fields) n = none
  | [], _, _, _ => rfl
  | g :: fs, i, n, h => by
    simp only [List.map_cons, List.mem_cons, not_or] at h
    have ih := lookup_none fs (i + 1) n h.2
    have hne : (g.number == n) = false := by
      rw [beq_eq_false_iff_ne]
      exact fun e => h.1 e.symm
    simp only [lookup, orderingFrom, List.find?_cons, hne] at ih ⊢
    exact ih

theorem property_at {qml : Bool} {package : List Str} {fields : List FieldD} {j : Nat} {f : FieldD} (hj : fields[j]? = some f) :
    (properties qml package fields)[j]? = some (fieldProperty qml package f) := by
  have hlt : j < fields.length := by
    rcases Nat.lt_or_ge j fields.length with hlt | hge
    · exact hlt
    · rw [List.getElem?_eq_none hge] at hj
      simp at hj
  rw [properties, List.getElem?_append_left (by simpa using hlt), List.getElem?_map, hj]
  rfl

theorem property_names (qml : Bool) (package : List Str) (f : FieldD) :
    (fieldProperty qml package f).read = f.prop ∧ (fieldProperty qml package f).write = some f.setter ∨
      (isPureMessage package f = true ∧ (fieldProperty qml package f).read = f.prop ++ kP ∧
        (fieldProperty qml package f).write = some (f.setter ++ kP)) := by
  unfold fieldProperty
  split
  · rename_i hpure
    exact Or.inr ⟨hpure, rfl, rfl⟩
  · refine Or.inl ?_
    repeat' split
    all_goals exact ⟨rfl, rfl⟩

/-! Names of properties. -/

theorem property_name_cases {qml : Bool} {package : List Str} {f : FieldD} {p : Property}
    (h : p = fieldProperty qml package f ∨ p ∈ extraProperty qml f) :
    p.name = f.prop ∨ p.name = f.prop ++ kP ∨ (p.name = f.prop ++ kData ∧ f.type = .message ∧ f.repeated = true) := by
  rcases h with rfl | h
  · unfold fieldProperty
    repeat' split
    all_goals simp_all
  · unfold extraProperty at h
    repeat' split at h
    all_goals simp_all

theorem name_inj {fields : List FieldD} (hv : ValidFields fields) (hd : NoDataNames fields) {f g : FieldD} (hf : f ∈ fields)
    (hg : g ∈ fields) {n : Str}
    (h1 : n = f.prop ∨ n = f.prop ++ kP ∨ (n = f.prop ++ kData ∧ f.type = .message ∧ f.repeated = true))
    (h2 : n = g.prop ∨ n = g.prop ++ kP ∨ (n = g.prop ++ kData ∧ g.type = .message ∧ g.repeated = true)) : f.prop = g.prop := by
  have nf := hv.named hf
  have ng := hv.named hg
  have data : ∀ {a b : FieldD}, a ∈ fields → b ∈ fields → b.type = .message → b.repeated = true → a.prop ≠ b.prop ++ kData := by
    intro a b ha hb hm hr
    rcases prop_cases (hv.named ha) with e | e <;> rw [e]
    · exact hd a ha b hb hm hr
    · exact last_ne (x := 'o') (y := 'a') (by decide) (by decide) (by decide)
  rcases h1 with h1 | h1 | ⟨h1, t1, r1⟩ <;> rcases h2 with h2 | h2 | ⟨h2, t2, r2⟩ <;> rw [h1] at h2
  · exact h2
  · exact absurd h2 (prop_ne_suffix nf ng (c := 'p') (by decide))
  · exact absurd h2 (data hf hg t2 r2)
  · exact absurd h2.symm (prop_ne_suffix ng nf (c := 'p') (by decide))
  · exact append_right h2
  · exact absurd h2 (last_ne (x := 'p') (y := 'a') (by decide) (by decide) (by decide))
  · exact absurd h2.symm (data hg hf t1 r1)
  · exact absurd h2 (last_ne (x := 'a') (y := 'p') (by decide) (by decide) (by decide))
  · exact append_right h2

theorem field_extra_ne {qml : Bool} {package : List Str} {f : FieldD} {p : Property} (h : p ∈ extraProperty qml f) :
    (fieldProperty qml package f).name ≠ p.name := by
  have hp : f.prop ++ kP ≠ f.prop := by simp [kP]
  have hd : f.prop ++ kData ≠ f.prop := by simp [kData]
  unfold extraProperty at h
  unfold fieldProperty
  repeat' split at h
  all_goals repeat' split
  all_goals simp_all [isPureMessage, hasQmlAlias]

theorem nodup_map_of {α β : Type} {l : List α} {a : α → β} (h : (l.map a).Nodup) {γ : Type} {b : α → γ}
    (hb : ∀ x ∈ l, ∀ y ∈ l, b x = b y → a x = a y) : (l.map b).Nodup := by
  rw [List.Nodup, List.pairwise_map] at h ⊢
  exact h.imp_of_mem fun hx hy hne e => hne (hb _ hx _ hy e)

theorem getter_l {f g : FieldD} (hf : Named f) (hg : Named g) {qml : Bool}
    {package : List Str} {m : Method} (hm : m ∈ fieldMethods qml package g) (hname : m.name = f.prop ++ kL) (ha : m.arity = 0) :
    m.act = .get g.member ∧ g.prop = f.prop := by
  rcases mem_fieldMethods hm with rfl | rfl | rfl | rfl | rfl | rfl
  · exact absurd hname (prop_ne_suffix hg hf (c := 'l') (by decide))
  · exact ⟨rfl, append_right hname⟩
  · simp at ha
  · exact absurd hname (last_ne (x := 'd') (y := 'l') (by decide) (by decide) (by decide))
  · exact absurd hname (last_ne (x := 'p') (y := 'l') (by decide) (by decide) (by decide))
  · simp at ha

theorem reads_at {qml : Bool} {package : List Str} {fields : List FieldD} (h : ValidFields fields) {f : FieldD} (hf : f ∈ fields)
    {j : Nat} {p : Property} (hp : (classOf qml package fields).properties[j]? = some p)
    (hr : p.read = f.prop ∨ p.read = f.prop ++ kP ∨ p.read = f.prop ++ kL)
    (hm : ⟨p.read, 0, .get f.member⟩ ∈ fieldMethods qml package f) : (classOf qml package fields).Reads (j + 1) f.member := by
  refine ⟨j, p, rfl, hp, ⟨_, List.mem_flatMap.mpr ⟨f, hf, hm⟩, rfl, rfl, rfl⟩, ?_⟩
  intro m hm hn ha x hx
  obtain ⟨g, hg, hm⟩ := List.mem_flatMap.mp hm
  have hmember : g.prop = f.prop → g.member = f.member := fun e => by simp [FieldD.member, e]
  rcases hr with e | e | e <;> rw [e] at hn
  · rcases getter_prop (h.named hf) (h.named hg) hm hn ha with ⟨h1, h2⟩ | ⟨h1, -⟩
    · rw [h1] at hx; cases hx; exact hmember h2
    · rw [h1] at hx; cases hx
  · obtain ⟨h1, h2⟩ := getter_p (h.named hf) (h.named hg) hm hn ha
    rw [h1] at hx; cases hx; exact hmember h2
  · obtain ⟨h1, h2⟩ := getter_l (h.named hf) (h.named hg) hm hn ha
    rw [h1] at hx; cases hx; exact hmember h2

/-- The property with the name under which a field is found. -/
theorem named_property (qml : Bool) (package : List Str) (f : FieldD) :
    ∃ p, (p = fieldProperty qml package f ∨ p ∈ extraProperty qml f) ∧
      p.name = (if f.type = .message ∧ f.repeated = true ∧ f.isMap = false ∧ qml = false then f.prop ++ kData else f.prop) ∧
      (p.read = f.prop ∨ p.read = f.prop ++ kP ∨ p.read = f.prop ++ kL) ∧
      ⟨p.read, 0, .get f.member⟩ ∈ fieldMethods qml package f := by
  by_cases h1 : hasQmlAlias qml f = true
  · have hn : ¬ (f.type = .message) := by
      intro e
      simp [hasQmlAlias, e] at h1
    exact ⟨⟨f.prop, f.prop ++ kP, some (f.setter ++ kP)⟩, .inr (by simp [extraProperty, h1, hn]), by simp [hn], by simp,
      by simp [fieldMethods, h1]⟩
  · by_cases h2 : f.type = .message ∧ f.repeated = true ∧ f.isMap = false
    · obtain ⟨a, b, c⟩ := h2
      cases qml with
      | false =>
        exact ⟨_, .inl rfl, by simp [fieldProperty, isPureMessage, hasQmlAlias, a, b, c],
          by simp [fieldProperty, isPureMessage, hasQmlAlias, a, b, c],
          by simp [fieldProperty, isPureMessage, hasQmlAlias, fieldMethods, a, b, c]⟩
      | true =>
        exact ⟨⟨f.prop, f.prop ++ kL, none⟩, .inr (by simp [extraProperty, a, b, c]), by simp, by simp,
          by simp [fieldMethods, a, b, c]⟩
    · have h3 : ¬ (f.type = .message ∧ f.repeated = true ∧ f.isMap = false ∧ qml = false) := fun h => h2 ⟨h.1, h.2.1, h.2.2.1⟩
      refine ⟨_, .inl rfl, ?_, ?_, ?_⟩
      · rw [if_neg h3]
        unfold fieldProperty
        repeat' split
        all_goals simp_all
      · unfold fieldProperty
        repeat' split
        all_goals simp_all
      · unfold fieldProperty
        repeat' split
        all_goals simp_all [fieldMethods]

/-! ### Properties -/

/-- The table of a generated class: the number of a field leads to the JSON name of that field and to a property that reads and
writes the data member of that field; other numbers lead nowhere; distinct fields have distinct data members. -/
theorem C41_table {fields : List FieldD} (h : ValidFields fields) (qml : Bool) (package : List Str) :
    (∀ f ∈ fields, ∃ i, lookup (ordering fields) f.number = some (i, f.json) ∧
      (classOf qml package fields).Reads i f.member ∧ (classOf qml package fields).Writes i f.member) ∧
    (∀ n, n ∉ fields.map FieldD.number → lookup (ordering fields) n = none) ∧
    (members fields).Nodup := by
  refine ⟨?_, fun n hn => lookup_none fields 0 n hn, ?_⟩
  · intro f hf
    obtain ⟨j, hj⟩ := List.getElem?_of_mem hf
    have hidx := getElem_orderingFrom fields 0 j f hj h.numbers
    rw [Nat.zero_add] at hidx
    have hp := property_at (qml := qml) (package := package) hj
    have nf := h.named hf
    have hmem : ∀ m ∈ fieldMethods qml package f, m ∈ methods qml package fields := fun m hm => List.mem_flatMap.mpr ⟨f, hf, hm⟩
    have hmember : ∀ g : FieldD, g.prop = f.prop → g.member = f.member := by
      intro g e
      simp [FieldD.member, e]
    have hname := property_names qml package f
    refine ⟨j + 1, hidx, ?_, ?_⟩
    · refine ⟨j, _, rfl, hp, ?_⟩
      rcases hname with ⟨e, -⟩ | ⟨hpure, e, -⟩
      · rw [e]
        refine ⟨⟨⟨f.prop, 0, .get f.member⟩, hmem _ (by simp [fieldMethods]), rfl, rfl, rfl⟩, ?_⟩
        intro m hm hn ha x hx
        obtain ⟨g, hg, hm⟩ := List.mem_flatMap.mp hm
        rcases getter_prop nf (h.named hg) hm hn ha with ⟨h1, h2⟩ | ⟨h1, h2⟩
        · rw [h1, hmember g h2] at hx
          cases hx
          rfl
        · rw [h1] at hx
          cases hx
      · rw [e]
        refine ⟨⟨⟨f.prop ++ kP, 0, .get f.member⟩, hmem _ (by simp [fieldMethods, hpure]), rfl, rfl, rfl⟩, ?_⟩
        intro m hm hn ha x hx
        obtain ⟨g, hg, hm⟩ := List.mem_flatMap.mp hm
        obtain ⟨h1, h2⟩ := getter_p nf (h.named hg) hm hn ha
        rw [h1, hmember g h2] at hx
        cases hx
        rfl
    · rcases hname with ⟨-, e⟩ | ⟨hpure, -, e⟩
      · refine ⟨j, _, f.setter, rfl, hp, e, ⟨⟨f.setter, 1, .set f.member⟩, hmem _ (by simp [fieldMethods]), rfl, rfl⟩, ?_⟩
        intro m hm hn ha
        obtain ⟨g, hg, hm⟩ := List.mem_flatMap.mp hm
        obtain ⟨h1, h2⟩ := setter_prop nf (h.named hg) hm hn ha
        rw [h1, hmember g h2]
      · refine ⟨j, _, f.setter ++ kP, rfl, hp, e, ⟨⟨f.setter ++ kP, 1, .set f.member⟩, hmem _ (by simp [fieldMethods, hpure]), rfl, rfl⟩, ?_⟩
        intro m hm hn ha
        obtain ⟨g, hg, hm⟩ := List.mem_flatMap.mp hm
        obtain ⟨h1, h2⟩ := setter_p nf (h.named hg) hm hn ha
        rw [h1, hmember g h2]
  · have hn := h.names
    have hnamed : ∀ f ∈ fields, Named f := fun f hf => h.named hf
    clear h
    unfold members
    induction fields with
    | nil => simp
    | cons f fs ih =>
      simp only [List.map_cons, List.nodup_cons, List.mem_map, not_exists, not_and] at hn ⊢
      refine ⟨fun g hg e => hn.1 g hg ?_, ih hn.2 (fun g hg => hnamed g (by simp [hg]))⟩
      exact prop_inj (hnamed g (by simp [hg])) (hnamed f (by simp)) (List.append_cancel_left e)

/-- Reading is unambiguous for all fields if no field is called like the signal of another one. -/
theorem C41_unambiguous {fields : List FieldD} (h : ValidFields fields) (hs : NoSignalNames fields) (qml : Bool) (package : List Str) :
    ∀ f ∈ fields, ∀ i json, lookup (ordering fields) f.number = some (i, json) → (classOf qml package fields).Unambiguous i := by
  intro f hf i json hl
  obtain ⟨j, hj⟩ := List.getElem?_of_mem hf
  have hidx := getElem_orderingFrom fields 0 j f hj h.numbers
  rw [Nat.zero_add] at hidx
  rw [ordering, hidx] at hl
  simp only [Option.some.injEq, Prod.mk.injEq] at hl
  refine ⟨j, _, hl.1.symm, property_at hj, ?_⟩
  intro m hm hn ha
  obtain ⟨g, hg, hm⟩ := List.mem_flatMap.mp hm
  rcases property_names qml package f with ⟨e, -⟩ | ⟨-, e, -⟩
  · rw [e] at hn
    rcases getter_prop (h.named hf) (h.named hg) hm hn ha with ⟨h1, h2⟩ | ⟨h1, h2⟩
    · rw [h1]; simp
    · exact absurd h2.symm (prop_ne_signal (h.named hf) (hs f hf g hg))
  · rw [e] at hn
    rw [(getter_p (h.named hf) (h.named hg) hm hn ha).1]
    simp

/-- A field that is called like the signal of another one: the class does not compile. -/
theorem C41_signal_ambiguous : ∃ fields : List FieldD, ValidFields fields ∧
    ∃ f ∈ fields, ∃ i json, lookup (ordering fields) f.number = some (i, json) ∧ ¬ (classOf false [] fields).Unambiguous i := by
  refine ⟨[⟨['x'], ['x'], 1, .int32, false, false, none, none⟩, ⟨['x'] ++ kChanged, [], 2, .int32, false, false, none, none⟩],
    ⟨by decide, by decide, by decide, by decide, by simp [kChanged]⟩, _, List.mem_cons_of_mem _ (List.mem_singleton.mpr rfl), 2, [], by decide, ?_⟩
  rintro ⟨j, p, hj, hp, hm⟩
  have : j = 1 := by omega
  subst this
  cases hp
  exact hm ⟨['x'] ++ kChanged, 0, .signal⟩ (by decide) rfl rfl rfl

/-- The names of the properties of a class are distinct, and what QML finds under the name of a field is that field: the property
called like the field reads its data member. (Repeated message fields have it only in a class for QML; without QML their property
is called "xData".) -/
theorem C55_names_partial {fields : List FieldD} (h : ValidFields fields) (hd : NoDataNames fields) (qml : Bool)
    (package : List Str) :
    ((classOf qml package fields).properties.map Property.name).Nodup ∧
    ∀ f ∈ fields, (classOf qml package fields).NameReads
      (if f.type = .message ∧ f.repeated = true ∧ f.isMap = false ∧ qml = false then f.prop ++ kData else f.prop) f.member := by
  have same : ∀ {f g : FieldD}, f ∈ fields → g ∈ fields → f.prop = g.prop → f.camel = g.camel :=
    fun hf hg e => prop_inj (h.named hf) (h.named hg) e
  have inj : ∀ {f g : FieldD} {p q : Property}, f ∈ fields → g ∈ fields →
      (p = fieldProperty qml package f ∨ p ∈ extraProperty qml f) → (q = fieldProperty qml package g ∨ q ∈ extraProperty qml g) →
      p.name = q.name → f.camel = g.camel := fun hf hg hp hq e =>
    same hf hg (name_inj h hd hf hg (property_name_cases hp) (e ▸ property_name_cases hq))
  have hnd : ((classOf qml package fields).properties.map Property.name).Nodup := by
    show ((fields.map (fieldProperty qml package) ++ fields.flatMap (extraProperty qml)).map Property.name).Nodup
    rw [List.map_append, List.nodup_append]
    refine ⟨?_, ?_, ?_⟩
    · rw [List.map_map]
      exact nodup_map_of h.names fun f hf g hg e => inj hf hg (.inl rfl) (.inl rfl) e
    · rw [List.map_flatMap, List.Nodup, List.pairwise_flatMap]
      refine ⟨fun f hf => ?_, ?_⟩
      · unfold extraProperty
        repeat' split
        all_goals simp
      · have hn := h.names
        rw [List.Nodup, List.pairwise_map] at hn
        refine hn.imp_of_mem fun {f g} hf hg hne x hx y hy e => ?_
        obtain ⟨p, hp, rfl⟩ := List.mem_map.mp hx
        obtain ⟨q, hq, rfl⟩ := List.mem_map.mp hy
        exact hne (inj hf hg (.inr hp) (.inr hq) e)
    · intro a ha b hb e
      simp only [List.mem_map, List.mem_flatMap] at ha hb
      obtain ⟨p, ⟨f, hf, rfl⟩, rfl⟩ := ha
      obtain ⟨q, ⟨g, hg, hq⟩, rfl⟩ := hb
      have e1 := inj hf hg (.inl rfl) (.inr hq) e
      have e2 : f = g := by
        have hn := h.names
        obtain ⟨i, hi⟩ := List.getElem?_of_mem hf
        obtain ⟨j, hj⟩ := List.getElem?_of_mem hg
        have hij : i = j := by
          refine (List.getElem?_inj (l := fields.map FieldD.camel) (by simpa using (List.getElem?_eq_some_iff.mp hi).1) hn).mp ?_
          simp [hi, hj, e1]
        subst hij
        rw [hi] at hj
        exact Option.some.inj hj
      subst e2
      exact field_extra_ne hq e
  refine ⟨hnd, fun f hf => ?_⟩
  obtain ⟨p, hp, hname, hread, hmeth⟩ := named_property qml package f
  have hmem : p ∈ (classOf qml package fields).properties := by
    show p ∈ fields.map (fieldProperty qml package) ++ fields.flatMap (extraProperty qml)
    rcases hp with rfl | hp
    · exact List.mem_append_left _ (List.mem_map_of_mem hf)
    · exact List.mem_append_right _ (List.mem_flatMap.mpr ⟨f, hf, hp⟩)
  obtain ⟨j, hj⟩ := List.getElem?_of_mem hmem
  refine ⟨j + 1, reads_at h hf hj hread hmeth, fun k q hq => ?_⟩
  rw [← hname]
  constructor
  · intro e
    have : j = k := by
      refine (List.getElem?_inj (l := (classOf qml package fields).properties.map Property.name)
        (by simpa using (List.getElem?_eq_some_iff.mp hj).1) hnd).mp ?_
      simp [hj, hq, e]
    rw [this]
  · intro e
    have e : j = k := by omega
    subst e
    rw [hj] at hq
    cases hq
    rfl

/-- Two properties of one name: repeated M x = 1; string xData = 2, with QML support or without. -/
theorem C55_data_name_violated : ∃ fields : List FieldD, ValidFields fields ∧ NoSignalNames fields ∧
    ∀ qml, ¬ ((classOf qml [] fields).properties.map Property.name).Nodup := by
  refine ⟨[⟨['x'], ['x'], 1, .message, true, false, some [['M']], none⟩, ⟨['x'] ++ kData, [], 2, .string, false, false, none, none⟩],
    ⟨by decide, by decide, by decide, by decide, by simp [kData]⟩, by unfold NoSignalNames; decide, fun qml => ?_⟩
  cases qml <;> decide

/-- The hypotheses of `C41_table`: int32 id = 3; repeated M m = 1; M n = 2. -/
example : ValidFields [⟨['i', 'd'], ['i', 'd'], 3, .int32, false, false, none, none⟩, ⟨['m'], ['m'], 1, .message, true, false, some [['M']], none⟩,
    ⟨['n'], ['n'], 2, .message, false, false, some [['M']], none⟩] ∧
    NoSignalNames [⟨['i', 'd'], ['i', 'd'], 3, .int32, false, false, none, none⟩, ⟨['m'], ['m'], 1, .message, true, false, some [['M']], none⟩,
    ⟨['n'], ['n'], 2, .message, false, false, some [['M']], none⟩] :=
  ⟨⟨by decide, by decide, by decide, by decide, by simp⟩, by unfold NoSignalNames; decide⟩

/-- The hypotheses of `C55_names_partial`. -/
example : NoDataNames [⟨['i', 'd'], ['i', 'd'], 3, .int32, false, false, none, none⟩, ⟨['m'], ['m'], 1, .message, true, false, some [['M']], none⟩,
    ⟨['n'], ['n'], 2, .message, false, false, some [['M']], none⟩] := by unfold NoDataNames; decide

example : (classOf true [] [⟨['i', 'd'], ['i', 'd'], 3, .int32, false, false, none, none⟩]).properties.map (fun p => (p.name, p.read)) =
    [(kId ++ kProto ++ kP, kId ++ kProto), (kId ++ kProto, kId ++ kProto ++ kP)] := by decide

end QtPb.Gen
