import Verif.SpecCppCtor
import Verif.TextGetters
import Verif.AssignLemmas
/-
Constructors of generated classes, run from the text. (Helpers for the theorems about generated programs.)
-/
set_option linter.unusedVariables false
set_option maxRecDepth 100000

namespace QtPb.TextProof
open QtPb.Gen QtPb.Gen.Text QtPb.Gen.Text.Spec QtPb.SpecCpp

theorem complete_some {α : Type} : ∀ l : List α, complete (l.map some) = some l
  | [] => rfl
  | a :: l => by simp [complete, complete_some l]

theorem find_one {α : Type} {P : α → Bool} : ∀ {l : List α} {x : α}, x ∈ l → P x = true → (∀ y ∈ l, P y = true → y = x) → l.find? P = some x
  | y :: l, x, hx, hp, h => by
    by_cases hy : P y = true
    · rw [List.find?_cons_of_pos hy, h y (by simp) hy]
    · rw [List.find?_cons_of_neg hy]
      rcases List.mem_cons.1 hx with rfl | hx
      · exact absurd hp hy
      · exact find_one hx hp fun z hz => h z (by simp [hz])

theorem lookup_filterMap {α κ β : Type} [BEq κ] [LawfulBEq κ] {key : α → κ} {g : α → Option β} : ∀ {l : List α}, (l.map key).Nodup → ∀ {x : α}, x ∈ l →
    (l.filterMap fun y => (g y).map fun v => (key y, v)).lookup (key x) = g x
  | [], _, _, hx => by cases hx
  | y :: l, hn, x, hx => by
    rw [List.map_cons, List.nodup_cons] at hn
    have none' : key x ∉ l.map key → (l.filterMap fun y => (g y).map fun v => (key y, v)).lookup (key x) = none := by
      intro h
      apply List.lookup_eq_none_iff.2
      intro p hp
      obtain ⟨z, hz, e⟩ := List.mem_filterMap.1 hp
      cases hg : g z with
      | none => rw [hg] at e; cases e
      | some v =>
        rw [hg] at e; cases e
        have : key x ≠ key z := fun e => h (e ▸ List.mem_map.2 ⟨z, hz, rfl⟩)
        simpa using this
    rw [List.filterMap_cons]
    rcases List.mem_cons.1 hx with rfl | hx
    · cases hg : g x with
      | none => exact none' hn.1
      | some v => simp [List.lookup]
    · have hne : key x ≠ key y := fun e => hn.1 (e ▸ List.mem_map.2 ⟨x, hx, rfl⟩)
      have ih := lookup_filterMap hn.2 hx (g := g)
      cases hg : g y with
      | none => exact ih
      | some v =>
        have : (key x == key y) = false := by simpa using hne
        simp only [Option.map_some, List.lookup, this]
        exact ih

/-- The members after the initialisers, member by member. -/
theorem initMembers_ok {value : FieldTy → List Lexeme → Res Val} {inits : List (Text × List Lexeme)} : ∀ {ms : List (Text × FieldTy)} {vs rs : Obj},
    vs.length = ms.length → rs.length = ms.length →
    (∀ (i : Nat) (x : Text) (ty : FieldTy) (v r : Val), ms[i]? = some (x, ty) → vs[i]? = some v → rs[i]? = some r →
      (∃ e, inits.lookup x = some e ∧ value ty e = .ok r) ∨ (inits.lookup x = none ∧ unwritten ty v = r)) →
    initMembers value inits ms vs = .ok rs
  | [], [], [], _, _, _ => rfl
  | [], _ :: _, _, h, _, _ => by simp at h
  | [], _, _ :: _, _, h, _ => by simp at h
  | _ :: _, [], _, h, _, _ => by simp at h
  | _ :: _, _, [], _, h, _ => by simp at h
  | (x, ty) :: ms, v :: vs, r :: rs, h1, h2, h => by
    have h0 := h 0 x ty v r rfl rfl rfl
    have ih := initMembers_ok (value := value) (inits := inits) (ms := ms) (vs := vs) (rs := rs) (by simpa using h1) (by simpa using h2)
      fun i x ty v r a b c => h (i + 1) x ty v r (by simpa using a) (by simpa using b) (by simpa using c)
    unfold initMembers
    rcases h0 with ⟨e, e1, e2⟩ | ⟨e1, e2⟩
    · simp only [e1, e2, ih]; rfl
    · simp only [e1, e2, ih]; rfl

/-! ### Finding constructors -/

section
variable {o : Options} {c : Ctx} {m : Cur} {cls : List Text}

theorem ctor_isCtor (hc : cls.getLastD [] = className m) (n : Nat) : (ctorFn o c m cls n).isCtor = true := by
  simp only [Fn.isCtor, ctorFn, hc]; simp

theorem ctor_types (n : Nat) : (ctorFn o c m cls n).params.map (·.1) = (m.fields.take n).map (paramType o c m.path) ++ [cpp! "QObject *"] := by
  simp [ctorFn, objectParam, Function.comp_def]

theorem find_ctor (hc : cls.getLastD [] = className m) {n : Nat} (hn : n ≤ m.fields.length) :
    (classFns o c m cls).find? (fun f => f.isCtor && f.params.map (·.1) == (m.fields.take n).map (paramType o c m.path) ++ [cpp! "QObject *"]) =
      some (ctorFn o c m cls n) := by
  unfold classFns
  simp only [List.append_assoc]
  rw [List.find?_append, List.find?_eq_none.2, Option.none_or, List.find?_append, find_one (x := ctorFn o c m cls n), Option.some_or]
  · exact List.mem_map.2 ⟨n, List.mem_range.2 (by omega), rfl⟩
  · simp [ctor_isCtor hc, ctor_types]
  · intro y hy hp
    obtain ⟨i, hi, rfl⟩ := List.mem_map.1 hy
    have hi := List.mem_range.1 hi
    simp only [Bool.and_eq_true, beq_iff_eq, ctor_types] at hp
    have := congrArg List.length hp.2
    simp only [List.length_append, List.length_map, List.length_take, List.length_cons, List.length_nil] at this
    have : i = n := by omega
    rw [this]
  · intro x hx
    simp only [List.mem_cons, List.not_mem_nil, or_false] at hx
    rcases hx with rfl | rfl <;> simp [Fn.isCtor]

/-- In front of the copies no constructor takes one object. -/
theorem before_none {T : List Lexeme} (hT : T ≠ cpp! "QObject *") : (beforeCommon o c m cls).find? (fun f => f.isCtor && f.params.map (·.1) == [T]) = none := by
  apply List.find?_eq_none.2
  intro x hx h
  simp only [Bool.and_eq_true, beq_iff_eq] at h
  have hl : x.params.length = 1 := by simpa using congrArg List.length h.2
  have := before_unary (o := o) (c := c) (m := m) (cls := cls) x.function (List.mem_map.2 ⟨x, hx, rfl⟩) hl
  have e : x.params.map (·.1) = [cpp! "QObject *"] := this.2
  rw [h.2] at e
  exact hT (by simpa using e)

theorem classFns_parts : classFns o c m cls =
    beforeCommon o c m cls ++ (commonFns c m cls ++ (m.fields.flatMap (getterFns o c m cls) ++ m.fields.flatMap (setterFns o c m cls))) := by
  simp only [classFns, beforeCommon, List.append_assoc]

/-- The copy constructor and the move constructor. -/
def copyFn (c : Ctx) (m : Cur) (cls : List Text) : Fn :=
  let K := className m
  ⟨[], cls, cpp! "$K$", [(cpp! "const $K$ &", sourceName m.fields)], cpp! ": QObject()" ++ nulls c m, copyBody c m⟩
def moveFn' (c : Ctx) (m : Cur) (cls : List Text) : Fn :=
  let K := className m
  ⟨[], cls, cpp! "$K$", [(cpp! "$K$ &&", sourceName m.fields)], cpp! ": QObject()" ++ nulls c m, moveBody c m⟩

theorem find_copy (hc : cls.getLastD [] = className m) :
    (classFns o c m cls).find? (fun f => f.isCtor && f.params.map (·.1) == [let K := className m; cpp! "const $K$ &"]) = some (copyFn c m cls) := by
  rw [classFns_parts, List.find?_append, before_none (by simp), Option.none_or]
  unfold commonFns
  dsimp only [List.cons_append]
  rw [List.find?_cons_of_pos]
  · rfl
  · simp only [Fn.isCtor, hc]; simp

theorem find_move (hc : cls.getLastD [] = className m) :
    (classFns o c m cls).find? (fun f => f.isCtor && f.params.map (·.1) == [let K := className m; cpp! "$K$ &&"]) = some (moveFn' c m cls) := by
  rw [classFns_parts, List.find?_append, before_none (by simp), Option.none_or]
  unfold commonFns
  dsimp only [List.cons_append]
  rw [List.find?_cons_of_neg, List.find?_cons_of_neg, List.find?_cons_of_pos]
  · rfl
  · simp only [Fn.isCtor, hc]; simp
  · simp [Fn.isCtor]
  · simp

end

/-- A constructor of the class of a message, in the text of the source. -/
theorem ctor_found {u : Sources} (hu : u.Plain) {b : Printed × List FieldD} (hb : b ∈ u.bodies) {source : Text} (h2 : u.sourceText = some source)
    {types : List (List Lexeme)} {f : Fn}
    (hf : (classFns u.o u.c ⟨b.1.msg, b.2⟩ b.1.cpp).find? (fun f => f.isCtor && f.params.map (·.1) == types) = some f) :
    ctorOf source b.1.cpp types = some f := by
  obtain ⟨source', h6, h7⟩ := source_items hu.file hu.header hu.enums hu.msgs
  cases h2.symm.trans h6
  unfold ctorOf
  rw [h7]
  dsimp only
  rw [← source_functions hu hb, List.find?_filter] at hf
  rw [← hf]
  congr 1
  funext x
  generalize (List.map (fun x => x.1) x.params == types) = q
  generalize (x.cls == b.1.cpp) = r
  generalize x.isCtor = s
  cases q <;> cases r <;> cases s <;> rfl

/-! ### Initialisers -/

section
variable {o : Options} {c : Ctx} {m : Cur} {fs : List QtPb.Field} {p : ClassText}

/-- Whether the constructor has a parameter for a field, with the field. -/
def choices (m : Cur) (n : Nat) : List (Bool × FieldD) := (m.fields.take n).map (true, ·) ++ (m.fields.drop n).map (false, ·)

theorem initials_eq (n : Nat) : initials o c m.path true (m.fields.take n) ++ initials o c m.path false (m.fields.drop n) =
    (choices m n).filterMap fun y => (initial o c m.path y.1 y.2).map fun v => (mem' y.2.prop, v) := by
  simp only [initials, choices, List.filterMap_append, List.filterMap_map]
  rfl

theorem choices_keys (n : Nat) : (choices m n).map (fun y => mem' y.2.prop) = m.fields.map fun f => mem' f.prop := by
  simp only [choices, List.map_append, List.map_map, Function.comp_def]
  rw [← List.map_append, List.take_append_drop]

theorem choices_at {n i : Nat} {f : FieldD} (hf : m.fields[i]? = some f) : (decide (i < n), f) ∈ choices m n := by
  unfold choices
  by_cases h : i < n
  · refine List.mem_append_left _ (List.mem_map.2 ⟨f, List.mem_of_getElem? (i := i) ?_, by simp [h]⟩)
    rw [List.getElem?_take, if_pos h, hf]
  · refine List.mem_append_right _ (List.mem_map.2 ⟨f, List.mem_of_getElem? (i := i - n) ?_, by simp [h]⟩)
    rw [List.getElem?_drop, show n + (i - n) = i by omega, hf]

/-- The initialiser of a member. -/
theorem init_lookup (h : IsClass c m fs p) {n i : Nat} {f : FieldD} (hf : m.fields[i]? = some f) :
    (initials o c m.path true (m.fields.take n) ++ initials o c m.path false (m.fields.drop n)).lookup (mem' f.prop) =
      initial o c m.path (decide (i < n)) f := by
  rw [initials_eq]
  exact lookup_filterMap (key := fun y : Bool × FieldD => mem' y.2.prop) (by rw [choices_keys]; exact h.nodup) (choices_at hf)

theorem init_names (h : IsClass c m fs p) (n : Nat) :
    ((initials o c m.path true (m.fields.take n) ++ initials o c m.path false (m.fields.drop n)).map (·.1)).Nodup ∧
    ∀ i ∈ initials o c m.path true (m.fields.take n) ++ initials o c m.path false (m.fields.drop n), i.1 ∈ p.names := by
  have hs : ((initials o c m.path true (m.fields.take n) ++ initials o c m.path false (m.fields.drop n)).map (·.1)).Sublist (m.fields.map fun f => mem' f.prop) := by
    rw [initials_eq, ← choices_keys (m := m) n]
    generalize choices m n = l
    induction l with
    | nil => exact .slnil
    | cons y l ih =>
      rw [List.filterMap_cons, List.map_cons]
      cases initial o c m.path y.1 y.2 with
      | none => exact ih.cons _
      | some v => exact ih.cons_cons _
  refine ⟨h.nodup.sublist hs, fun i hi => ?_⟩
  have := hs.subset (List.mem_map.2 ⟨i, hi, rfl⟩)
  rw [ClassText.names, h.members, List.map_map]
  rw [← h.fst, List.map_map] at this
  exact this

/-- The parameters of a constructor by their names. -/
theorem argument_at {n i : Nat} {f : FieldD} {given : List Rt} {r : Rt} (hn : (m.fields.map fun f => mem' f.prop).Nodup) (hf : m.fields[i]? = some f)
    (hg : given[i]? = some r) (hl : given.length = n) (hle : n ≤ m.fields.length) (cls : List Text) :
    argument (ctorFn o c m cls n).params (given ++ [.pointer .null]) f.prop = some (paramType o c m.path f, r) := by
  have hi : i < n := by
    rw [← hl]
    exact (List.getElem?_eq_some_iff.1 hg).1
  have hA : ((m.fields.take n).map fun f => (paramType o c m.path f, f.prop)).length = given.length := by
    rw [List.length_map, List.length_take, hl]; omega
  unfold argument
  simp only [ctorFn]
  rw [List.zip_append hA, List.find?_append, find_one (x := ((paramType o c m.path f, f.prop), r))]
  · rfl
  · refine List.mem_of_getElem? (i := i) (List.getElem?_zip_eq_some.2 ⟨?_, hg⟩)
    rw [List.getElem?_map, List.getElem?_take, if_pos hi, hf]; rfl
  · simp
  · intro y hy hp
    obtain ⟨j, hj⟩ := List.mem_iff_getElem?.1 hy
    obtain ⟨h1, h2⟩ := List.getElem?_zip_eq_some.1 hj
    rw [List.getElem?_map, List.getElem?_take] at h1
    split at h1
    · cases hg' : m.fields[j]? with
      | none => rw [hg'] at h1; cases h1
      | some g =>
        rw [hg'] at h1
        have h1 : (paramType o c m.path g, g.prop) = y.1 := by simpa using h1
        have e : g.prop = f.prop := by rw [← h1] at hp; simpa using hp
        have : i = j := by
          refine (List.getElem?_inj (l := m.fields.map fun f => mem' f.prop) ?_ hn).1 ?_
          · rw [List.length_map]; exact (List.getElem?_eq_some_iff.1 hf).1
          · rw [List.getElem?_map, List.getElem?_map, hf, hg']; simp [e]
        subst this
        rw [hf] at hg'
        cases hg'
        rw [hg] at h2
        obtain ⟨y1, y2⟩ := y
        cases h2
        simp only at h1
        rw [← h1]
    · cases h1

theorem new_message {copy : Nat → Obj → Res Obj} {params : List (List Lexeme × Text)} {args : List Rt} {k : Nat} {x : Text} {T : List Lexeme} {a a' : Obj}
    (ha : argument params args x = some (cpp! "const @T@ &", .message k a)) (h : copy k a = .ok a') :
    newMessage copy params args k (.punct ')' :: .word x :: .punct '(' :: T.reverse) = .ok (.msg a') := by
  show (match argument params args x with
    | some (P, .message m' o) =>
      if k = m' ∧ P = (let T := T.reverse.reverse; cpp! "const @T@ &") then (copy k o).bind fun o' => Res.ok (Val.msg o') else Res.ub
    | _ => Res.ub) = _
  rw [ha]
  dsimp only
  rw [if_pos ⟨rfl, by rw [List.reverse_reverse]⟩, h]
  rfl

/-- A member with a parameter holds what was given. -/
theorem init_given {constants : List Lexeme → Option (BitVec 32)} {copy : Nat → Obj → Res Obj} {params : List (List Lexeme × Text)} {args : List Rt}
    {f : FieldD} {ty : FieldTy} {r : Rt} {v : Val} (hq : isQtType c.package f = false) (hf : fits f ty = true)
    (hp : f.prop ∉ [text! "parent", text! "0", text! "false"]) (ha : argument params args f.prop = some (paramType o c m.path f, r)) (hg : Given copy ty r v) :
    ∃ e, initial o c m.path true f = some e ∧ initValue constants copy params args ty e = .ok v := by
  have hpm := pure_fits hq hf
  cases hg with
  | message h =>
    rename_i k a a'
    have hpure : isPureMessage c.package f = true := by rw [hpm]; rfl
    refine ⟨_, by unfold initial; dsimp only; rw [if_pos hpure, if_pos rfl], ?_⟩
    have hP : paramType o c m.path f = (let T := valueType o c m.path f false; cpp! "const @T@ &") := by
      unfold isPureMessage at hpure
      simp at hpure
      unfold Spec.paramType isList
      simp [hpure]
    rw [hP] at ha
    unfold initValue
    dsimp only
    rw [if_neg (by simp), if_pos rfl]
    simp only [List.reverse_append, List.reverse_cons, List.reverse_nil, List.nil_append, List.cons_append]
    exact new_message ha h
  | data h =>
    have hpure : ¬ isPureMessage c.package f = true := by
      rw [hpm]; unfold isMsg; split
      · exact absurd rfl (h _)
      · simp
    refine ⟨_, by unfold initial; dsimp only; rw [if_neg hpure, if_pos rfl], ?_⟩
    simp only [List.mem_cons, List.not_mem_nil, or_false, not_or] at hp
    unfold initValue
    cases ty with
    | msg k => exact absurd rfl (h k)
    | scalar k => simp only [hp, if_false, ha, copied, if_true]
    | _ => simp only [ha, copied, if_true]

/-- A member without parameter holds the default value. -/
theorem init_default {constants : List Lexeme → Option (BitVec 32)} {copy : Nat → Obj → Res Obj} {params : List (List Lexeme × Text)} {args : List Rt}
    {f : FieldD} {ty : FieldTy} (hq : isQtType c.package f = false) (hf : fits f ty = true)
    (hz : f.type = .enum → let T := valueType o c m.path f false; let v := c.firstValue (f.enumType.getD []); constants (cpp! "@T@::$v$") = some 0) :
    (∃ e, initial o c m.path false f = some e ∧ initValue constants copy params args ty e = .ok (defaultVal ty)) ∨
    (initial o c m.path false f = none ∧ ∀ v, unwritten ty v = defaultVal ty) := by
  have hpm := pure_fits hq hf
  cases ty with
  | msg k =>
    refine Or.inl ⟨_, by unfold initial; dsimp only; rw [if_pos (by rw [hpm]; rfl), if_neg (by simp)], ?_⟩
    rfl
  | scalar k =>
    have hpure : ¬ isPureMessage c.package f = true := by rw [hpm]; simp [isMsg]
    simp only [fits, Bool.and_eq_true, Bool.not_eq_true', beq_iff_eq] at hf
    obtain ⟨⟨h1, h2⟩, h3⟩ := hf
    unfold initial
    dsimp only
    rw [if_neg hpure]
    simp only [Bool.false_eq_true, if_false, h1, h2, Bool.or_self, h3]
    cases k <;> simp only [protoType]
    all_goals first
      | exact Or.inl ⟨_, rfl, rfl⟩
      | exact Or.inr ⟨rfl, fun v => rfl⟩
      | exact Or.inr ⟨trivial, fun v => rfl⟩
  | enum =>
    have hpure : ¬ isPureMessage c.package f = true := by rw [hpm]; simp [isMsg]
    simp only [fits, Bool.and_eq_true, Bool.not_eq_true', beq_iff_eq] at hf
    obtain ⟨⟨h1, h2⟩, h3⟩ := hf
    have hz := hz h3
    refine Or.inl ⟨_, by unfold initial; dsimp only; rw [if_neg hpure]; simp only [Bool.false_eq_true, if_false, h1, h2, Bool.or_self, h3]; rfl, ?_⟩
    unfold initValue
    dsimp only
    split
    · rename_i x he
      have := congrArg List.length he
      simp at this
    · rw [hz]; rfl
  | _ =>
    have hpure : ¬ isPureMessage c.package f = true := by rw [hpm]; simp [isMsg]
    simp only [fits, Bool.and_eq_true, Bool.not_eq_true', beq_iff_eq] at hf
    refine Or.inr ⟨?_, fun v => rfl⟩
    unfold initial
    dsimp only
    rw [if_neg hpure, if_neg (by simp), if_pos (by simp [hf])]

theorem member_at (h : IsClass c m fs p) {i : Nat} {x : Text} {ty : FieldTy} (hx : p.members[i]? = some (x, ty)) :
    ∃ f g, m.fields[i]? = some f ∧ fs[i]? = some g ∧ x = mem' f.prop ∧ ty = g.ty ∧ (f, g) ∈ m.fields.zip fs := by
  rw [h.members, List.getElem?_map] at hx
  cases hz : (m.fields.zip fs)[i]? with
  | none => rw [hz] at hx; cases hx
  | some y =>
    rw [hz] at hx
    obtain ⟨f, g⟩ := y
    cases hx
    have := List.getElem?_zip_eq_some.1 hz
    exact ⟨f, g, this.1, this.2, rfl, rfl, List.mem_of_getElem? hz⟩

theorem members_length (h : IsClass c m fs p) : p.members.length = fs.length := by
  rw [h.members, List.length_map, List.length_zip, h.len, Nat.min_self]

/-- A constructor that takes the first fields. -/
theorem construct_ok (ok : MsgOk o c m) (h : IsClass c m fs p) (cls : List Text) {constants : List Lexeme → Option (BitVec 32)} {copy : Nat → Obj → Res Obj}
    (hz : ∀ f ∈ m.fields, f.type = .enum → let T := valueType o c m.path f false; let v := c.firstValue (f.enumType.getD []); constants (cpp! "@T@::$v$") = some 0)
    {given : List Rt} (hpar : Parameters (m.fields.take given.length)) {vals memory : Obj} (hn : given.length ≤ fs.length) (hv : vals.length = given.length)
    (hg : ∀ (i : Nat) (g : QtPb.Field) (r : Rt) (v : Val), fs[i]? = some g → given[i]? = some r → vals[i]? = some v → Given copy g.ty r v)
    (hm : memory.length = fs.length) :
    p.construct constants copy (ctorFn o c m cls given.length) given memory = .ok (vals ++ (fs.drop given.length).map fun g => defaultVal g.ty) := by
  have hle : given.length ≤ m.fields.length := by rw [h.len]; exact hn
  have hprops : (m.fields.map fun f => f.prop).Nodup := by
    have := h.nodup
    have e : (m.fields.map fun f => mem' f.prop) = (m.fields.map fun f => f.prop).map mem' := by rw [List.map_map]; rfl
    rw [e] at this
    exact List.Pairwise.imp (fun h e => h (congrArg mem' e)) (List.pairwise_map.1 this)
  unfold ClassText.construct
  rw [if_pos ⟨rfl, by simp [ctorFn, Nat.min_eq_left hle]⟩]
  unfold ClassText.start
  rw [inits_ctor ok, complete_some]
  dsimp only
  rw [if_pos]
  · refine initMembers_ok (by rw [hm, members_length h]) (by simp [members_length h, hv]; omega) fun i x ty v r hx hv' hr => ?_
    obtain ⟨f, g, hf, hgi, rfl, rfl, hz'⟩ := member_at h hx
    have hfm : f ∈ m.fields := List.mem_of_getElem? hf
    rw [init_lookup h hf]
    have hq := h.noQt f hfm
    have hfit := h.fit _ hz'
    by_cases hi : i < given.length
    · rw [List.getElem?_append_left (by omega)] at hr
      obtain ⟨r0, hr0⟩ : ∃ r0, given[i]? = some r0 := ⟨given[i], List.getElem?_eq_getElem hi⟩
      rw [decide_eq_true hi]
      exact Or.inl (init_given hq hfit (hpar f (List.mem_of_getElem? (i := i) (by rw [List.getElem?_take, if_pos hi, hf]))) (argument_at h.nodup hf hr0 rfl hle cls) (hg i g r0 r hgi hr0 hr))
    · rw [List.getElem?_append_right (by omega), List.getElem?_map, List.getElem?_drop, hv, show given.length + (i - given.length) = i by omega, hgi] at hr
      cases hr
      rw [decide_eq_false hi]
      rcases init_default (o := o) (m := m) (constants := constants) (copy := copy) (params := (ctorFn o c m cls given.length).params)
        (args := given ++ [.pointer .null]) hq hfit (hz f hfm) with h1 | ⟨h1, h2⟩
      · exact Or.inl h1
      · exact Or.inr ⟨h1, h2 v⟩
  · refine ⟨rfl, (init_names h _).1, (init_names h _).2, ?_⟩
    have e : (ctorFn o c m cls given.length).params.map (·.2) = (m.fields.take given.length).map (·.prop) ++ [text! "parent"] := by
      simp [ctorFn, objectParam, Function.comp_def]
    rw [e]
    refine List.nodup_append.2 ⟨hprops.sublist ((List.take_sublist _ _).map _), by simp, fun x hx y hy => ?_⟩
    obtain ⟨f, hf, rfl⟩ := List.mem_map.1 hx
    simp only [List.mem_cons, List.not_mem_nil, or_false] at hy
    subst hy
    intro e
    exact hpar f hf (by simp [e])

/-! ### Copies -/

theorem copyStart_at {env : Env} : ∀ {fs : List QtPb.Field} {memory : Obj} {i : Nat} {g : QtPb.Field} {v : Val}, fs[i]? = some g → memory[i]? = some v →
    QtPb.Spec.HasTy env g.ty v → (copyStart fs memory)[i]? = some (unwritten g.ty v)
  | [], _, _, _, _, h, _, _ => by simp at h
  | _ :: _, [], _, _, _, _, h, _ => by simp at h
  | f :: fs, w :: memory, 0, g, v, h1, h2, h3 => by
    simp only [List.getElem?_cons_zero, Option.some.injEq] at h1 h2
    subst h1 h2
    obtain ⟨num, ty⟩ := f
    dsimp only at h3 ⊢
    cases h3 with
    | sc h =>
      rename_i k s
      cases k <;> cases s <;> simp [Kind.holds] at h <;> rfl
    | _ => rfl
  | f :: fs, w :: memory, i + 1, g, v, h1, h2, h3 => by
    show (copyStart fs memory)[i]? = _
    exact copyStart_at (by simpa using h1) (by simpa using h2) h3

theorem start_nulls (h : IsClass c m fs p) {constants : List Lexeme → Option (BitVec 32)} {copy : Nat → Obj → Res Obj} {args : List Rt}
    {fn : Fn} {body : List Lexeme} {ps : List (List Lexeme × Text)} {r nm : List Lexeme} {cls : List Text}
    (hf : fn = ⟨r, cls, nm, ps, cpp! ": QObject()" ++ nulls c m, body⟩) (hps : (ps.map (·.2)).Nodup) {env : Env} {memory : Obj}
    (hm : memory.length = fs.length) (ht : ∀ (i : Nat) (g : QtPb.Field) (v : Val), fs[i]? = some g → memory[i]? = some v → QtPb.Spec.HasTy env g.ty v) :
    p.start constants copy fn args memory = .ok (copyStart fs memory) := by
  have e : ((m.fields.filter (isPureMessage c.package)).map fun f => (f.member, cpp! "nullptr")) =
      m.fields.filterMap fun f => (if isPureMessage c.package f then some (cpp! "nullptr") else none).map fun v => (mem' f.prop, v) := by
    induction m.fields with
    | nil => rfl
    | cons f l ih =>
      rw [List.filter_cons, List.filterMap_cons, ← ih]
      split <;> rfl
  have hs : ((m.fields.filterMap fun f => (if isPureMessage c.package f then some (cpp! "nullptr") else none).map fun v => (mem' f.prop, v)).map (·.1)).Sublist
      (m.fields.map fun f => mem' f.prop) := by
    generalize m.fields = l
    induction l with
    | nil => exact .slnil
    | cons y l ih =>
      rw [List.filterMap_cons, List.map_cons]
      by_cases hp : isPureMessage c.package y = true
      · simp only [hp, if_true, Option.map_some, List.map_cons]; exact ih.cons_cons _
      · simp only [hp, if_false, Option.map_none]; exact ih.cons _
  subst hf
  unfold ClassText.start
  rw [inits_nulls, complete_some, e]
  dsimp only
  rw [if_pos]
  · refine initMembers_ok (by rw [hm, members_length h]) (by rw [copyStart_length, members_length h]) fun i x ty v r hx hv hr => ?_
    obtain ⟨f, g, hf, hgi, rfl, rfl, hz'⟩ := member_at h hx
    have hfm : f ∈ m.fields := List.mem_of_getElem? hf
    rw [lookup_filterMap (key := fun f : FieldD => mem' f.prop) h.nodup hfm]
    have hc := copyStart_at hgi hv (ht i g v hgi hv)
    rw [hr] at hc
    cases hc
    have hpm := pure_fits (h.noQt f hfm) (h.fit _ hz')
    by_cases hp : isPureMessage c.package f = true
    · rw [if_pos hp]
      rw [hpm] at hp
      unfold isMsg at hp
      split at hp
      · rename_i k he
        refine Or.inl ⟨_, rfl, ?_⟩
        rw [he]; rfl
      · cases hp
    · rw [if_neg hp]
      exact Or.inr ⟨rfl, rfl⟩
  · refine ⟨rfl, h.nodup.sublist hs, fun i hi => ?_, hps⟩
    have := hs.subset (List.mem_map.2 ⟨i, hi, rfl⟩)
    rw [ClassText.names, h.members, List.map_map]
    rw [← h.fst, List.map_map] at this
    exact this

end

end QtPb.TextProof
