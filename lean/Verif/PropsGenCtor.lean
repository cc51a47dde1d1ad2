import Verif.SpecMembers
/-
C61: the constructors and methods of a generated class.
-/
namespace QtPb.Gen
open Spec

/-! ### Specification -/

/-- What protoc guarantees about the kind of a field: map fields are repeated fields of messages, and there are no groups in proto3. -/
def Spec.ValidKind (f : FieldD) : Prop := f.type ≠ .group ∧ (f.isMap = true → f.type = .message ∧ f.repeated = true)

/-- The first value of the enumeration is the number 0 (as proto3 demands), and its name starts with a capital. -/
def Spec.GoodEnums (enums : Path → EnumD) (firstValue : Path → Str) : Prop :=
  ∀ q, ∃ name rest, (enums q).values = (name, 0) :: rest ∧ firstValue q = name ∧ upperCaseName name = name

/-- The type of one value of a field: the Qt class for a type of the package QtProtobuf (seen from other packages), the map type made for
the entry of a map, the class of another message, the enumeration, or the C++ type of a scalar. -/
def Spec.oneType (package : List Str) (f : FieldD) : CType :=
  match f.type, f.msgType.getD [], f.enumType.getD [] with
  | .message, q, _ =>
    if q.dropLast = [['Q', 't', 'P', 'r', 'o', 't', 'o', 'b', 'u', 'f']] ∧ package ≠ [['Q', 't', 'P', 'r', 'o', 't', 'o', 'b', 'u', 'f']] then .qt q
    else if f.isMap = true then .map q else .msg q
  | .enum, _, e => .enum e
  | t, _, _ => .scalar t

/-- The type of the value of a field: a list of such values for a repeated field that is not a map. -/
def Spec.argType (package : List Str) (f : FieldD) : CType :=
  if f.repeated = true ∧ f.isMap = false then .list (oneType package f) else oneType package f

/-! ### Lemmas -/

/-- What `initFrom` prints for one field. -/
def initOne (package : List Str) (firstValue : Path → Str) (k i : Nat) (f : FieldD) : Option Init :=
  if isPureMessage package f then
    if i < k then some (.fresh (scopeType package f) f.prop) else some .null
  else if i < k then some (.param f.prop)
  else defaultInit firstValue f

theorem initFrom_cons (package : List Str) (firstValue : Path → Str) (k i : Nat) (f : FieldD) (fs : List FieldD) :
    initFrom package firstValue k i (f :: fs) =
      ((initOne package firstValue k i f).toList.map fun d => (f.member, d)) ++ initFrom package firstValue k (i + 1) fs := by
  rw [initFrom, initOne]
  congr 1
  split
  · split <;> rfl
  · split
    · rfl
    · cases defaultInit firstValue f <;> rfl

theorem initFrom_names (package : List Str) (firstValue : Path → Str) (k : Nat) : ∀ (fields : List FieldD) (i : Nat),
    ∀ x ∈ initFrom package firstValue k i fields, x.1 ∈ members fields
  | [], _ => by simp [initFrom]
  | f :: fs, i => by
    intro x hx
    rw [initFrom_cons, List.mem_append] at hx
    rcases hx with hx | hx
    · simp only [List.mem_map] at hx
      obtain ⟨d, -, rfl⟩ := hx
      simp [members]
    · have := initFrom_names package firstValue k fs (i + 1) x hx
      simp only [members, List.map_cons, List.mem_cons] at this ⊢
      exact Or.inr this

theorem find_init (package : List Str) (firstValue : Path → Str) (k : Nat) : ∀ (fields : List FieldD) (i j : Nat) (f : FieldD),
    (members fields).Nodup → fields[j]? = some f →
    (initFrom package firstValue k i fields).find? (fun x => x.1 == f.member) = (initOne package firstValue k (i + j) f).map fun d => (f.member, d)
  | [], _, _, _, _, h => by simp at h
  | g :: fs, i, 0, f, hn, h => by
    simp only [List.getElem?_cons_zero, Option.some.injEq] at h
    subst h
    rw [initFrom_cons, List.find?_append]
    cases hd : initOne package firstValue k (i + 0) g with
    | some d =>
      rw [Nat.add_zero] at hd
      simp [hd]
    | none =>
      rw [Nat.add_zero] at hd
      simp only [hd, Option.toList_none, List.map_nil, List.find?_nil, Option.none_or, Option.map_none, List.find?_eq_none]
      intro x hx he
      have hm := initFrom_names package firstValue k fs (i + 1) x hx
      simp only [members, List.map_cons, List.nodup_cons] at hn
      rw [beq_iff_eq] at he
      rw [he] at hm
      exact hn.1 hm
  | g :: fs, i, j + 1, f, hn, h => by
    simp only [List.getElem?_cons_succ] at h
    have hne : g.member ≠ f.member := by
      simp only [members, List.map_cons, List.nodup_cons] at hn
      intro e
      rw [e] at hn
      exact hn.1 (List.mem_map.mpr ⟨f, List.mem_of_getElem? h, rfl⟩)
    have hn' : (members fs).Nodup := by
      simp only [members, List.map_cons, List.nodup_cons] at hn
      exact hn.2
    rw [initFrom_cons, List.find?_append, List.find?_eq_none.mpr, Option.none_or, find_init package firstValue k fs (i + 1) j f hn' h,
      show i + 1 + j = i + (j + 1) by omega]
    intro x hx
    simp only [List.mem_map] at hx
    obtain ⟨d, -, rfl⟩ := hx
    simpa using hne

theorem ctorParam_name (package : List Str) (f : FieldD) : (ctorParam package f).name = f.prop := by
  unfold ctorParam
  repeat' split
  all_goals rfl

theorem map_ctorParam_name (package : List Str) (fields : List FieldD) :
    (fields.map (ctorParam package)).map (·.name) = fields.map FieldD.prop := by
  rw [List.map_map]
  exact List.map_congr_left fun f _ => ctorParam_name package f

theorem scopeType_eq (package : List Str) (f : FieldD) : scopeType package f = oneType package f := by
  unfold scopeType oneType
  cases ht : f.type <;> simp only []
  have e : isQtType package f = true ↔ (f.msgType.getD []).dropLast = [['Q', 't', 'P', 'r', 'o', 't', 'o', 'b', 'u', 'f']] ∧
      package ≠ [['Q', 't', 'P', 'r', 'o', 't', 'o', 'b', 'u', 'f']] := by
    cases hq : f.msgType <;> simp [isQtType, hq, kQtProtobuf]
  by_cases hi : isQtType package f = true
  · rw [if_pos hi, if_pos (e.mp hi)]
  · rw [if_neg hi, if_neg (fun x => hi (e.mpr x))]

theorem map_ctorParam_type (package : List Str) (fields : List FieldD) :
    (fields.map (ctorParam package)).map (·.type) = fields.map (argType package) := by
  rw [List.map_map]
  refine List.map_congr_left fun f _ => ?_
  simp only [Function.comp, ctorParam, argType, ← scopeType_eq]
  by_cases hc : f.repeated = true ∧ f.isMap = false
  · rw [if_pos (by simp [hc]), if_pos hc]
  · rw [if_neg (by simpa using hc), if_neg hc]
    split <;> rfl

theorem getElem_fieldCtors (package : List Str) (firstValue : Path → Str) {fields : List FieldD} {k : Nat} (hk : k ≤ fields.length) :
    (fieldCtors package firstValue fields)[k]? =
      some ⟨(fields.take k).map (ctorParam package), true, initFrom package firstValue k 0 fields⟩ := by
  simp [fieldCtors, List.getElem?_range (show k < fields.length + 1 by omega)]

theorem find_arg {α : Type} (package : List Str) : ∀ (fields : List FieldD) (args : List α) (j : Nat) (f : FieldD) (a : α), (members fields).Nodup →
    fields[j]? = some f → args[j]? = some a →
    ((fields.map (ctorParam package)).zip args).find? (fun x => x.1.name == f.prop) = some (ctorParam package f, a)
  | [], _, _, _, _, _, h, _ => by simp at h
  | _ :: _, [], _, _, _, _, _, h => by simp at h
  | g :: fs, b :: args, 0, f, a, _, h, ha => by
    simp only [List.getElem?_cons_zero, Option.some.injEq] at h ha
    subst h ha
    simp [ctorParam_name]
  | g :: fs, b :: args, j + 1, f, a, hn, h, ha => by
    simp only [List.getElem?_cons_succ] at h ha
    simp only [members, List.map_cons, List.nodup_cons] at hn
    have hne : g.prop ≠ f.prop := by
      intro e
      exact hn.1 (List.mem_map.mpr ⟨f, List.mem_of_getElem? h, by simp [FieldD.member, e]⟩)
    simp only [List.map_cons, List.zip_cons_cons]
    rw [List.find?_cons_of_neg (by simpa [ctorParam_name] using hne)]
    exact find_arg package fs args j f a hn.2 h ha

/-- The type of the parameter for a field is the one of the data member, or of the message it points to. -/
theorem ctorParam_type (package : List Str) (f : FieldD) :
    (isPureMessage package f = true → (ctorParam package f).type = scopeType package f ∧ memberType package f = none) ∧
    (¬ isPureMessage package f = true → some (ctorParam package f).type = memberType package f) := by
  constructor
  · intro hp
    refine ⟨?_, by simp [memberType, hp]⟩
    simp only [isPureMessage, Bool.and_eq_true, Bool.not_eq_true', beq_iff_eq] at hp
    simp [ctorParam, hp.1.2, hp.1.1.1]
  · intro hp
    unfold memberType ctorParam
    rw [if_neg hp]
    repeat' split
    all_goals first | rfl | simp_all

/-! ### Properties -/

/-- There is a constructor for every number of leading fields. After a call of it with a value for each of these fields, their data
members hold these values, and those of the other fields the defaults of protobuf. -/
theorem C61_initial_partial {α : Type} {fields : List FieldD} (h : ValidFields fields) (hkind : ∀ f ∈ fields, ValidKind f) {enums : Path → EnumD}
    {firstValue : Path → Str} (hen : GoodEnums enums firstValue) (package : List Str) (args : List α) (hk : args.length ≤ fields.length) :
    ∃ c, (fieldCtors package firstValue fields)[args.length]? = some c ∧
      (∀ parent, Takes c ((fields.take args.length).map (argType package)) parent) ∧
      ∀ (j : Nat) (f : FieldD), fields[j]? = some f →
        after (fun q => enumConstants (enums q)) c args f.member (memberType package f) =
          match args[j]? with
          | some a => .copy a
          | none => defaultOf package f := by
  have hn : (members fields).Nodup := (C41_table h false []).2.2
  refine ⟨_, getElem_fieldCtors package firstValue hk, fun _ => ⟨map_ctorParam_type package _, fun _ => rfl⟩, ?_⟩
  intro j f hj
  simp only [after]
  rw [find_init package firstValue args.length fields 0 j f hn hj, Nat.zero_add]
  have hargs : ∀ a, args[j]? = some a →
      (((fields.take args.length).map (ctorParam package)).zip args).find? (fun x => x.1.name == f.prop) = some (ctorParam package f, a) := by
    intro a ha
    have hlt : j < args.length := by
      rcases Nat.lt_or_ge j args.length with h | h
      · exact h
      · rw [List.getElem?_eq_none h] at ha
        cases ha
    refine find_arg package (fields.take args.length) args j f a ?_ (by rw [List.getElem?_take, if_pos hlt]; exact hj) ha
    have : members (fields.take args.length) = (members fields).take args.length := by simp [members, List.map_take]
    rw [this]
    exact hn.sublist (List.take_sublist _ _)
  cases ha : args[j]? with
  | some a =>
    have hlt : j < args.length := by
      rcases Nat.lt_or_ge j args.length with h | h
      · exact h
      · rw [List.getElem?_eq_none h] at ha
        cases ha
    unfold initOne
    by_cases hp : isPureMessage package f = true
    · simp only [if_pos hp, if_pos hlt, Option.map_some, hargs a ha]
      rw [if_pos ((ctorParam_type package f).1 hp)]
    · simp only [if_neg hp, if_pos hlt, Option.map_some, hargs a ha]
      rw [if_pos ((ctorParam_type package f).2 hp)]
  | none =>
    have hge : ¬ j < args.length := by
      intro hlt
      rw [List.getElem?_eq_getElem hlt] at ha
      cases ha
    have hf : f ∈ fields := List.mem_of_getElem? hj
    obtain ⟨hg, hm⟩ := hkind f hf
    unfold initOne
    by_cases hp : isPureMessage package f = true
    · simp only [if_pos hp, if_neg hge, Option.map_some]
      simp only [isPureMessage, Bool.and_eq_true, Bool.not_eq_true', beq_iff_eq] at hp
      obtain ⟨⟨⟨h1, h2⟩, h3⟩, h4⟩ := hp
      simp [defaultOf, h1, h2, h3, h4]
    · simp only [if_neg hp, if_neg hge]
      by_cases hr : f.repeated = true
      · simp only [defaultInit, hr, Bool.not_true, Bool.false_and, if_false, Option.map_none, memberType, if_neg hp, Bool.true_and, defaultOf,
          Bool.true_or, if_true, Bool.false_eq_true]
        by_cases hmap : f.isMap = true
        · simp only [hmap, Bool.not_true, Bool.false_eq_true, if_false, scopeType, (hm hmap).1]
          split <;> rfl
        · simp only [hmap, Bool.not_false, if_true]
          rfl
      · have hmap : f.isMap = false := by
          cases hmm : f.isMap with
          | false => rfl
          | true => exact absurd (hm hmm).2 hr
        have hr' : f.repeated = false := by simpa using hr
        simp only [defaultInit, hr', hmap, Bool.not_false, Bool.and_self, if_true, memberType, if_neg hp, Bool.false_and, Bool.false_eq_true, if_false, defaultOf,
          Bool.or_self]
        cases ht : f.type <;> simp only [scopeType, ht, Option.map_some, Option.map_none, uninitialized, reduceCtorEq, or_self, or_true, true_or, if_true, if_false]
        case group => exact absurd ht hg
        case message =>
          have hq : isQtType package f = true := by
            simpa [isPureMessage, ht, hmap, hr'] using hp
          simp [hq, uninitialized]
        case enum =>
          obtain ⟨name, rest, h1, h2, h3⟩ := hen (f.enumType.getD [])
          simp [enumConstants, h1, h2, h3]
        all_goals rfl

/-- The parameters of all constructors have distinct names exactly if no field is called "parent". -/
theorem C61_parameters_partial {fields : List FieldD} (h : ValidFields fields) (package : List Str) (firstValue : Path → Str) :
    (∀ c ∈ fieldCtors package firstValue fields, DistinctParams c) ↔ ∀ f ∈ fields, f.camel ≠ "parent".toList := by
  have e : "parent".toList = kParent := by simp [kParent]
  rw [e]
  have hn : (members fields).Nodup := (C41_table h false []).2.2
  have hp : (fields.map FieldD.prop).Nodup := by
    have : members fields = (fields.map FieldD.prop).map (kM ++ ·) := by simp [members, FieldD.member, Function.comp_def]
    rw [this] at hn
    exact List.Pairwise.of_map _ (fun a b hab e => hab (by rw [e])) hn
  have hprop : ∀ f ∈ fields, (f.prop = kParent ↔ f.camel = kParent) := by
    intro f hf
    have q : qualifiedName kParent = kParent := by decide
    have hl := lowerCase_eq (h.named hf).lower
    constructor
    · intro e
      rcases prop_cases (h.named hf) with e' | e'
      · rw [← e', e]
      · rw [e'] at e
        have := congrArg (fun s => '_' ∈ s) e
        simp [kProto, kParent] at this
    · intro e
      rw [FieldD.prop, hl, e, q]
  constructor
  · intro hc f hf he
    have := hc _ (List.mem_of_getElem? (getElem_fieldCtors package firstValue (fields := fields) (Nat.le_refl _)))
    simp only [DistinctParams, map_ctorParam_name, List.take_length, if_true] at this
    rw [List.nodup_append] at this
    exact this.2.2 f.prop (List.mem_map.mpr ⟨f, hf, rfl⟩) kParent (by simp [kParent]) ((hprop f hf).mpr he)
  · intro hf c hc
    simp only [fieldCtors, List.mem_map, List.mem_range] at hc
    obtain ⟨k, -, rfl⟩ := hc
    simp only [DistinctParams, map_ctorParam_name, if_true]
    rw [List.nodup_append]
    refine ⟨?_, by simp, ?_⟩
    · rw [List.map_take]
      exact hp.sublist (List.take_sublist _ _)
    · intro a ha b hb
      simp only [List.mem_map] at ha
      obtain ⟨f, hfk, rfl⟩ := ha
      have hfm := List.mem_of_mem_take hfk
      simp only [List.mem_singleton] at hb
      subst hb
      exact fun e => hf f hfm ((hprop f hfm).mp e)

/-- All constructors of a class: from fields, and the copy constructor. -/
def ctors (package : List Str) (firstValue : Path → Str) (own : Path) (fields : List FieldD) : List Ctor :=
  fieldCtors package firstValue fields ++ [copyCtor package own fields]

/-- A call with arguments of given types finds one constructor at most (by the number in the list), for all types, exactly if the first
field is not a single value of the type of the message itself. -/
theorem C61_overloads_partial (package : List Str) (firstValue : Path → Str) (own : Path) (fields : List FieldD) :
    (∀ types parent (i j : Nat) c d, (ctors package firstValue own fields)[i]? = some c → (ctors package firstValue own fields)[j]? = some d →
        Takes c types parent → Takes d types parent → i = j) ↔
      ∀ f, fields.head? = some f → argType package f ≠ .msg own := by
  have hlen : (fieldCtors package firstValue fields).length = fields.length + 1 := by simp [fieldCtors]
  have cases : ∀ (i : Nat) c, (ctors package firstValue own fields)[i]? = some c →
      (i ≤ fields.length ∧ c.params.map (·.type) = (fields.take i).map (argType package)) ∨
      (i = fields.length + 1 ∧ c = copyCtor package own fields) := by
    intro i c hc
    unfold ctors at hc
    rcases Nat.lt_or_ge i (fields.length + 1) with hi | hi
    · rw [List.getElem?_append_left (by omega), getElem_fieldCtors package firstValue (by omega)] at hc
      cases hc
      exact Or.inl ⟨by omega, map_ctorParam_type package _⟩
    · rw [List.getElem?_append_right (by omega), hlen] at hc
      have : i = fields.length + 1 := by
        rcases Nat.lt_or_ge (i - (fields.length + 1)) 1 with h | h
        · omega
        · rw [List.getElem?_eq_none (by simpa using h)] at hc
          cases hc
      subst this
      rw [Nat.sub_self] at hc
      simp only [List.getElem?_cons_zero, Option.some.injEq] at hc
      exact Or.inr ⟨rfl, hc.symm⟩
  constructor
  · intro hh f hf he
    cases fields with
    | nil => simp at hf
    | cons g fs =>
      simp only [List.head?_cons, Option.some.injEq] at hf
      subst hf
      have h1 : (ctors package firstValue own (g :: fs))[1]? =
          some ⟨[ctorParam package g], true, initFrom package firstValue 1 0 (g :: fs)⟩ := by
        unfold ctors
        rw [List.getElem?_append_left (by rw [hlen]; simp), getElem_fieldCtors package firstValue (by simp)]
        rfl
      have h2 : (ctors package firstValue own (g :: fs))[(g :: fs).length + 1]? = some (copyCtor package own (g :: fs)) := by
        unfold ctors
        rw [List.getElem?_append_right (by rw [hlen]; exact Nat.le_refl _), hlen, Nat.sub_self]
        rfl
      have := hh [.msg own] false 1 _ _ _ h1 h2
        ⟨by have := map_ctorParam_type package [g]; simp only [List.map_cons, List.map_nil] at this ⊢; rw [this, he], by simp⟩ ⟨rfl, by simp⟩
      simp at this
  · intro hh types parent i j c d hc hd tc td
    have e := tc.1.trans td.1.symm
    have one : ∀ (i : Nat), i ≤ fields.length → (fields.take i).map (argType package) ≠ [.msg own] := by
      intro i hi he
      cases fields with
      | nil => simp at he
      | cons g fs =>
        cases i with
        | zero => simp at he
        | succ i =>
          simp only [List.take_succ_cons, List.map_cons, List.cons.injEq] at he
          exact hh g rfl he.1
    rcases cases i c hc with ⟨hi, ei⟩ | ⟨hi, rfl⟩ <;> rcases cases j d hd with ⟨hj, ej⟩ | ⟨hj, rfl⟩
    · rw [ei, ej] at e
      have := congrArg List.length e
      simp only [List.length_map, List.length_take] at this
      omega
    · rw [ei] at e
      exact absurd e (one i hi)
    · rw [ej] at e
      exact absurd e.symm (one j hj)
    · rw [hi, hj]

/-- The methods of a class that are declared without a body are defined, each once, exactly if there is no repeated field of a Qt type
with QML. -/
theorem C61_defined_partial {fields : List FieldD} (qml : Bool) (package : List Str) :
    (∀ f ∈ fields, (definedOutside qml package f).Perm (declaredOnly qml package f)) ↔
      ∀ f ∈ fields, ¬ (qml = true ∧ f.type = .message ∧ f.repeated = true ∧ f.isMap = false ∧ isQtType package f = true) := by
  have key : ∀ f : FieldD, (definedOutside qml package f).Perm (declaredOnly qml package f) ↔
      ¬ (qml = true ∧ f.type = .message ∧ f.repeated = true ∧ f.isMap = false ∧ isQtType package f = true) := by
    intro f
    by_cases ht : f.type = .message
    · cases hr : f.repeated <;> cases hm : f.isMap <;> cases hq : isQtType package f <;> cases qml <;>
        simp [definedOutside, declaredOnly, isPureMessage, ht, hr, hm, hq]
      all_goals first
        | exact List.Perm.refl _
        | (intro hp; have := hp.length_eq; simp at this)
        | skip
      all_goals
        refine (List.Perm.swap _ _ _).trans (List.Perm.cons _ ?_)
        exact List.perm_append_comm (l₁ := [_, _]) (l₂ := [_])
    · simp [definedOutside, declaredOnly, isPureMessage, ht]
  exact ⟨fun h f hf => (key f).mp (h f hf), fun h f hf => (key f).mpr (h f hf)⟩

/-! ### Where classes are wrong -/

/-- message M { int32 parent = 1; }: a constructor has two parameters with one name. -/
theorem C61_parent_violated : ∃ fields : List FieldD, ValidFields fields ∧ (∀ f ∈ fields, ValidKind f) ∧
    ∀ package firstValue, ∃ c ∈ fieldCtors package firstValue fields, ¬ DistinctParams c := by
  have hv : ValidFields [⟨kParent, kParent, 1, .int32, false, false, none, none⟩] := ⟨by decide, by decide, by decide, by decide, by simp [kParent]⟩
  refine ⟨_, hv, by simp [ValidKind], fun package firstValue => ?_⟩
  have := mt (C61_parameters_partial hv package firstValue).mp (by simp [kParent])
  simpa using this

/-- message M { M next = 1; }: two constructors take one M, so that messages of this type cannot be copied. -/
theorem C61_self_violated : ∃ (own : Path) (fields : List FieldD), ValidFields fields ∧ (∀ f ∈ fields, ValidKind f) ∧
    ∀ firstValue, ∃ c d, c ∈ ctors [] firstValue own fields ∧ d ∈ ctors [] firstValue own fields ∧ c ≠ d ∧
      Takes c [.msg own] false ∧ Takes d [.msg own] false := by
  refine ⟨[['M']], [⟨['n'], ['n'], 1, .message, false, false, some [['M']], none⟩],
    ⟨by decide, by decide, by decide, by decide, by simp⟩, by simp [ValidKind], fun firstValue => ?_⟩
  exact ⟨_, _, List.mem_append_left _ (List.mem_of_getElem? (getElem_fieldCtors [] firstValue (k := 1) (by simp))),
    List.mem_append_right _ (List.mem_singleton.mpr rfl), by simp [copyCtor], ⟨rfl, by simp⟩, ⟨rfl, by simp⟩⟩

/-- enum E { zero = 0; } and a field of type E: the constructors initialize it with a constant that does not exist. -/
theorem C61_enum_name_violated : ∃ (fields : List FieldD) (enums : Path → EnumD) (firstValue : Path → Str), ValidFields fields ∧
    (∀ f ∈ fields, ValidKind f) ∧ (∀ q, (enums q).values.head? = some (firstValue q, 0)) ∧
    ∀ c ∈ fieldCtors [] firstValue fields, c.params = [] → ∃ f ∈ fields,
      after (fun q => enumConstants (enums q)) c ([] : List Unit) f.member (memberType [] f) = .error := by
  refine ⟨[⟨['x'], ['x'], 1, .enum, false, false, none, some [['E']]⟩], fun _ => ⟨['E'], [(['z'], 0)]⟩, fun _ => ['z'],
    ⟨by decide, by decide, by decide, by decide, by simp⟩, by simp [ValidKind], by simp, ?_⟩
  intro c hc hp
  refine ⟨_, List.mem_cons_self, ?_⟩
  simp only [fieldCtors, List.length_singleton, List.mem_map, List.mem_range] at hc
  obtain ⟨k, hk, rfl⟩ := hc
  cases k with
  | zero => rfl
  | succ k => simp at hp

/-- A repeated field of a Qt type: the list type that is printed for it does not depend on the type (it is "QList<Repeated>"). -/
theorem C61_qt_list_violated : ∃ a b : Str, a ≠ b ∧ qtListType a = qtListType b := ⟨['Q', 'U', 'r', 'l'], ['Q', 'S', 'i', 'z', 'e'], by decide, rfl⟩

/-- A repeated field of a Qt type, with QML: a method is declared that is not defined. -/
theorem C61_qt_list_undefined_violated : ∃ f : FieldD, ValidKind f ∧ ¬ (definedOutside true [['p']] f).Perm (declaredOnly true [['p']] f) := by
  refine ⟨⟨['u'], ['u'], 1, .message, true, false, some [kQtProtobuf, ['Q', 'U', 'r', 'l']], none⟩, by simp [ValidKind], ?_⟩
  have := mt ((C61_defined_partial true [['p']]).mp) (a := ∀ f ∈ [(⟨['u'], ['u'], 1, .message, true, false, some [kQtProtobuf, ['Q', 'U', 'r', 'l']], none⟩ : FieldD)],
    (definedOutside true [['p']] f).Perm (declaredOnly true [['p']] f)) (by simp [isQtType]; decide)
  simpa using this

/-! ### Examples -/

/-- message N { int32 n = 1; E e = 2; N next = 3; repeated string s = 4; sfixed32 f = 5; } -/
def nodeFields : List FieldD :=
  [⟨['n'], ['n'], 1, .int32, false, false, none, none⟩, ⟨['e'], ['e'], 2, .enum, false, false, none, some [['E']]⟩,
   ⟨['x'], ['x'], 3, .message, false, false, some [['N']], none⟩, ⟨['s'], ['s'], 4, .string, true, false, none, none⟩,
   ⟨['f'], ['f'], 5, .sfixed32, false, false, none, none⟩]

theorem nodeFields_valid : ValidFields nodeFields ∧ (∀ f ∈ nodeFields, ValidKind f) ∧
    GoodEnums (fun _ => ⟨['E'], [(['A'], 0), (['B'], 1)]⟩) fun _ => ['A'] :=
  ⟨⟨by decide, by decide, by decide, by decide, by simp [nodeFields]⟩, by simp [nodeFields, ValidKind], fun _ => ⟨['A'], _, rfl, rfl, rfl⟩⟩

example : ∃ c, (fieldCtors [] (fun _ => ['A']) nodeFields)[2]? = some c ∧
    after (fun _ => [(['A'], 0), (['B'], 1)]) c [(7 : Nat), 8] (kM ++ ['e']) (some (.enum [['E']])) = .copy 8 ∧
    after (fun _ => [(['A'], 0), (['B'], 1)]) c [(7 : Nat), 8] (kM ++ ['f']) (some (.scalar .sfixed32)) = .number 0 := ⟨_, rfl, rfl, rfl⟩
example : ∀ c ∈ fieldCtors [] (fun _ => ['A']) nodeFields, DistinctParams c := by
  rw [C61_parameters_partial nodeFields_valid.1]
  simp [nodeFields]
example : ∀ f, nodeFields.head? = some f → argType [] f ≠ .msg [['N']] := by simp [nodeFields, argType, oneType]
example : ∀ f ∈ nodeFields, (definedOutside true [] f).Perm (declaredOnly true [] f) := by
  rw [C61_defined_partial]
  simp [nodeFields, isQtType, kQtProtobuf]

end QtPb.Gen
