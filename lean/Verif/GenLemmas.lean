import Verif.SpecGen
namespace QtPb.Gen
open Spec

theorem refers_iff {x : Msg} {q : Path} : refers x.fields q = true ↔ UsesAsField x q := by
  simp only [refers, List.any_eq_true, Bool.and_eq_true, Bool.not_eq_true', beq_iff_eq, UsesAsField]

theorem visits_iff {x : Msg} {q : Path} : visits x.fields q = true ↔ x.fields = [] ∨ UsesAsField x q := by
  simp only [visits, Bool.or_eq_true, List.isEmpty_iff, refers_iff]

/-! ### Which messages are printed -/

mutual
theorem mem_declare : ∀ (m : Msg) (ns : List Str) (path q : Path),
    q ∈ (declare ns path m).map Printed.msg ↔ ∃ x, Reached path m q x
  | .mk name fields nested e, ns, path, q => by
    have hl := mem_declareList nested (ns ++ [nestedNs name]) (path ++ [name]) (.mk name fields nested e) q
    simp only [Msg.fields] at hl
    rw [declare, List.map_append, List.mem_append, hl]
    simp only [List.map_cons, List.map_nil, List.mem_singleton]
    constructor
    · rintro (⟨n, hn, hv, x, hx⟩ | rfl)
      · exact ⟨x, .nested (m := .mk name fields nested e) hn ((visits_iff (x := .mk name fields nested e)).mp hv) hx⟩
      · exact ⟨_, .self (m := .mk name fields nested e)⟩
    · rintro ⟨x, hx⟩
      cases hx with
      | self => exact Or.inr rfl
      | nested hn hv hx => exact Or.inl ⟨_, hn, (visits_iff (x := .mk name fields nested e)).mpr hv, x, hx⟩
theorem mem_declareList : ∀ (l : List Msg) (ns : List Str) (path : Path) (c : Msg) (q : Path),
    q ∈ (declareList ns path c.fields l).map Printed.msg ↔ ∃ n ∈ l, visits c.fields (path ++ [n.name]) = true ∧ ∃ x, Reached path n q x
  | [], ns, path, c, q => by simp [declareList]
  | n :: l, ns, path, c, q => by
    rw [declareList, List.map_append, List.mem_append, mem_declareList l ns path c q]
    have := mem_declare n ns path q
    by_cases hv : visits c.fields (path ++ [n.name]) = true
    · rw [if_pos hv, this]
      simp [hv]
    · rw [if_neg hv]
      simp [hv]
end

/-! ### The different passes print the same messages -/

theorem noNested {path : Path} {fields : List FieldD} {nested : List Msg} (h : hasNested path fields nested = false) :
    ∀ n ∈ nested, visits fields (path ++ [n.name]) = false := by
  intro n hn
  simp only [hasNested, Bool.or_eq_false_iff, Bool.and_eq_false_iff, Bool.not_eq_false', List.isEmpty_iff, List.any_eq_false] at h
  simp only [visits, Bool.or_eq_false_iff]
  refine ⟨?_, by simpa using h.2 n hn⟩
  rcases h.1 with h1 | h1
  · subst h1; simp at hn
  · exact h1

theorem declareList_none {ns : List Str} {path : Path} {fields : List FieldD} : ∀ (l : List Msg),
    (∀ n ∈ l, visits fields (path ++ [n.name]) = false) → declareList ns path fields l = []
  | [], _ => rfl
  | n :: l, h => by
    rw [declareList, h n (by simp), declareList_none l (fun k hk => h k (by simp [hk]))]
    rfl

mutual
theorem forward_eq : ∀ (m : Msg) (ns : List Str) (path : Path), forward ns path m = declare ns path m
  | .mk name fields nested e, ns, path => by
    rw [forward, declare, forwardList_eq nested]
    cases h : hasNested (path ++ [name]) fields nested with
    | true => rw [if_pos rfl]
    | false => rw [if_neg (by simp), declareList_none nested (noNested h)]
theorem forwardList_eq : ∀ (l : List Msg) (ns : List Str) (path : Path) (fields : List FieldD),
    forwardList ns path fields l = declareList ns path fields l
  | [], _, _, _ => rfl
  | n :: l, ns, path, fields => by rw [forwardList, declareList, forward_eq n, forwardList_eq l]
end

mutual
theorem define_eq : ∀ (m : Msg) (ns : List Str) (path : Path), define ns path m = declare ns path m
  | .mk name fields nested e, ns, path => by
    rw [define, declare, defineList_eq nested]
    cases h : hasNested (path ++ [name]) fields nested with
    | true => rw [if_pos rfl]
    | false => rw [if_neg (by simp), declareList_none nested (noNested h)]
theorem defineList_eq : ∀ (l : List Msg) (ns : List Str) (path : Path) (fields : List FieldD),
    defineList ns path fields l = declareList ns path fields l
  | [], _, _, _ => rfl
  | n :: l, ns, path, fields => by rw [defineList, declareList, define_eq n, defineList_eq l]
end

mutual
theorem metaTypes_perm : ∀ (m : Msg) (ns : List Str) (path : Path), (metaTypes path m).Perm ((declare ns path m).map Printed.msg)
  | .mk name fields nested e, ns, path => by
    rw [metaTypes, declare, List.map_append]
    exact ((metaTypesList_perm nested _ _ fields).cons _).trans (List.perm_append_singleton _ _).symm
theorem metaTypesList_perm : ∀ (l : List Msg) (ns : List Str) (path : Path) (fields : List FieldD),
    (metaTypesList path fields l).Perm ((declareList ns path fields l).map Printed.msg)
  | [], _, _, _ => .nil
  | n :: l, ns, path, fields => by
    rw [metaTypesList, declareList, List.map_append]
    refine List.Perm.append ?_ (metaTypesList_perm l ns path fields)
    split
    · exact metaTypes_perm n ns path
    · exact .nil
end

/-! ### Full names -/

theorem contains_of_reached {pre : List Str} {m x : Msg} {q : Path} (h : Reached pre m q x) : Contains pre m q x := by
  induction h with
  | self => exact .self
  | nested hn _ _ ih => exact .nested hn ih

/-- The full name of a message continues the name of the message it is in. -/
theorem contains_prefix {pre : List Str} {m x : Msg} {q : Path} (h : Contains pre m q x) : ∃ r, q = pre ++ [m.name] ++ r := by
  induction h with
  | self => exact ⟨[], by simp⟩
  | @nested pre m n x q hn _ ih =>
    obtain ⟨r, rfl⟩ := ih
    exact ⟨n.name :: r, by simp⟩

theorem reached_prefix {pre : List Str} {m x : Msg} {q : Path} (h : Reached pre m q x) : ∃ r, q = pre ++ [m.name] ++ r :=
  contains_prefix (contains_of_reached h)

theorem same_name {l : List Msg} (h : (l.map Msg.name).Nodup) {a b : Msg} (ha : a ∈ l) (hb : b ∈ l) (e : a.name = b.name) : a = b := by
  induction l with
  | nil => simp at ha
  | cons c l ih =>
    simp only [List.map_cons, List.nodup_cons, List.mem_map, not_exists, not_and] at h
    rcases List.mem_cons.mp ha with rfl | ha' <;> rcases List.mem_cons.mp hb with rfl | hb'
    · rfl
    · exact absurd e.symm (h.1 b hb')
    · exact absurd e (h.1 a ha')
    · exact ih h.2 ha' hb'

theorem prefix_names {pre : List Str} {a b : Str} {r s : List Str} (h : pre ++ [a] ++ r = pre ++ [b] ++ s) : a = b := by
  simp only [List.append_assoc, List.singleton_append, List.append_cancel_left_eq, List.cons.injEq] at h
  exact h.1

/-! ### No message is printed twice -/

mutual
theorem declare_nodup : ∀ (m : Msg) (ns : List Str) (path : Path),
    (∀ q x, Contains path m q x → Valid q x) → ((declare ns path m).map Printed.msg).Nodup
  | .mk name fields nested e, ns, path, hv => by
    rw [declare, List.map_append]
    have hv0 := hv _ _ (.self (m := .mk name fields nested e))
    have hl := declareList_nodup nested (ns ++ [nestedNs name]) (path ++ [name]) (.mk name fields nested e) hv0.names
      (fun n hn q x h => hv q x (.nested (m := .mk name fields nested e) hn h))
    refine List.nodup_append.mpr ⟨hl, by simp, ?_⟩
    intro a ha b hb
    simp only [List.map_cons, List.map_nil, List.mem_singleton] at hb
    subst hb
    rintro rfl
    obtain ⟨n, hn, -, x, hx⟩ := (mem_declareList nested _ _ (.mk name fields nested e) _).mp ha
    obtain ⟨r, hr⟩ := reached_prefix hx
    have := congrArg List.length hr
    simp at this
theorem declareList_nodup : ∀ (l : List Msg) (ns : List Str) (path : Path) (c : Msg), (l.map Msg.name).Nodup →
    (∀ n ∈ l, ∀ q x, Contains path n q x → Valid q x) → ((declareList ns path c.fields l).map Printed.msg).Nodup
  | [], _, _, _, _, _ => by simp [declareList]
  | n :: l, ns, path, c, hn, hv => by
    rw [declareList, List.map_append]
    simp only [List.map_cons, List.nodup_cons, List.mem_map, not_exists, not_and] at hn
    refine List.nodup_append.mpr ⟨?_, declareList_nodup l ns path c hn.2 (fun k hk => hv k (by simp [hk])), ?_⟩
    · split
      · exact declare_nodup n ns path (hv n (by simp))
      · simp
    · intro a ha b hb
      rintro rfl
      obtain ⟨k, hk, -, x, hx⟩ := (mem_declareList l _ _ c _).mp hb
      obtain ⟨r, hr⟩ := reached_prefix hx
      split at ha
      · obtain ⟨y, hy⟩ := (mem_declare n _ _ _).mp ha
        obtain ⟨s, hs⟩ := reached_prefix hy
        rw [hr] at hs
        exact hn.1 k hk (prefix_names hs)
      · simp at ha
end

/-! ### The C++ names of what is printed -/

/-- The name relative to the namespaces of the file. -/
def relName : List Str → List Str
  | [] => []
  | [a] => [upperCaseName a]
  | a :: b :: l => nestedNs a :: relName (b :: l)

mutual
theorem declare_cpp : ∀ (m : Msg) (ns : List Str) (path : Path), ∀ p ∈ declare ns path m,
    ∃ r, p.msg = path ++ m.name :: r ∧ p.cpp = ns ++ relName (m.name :: r)
  | .mk name fields nested e, ns, path, p, hp => by
    rw [declare, List.mem_append] at hp
    rcases hp with hp | hp
    · obtain ⟨n, hn, r, h1, h2⟩ := declareList_cpp nested _ _ fields p hp
      exact ⟨n.name :: r, by simp [h1, Msg.name], by simp [h2, relName, Msg.name]⟩
    · simp only [List.mem_singleton] at hp
      subst hp
      exact ⟨[], by simp [Msg.name], by simp [relName, Msg.name]⟩
theorem declareList_cpp : ∀ (l : List Msg) (ns : List Str) (path : Path) (fields : List FieldD), ∀ p ∈ declareList ns path fields l,
    ∃ n ∈ l, ∃ r, p.msg = path ++ n.name :: r ∧ p.cpp = ns ++ relName (n.name :: r)
  | [], _, _, _, p, hp => by simp [declareList] at hp
  | n :: l, ns, path, fields, p, hp => by
    rw [declareList, List.mem_append] at hp
    rcases hp with hp | hp
    · split at hp
      · exact ⟨n, by simp, declare_cpp n ns path p hp⟩
      · simp at hp
    · obtain ⟨k, hk, h⟩ := declareList_cpp l ns path fields p hp
      exact ⟨k, by simp [hk], h⟩
end

theorem relName_eq : ∀ (l : List Str) (a : Str), relName (l ++ [a]) = l.map (fun c => upperCaseName c ++ kNested) ++ [upperCaseName a]
  | [], a => rfl
  | [b], a => rfl
  | b :: c :: l, a => by
    have := relName_eq (c :: l) a
    simp only [List.cons_append] at this ⊢
    rw [relName, this]
    rfl

end QtPb.Gen
