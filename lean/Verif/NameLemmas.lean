import Verif.SpecNames
import Verif.PropsGenTree
namespace QtPb.Gen
open Spec

/-! ### Joining and splitting -/

theorem joined_concat {sep : Str} : ∀ {l : List Str}, l ≠ [] → concat sep l = joined sep l ++ sep
  | [], h => absurd rfl h
  | [a], _ => by simp [concat, joined]
  | a :: b :: l, _ => by
    rw [concat, joined_concat (l := b :: l) (by simp), joined]
    simp

/-- The text made of the components. -/
theorem getNamespacesString_eq (l : List Str) : getNamespacesString kScope l = joined kScope l := by
  unfold getNamespacesString
  cases l with
  | nil => rfl
  | cons a l =>
    simp only [joined_concat (l := a :: l) (by simp)]
    rw [if_neg]
    · rw [List.length_append, Nat.add_sub_cancel, List.take_left']
      rfl
    · simp [kScope]

theorem cut {d : Char} {a b r s : Str} (ha : d ∉ a) (hb : d ∉ b) (h : a ++ d :: r = b ++ d :: s) : a = b ∧ r = s := by
  induction a generalizing b with
  | nil =>
    cases b with
    | nil => simpa using h
    | cons c b =>
      simp only [List.nil_append, List.cons_append, List.cons.injEq] at h
      exact absurd (by simp [← h.1]) hb
  | cons e a ih =>
    cases b with
    | nil =>
      simp only [List.nil_append, List.cons_append, List.cons.injEq] at h
      exact absurd (by simp [h.1]) ha
    | cons c b =>
      simp only [List.mem_cons, not_or] at ha hb
      simp only [List.cons_append, List.cons.injEq] at h
      obtain ⟨h1, h2⟩ := ih ha.2 hb.2 h.2
      exact ⟨by rw [h.1, h1], h2⟩

theorem joined_cons {sep a : Str} {l : List Str} (h : l ≠ []) : joined sep (a :: l) = a ++ sep ++ joined sep l := by
  cases l with
  | nil => exact absurd rfl h
  | cons b l => rfl

theorem joined_split {sep : Str} : ∀ {l r : List Str}, l ≠ [] → r ≠ [] → joined sep (l ++ r) = joined sep l ++ sep ++ joined sep r
  | [], _, h, _ => absurd rfl h
  | [a], r, _, hr => by rw [List.singleton_append, joined_cons hr]; rfl
  | a :: b :: l, r, _, hr => by
    rw [List.cons_append, joined_cons (by simp), joined_split (l := b :: l) (by simp) hr, joined_cons (l := b :: l) (by simp)]
    simp

theorem joined_eq_nil {sep : Str} {l : List Str} (h : ∀ c ∈ l, Ident c) : joined sep l = [] ↔ l = [] := by
  cases l with
  | nil => simp [joined]
  | cons a l =>
    have ha := (h a (by simp)).1
    cases l with
    | nil => simp [joined, ha]
    | cons b l => simp [joined, ha]

/-- Texts of components are compared by components. -/
theorem joined_prefix : ∀ {y x : List Str}, (∀ c ∈ y, Ident c) → (∀ c ∈ x, Ident c) → y ≠ [] →
    (joined kScope y ++ kScope <+: joined kScope x ↔ ∃ z, z ≠ [] ∧ x = y ++ z)
  | [], _, _, _, h => absurd rfl h
  | [a], x, hy, hx, _ => by
    constructor
    · rintro ⟨w, hw⟩
      cases x with
      | nil => simp [joined, kScope] at hw
      | cons b x =>
        cases x with
        | nil =>
          exfalso
          refine (hx b (by simp)).2.2 ?_
          rw [← show joined kScope [b] = b from rfl, ← hw]
          simp [kScope]
        | cons c x =>
          simp only [joined, kScope, List.append_assoc, List.cons_append, List.nil_append] at hw
          obtain ⟨rfl, -⟩ := cut (hy a (by simp)).2.2 (hx b (by simp)).2.2 hw
          exact ⟨c :: x, by simp, rfl⟩
    · rintro ⟨z, hz, rfl⟩
      rw [joined_split (by simp) hz]
      exact List.prefix_append _ _
  | a :: b :: y, x, hy, hx, _ => by
    constructor
    · rintro ⟨w, hw⟩
      cases x with
      | nil => simp [joined, kScope] at hw
      | cons c x =>
        cases x with
        | nil =>
          exfalso
          refine (hx c (by simp)).2.2 ?_
          rw [← show joined kScope [c] = c from rfl, ← hw]
          simp [kScope]
        | cons d x =>
          rw [joined, joined] at hw
          simp only [kScope, List.append_assoc, List.cons_append, List.nil_append] at hw
          obtain ⟨rfl, h2⟩ := cut (hy a (by simp)).2.2 (hx c (by simp)).2.2 hw
          simp only [List.cons.injEq, true_and] at h2
          have := (joined_prefix (y := b :: y) (x := d :: x) (fun k hk => hy k (by simp [hk])) (fun k hk => hx k (by simp [hk])) (by simp)).mp
            ⟨w, by simpa [kScope] using h2⟩
          obtain ⟨z, hz, e⟩ := this
          exact ⟨z, hz, by rw [e]; rfl⟩
    · rintro ⟨z, hz, rfl⟩
      rw [joined_split (by simp) hz]
      exact List.prefix_append _ _

theorem joined_inj : ∀ {y x : List Str}, (∀ c ∈ y, Ident c) → (∀ c ∈ x, Ident c) → joined kScope y = joined kScope x → y = x
  | [], x, _, hx, h => ((joined_eq_nil hx).mp h.symm).symm
  | a :: y, [], hy, _, h => (joined_eq_nil hy).mp h
  | [a], [b], _, _, h => by simpa [joined] using h
  | [a], b :: c :: x, hy, _, h => by
    exfalso
    refine (hy a (by simp)).2.2 ?_
    rw [← show joined kScope [a] = a from rfl, h, joined]
    simp [kScope]
  | a :: d :: y, [b], _, hx, h => by
    exfalso
    refine (hx b (by simp)).2.2 ?_
    rw [← show joined kScope [b] = b from rfl, ← h, joined]
    simp [kScope]
  | a :: d :: y, b :: c :: x, hy, hx, h => by
    rw [joined, joined] at h
    simp only [kScope, List.append_assoc, List.cons_append, List.nil_append] at h
    obtain ⟨rfl, h2⟩ := cut (hy a (by simp)).2.2 (hx b (by simp)).2.2 h
    simp only [List.cons.injEq, true_and] at h2
    rw [joined_inj (y := d :: y) (x := c :: x) (fun k hk => hy k (by simp [hk])) (fun k hk => hx k (by simp [hk])) (by simpa [kScope] using h2)]

/-- `getScopeNamespacesString`, by components: the scope is cut off if it is at the start. -/
theorem getScope_eq {x y : List Str} (hx : ∀ c ∈ x, Ident c) (hy : ∀ c ∈ y, Ident c) :
    (∃ z, x = y ++ z ∧ getScopeNamespacesString (joined kScope x) (joined kScope y) = joined kScope z) ∨
      (¬ y <+: x ∧ getScopeNamespacesString (joined kScope x) (joined kScope y) = joined kScope x) := by
  unfold getScopeNamespacesString
  by_cases h0 : y = []
  · subst h0
    exact Or.inl ⟨x, rfl, by rw [if_pos (by rfl)]⟩
  · rw [if_neg (by rw [joined_eq_nil hy]; exact h0)]
    by_cases h1 : joined kScope x = joined kScope y
    · have := joined_inj hx hy h1
      subst this
      exact Or.inl ⟨[], by simp, by rw [if_pos rfl]; rfl⟩
    · rw [if_neg h1]
      by_cases h2 : joined kScope y ++ kScope <+: joined kScope x
      · obtain ⟨z, hz, e⟩ := (joined_prefix hy hx h0).mp h2
        refine Or.inl ⟨z, e, ?_⟩
        rw [if_pos (List.isPrefixOf_iff_prefix.mpr h2), e, joined_split h0 hz]
        have : (joined kScope y).length + 2 = (joined kScope y ++ kScope).length := by simp [kScope]
        rw [this, List.drop_left']
        rfl
      · refine Or.inr ⟨?_, ?_⟩
        · rintro ⟨z, e⟩
          refine h2 ((joined_prefix hy hx h0).mpr ⟨z, ?_, e.symm⟩)
          rintro rfl
          rw [List.append_nil] at e
          exact h1 (by rw [e])
        · rw [if_neg (by rw [List.isPrefixOf_iff_prefix]; exact h2)]

theorem qualify_eq {l : List Str} (h : ∀ c ∈ l, Ident c) (n : Str) : qualify (joined kScope l) n = joined kScope (l ++ [n]) := by
  unfold qualify
  by_cases h0 : l = []
  · subst h0
    rw [if_pos (show joined kScope [] = [] from rfl)]
    rfl
  · rw [if_neg (by rw [joined_eq_nil h]; exact h0), joined_split h0 (by simp)]
    rfl

theorem getNamespaces_eq {package inside : List Str} {name : Str} (h : ∀ c ∈ package ++ inside ++ [name], Ident c) :
    getNamespaces (some (typeAt package inside name)) = package ++ inside := by
  rw [getNamespaces, typeAt]
  simp only
  rw [split_joined _ (fun p hp => ⟨(h p hp).1, (h p hp).2.1⟩)]
  simp

theorem getNestedNamespaces_eq {package inside : List Str} {name : Str} (h : ∀ c ∈ package ++ inside ++ [name], Ident c) :
    getNestedNamespaces (typeAt package inside name) = package ++ inside.map (· ++ kNested) := by
  rw [getNestedNamespaces, getNamespaces_eq h]
  simp only [typeAt]
  rw [split_joined package (fun p hp => ⟨(h p (by simp [hp])).1, (h p (by simp [hp])).2.1⟩)]
  simp

/-! ### What is denoted -/

theorem reached_parent {pre : List Str} {m y : Msg} {q : Path} (h : Reached pre m q y) : ∀ {t : List Str} {a : Str},
    q = pre ++ [m.name] ++ t ++ [a] → ∃ x n, Reached pre m (pre ++ [m.name] ++ t) x ∧ n ∈ x.nested ∧ n.name = a ∧
      (x.fields = [] ∨ UsesAsField x (pre ++ [m.name] ++ t ++ [a])) := by
  induction h with
  | self =>
    intro t a e
    have := congrArg List.length e
    simp at this
  | @nested pre m n x q hn hu hx ih =>
    intro t a e
    obtain ⟨s, hs⟩ := reached_prefix hx
    rw [e] at hs
    simp only [List.append_assoc, List.cons_append, List.nil_append, List.append_cancel_left_eq, List.cons.injEq, true_and] at hs
    cases t with
    | nil =>
      simp only [List.nil_append, List.cons.injEq] at hs
      refine ⟨m, n, by rw [List.append_nil]; exact .self, hn, hs.1.symm, ?_⟩
      rw [List.append_nil, hs.1]
      exact hu
    | cons b t =>
      simp only [List.cons_append, List.cons.injEq] at hs
      obtain ⟨rfl, -⟩ := hs
      obtain ⟨z, k, h1, h2, h3, h4⟩ := ih (t := t) (a := a) (by rw [e]; simp)
      refine ⟨z, k, .nested hn hu ?_, h2, h3, ?_⟩
      · simpa using h1
      · simpa using h4

theorem class_name {extra : Str} {f : File} {p : Printed} (hp : p ∈ f.classes extra) {inside : List Str} {name : Str}
    (h : p.msg = f.package ++ inside ++ [name]) :
    p.cpp = fileNs extra f.package ++ inside.map nestedNs ++ [upperCaseName name] := by
  obtain ⟨i, n, h1, h2⟩ := C44_cpp_name p hp
  rw [h] at h1
  have h3 := List.append_inj' h1 rfl
  have h4 := List.append_cancel_left h3.1
  simp only [List.cons.injEq, and_true] at h3
  rw [h2, cppName, ← h4, ← h3.2]
  rfl

theorem denotes_split {extra : Str} {f : File} {enums : Path → List Str} : ∀ (i2 i1 : List Str) (name : Str) (p : Printed), p ∈ f.classes extra →
    p.msg = f.package ++ (i1 ++ i2.reverse) ++ [name] →
    Denotes extra f enums (fileNs extra f.package ++ i1.map nestedNs ++ (i2.reverse.map upperCaseName) ++ [upperCaseName name])
      (f.package ++ (i1 ++ i2.reverse) ++ [name])
  | [], i1, name, p, hp, h => by
    have := class_name hp h
    have hd : Denotes extra f enums p.cpp p.msg := .cls hp
    rw [this, h] at hd
    simpa using hd
  | c :: i2, i1, name, p, hp, h => by
    have hq : p.msg ∈ (f.classes extra).map Printed.msg := List.mem_map_of_mem hp
    obtain ⟨m, hm, y, hy⟩ := mem_classes.mp hq
    obtain ⟨s, hs⟩ := reached_prefix hy
    have e : p.msg = f.package ++ (i1 ++ i2.reverse ++ [c]) ++ [name] := by rw [h]; simp
    have hs' : m.name :: s = i1 ++ i2.reverse ++ [c] ++ [name] := by
      rw [e] at hs
      simp only [List.append_assoc, List.append_cancel_left_eq] at hs
      simpa using hs.symm
    -- the messages around, without the first
    obtain ⟨t, ht⟩ : ∃ t, i1 ++ i2.reverse ++ [c] = m.name :: t := by
      cases hl : i1 ++ i2.reverse ++ [c] with
      | nil => simp at hl
      | cons b t =>
        rw [hl] at hs'
        simp only [List.cons_append, List.cons.injEq] at hs'
        exact ⟨t, by rw [hs'.1]⟩
    obtain ⟨x, n, h1, h2, h3, h4⟩ := reached_parent hy (t := t) (a := name) (by rw [e, ht]; simp)
    have hpath : f.package ++ [m.name] ++ t = f.package ++ (i1 ++ i2.reverse) ++ [c] := by
      rw [List.append_assoc, List.singleton_append, ← ht]
      simp
    rw [hpath] at h1 h4
    have hx' : f.package ++ (i1 ++ i2.reverse) ++ [c] ∈ (f.classes extra).map Printed.msg := mem_classes.mpr ⟨m, hm, x, h1⟩
    obtain ⟨p', hp', he'⟩ := List.mem_map.mp hx'
    have ih := denotes_split (enums := enums) i2 i1 c p' hp' he'
    have := Denotes.alias ih ⟨m, hm, contains_of_reached h1⟩ h2 (by rw [h3]; exact h4)
    rw [h3] at this
    simpa using this

theorem capital_map {l : List Str} (h : ∀ c ∈ l, Capital c) : l.map upperCaseName = l ∧ l.map nestedNs = l.map (· ++ kNested) := by
  induction l with
  | nil => simp
  | cons a l ih =>
    have ha := h a (by simp)
    obtain ⟨h1, h2⟩ := ih (fun c hc => h c (by simp [hc]))
    simp only [Capital] at ha
    simp [h1, h2, nestedNs, ha]

/-- The class of a message can be named by its namespaces, and by its messages as aliases from any point on. -/
theorem denotes_at {extra : Str} {f : File} {enums : Path → List Str} {p : Printed} (hp : p ∈ f.classes extra) {i1 i2 : List Str} {name : Str}
    (h : p.msg = f.package ++ (i1 ++ i2) ++ [name]) (hc : ∀ c ∈ i2, Capital c) :
    Denotes extra f enums (fileNs extra f.package ++ i1.map nestedNs ++ i2 ++ [upperCaseName name]) p.msg := by
  have := denotes_split (enums := enums) i2.reverse i1 name p hp (by simpa using h)
  rw [List.reverse_reverse, (capital_map hc).1] at this
  rw [h]
  exact this

/-- The last component is the name, capitalised. -/
theorem denotes_last {extra : Str} {f : File} {enums : Path → List Str} {c : List Str} {q : Path} (h : Denotes extra f enums c q) :
    ∃ c0 q0 a, c = c0 ++ [upperCaseName a] ∧ q = q0 ++ [a] := by
  induction h with
  | cls hp =>
    obtain ⟨i, n, h1, h2⟩ := C44_cpp_name _ hp
    exact ⟨_, _, n, h2, h1⟩
  | alias => exact ⟨_, _, _, rfl, rfl⟩
  | map => exact ⟨_, _, _, rfl, rfl⟩
  | enum => exact ⟨_, _, _, rfl, rfl⟩
  | gadget => exact ⟨_, _, _, rfl, rfl⟩

/-- Where the components of a name come from. -/
theorem denotes_component {extra : Str} {f : File} {enums : Path → List Str} {c : List Str} {q : Path} (h : Denotes extra f enums c q) :
    ∀ k ∈ c, k = extra ∨ k ∈ f.package ∨ (∃ a ∈ q, k = upperCaseName a ∨ k = nestedNs a) ∨
      ∃ e ∈ enums f.package, k = upperCaseName e ++ kGadget := by
  have ext : ∀ k, k ∈ (if extra = [] then [] else [extra]) → k = extra := by
    intro k hk
    split at hk
    · simp at hk
    · simpa using hk
  have step : ∀ {c : List Str} {q : Path} {n : Str},
      (∀ k ∈ c, k = extra ∨ k ∈ f.package ∨ (∃ a ∈ q, k = upperCaseName a ∨ k = nestedNs a) ∨
        ∃ e ∈ enums f.package, k = upperCaseName e ++ kGadget) →
      ∀ k ∈ c ++ [upperCaseName n], k = extra ∨ k ∈ f.package ∨ (∃ a ∈ q ++ [n], k = upperCaseName a ∨ k = nestedNs a) ∨
        ∃ e ∈ enums f.package, k = upperCaseName e ++ kGadget := by
    intro c q n ih k hk
    rw [List.mem_append, List.mem_singleton] at hk
    rcases hk with hk | rfl
    · rcases ih k hk with h | h | ⟨a, ha, h⟩ | h
      · exact Or.inl h
      · exact Or.inr (Or.inl h)
      · exact Or.inr (Or.inr (Or.inl ⟨a, by simp [ha], h⟩))
      · exact Or.inr (Or.inr (Or.inr h))
    · exact Or.inr (Or.inr (Or.inl ⟨n, by simp, Or.inl rfl⟩))
  induction h with
  | cls hp =>
    obtain ⟨i, n, h1, h2⟩ := C44_cpp_name _ hp
    rw [h1, h2, cppName]
    intro k hk
    simp only [List.mem_append, List.mem_singleton, List.mem_map] at hk
    rcases hk with ((hk | hk) | ⟨a, ha, rfl⟩) | rfl
    · exact Or.inl (ext k hk)
    · exact Or.inr (Or.inl hk)
    · exact Or.inr (Or.inr (Or.inl ⟨a, by simp [ha], Or.inr rfl⟩))
    · exact Or.inr (Or.inr (Or.inl ⟨n, by simp, Or.inl rfl⟩))
  | alias _ _ _ _ ih => exact step ih
  | map _ _ _ _ _ ih => exact step ih
  | enum _ _ ih => exact step ih
  | @gadget e he =>
    intro k hk
    simp only [List.mem_append, List.mem_singleton] at hk
    rcases hk with ((hk | hk) | rfl) | rfl
    · exact Or.inl (ext k hk)
    · exact Or.inr (Or.inl hk)
    · exact Or.inr (Or.inr (Or.inr ⟨e, he, rfl⟩))
    · exact Or.inr (Or.inr (Or.inl ⟨e, by simp, Or.inl rfl⟩))

/-- A name is the name of a class, has a last step from the name of something else, or is that of an enumeration of the file. -/
theorem denotes_inv {extra : Str} {f : File} {enums : Path → List Str} {c : List Str} {q : Path} (h : Denotes extra f enums c q) :
    (∃ p ∈ f.classes extra, p.cpp = c ∧ p.msg = q) ∨ (∃ c' q' a, c = c' ++ [upperCaseName a] ∧ q = q' ++ [a] ∧ Denotes extra f enums c' q') ∨
      ∃ e ∈ enums f.package, c = (if extra = [] then [] else [extra]) ++ f.package ++ [upperCaseName e ++ kGadget] ++ [upperCaseName e] := by
  cases h with
  | cls hp => exact Or.inl ⟨_, hp, rfl, rfl⟩
  | alias h => exact Or.inr (Or.inl ⟨_, _, _, rfl, rfl, h⟩)
  | map h => exact Or.inr (Or.inl ⟨_, _, _, rfl, rfl, h⟩)
  | enum h => exact Or.inr (Or.inl ⟨_, _, _, rfl, rfl, h⟩)
  | gadget he => exact Or.inr (Or.inr ⟨_, he, rfl⟩)

end QtPb.Gen
