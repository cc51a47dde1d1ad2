import Verif.SpecEq
/-
The order of map keys is a strict weak order; consequences for sorted entry lists.
-/
namespace QtPb
open Spec

theorem lexLt_irrefl (a : List Nat) : lexLt a a = false := by
  induction a with
  | nil => rfl
  | cons x a ih => simp [lexLt, ih]

theorem lexLt_trans {a b c : List Nat} (h1 : lexLt a b = true) (h2 : lexLt b c = true) :
    lexLt a c = true := by
  induction a generalizing b c with
  | nil =>
    cases c with
    | nil => cases b <;> simp [lexLt] at h2
    | cons => rfl
  | cons x a ih =>
    cases b with
    | nil => simp [lexLt] at h1
    | cons y b =>
      cases c with
      | nil => simp [lexLt] at h2
      | cons z c =>
        simp only [lexLt, Bool.or_eq_true, decide_eq_true_eq, Bool.and_eq_true, beq_iff_eq] at *
        rcases h1 with h1 | ⟨h1, h1'⟩ <;> rcases h2 with h2 | ⟨h2, h2'⟩
        · left; omega
        · left; omega
        · left; omega
        · right; exact ⟨by omega, ih h1' h2'⟩

theorem lexLt_negtrans {a b c : List Nat} (h1 : lexLt a b = false) (h2 : lexLt b c = false) :
    lexLt a c = false := by
  induction a generalizing b c with
  | nil =>
    cases b with
    | nil => exact h2
    | cons => simp [lexLt] at h1
  | cons x a ih =>
    cases c with
    | nil => rfl
    | cons z c =>
      cases b with
      | nil => simp [lexLt] at h2
      | cons y b =>
        simp only [lexLt, Bool.or_eq_false_iff, decide_eq_false_iff_not, Bool.and_eq_false_imp,
          beq_iff_eq] at *
        refine ⟨by omega, fun e => ?_⟩
        have : x = y := by omega
        have : y = z := by omega
        exact ih (h1.2 (by assumption)) (h2.2 (by assumption))

theorem keyLt_irrefl (k : Kind) (a : Scalar) : keyLt k a a = false := by
  cases k <;> cases a <;> simp [keyLt, lexLt_irrefl]

theorem keyLt_trans {k : Kind} {a b c : Scalar} (h1 : keyLt k a b = true)
    (h2 : keyLt k b c = true) : keyLt k a c = true := by
  cases k <;> cases a <;> cases b <;> simp only [keyLt, Bool.false_eq_true] at h1 <;>
    cases c <;> simp only [keyLt, Bool.false_eq_true] at h2 ⊢ <;>
    first
      | (simp only [decide_eq_true_eq] at *; omega)
      | exact lexLt_trans h1 h2
      | (rename_i x y z; cases x <;> cases y <;> cases z <;> simp_all)

theorem keyLt_negtrans {k : Kind} {a b c : Scalar} (ha : k.holds a) (hb : k.holds b)
    (hc : k.holds c) (h1 : keyLt k a b = false) (h2 : keyLt k b c = false) :
    keyLt k a c = false := by
  cases k <;> cases a <;> simp only [Kind.holds, Bool.false_eq_true] at ha <;>
    cases b <;> simp only [Kind.holds, Bool.false_eq_true] at hb <;>
    cases c <;> simp only [Kind.holds, Bool.false_eq_true] at hc <;>
    simp only [keyLt] at * <;>
    first
      | rfl
      | (simp only [decide_eq_false_iff_not] at *; omega)
      | exact lexLt_negtrans h1 h2
      | (rename_i x y z; cases x <;> cases y <;> cases z <;> simp_all)

theorem keyLt_asymm {k : Kind} {a b : Scalar} (h : keyLt k a b = true) : keyLt k b a = false := by
  cases e : keyLt k b a with
  | false => rfl
  | true => have := keyLt_trans h e; rw [keyLt_irrefl] at this; exact absurd this (by simp)

/-- Equivalent keys. -/
def keyEqv (k : Kind) (a b : Scalar) : Prop := keyLt k a b = false ∧ keyLt k b a = false

theorem keyEqv.refl (k : Kind) (a : Scalar) : keyEqv k a a := ⟨keyLt_irrefl k a, keyLt_irrefl k a⟩
theorem keyEqv.symm {k : Kind} {a b : Scalar} (h : keyEqv k a b) : keyEqv k b a := ⟨h.2, h.1⟩
theorem keyEqv.trans {k : Kind} {a b c : Scalar} (ha : k.holds a) (hb : k.holds b)
    (hc : k.holds c) (h1 : keyEqv k a b) (h2 : keyEqv k b c) : keyEqv k a c :=
  ⟨keyLt_negtrans ha hb hc h1.1 h2.1, keyLt_negtrans hc hb ha h2.2 h1.2⟩

theorem keyLt_eqv_left {k : Kind} {a b c : Scalar} (ha : k.holds a) (hb : k.holds b)
    (hc : k.holds c) (h1 : keyEqv k a b) (h2 : keyLt k b c = true) : keyLt k a c = true := by
  cases e : keyLt k a c with
  | true => rfl
  | false =>
    have := keyLt_negtrans hb ha hc h1.2 e
    rw [this] at h2; exact absurd h2 (by simp)

theorem keyLt_eqv_right {k : Kind} {a b c : Scalar} (ha : k.holds a) (hb : k.holds b)
    (hc : k.holds c) (h1 : keyLt k a b = true) (h2 : keyEqv k b c) : keyLt k a c = true := by
  cases e : keyLt k a c with
  | true => rfl
  | false =>
    have := keyLt_negtrans ha hc hb e h2.2
    rw [this] at h1; exact absurd h1 (by simp)

/-- Entries in strictly increasing key order with keys of kind `k`. -/
def SortedKeys (k : Kind) (es : List (Scalar × Val)) : Prop :=
  (∀ e ∈ es, k.holds e.1) ∧ es.Pairwise (fun a b => keyLt k a.1 b.1)

theorem SortedKeys.tail {k : Kind} {e : Scalar × Val} {es : List (Scalar × Val)}
    (h : SortedKeys k (e :: es)) : SortedKeys k es :=
  ⟨fun x hx => h.1 x (List.mem_cons_of_mem _ hx), (List.pairwise_cons.mp h.2).2⟩

/-- In a sorted list equivalent keys are at the same position. -/
theorem SortedKeys.unique {k : Kind} {es : List (Scalar × Val)} (h : SortedKeys k es) {i j : Nat}
    {x y : Scalar × Val} (hi : es[i]? = some x) (hj : es[j]? = some y) (hxy : keyEqv k x.1 y.1) :
    i = j := by
  obtain ⟨hi', rfl⟩ := List.getElem?_eq_some_iff.mp hi
  obtain ⟨hj', rfl⟩ := List.getElem?_eq_some_iff.mp hj
  rcases Nat.lt_trichotomy i j with hlt | heq | hgt
  · have := List.pairwise_iff_getElem.mp h.2 i j hi' hj' hlt
    rw [hxy.1] at this; exact absurd this (by simp)
  · exact heq
  · have := List.pairwise_iff_getElem.mp h.2 j i hj' hi' hgt
    rw [hxy.2] at this; exact absurd this (by simp)

/-- Sorted lists: if every key of `a` occurs in `b`, then `a` is not longer, and if they have the
same length the keys agree position by position. -/
theorem sorted_embed {k : Kind} {a b : List (Scalar × Val)} (ha : SortedKeys k a)
    (hb : SortedKeys k b) (h : ∀ x ∈ a, ∃ y ∈ b, keyEqv k x.1 y.1) :
    a.length ≤ b.length ∧ (a.length = b.length →
      ∀ (i : Nat) (x y : Scalar × Val), a[i]? = some x → b[i]? = some y → keyEqv k x.1 y.1) := by
  induction b generalizing a with
  | nil =>
    cases a with
    | nil => simp
    | cons x a => obtain ⟨y, hy, _⟩ := h x (by simp); simp at hy
  | cons y b ih =>
    cases a with
    | nil => simp
    | cons x a =>
      -- the tail of `a` embeds in `b`
      have hx := ha.1 x (by simp)
      have hy := hb.1 y (by simp)
      have hxa := (List.pairwise_cons.mp ha.2).1
      have hyb := (List.pairwise_cons.mp hb.2).1
      have htail : ∀ z ∈ a, ∃ w ∈ b, keyEqv k z.1 w.1 := by
        intro z hz
        obtain ⟨w, hw, hzw⟩ := h z (List.mem_cons_of_mem _ hz)
        rcases List.mem_cons.mp hw with rfl | hw
        · -- z ≡ y, but x < z and x ≡ something ≥ y
          exfalso
          obtain ⟨u, hu, hxu⟩ := h x (by simp)
          have hz' := ha.1 z (List.mem_cons_of_mem _ hz)
          have hxz := hxa z hz
          have hxw : keyLt k x.1 w.1 = true := keyLt_eqv_right hx hz' hy hxz hzw
          rcases List.mem_cons.mp hu with rfl | hu
          · rw [hxu.1] at hxw; exact absurd hxw (by simp)
          · have hwu := hyb u hu
            have := keyLt_trans hxw hwu
            rw [hxu.1] at this; exact absurd this (by simp)
        · exact ⟨w, hw, hzw⟩
      obtain ⟨ih1, ih2⟩ := ih ha.tail hb.tail htail
      refine ⟨by simpa using ih1, fun hl => ?_⟩
      intro i p q hp hq
      cases i with
      | zero =>
        simp only [List.getElem?_cons_zero, Option.some.injEq] at hp hq
        subst hp hq
        obtain ⟨u, hu, hxu⟩ := h x (by simp)
        rcases List.mem_cons.mp hu with rfl | hu
        · exact hxu
        · -- then all of `x :: a` embeds in `b`, too long
          exfalso
          have hall : ∀ z ∈ x :: a, ∃ w ∈ b, keyEqv k z.1 w.1 := by
            intro z hz
            rcases List.mem_cons.mp hz with rfl | hz
            · exact ⟨u, hu, hxu⟩
            · exact htail z hz
          have := (ih ha hb.tail hall).1
          simp only [List.length_cons] at this hl
          omega
      | succ i =>
        simp only [List.getElem?_cons_succ] at hp hq
        exact ih2 (by simpa using hl) i p q hp hq

/-- Inserting a key behind all others appends. -/
theorem mapInsert_append {k : Kind} {key : Scalar} {v : Val} {es : List (Scalar × Val)}
    (h : ∀ e ∈ es, keyLt k e.1 key = true) : mapInsert k key v es = es ++ [(key, v)] := by
  induction es with
  | nil => rfl
  | cons e es ih =>
    obtain ⟨k', v'⟩ := e
    simp only [List.mem_cons, forall_eq_or_imp] at h
    simp [mapInsert, h.1, ih h.2]

/-- `mapInsert` keeps entry lists sorted. -/
theorem mapInsert_sorted {k : Kind} {key : Scalar} {v : Val} {es : List (Scalar × Val)}
    (hk : k.holds key) (h : SortedKeys k es) : SortedKeys k (mapInsert k key v es) ∧
      (∀ e ∈ mapInsert k key v es, (∃ e' ∈ es, e'.1 = e.1) ∨ e.1 = key) := by
  induction es with
  | nil => simp [mapInsert, SortedKeys, hk]
  | cons e es ih =>
    obtain ⟨k', v'⟩ := e
    obtain ⟨ih1, ih2⟩ := ih h.tail
    have hp := List.pairwise_cons.mp h.2
    have hk' := h.1 _ (List.mem_cons_self)
    unfold mapInsert
    split
    · rename_i hlt
      refine ⟨⟨?_, ?_⟩, ?_⟩
      · intro e he
        rcases List.mem_cons.mp he with rfl | he
        · exact hk'
        · exact ih1.1 e he
      · refine List.pairwise_cons.mpr ⟨fun e he => ?_, ih1.2⟩
        rcases ih2 e he with ⟨e', he', heq⟩ | heq
        · have := hp.1 e' he'; rw [heq] at this; exact this
        · rw [heq]; exact hlt
      · intro e he
        rcases List.mem_cons.mp he with rfl | he
        · exact Or.inl ⟨_, List.mem_cons_self, rfl⟩
        · rcases ih2 e he with ⟨e', he', heq⟩ | heq
          · exact Or.inl ⟨e', List.mem_cons_of_mem _ he', heq⟩
          · exact Or.inr heq
    · split
      · rename_i hlt
        refine ⟨⟨?_, ?_⟩, ?_⟩
        · intro e he
          rcases List.mem_cons.mp he with rfl | he
          · exact hk
          · exact h.1 e he
        · refine List.pairwise_cons.mpr ⟨fun e he => ?_, h.2⟩
          rcases List.mem_cons.mp he with rfl | he
          · exact hlt
          · exact keyLt_trans hlt (hp.1 e he)
        · intro e he
          rcases List.mem_cons.mp he with rfl | he
          · exact Or.inr rfl
          · exact Or.inl ⟨e, he, rfl⟩
      · refine ⟨⟨?_, ?_⟩, ?_⟩
        · intro e he
          rcases List.mem_cons.mp he with rfl | he
          · exact hk'
          · exact h.1 e (List.mem_cons_of_mem _ he)
        · exact List.pairwise_cons.mpr ⟨fun e he => hp.1 e he, hp.2⟩
        · intro e he
          rcases List.mem_cons.mp he with rfl | he
          · exact Or.inl ⟨_, List.mem_cons_self, rfl⟩
          · exact Or.inl ⟨e, List.mem_cons_of_mem _ he, rfl⟩

end QtPb
