import Verif.SpecStatusValue
/-
C83: status objects are values.
-/
namespace QtPb.StatusValue

/-! ### Lemmas -/

@[simp] theorem set_self {α : Type} (f : Nat → α) (i : Nat) (x : α) : set f i x i = x := if_pos rfl
theorem set_ne {α : Type} (f : Nat → α) {i j : Nat} (x : α) (h : j ≠ i) : set f i x j = f j := if_neg h

/-- The private objects belong to the statuses that hold values, one to each, and their contents are these values. -/
structure Rep (s : State) (w : World) : Prop where
  dead : ∀ v, w v = none ↔ s.dPtr v = none
  moved : ∀ v, w v = some .moved ↔ s.dPtr v = some none
  value : ∀ v p, s.dPtr v = some (some p) → ∃ x, s.heap p = some x ∧ w v = some (.value x.code x.message)
  single : ∀ v u p, s.dPtr v = some (some p) → s.dPtr u = some (some p) → v = u
  owned : ∀ p x, s.heap p = some x → ∃ v, s.dPtr v = some (some p)
  fresh : ∀ p, s.next ≤ p → s.heap p = none

theorem Rep.init : Rep .init .empty := by
  constructor <;> simp [State.init, World.empty]

theorem Rep.deref {s : State} {w : World} (h : Rep s w) {v : Nat} {c : Int} {m : List Nat} (hv : w v = some (.value c m)) :
    ∃ p, s.dPtr v = some (some p) ∧ s.heap p = some ⟨c, m⟩ ∧ StatusValue.deref s v = .ok (p, ⟨c, m⟩) := by
  cases hd : s.dPtr v with
  | none => rw [(h.dead v).2 hd] at hv; cases hv
  | some q =>
    cases q with
    | none => rw [(h.moved v).2 hd] at hv; cases hv
    | some p =>
      obtain ⟨x, hx, hw⟩ := h.value v p hd
      rw [hv] at hw
      obtain ⟨rfl, rfl⟩ : c = x.code ∧ m = x.message := by simpa using hw
      exact ⟨p, rfl, hx, by simp [StatusValue.deref, hd, hx]⟩

theorem Rep.deref_moved {s : State} {w : World} (h : Rep s w) {v : Nat} (hv : w v = some .moved) :
    StatusValue.deref s v = .ub := by
  have := (h.moved v).1 hv
  simp [StatusValue.deref, this]

theorem live_cases {w : World} {v : Nat} (h : w v ≠ none) : w v = some .moved ∨ ∃ c m, w v = some (.value c m) := by
  cases hw : w v with
  | none => exact absurd hw h
  | some e =>
    cases e with
    | value c m => exact .inr ⟨c, m, rfl⟩
    | moved => exact .inl rfl

theorem Rep.make {s : State} {w : World} (h : Rep s w) {v : Nat} (hv : w v = none) (c : Int) (m : List Nat) :
    Rep (make s v ⟨c, m⟩) (w.put v (some (.value c m))) := by
  have hn : ∀ u, s.dPtr u ≠ some (some s.next) := by
    intro u hu
    obtain ⟨x, hx, _⟩ := h.value u _ hu
    rw [h.fresh _ (Nat.le_refl _)] at hx
    cases hx
  constructor
  · intro u
    by_cases hu : u = v
    · simp [World.put, StatusValue.make, hu]
    · simpa [World.put, StatusValue.make, hu, set_ne] using h.dead u
  · intro u
    by_cases hu : u = v
    · simp [World.put, StatusValue.make, hu]
    · simpa [World.put, StatusValue.make, hu, set_ne] using h.moved u
  · intro u p hp
    by_cases hu : u = v
    · subst hu
      have : s.next = p := by simpa [StatusValue.make] using hp
      subst this
      exact ⟨⟨c, m⟩, by simp [StatusValue.make], by simp [World.put]⟩
    · have hp : s.dPtr u = some (some p) := by simpa [StatusValue.make, hu, set_ne] using hp
      obtain ⟨x, hx, hw⟩ := h.value u p hp
      have : p ≠ s.next := fun e => hn u (e ▸ hp)
      exact ⟨x, by simpa [StatusValue.make, set_ne _ _ this] using hx, by simpa [World.put, hu] using hw⟩
  · intro a b p ha hb
    by_cases hav : a = v <;> by_cases hbv : b = v
    · rw [hav, hbv]
    · subst hav
      have e : s.next = p := by simpa [StatusValue.make] using ha
      have hb : s.dPtr b = some (some p) := by simpa [StatusValue.make, hbv, set_ne] using hb
      exact absurd (e ▸ hb) (hn b)
    · subst hbv
      have e : s.next = p := by simpa [StatusValue.make] using hb
      have ha : s.dPtr a = some (some p) := by simpa [StatusValue.make, hav, set_ne] using ha
      exact absurd (e ▸ ha) (hn a)
    · exact h.single a b p (by simpa [StatusValue.make, hav, set_ne] using ha) (by simpa [StatusValue.make, hbv, set_ne] using hb)
  · intro p x hp
    by_cases e : p = s.next
    · exact ⟨v, by simp [StatusValue.make, e]⟩
    · obtain ⟨u, hu⟩ := h.owned p x (by simpa [StatusValue.make, set_ne _ _ e] using hp)
      have : u ≠ v := by
        rintro rfl
        rw [(h.dead _).1 hv] at hu
        cases hu
      exact ⟨u, by simpa [StatusValue.make, this, set_ne] using hu⟩
  · intro p hp
    have : p ≠ s.next := by intro e; rw [e] at hp; exact absurd hp (Nat.not_succ_le_self _)
    simpa [StatusValue.make, set_ne _ _ this] using h.fresh p (Nat.le_of_succ_le hp)

/-- Taking the pointer of `u` away and giving it to `v`, which has none. -/
theorem Rep.move {s : State} {w : World} (h : Rep s w) {v u : Nat} {p : Option Nat} (hu : s.dPtr u = some p) (hne : v ≠ u)
    (hv : ∀ q, s.dPtr v ≠ some (some q)) :
    Rep { s with dPtr := set (set s.dPtr u (some none)) v (some p) } ((w.put u (some .moved)).put v (w u)) := by
  constructor
  · intro a
    by_cases hav : a = v
    · subst hav
      simp [World.put, h.dead u, hu]
    · by_cases hau : a = u
      · subst hau; simp [World.put, hav, set_ne]
      · simpa [World.put, hav, hau, set_ne] using h.dead a
  · intro a
    by_cases hav : a = v
    · subst hav
      simp [World.put, h.moved u, hu]
    · by_cases hau : a = u
      · subst hau; simp [World.put, hav, set_ne]
      · simpa [World.put, hav, hau, set_ne] using h.moved a
  · intro a q ha
    by_cases hav : a = v
    · subst hav
      have : p = some q := by simpa using ha
      subst this
      obtain ⟨x, hx, hw⟩ := h.value u q hu
      exact ⟨x, hx, by simp [World.put, hw]⟩
    · by_cases hau : a = u
      · subst hau; simp [hav, set_ne] at ha
      · have ha : s.dPtr a = some (some q) := by simpa [hav, hau, set_ne] using ha
        obtain ⟨x, hx, hw⟩ := h.value a q ha
        exact ⟨x, hx, by simp [World.put, hav, hau, hw]⟩
  · have key : ∀ a q, set (set s.dPtr u (some none)) v (some p) a = some (some q) →
        (a = v ∧ s.dPtr u = some (some q)) ∨ (a ≠ v ∧ a ≠ u ∧ s.dPtr a = some (some q)) := by
      intro a q ha
      by_cases hav : a = v
      · subst hav
        have : p = some q := by simpa using ha
        exact .inl ⟨rfl, this ▸ hu⟩
      · by_cases hau : a = u
        · subst hau; simp [hav, set_ne] at ha
        · exact .inr ⟨hav, hau, by simpa [hav, hau, set_ne] using ha⟩
    intro a b q ha hb
    rcases key a q ha with ⟨ea, ha⟩ | ⟨_, ea, ha⟩ <;> rcases key b q hb with ⟨eb, hb⟩ | ⟨_, eb, hb⟩
    · rw [ea, eb]
    · exact absurd (h.single _ _ _ hb ha) eb
    · exact absurd (h.single _ _ _ ha hb) ea
    · exact h.single a b q ha hb
  · intro q x hq
    obtain ⟨a, ha⟩ := h.owned q x hq
    have hav : a ≠ v := by rintro rfl; exact hv q ha
    by_cases hau : a = u
    · subst hau
      rw [hu] at ha
      exact ⟨v, by simpa using ha⟩
    · exact ⟨a, by simpa [hav, hau, set_ne] using ha⟩
  · exact h.fresh

/-- Deleting the private object of `v` and forgetting the pointer. -/
theorem Rep.drop {s : State} {w : World} (h : Rep s w) {v : Nat} {p : Option Nat} (hv : s.dPtr v = some p)
    {e : Option Entry} {d : Option (Option Nat)} (he : (e = none ∧ d = none) ∨ (e = some .moved ∧ d = some none)) :
    ∃ s1, delete s p = .ok s1 ∧ s1.dPtr = s.dPtr ∧ Rep { s1 with dPtr := set s1.dPtr v d } (w.put v e) := by
  have hd : ∀ q, d ≠ some (some q) := by rcases he with ⟨_, rfl⟩ | ⟨_, rfl⟩ <;> simp
  cases p with
  | none =>
    refine ⟨s, rfl, rfl, ?_, ?_, ?_, ?_, ?_, h.fresh⟩
    · intro a
      by_cases hav : a = v
      · rcases he with ⟨rfl, rfl⟩ | ⟨rfl, rfl⟩ <;> simp [World.put, hav]
      · simpa [World.put, hav, set_ne] using h.dead a
    · intro a
      by_cases hav : a = v
      · rcases he with ⟨rfl, rfl⟩ | ⟨rfl, rfl⟩ <;> simp [World.put, hav]
      · simpa [World.put, hav, set_ne] using h.moved a
    · intro a q ha
      by_cases hav : a = v
      · subst hav; exact absurd (by simpa using ha) (hd q)
      · have ha : s.dPtr a = some (some q) := by simpa [hav, set_ne] using ha
        obtain ⟨x, hx, hw⟩ := h.value a q ha
        exact ⟨x, hx, by simp [World.put, hav, hw]⟩
    · intro a b q ha hb
      by_cases hav : a = v
      · subst hav; exact absurd (by simpa using ha) (hd q)
      · by_cases hbv : b = v
        · subst hbv; exact absurd (by simpa using hb) (hd q)
        · exact h.single a b q (by simpa [hav, set_ne] using ha) (by simpa [hbv, set_ne] using hb)
    · intro q x hq
      obtain ⟨a, ha⟩ := h.owned q x hq
      have hav : a ≠ v := by rintro rfl; rw [hv] at ha; simp at ha
      exact ⟨a, by simpa [hav, set_ne] using ha⟩
  | some p =>
    obtain ⟨y, hy, _⟩ := h.value v p hv
    refine ⟨{ s with heap := set s.heap p none }, by simp [delete, hy], rfl, ?_, ?_, ?_, ?_, ?_, ?_⟩
    · intro a
      by_cases hav : a = v
      · rcases he with ⟨rfl, rfl⟩ | ⟨rfl, rfl⟩ <;> simp [World.put, hav]
      · simpa [World.put, hav, set_ne] using h.dead a
    · intro a
      by_cases hav : a = v
      · rcases he with ⟨rfl, rfl⟩ | ⟨rfl, rfl⟩ <;> simp [World.put, hav]
      · simpa [World.put, hav, set_ne] using h.moved a
    · intro a q ha
      by_cases hav : a = v
      · subst hav; exact absurd (by simpa using ha) (hd q)
      · replace ha : s.dPtr a = some (some q) := by simpa [hav, set_ne] using ha
        obtain ⟨x, hx, hw⟩ := h.value a q ha
        have : q ≠ p := fun e => hav (h.single a v p (e ▸ ha) hv)
        exact ⟨x, by simpa [set_ne _ _ this] using hx, by simp [World.put, hav, hw]⟩
    · intro a b q ha hb
      by_cases hav : a = v
      · subst hav; exact absurd (by simpa using ha) (hd q)
      · by_cases hbv : b = v
        · subst hbv; exact absurd (by simpa using hb) (hd q)
        · exact h.single a b q (by simpa [hav, set_ne] using ha) (by simpa [hbv, set_ne] using hb)
    · intro q x hq
      by_cases e : q = p
      · subst e; simp at hq
      · have hq : s.heap q = some x := by simpa [set_ne _ _ e] using hq
        obtain ⟨a, ha⟩ := h.owned q x hq
        have hav : a ≠ v := by rintro rfl; rw [hv] at ha; simp at ha; exact e ha.symm
        exact ⟨a, by simpa [hav, set_ne] using ha⟩
    · intro q hq
      by_cases e : q = p
      · subst e; simp
      · simpa [set_ne _ _ e] using h.fresh q hq

/-- Writing through the pointer of `v`. -/
theorem Rep.write {s : State} {w : World} (h : Rep s w) {v p : Nat} (hv : s.dPtr v = some (some p)) (c : Int) (m : List Nat) :
    Rep { s with heap := set s.heap p (some ⟨c, m⟩) } (w.put v (some (.value c m))) := by
  obtain ⟨y, hy, hwv⟩ := h.value v p hv
  constructor
  · intro a
    by_cases hav : a = v
    · simp [World.put, hav, hv]
    · simpa [World.put, hav] using h.dead a
  · intro a
    by_cases hav : a = v
    · simp [World.put, hav, hv]
    · simpa [World.put, hav] using h.moved a
  · intro a q ha
    by_cases hav : a = v
    · subst hav
      have ha : s.dPtr a = some (some q) := ha
      rw [hv] at ha
      have : p = q := by simpa using ha
      subst this
      exact ⟨⟨c, m⟩, by simp, by simp [World.put]⟩
    · obtain ⟨x, hx, hw⟩ := h.value a q ha
      have : q ≠ p := by rintro rfl; exact hav (h.single _ _ _ ha hv)
      exact ⟨x, by simpa [set_ne _ _ this] using hx, by simp [World.put, hav, hw]⟩
  · exact h.single
  · intro q x hq
    by_cases e : q = p
    · exact ⟨v, e ▸ hv⟩
    · exact h.owned q x (by simpa [set_ne _ _ e] using hq)
  · intro q hq
    by_cases e : q = p
    · subst e; rw [h.fresh _ hq] at hy; cases hy
    · simpa [set_ne _ _ e] using h.fresh q hq

theorem put_same (w : World) (v : Nat) (e f : Option Entry) : (w.put v e).put v f = w.put v f := by
  funext a; by_cases h : a = v <;> simp [World.put, h]

theorem put_comm (w : World) {v u : Nat} (h : v ≠ u) (e f : Option Entry) : (w.put v e).put u f = (w.put u f).put v e := by
  funext a
  by_cases hv : a = v
  · subst hv; simp [World.put, h]
  · by_cases hu : a = u
    · subst hu; simp [World.put, hv]
    · simp [World.put, hv, hu]

theorem put_eq (w : World) (v : Nat) : w.put v (w v) = w := by
  funext a
  by_cases h : a = v
  · subst h; simp [World.put]
  · simp [World.put, h]

theorem set_same {α : Type} (f : Nat → α) (i : Nat) (x y : α) : set (set f i x) i y = set f i y := by
  funext a; by_cases h : a = i <;> simp [set, h]

theorem set_comm {α : Type} (f : Nat → α) {i j : Nat} (h : i ≠ j) (x y : α) : set (set f i x) j y = set (set f j y) i x := by
  funext a
  by_cases hi : a = i
  · subst hi; simp [set, h]
  · by_cases hj : a = j
    · subst hj; simp [set, hi]
    · simp [set, hi, hj]

theorem set_eq {α : Type} (f : Nat → α) (i : Nat) {x : α} (h : f i = x) : set f i x = f := by
  funext a
  by_cases e : a = i
  · subst e; simp [h]
  · simp [set, e]

/-- `v` needs its private object for the operation. -/
def Needs (op : Op) (v : Nat) : Prop := Asks op v ∨ CopiesInto op v

theorem delete_dPtr (s : State) (d : Nat → Option (Option Nat)) (p : Option Nat) {s1 : State} (h : delete s p = .ok s1) :
    delete { s with dPtr := d } p = .ok { s1 with dPtr := d } := by
  cases p with
  | none => simp [delete] at h ⊢; subst h; exact ⟨rfl, rfl⟩
  | some p =>
    cases hp : s.heap p with
    | none => simp [delete, hp] at h
    | some x => simp [delete, hp] at h ⊢; subst h; exact ⟨rfl, rfl⟩

/-- One operation that needs nothing that has been moved away. -/
theorem step_ok {s : State} {w : World} (h : Rep s w) {op : Op} (hl : Lives w op)
    (hn : ∀ v, Needs op v → w v ≠ some .moved) :
    ∃ s1 a, step s op = .ok (s1, a) ∧ Rep s1 (after w op) ∧ Right w op a := by
  have get : ∀ v, Needs op v → w v ≠ none → ∃ c m, w v = some (.value c m) := by
    intro v hv hw
    rcases live_cases hw with h1 | h1
    · exact absurd h1 (hn v hv)
    · exact h1
  cases op with
  | create v c m => exact ⟨_, _, rfl, h.make hl c m, rfl⟩
  | copyCreate v u =>
    obtain ⟨c, m, hu⟩ := get u (.inl rfl) hl.2
    obtain ⟨p, _, _, hd⟩ := h.deref hu
    refine ⟨_, _, by simp [step, hd]; rfl, ?_, rfl⟩
    simp only [after, hu]
    exact h.make hl.1 c m
  | moveCreate v u =>
    cases hu : s.dPtr u with
    | none => exact absurd ((h.dead u).2 hu) hl.2
    | some p =>
      have hne : v ≠ u := by rintro rfl; exact hl.2 hl.1
      refine ⟨_, _, by simp [step, moveCreate, hu]; rfl, ?_, rfl⟩
      refine h.move hu hne ?_
      intro q hq
      rw [(h.dead v).1 hl.1] at hq
      cases hq
  | copyAssign v u =>
    obtain ⟨c, m, hu⟩ := get u (.inl rfl) hl.2
    obtain ⟨c', m', hv⟩ := get v (.inr rfl) hl.1
    obtain ⟨p, hpu, hpx, hd⟩ := h.deref hu
    obtain ⟨q, hqv, hqx, hd'⟩ := h.deref hv
    have h1 := h.write hqv c m'
    have hu1 : ∃ m1, (w.put v (some (.value c m'))) u = some (.value c m1) ∧ m1 = m := by
      by_cases e : u = v
      · subst e
        rw [hu] at hv
        have : c = c' ∧ m = m' := by simpa using hv
        exact ⟨m', by simp [World.put], this.2.symm⟩
      · exact ⟨m, by simp [World.put, e, hu], rfl⟩
    obtain ⟨m1, hu1, rfl⟩ := hu1
    obtain ⟨p1, _, _, hd1⟩ := h1.deref hu1
    obtain ⟨q1, hq1, _, hd1'⟩ := h1.deref (v := v) (c := c) (m := m') (by simp [World.put])
    have eq : q1 = q := by
      have hq1 : s.dPtr v = some (some q1) := hq1
      rw [hqv] at hq1
      simpa using hq1.symm
    subst eq
    have h2 := h1.write hq1 c m1
    refine ⟨_, _, by simp [step, copyAssign, hd, hd', hd1, hd1']; rfl, ?_, rfl⟩
    simp only [after, hu]
    rw [put_same] at h2
    exact h2
  | moveAssign v u =>
    cases hu : s.dPtr u with
    | none => exact absurd ((h.dead u).2 hu) hl.2
    | some p =>
      by_cases e : v = u
      · subst e
        refine ⟨s, none, ?_, by simpa [after] using h, rfl⟩
        simp [step, moveAssign, hu, delete, set_same, set_eq s.dPtr v hu]
      · cases hv : s.dPtr v with
        | none => exact absurd ((h.dead v).2 hv) hl.1
        | some old =>
          obtain ⟨s1, hs1, hd1, hr⟩ := h.drop hv (e := some .moved) (d := some none) (.inr ⟨rfl, rfl⟩)
          have hru : ({ s1 with dPtr := set s1.dPtr v (some none) } : State).dPtr u = some p := by
            simp [hd1, hu, set_ne s.dPtr (some (none : Option Nat)) (fun x : u = v => e x.symm)]
          have h2 := hr.move hru e (by simp)
          refine ⟨{ s1 with dPtr := set (set s.dPtr u (some none)) v (some p) }, none, ?_, ?_, rfl⟩
          · have : set s.dPtr u (some none) v = some old := by rw [set_ne _ _ e, hv]
            simp only [step, moveAssign, hu, this]
            rw [delete_dPtr s _ old hs1]
            simp
          · have e' : u ≠ v := fun x => e x.symm
            have hw : (w.put v (some .moved)) u = w u := by simp [World.put, e']
            rw [hw] at h2
            have hd2 : set (set (set s1.dPtr v (some none)) u (some none)) v (some p) =
                set (set s.dPtr u (some none)) v (some p) := by
              rw [set_comm _ e, set_same, hd1]
            have hw2 : ((w.put v (some .moved)).put u (some .moved)).put v (w u) = (w.put u (some .moved)).put v (w u) := by
              rw [put_comm _ e, put_same]
            simp only [hd2, hw2] at h2
            simpa [after, e] using h2
  | destroy v =>
    cases hv : s.dPtr v with
    | none => exact absurd ((h.dead v).2 hv) hl
    | some p =>
      obtain ⟨s1, hs1, hd1, hr⟩ := h.drop hv (e := none) (d := none) (.inl ⟨rfl, rfl⟩)
      refine ⟨_, none, ?_, hr, rfl⟩
      simp only [step, destroy, hv]
      rw [delete_dPtr s _ p hs1, hd1]
      rfl
  | code v =>
    obtain ⟨c, m, hv⟩ := get v (.inl rfl) hl
    obtain ⟨p, _, _, hd⟩ := h.deref hv
    exact ⟨s, _, by simp [step, hd], h, c, m, hv, rfl⟩
  | message v =>
    obtain ⟨c, m, hv⟩ := get v (.inl rfl) hl
    obtain ⟨p, _, _, hd⟩ := h.deref hv
    exact ⟨s, _, by simp [step, hd], h, c, m, hv, rfl⟩
  | isCode v k =>
    obtain ⟨c, m, hv⟩ := get v (.inl rfl) hl
    obtain ⟨p, _, _, hd⟩ := h.deref hv
    exact ⟨s, _, by simp [step, hd], h, c, m, c == k, hv, rfl, by simp⟩
  | isNotCode v k =>
    obtain ⟨c, m, hv⟩ := get v (.inl rfl) hl
    obtain ⟨p, _, _, hd⟩ := h.deref hv
    exact ⟨s, _, by simp [step, hd], h, c, m, c != k, hv, rfl, by simp⟩
  | equal v u =>
    obtain ⟨c, m, hv⟩ := get v (.inl (.inl rfl)) hl.1
    obtain ⟨p, _, _, hd⟩ := h.deref hv
    obtain ⟨c', m', hu⟩ := get u (.inl (.inr rfl)) hl.2
    obtain ⟨p', _, _, hd'⟩ := h.deref hu
    exact ⟨s, _, by simp [step, hd, hd'], h, c, m, c', m', c == c', hv, hu, rfl, by simp⟩

/-- One operation that needs something that has been moved away. -/
theorem step_ub {s : State} {w : World} (h : Rep s w) {op : Op} (hl : Lives w op) {v : Nat} (hn : Needs op v)
    (hv : w v = some .moved) : step s op = .ub := by
  have hd := h.deref_moved hv
  rcases hn with hn | hn
  · cases op with
    | copyCreate a u => cases hn; simp [step, hd]
    | copyAssign a u => cases hn; simp [step, copyAssign, hd]
    | code u => cases hn; simp [step, hd]
    | message u => cases hn; simp [step, hd]
    | isCode u c => cases hn; simp [step, hd]
    | isNotCode u c => cases hn; simp [step, hd]
    | equal a u =>
      rcases hn with rfl | rfl
      · simp [step, hd]
      · rcases live_cases hl.1 with ha | ⟨c, m, ha⟩
        · simp [step, h.deref_moved ha]
        · obtain ⟨p, _, _, hda⟩ := h.deref ha
          simp [step, hd, hda]
    | create a c m => exact hn.elim
    | moveCreate a u => exact hn.elim
    | moveAssign a u => exact hn.elim
    | destroy a => exact hn.elim
  · cases op with
    | copyAssign a u =>
      cases hn
      rcases live_cases hl.2 with ha | ⟨c, m, ha⟩
      · simp [step, copyAssign, h.deref_moved ha]
      · obtain ⟨p, _, _, hda⟩ := h.deref ha
        simp [step, copyAssign, hd, hda]
    | _ => exact hn.elim

theorem Throughout.head {P : World → Op → Prop} {w : World} {op : Op} {ops : List Op} (h : Throughout P w (op :: ops)) : P w op :=
  h [] op ops rfl

theorem Throughout.tail {P : World → Op → Prop} {w : World} {op : Op} {ops : List Op} (h : Throughout P w (op :: ops)) :
    Throughout P (after w op) ops := by
  intro pre o post e
  exact h (op :: pre) o post (by rw [e]; rfl)

theorem run_ok : ∀ (ops : List Op) (s : State) (w : World), Rep s w → Throughout Lives w ops →
    Throughout (fun w op => ∀ v, Needs op v → w v ≠ some .moved) w ops →
    ∃ s1 as, run s ops = .ok (s1, as) ∧ Rep s1 (afterAll w ops) ∧ AllRight w ops as
  | [], s, w, h, _, _ => ⟨s, [], rfl, h, .nil w⟩
  | op :: ops, s, w, h, hl, hn => by
    obtain ⟨s1, a, hs, hr, ha⟩ := step_ok h hl.head hn.head
    obtain ⟨s2, as, hs2, hr2, has⟩ := run_ok ops s1 (after w op) hr hl.tail hn.tail
    refine ⟨s2, a.toList ++ as, by simp [run, hs, hs2], hr2, ?_⟩
    cases a with
    | none => exact .silent ha has
    | some a => exact .answer ha has

theorem run_ub : ∀ (pre : List Op) (op : Op) (post : List Op) (s : State) (w : World), Rep s w →
    Throughout Lives w (pre ++ op :: post) → ∀ v, Needs op v → afterAll w pre v = some .moved → run s (pre ++ op :: post) = .ub
  | [], op, post, s, w, h, hl, v, hn, hv => by
    simp [run, step_ub h hl.head hn hv]
  | o :: pre, op, post, s, w, h, hl, v, hn, hv => by
    by_cases hc : ∃ u, Needs o u ∧ w u = some .moved
    · obtain ⟨u, hu, hm⟩ := hc
      have := step_ub h hl.head hu hm
      simp [run, this]
    · obtain ⟨s1, a, hs, hr, _⟩ := step_ok h hl.head (fun v hv hm => hc ⟨v, hv, hm⟩)
      have := run_ub pre op post s1 (after w o) hr hl.tail v hn hv
      simp [run, hs, this]

/-! ### The property -/

/-- C83: which histories of any number of status objects reach undefined behaviour: exactly those that ask for contents that have
been moved away, or copy into an object whose contents have been moved away. In all others all answers are right. -/
theorem C83_exactly (ops : List Op) (hl : Throughout Lives .empty ops) :
    (run .init ops = .ub ↔ ∃ pre op post v, ops = pre ++ op :: post ∧ (Asks op v ∨ CopiesInto op v) ∧
      afterAll .empty pre v = some .moved) ∧
    (run .init ops ≠ .ub → ∃ s as, run .init ops = .ok (s, as) ∧ AllRight .empty ops as) := by
  by_cases hc : ∃ pre op post v, ops = pre ++ op :: post ∧ (Asks op v ∨ CopiesInto op v) ∧ afterAll .empty pre v = some .moved
  · obtain ⟨pre, op, post, v, rfl, hn, hv⟩ := hc
    have := run_ub pre op post .init .empty .init hl v hn hv
    exact ⟨⟨fun _ => ⟨pre, op, post, v, rfl, hn, hv⟩, fun _ => this⟩, fun h => absurd this h⟩
  · obtain ⟨s, as, hs, _, ha⟩ := run_ok ops .init .empty .init hl
      (fun pre op post e v hn hv => hc ⟨pre, op, post, v, e, hn, hv⟩)
    refine ⟨⟨fun h => ?_, fun h => absurd h hc⟩, fun _ => ⟨s, as, hs, ha⟩⟩
    rw [hs] at h
    cases h

/-- C83 as far as it holds: a program that does not ask for contents that have been moved away, and copies into no object whose
contents have been moved away, has no undefined behaviour and gets the code and message that each object was given last.
Missing: copying into an object whose contents have been moved away (C83_assign_violated). -/
theorem C83_value_partial (ops : List Op) (hl : Throughout Lives .empty ops) (hc : Throughout Careful .empty ops)
    (hi : Throughout (fun w op => ∀ v, CopiesInto op v → w v ≠ some .moved) .empty ops) :
    ∃ s as, run .init ops = .ok (s, as) ∧ AllRight .empty ops as := by
  obtain ⟨s, as, hs, _, ha⟩ := run_ok ops .init .empty .init hl (fun pre op post e v hn =>
    hn.elim (hc pre op post e v) (hi pre op post e v))
  exact ⟨s, as, hs, ha⟩

/-- C83: no private object is lost or deleted twice: when all status objects have been destroyed nothing is left in memory
(deleting twice is undefined behaviour in the model, so that it is excluded by `run … = ok`). -/
theorem C83_memory (ops : List Op) (hl : Throughout Lives .empty ops) (s : State) (as : List Answer)
    (hr : run .init ops = .ok (s, as)) (hd : ∀ v, afterAll .empty ops v = none) : ∀ p, s.heap p = none := by
  have hn : Throughout (fun w op => ∀ v, Needs op v → w v ≠ some .moved) .empty ops := by
    intro pre op post e v hn hv
    subst e
    rw [run_ub pre op post .init .empty .init hl v hn hv] at hr
    cases hr
  obtain ⟨s', as', hs, hrep, _⟩ := run_ok ops .init .empty .init hl hn
  rw [hr] at hs
  obtain ⟨rfl, rfl⟩ : s = s' ∧ as = as' := by simpa using hs
  intro p
  cases hp : s.heap p with
  | none => rfl
  | some x =>
    obtain ⟨v, hv⟩ := hrep.owned p x hp
    have := (hrep.dead v).1 (hd v)
    rw [this] at hv
    cases hv

/-- C83 is violated: a status whose contents have been moved away cannot be given a new value by copying, although the program asks
for nothing that has been moved away. -/
theorem C83_assign_violated : ∃ ops, Throughout Lives .empty ops ∧ Throughout Careful .empty ops ∧ run .init ops = .ub := by
  refine ⟨[.create 0 5 [1], .moveCreate 1 0, .copyAssign 0 1], ?_, ?_, by rfl⟩
  · intro pre op post e
    match pre, e with
    | [], e => cases e; simp [afterAll, Lives, World.empty]
    | [_], e => cases e; simp [afterAll, after, Lives, World.empty, World.put]
    | [_, _], e => cases e; simp [afterAll, after, Lives, World.empty, World.put]
    | _ :: _ :: _ :: _, e => simp at e
  · intro pre op post e
    match pre, e with
    | [], e => cases e; simp [Careful, Asks]
    | [_], e => cases e; simp [Careful, Asks]
    | [_, _], e => cases e; simp [afterAll, after, Careful, Asks, World.empty, World.put]
    | _ :: _ :: _ :: _, e => simp at e

/-- C83 is violated: two statuses with different messages are equal to `==`. -/
theorem C83_equality_violated (c : Int) (m m' : List Nat) (_ : m ≠ m') :
    ∃ s, run .init [.create 0 c m, .create 1 c m', .message 0, .message 1, .equal 0 1] =
      .ok (s, [.message m, .message m', .bool true]) := by
  simp [run, step, make, deref, State.init, set]

/-- A history that meets the hypotheses: a status is copied, moved, assigned to, and read. -/
example : ∃ ops, Throughout Lives .empty ops ∧ Throughout Careful .empty ops ∧
    Throughout (fun w op => ∀ v, CopiesInto op v → w v ≠ some .moved) .empty ops ∧
    ∃ s, run .init ops = .ok (s, [.code 5, .message [1]]) := by
  refine ⟨[.create 0 5 [1], .copyCreate 1 0, .moveAssign 0 1, .code 0, .message 0, .destroy 0, .destroy 1], ?_, ?_, ?_, ?_⟩
  · intro pre op post e
    match pre, e with
    | [], e => cases e; simp [afterAll, Lives, World.empty]
    | [_], e => cases e; simp [afterAll, after, Lives, World.empty, World.put]
    | [_, _], e => cases e; simp [afterAll, after, Lives, World.empty, World.put]
    | [_, _, _], e => cases e; simp [afterAll, after, Lives, World.empty, World.put]
    | [_, _, _, _], e => cases e; simp [afterAll, after, Lives, World.empty, World.put]
    | [_, _, _, _, _], e => cases e; simp [afterAll, after, Lives, World.empty, World.put]
    | [_, _, _, _, _, _], e => cases e; simp [afterAll, after, Lives, World.empty, World.put]
    | _ :: _ :: _ :: _ :: _ :: _ :: _ :: _, e => simp at e
  · intro pre op post e
    match pre, e with
    | [], e => cases e; simp [Careful, Asks]
    | [_], e => cases e; simp [afterAll, after, Careful, Asks, World.empty, World.put]
    | [_, _], e => cases e; simp [Careful, Asks]
    | [_, _, _], e => cases e; simp [afterAll, after, Careful, Asks, World.empty, World.put]
    | [_, _, _, _], e => cases e; simp [afterAll, after, Careful, Asks, World.empty, World.put]
    | [_, _, _, _, _], e => cases e; simp [Careful, Asks]
    | [_, _, _, _, _, _], e => cases e; simp [Careful, Asks]
    | _ :: _ :: _ :: _ :: _ :: _ :: _ :: _, e => simp at e
  · intro pre op post e v hv
    match pre, e with
    | [], e => cases e; exact hv.elim
    | [_], e => cases e; exact hv.elim
    | [_, _], e => cases e; exact hv.elim
    | [_, _, _], e => cases e; exact hv.elim
    | [_, _, _, _], e => cases e; exact hv.elim
    | [_, _, _, _, _], e => cases e; exact hv.elim
    | [_, _, _, _, _, _], e => cases e; exact hv.elim
    | _ :: _ :: _ :: _ :: _ :: _ :: _ :: _, e => simp at e
  · exact ⟨_, rfl⟩

end QtPb.StatusValue
