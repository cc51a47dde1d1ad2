import Verif.SpecHeap
/-
Lemmas for C102: an invariant of the objects in memory, and what a step leaves alone.
-/
namespace QtPb.Heap
variable {sch : Schema}

def fits : Member → Slot → Bool
  | .value, .value _ => true
  | .sub _, .sub _ => true
  | .many _, .many _ => true
  | _, _ => false

structure Inv (sch : Schema) (h : Store) : Prop where
  lt : ∀ {x n}, h.node x = some n → x < h.next
  low : ∀ {x p i}, x < h.next → h.kind x = .owned p i → p < x
  new : ∀ {x}, h.next ≤ x → h.kind x = .root
  len : ∀ {p n}, h.node p = some n → n.slots.length = (sch n.cls).length
  typed : ∀ {p n} {i : Nat} {m s}, h.node p = some n → (sch n.cls)[i]? = some m → n.slots[i]? = some s → fits m s = true
  sub : ∀ {p n} {i q : Nat}, h.node p = some n → n.slots[i]? = some (.sub (some q)) →
    h.kind q = .owned p i ∧ ∃ m, h.node q = some m ∧ (sch n.cls)[i]? = some (.sub m.cls)
  elem : ∀ {p n} {i : Nat} {l o}, h.node p = some n → n.slots[i]? = some (.many l) → o ∈ l →
    ∃ e m, o = some e ∧ h.kind e = .elem ∧ h.node e = some m ∧ (sch n.cls)[i]? = some (.many m.cls)

theorem inv_empty : Inv sch empty := by
  constructor <;> intros <;> simp_all [empty]

theorem fresh_slot {c i : Nat} {s : Slot} (e : (fresh sch c).slots[i]? = some s) : ∃ m, (sch c)[i]? = some m ∧ s = m.default := by
  simp only [fresh, List.getElem?_map, Option.map_eq_some_iff] at e
  obtain ⟨m, a, b⟩ := e
  exact ⟨m, a, b.symm⟩

theorem inv_add {h : Store} (I : Inv sch h) {k : Kind} (hk : ∀ p i, k = .owned p i → p < h.next) (c : Nat) : Inv sch (h.add k (fresh sch c)) := by
  have old : ∀ {x n}, h.node x = some n → (h.add k (fresh sch c)).node x = some n ∧ (h.add k (fresh sch c)).kind x = h.kind x := by
    intro x n e
    have := I.lt e
    have : x ≠ h.next := by omega
    simp [Store.add, this, e]
  have cases : ∀ {x n}, (h.add k (fresh sch c)).node x = some n → (x = h.next ∧ n = fresh sch c) ∨ h.node x = some n := by
    intro x n e
    simp only [Store.add] at e
    split at e
    · exact .inl ⟨by assumption, by simpa using e.symm⟩
    · exact .inr e
  constructor
  · intro x n e
    rcases cases e with ⟨a, _⟩ | e
    · simp [Store.add, a]
    · have := I.lt e; simp [Store.add]; omega
  · intro x p i l e
    simp only [Store.add] at l e
    split at e
    · have := hk p i e; omega
    · exact I.low (by omega) e
  · intro x l
    simp only [Store.add] at l ⊢
    have : x ≠ h.next := by omega
    simp only [this, if_false]
    exact I.new (by omega)
  · intro p n e
    rcases cases e with ⟨_, a⟩ | e
    · simp [a, fresh]
    · exact I.len e
  · intro p n i m s e a b
    rcases cases e with ⟨_, f⟩ | e
    · subst f
      obtain ⟨m', u, w⟩ := fresh_slot b
      simp only [fresh] at a
      rw [u] at a
      cases a
      subst w
      cases m <;> rfl
    · exact I.typed e a b
  · intro p n i q e a
    rcases cases e with ⟨_, f⟩ | e
    · subst f
      obtain ⟨m', u, w⟩ := fresh_slot a
      cases m' <;> simp [Member.default] at w
    · obtain ⟨x, m, y, z⟩ := I.sub e a
      obtain ⟨o1, o2⟩ := old y
      exact ⟨by rw [o2, x], m, o1, z⟩
  · intro p n i l o e a b
    rcases cases e with ⟨_, f⟩ | e
    · subst f
      obtain ⟨m', u, w⟩ := fresh_slot a
      cases m' <;> simp [Member.default] at w
      subst w; simp at b
    · obtain ⟨x, m, y, z, u, w⟩ := I.elem e a b
      obtain ⟨o1, o2⟩ := old u
      exact ⟨x, m, y, by rw [o2, z], o1, w⟩

/-- The result of writing a member. -/
theorem put_node {h : Store} {p i : Nat} {s : Slot} {x : Nat} {n' : Node} (e : (h.put p i s).node x = some n') :
    (x = p ∧ ∃ n, h.node p = some n ∧ n' = { n with slots := n.slots.set i s }) ∨ (x ≠ p ∧ h.node x = some n') := by
  simp only [Store.put] at e
  split at e
  · rename_i a
    simp only [Option.map_eq_some_iff] at e
    obtain ⟨n, b, c⟩ := e
    exact .inl ⟨a, n, b, c.symm⟩
  · exact .inr ⟨by assumption, e⟩

theorem put_alive {h : Store} {p i : Nat} {s : Slot} {x : Nat} {n : Node} (e : h.node x = some n) :
    ∃ n', (h.put p i s).node x = some n' ∧ n'.cls = n.cls := by
  by_cases a : x = p
  · subst a; exact ⟨{ n with slots := n.slots.set i s }, by simp [Store.put, e], rfl⟩
  · exact ⟨n, by simp [Store.put, a, e], rfl⟩

theorem set_slot {l : List Slot} {i j : Nat} {s t : Slot} (e : (l.set i s)[j]? = some t) : (j = i ∧ t = s) ∨ (j ≠ i ∧ l[j]? = some t) := by
  rw [List.getElem?_set] at e
  by_cases a : i = j
  · subst a
    simp at e
    exact .inl ⟨rfl, e.2.symm⟩
  · simp [a] at e
    exact .inr ⟨fun b => a b.symm, e⟩

/-- Writing a member keeps the invariant. -/
theorem inv_put {h : Store} (I : Inv sch h) {p i : Nat} {s : Slot} {n : Node} (e : h.node p = some n)
    (ft : ∀ m, (sch n.cls)[i]? = some m → fits m s = true)
    (sb : ∀ q, s = .sub (some q) → h.kind q = .owned p i ∧ ∃ m, h.node q = some m ∧ (sch n.cls)[i]? = some (.sub m.cls))
    (el : ∀ l o, s = .many l → o ∈ l → ∃ x m, o = some x ∧ h.kind x = .elem ∧ h.node x = some m ∧ (sch n.cls)[i]? = some (.many m.cls)) :
    Inv sch (h.put p i s) := by
  constructor
  · intro x n' a
    rcases put_node a with ⟨b, _⟩ | ⟨_, b⟩
    · rw [b]; exact I.lt e
    · exact I.lt b
  · intro x q j a b
    exact I.low a b
  · intro x a
    exact I.new a
  · intro x n' a
    rcases put_node a with ⟨_, m, b, c⟩ | ⟨_, b⟩
    · subst c; simpa using I.len b
    · exact I.len b
  · intro x n' j m t a b c
    rcases put_node a with ⟨_, k, d, f⟩ | ⟨_, d⟩
    · rw [e] at d; cases d
      subst f
      rcases set_slot c with ⟨u, w⟩ | ⟨u, w⟩
      · subst u w; exact ft m b
      · exact I.typed e b w
    · exact I.typed d b c
  · intro x n' j q a b
    rcases put_node a with ⟨u, k, d, f⟩ | ⟨_, d⟩
    · rw [e] at d; cases d
      subst f u
      rcases set_slot b with ⟨u, w⟩ | ⟨u, w⟩
      · subst u
        obtain ⟨y, m, z, w'⟩ := sb q w.symm
        obtain ⟨m', z', c'⟩ := put_alive (p := x) (i := j) (s := s) z
        exact ⟨y, m', z', by rw [c']; exact w'⟩
      · obtain ⟨y, m, z, w'⟩ := I.sub e w
        obtain ⟨m', z', c'⟩ := put_alive (p := x) (i := i) (s := s) z
        exact ⟨y, m', z', by rw [c']; exact w'⟩
    · obtain ⟨y, m, z, w'⟩ := I.sub d b
      obtain ⟨m', z', c'⟩ := put_alive (p := p) (i := i) (s := s) z
      exact ⟨y, m', z', by rw [c']; exact w'⟩
  · intro x n' j l o a b c
    have up : ∀ {y : Nat} {m : Node} {k : Nat} , h.kind y = .elem → h.node y = some m → (sch k)[j]? = some (.many m.cls) → o = some y →
        ∃ y' m', o = some y' ∧ (h.put p i s).kind y' = .elem ∧ (h.put p i s).node y' = some m' ∧ (sch k)[j]? = some (.many m'.cls) := by
      intro y m k k1 k2 k3 k4
      obtain ⟨m', z', c'⟩ := put_alive (p := p) (i := i) (s := s) k2
      exact ⟨y, m', k4, k1, z', by rw [c']; exact k3⟩
    rcases put_node a with ⟨u, k, d, f⟩ | ⟨_, d⟩
    · rw [e] at d; cases d
      subst f
      rcases set_slot b with ⟨u, w⟩ | ⟨u, w⟩
      · subst u
        obtain ⟨y, m, k1, k2, k3, k4⟩ := el l o w.symm c
        exact up k2 k3 k4 k1
      · obtain ⟨y, m, k1, k2, k3, k4⟩ := I.elem e w c
        exact up k2 k3 k4 k1
    · obtain ⟨y, m, k1, k2, k3, k4⟩ := I.elem d b c
      exact up k2 k3 k4 k1

theorem sweep_node {h : Store} {x : Nat} {n : Node} (e : (sweepStep h).node x = some n) : h.node x = some n ∧ h.gone x = false := by
  simp only [sweepStep] at e
  split at e
  · cases e
  · exact ⟨e, by simpa using ‹¬ h.gone x = true›⟩

theorem refers_of {h : Store} (I : Inv sch h) {p i e : Nat} {n : Node} {l : List (Option Nat)} (a : h.node p = some n) (b : n.slots[i]? = some (.many l))
    (c : some e ∈ l) : h.refers e = true := by
  simp only [Store.refers, List.any_eq_true, List.mem_range]
  refine ⟨p, I.lt a, ?_⟩
  rw [a]
  simp only [List.any_eq_true]
  exact ⟨.many l, List.mem_of_getElem? b, by simpa using c⟩

theorem inv_sweepStep {h : Store} (I : Inv sch h) : Inv sch (sweepStep h) := by
  have keepsSub : ∀ {p n} {i q : Nat}, h.node p = some n → n.slots[i]? = some (.sub (some q)) → h.gone q = false := by
    intro p n i q a b
    obtain ⟨k, _⟩ := I.sub a b
    simp [Store.gone, k, a]
  constructor
  · intro x n e; exact I.lt (sweep_node e).1
  · intro x p i a b; exact I.low a b
  · intro x a; exact I.new a
  · intro p n e; exact I.len (sweep_node e).1
  · intro p n i m s e; exact I.typed (sweep_node e).1
  · intro p n i q e a
    have e' := (sweep_node e).1
    obtain ⟨k, m, u, w⟩ := I.sub e' a
    exact ⟨k, m, by simp [sweepStep, keepsSub e' a, u], w⟩
  · intro p n i l o e a b
    have e' := (sweep_node e).1
    obtain ⟨x, m, u, k, w, z⟩ := I.elem e' a b
    subst u
    have : h.gone x = false := by simp [Store.gone, k, refers_of I e' a b]
    exact ⟨x, m, rfl, k, by simp [sweepStep, this, w], z⟩

/-! ### Trees -/

/-- `x` is `r` or was made for a lazy pointer in something below `r`. -/
inductive Under (k : Nat → Kind) (r : Nat) : Nat → Prop
  | here : Under k r r
  | step {p q i : Nat} : Under k r p → k q = .owned p i → Under k r q

theorem Under.trans {k : Nat → Kind} {a b c : Nat} (x : Under k a b) (y : Under k b c) : Under k a c := by
  induction y with
  | here => exact x
  | step _ e ih => exact .step ih e

/-- An object below `r` is `r`, or its holder is below `r`. -/
theorem Under.up {k : Nat → Kind} {r p q i : Nat} (x : Under k r q) (e : k q = .owned p i) : q = r ∨ Under k r p := by
  cases x with
  | here => exact .inl rfl
  | step y f => rw [e] at f; cases f; exact .inr y

theorem Under.root {k : Nat → Kind} {r q : Nat} (x : Under k r q) (e : k q = .root) : q = r := by
  cases x with
  | here => rfl
  | step y f => rw [e] at f; cases f

theorem Under.le {h : Store} (I : Inv sch h) {r x : Nat} (u : Under h.kind r x) (l : x < h.next) : r ≤ x := by
  induction u with
  | here => exact Nat.le_refl _
  | step _ e ih => have := I.low l e; have := ih (by omega); omega

/-- Objects that are there before and after have the same holders. -/
theorem under_old {h h' : Store} (I : Inv sch h) (kd : ∀ x, x < h.next → h'.kind x = h.kind x) {r : Nat} :
    ∀ x, x < h.next → (Under h'.kind r x ↔ Under h.kind r x) := by
  intro x
  induction x using Nat.strongRecOn with
  | ind x ih =>
    intro l
    constructor
    · intro u
      cases u with
      | here => exact .here
      | step a b =>
        rw [kd x l] at b
        have := I.low l b
        exact .step ((ih _ this (by omega)).1 a) b
    · intro u
      cases u with
      | here => exact .here
      | step a b =>
        have := I.low l b
        exact .step ((ih _ this (by omega)).2 a) (by rw [kd x l]; exact b)

/-- What a variable holds through lazy pointers. -/
inductive Held (h : Store) : Nat → Prop
  | root {r : Nat} {n : Node} : h.kind r = .root → h.node r = some n → Held h r
  | sub {p q i : Nat} {n : Node} : Held h p → h.node p = some n → n.slots[i]? = some (.sub (some q)) → Held h q

theorem Held.alive {h : Store} (I : Inv sch h) {x : Nat} (a : Held h x) : ∃ n, h.node x = some n := by
  cases a with
  | root _ e => exact ⟨_, e⟩
  | sub _ e s => obtain ⟨_, m, u, _⟩ := I.sub e s; exact ⟨m, u⟩

/-! ### Frames -/

/-- `n'` is `n`, with new objects in place of some null pointers. -/
def Filled (b : Nat) (n n' : Node) : Prop :=
  n'.cls = n.cls ∧ n'.slots.length = n.slots.length ∧
    ∀ i : Nat, n'.slots[i]? = n.slots[i]? ∨ (n.slots[i]? = some (.sub none) ∧ ∃ q, n'.slots[i]? = some (.sub (some q)) ∧ b ≤ q)

theorem Filled.rfl' {b : Nat} {n : Node} : Filled b n n := ⟨rfl, rfl, fun _ => .inl rfl⟩

theorem Filled.trans {b b' : Nat} {n m k : Node} (l : b ≤ b') (x : Filled b n m) (y : Filled b' m k) : Filled b n k := by
  refine ⟨y.1.trans x.1, y.2.1.trans x.2.1, fun i => ?_⟩
  rcases x.2.2 i with a | ⟨a, q, c, d⟩
  · rcases y.2.2 i with e | ⟨e, q, f, g⟩
    · exact .inl (e.trans a)
    · exact .inr ⟨a ▸ e, q, f, Nat.le_trans l g⟩
  · rcases y.2.2 i with e | ⟨e, _⟩
    · exact .inr ⟨a, q, e.trans c, d⟩
    · rw [c] at e; cases e

/-- A step that writes only below `r`. -/
structure Frame (sch : Schema) (r : Nat) (h h' : Store) : Prop where
  next : h.next ≤ h'.next
  kind : ∀ x, x < h.next → h'.kind x = h.kind x
  own : ∀ {x n'}, x < h.next → ¬ Under h.kind r x → h'.node x = some n' → ∃ n, h.node x = some n ∧ Filled h.next n n'
  dead : ∀ {x}, x < h.next → h.node x = none → h'.node x = none
  blank : ∀ {x n'}, h.next ≤ x → ¬ Under h'.kind r x → h'.node x = some n' → Filled h.next (fresh sch n'.cls) n'
  held : ∀ {x}, Held h x → Held h' x
  cls : ∀ {x n n'}, h.node x = some n → h'.node x = some n' → n'.cls = n.cls

theorem Frame.refl {r : Nat} {h : Store} (I : Inv sch h) : Frame sch r h h where
  next := Nat.le_refl _
  kind _ _ := rfl
  own _ _ e := ⟨_, e, Filled.rfl'⟩
  dead _ e := e
  blank a _ e := by have := I.lt e; omega
  held x := x
  cls a b := by rw [a] at b; cases b; rfl

theorem Frame.trans {r : Nat} {h h1 h2 : Store} (I : Inv sch h) (I1 : Inv sch h1) (a : Frame sch r h h1) (b : Frame sch r h1 h2) :
    Frame sch r h h2 where
  next := Nat.le_trans a.next b.next
  kind x l := (b.kind x (Nat.lt_of_lt_of_le l a.next)).trans (a.kind x l)
  own {x n'} l u e := by
    have l1 := Nat.lt_of_lt_of_le l a.next
    obtain ⟨m, c, d⟩ := b.own l1 (fun w => u ((under_old I a.kind x l).1 w)) e
    obtain ⟨n, f, g⟩ := a.own l u c
    exact ⟨n, f, g.trans a.next d⟩
  dead {x} l e := b.dead (Nat.lt_of_lt_of_le l a.next) (a.dead l e)
  blank {x n'} l u e := by
    by_cases c : x < h1.next
    · have u1 : ¬ Under h1.kind r x := fun w => u ((under_old I1 b.kind x c).2 w)
      obtain ⟨m, d, f⟩ := b.own c u1 e
      have g := a.blank l u1 d
      rw [f.1]
      exact g.trans a.next f
    · have g := b.blank (by omega) u e
      exact ⟨g.1, g.2.1, fun i => (g.2.2 i).imp id fun ⟨w, q, z, y⟩ => ⟨w, q, z, Nat.le_trans a.next y⟩⟩
  held x := b.held (a.held x)
  cls {x n n'} e f := by
    cases g : h1.node x with
    | none => have := b.dead (Nat.lt_of_lt_of_le (I.lt e) a.next) g; rw [f] at this; cases this
    | some m => exact (b.cls g f).trans (a.cls e g)

/-- Writing below something below `r` is writing below `r`. -/
theorem Frame.mono {r s : Nat} {h h' : Store} (I : Inv sch h) (a : Frame sch s h h') (ls : s < h.next) (u : Under h.kind r s) : Frame sch r h h' where
  next := a.next
  kind := a.kind
  own l w := a.own l fun z => w (u.trans z)
  dead := a.dead
  blank l w := a.blank l fun z => w (((under_old I a.kind s ls).2 u).trans z)
  held := a.held
  cls := a.cls

theorem frame_add {r : Nat} {h : Store} (I : Inv sch h) {k : Kind} (c : Nat) : Frame sch r h (h.add k (fresh sch c)) := by
  have old : ∀ {x}, x < h.next → (h.add k (fresh sch c)).node x = h.node x := by
    intro x l
    have : x ≠ h.next := by omega
    simp [Store.add, this]
  constructor
  · simp [Store.add]
  · intro x l
    have : x ≠ h.next := by omega
    simp [Store.add, this]
  · intro x n' l _ e
    rw [old l] at e
    exact ⟨n', e, Filled.rfl'⟩
  · intro x l e; rw [old l]; exact e
  · intro x n' l _ e
    by_cases a : x = h.next
    · simp only [Store.add, a, if_true, Option.some.injEq] at e
      subst e
      exact Filled.rfl'
    · simp only [Store.add, a, if_false] at e
      have := I.lt e; omega
  · intro x w
    induction w with
    | root a b =>
      have l := I.lt b
      have ne : ∀ {x}, x < h.next → x ≠ h.next := fun l => by omega
      exact .root (by simp [Store.add, ne l, a]) ((old l).trans b)
    | sub a b d ih => exact .sub ih ((old (I.lt b)).trans b) d
  · intro x n n' a b
    rw [old (I.lt a), a] at b; cases b; rfl

theorem held_put {h : Store} {p i : Nat} {s : Slot} (np : ∀ n q, h.node p = some n → n.slots[i]? = some (.sub (some q)) → False) {x : Nat} (w : Held h x) :
    Held (h.put p i s) x := by
  induction w with
  | root a b =>
    obtain ⟨n', c, _⟩ := put_alive (p := p) (i := i) (s := s) b
    exact .root a c
  | @sub y q j n _ b d ih =>
    by_cases e : y = p
    · subst e
      have : i ≠ j := fun e => by subst e; exact np _ _ b d
      refine .sub ih (n := { n with slots := n.slots.set i s }) (by simp [Store.put, b]) (i := j) ?_
      rw [List.getElem?_set_ne this]; exact d
    · exact .sub ih (by simp only [Store.put, e, if_false]; exact b) d

/-- Writing a member that holds no sub-message. -/
theorem frame_put {h : Store} (I : Inv sch h) {p i : Nat} {s : Slot}
    (np : ∀ n q, h.node p = some n → n.slots[i]? = some (.sub (some q)) → False) : Frame sch p h (h.put p i s) := by
  constructor
  · exact Nat.le_refl _
  · intro _ _; rfl
  · intro x n' _ u e
    rcases put_node e with ⟨a, _⟩ | ⟨_, a⟩
    · subst a; exact (u .here).elim
    · exact ⟨n', a, Filled.rfl'⟩
  · intro x _ e
    simp only [Store.put]
    split
    · rename_i a; rw [← a, e]; rfl
    · exact e
  · intro x n' l u e
    rcases put_node e with ⟨a, _⟩ | ⟨_, a⟩
    · subst a; exact (u .here).elim
    · have := I.lt a; omega
  · intro x w; exact held_put np w
  · intro x n n' a b
    obtain ⟨m, c, d⟩ := put_alive (p := p) (i := i) (s := s) a
    rw [c] at b; cases b; exact d

theorem frame_sweepStep {r : Nat} {h : Store} (I : Inv sch h) : Frame sch r h (sweepStep h) := by
  constructor
  · exact Nat.le_refl _
  · intro _ _; rfl
  · intro x n' _ _ e; exact ⟨n', (sweep_node e).1, Filled.rfl'⟩
  · intro x _ e; simp [sweepStep, e]
  · intro x n' l _ e; have := I.lt (sweep_node e).1; omega
  · intro x w
    induction w with
    | root a b => exact .root a (by simp [sweepStep, Store.gone, a]; exact b)
    | @sub p q i n _ b c ih =>
      obtain ⟨m, d⟩ := ih.alive (inv_sweepStep I)
      have := (sweep_node d).1
      rw [b] at this; cases this
      exact .sub ih d c
  · intro x n n' a b
    rw [(sweep_node b).1] at a; cases a; rfl

theorem sweepN_ok {r : Nat} : ∀ (k : Nat) {h : Store}, Inv sch h → Inv sch (sweepN k h) ∧ Frame sch r h (sweepN k h)
  | 0, _, I => ⟨I, Frame.refl I⟩
  | k + 1, _, I => by
    obtain ⟨a, b⟩ := sweepN_ok (r := r) k (inv_sweepStep I)
    exact ⟨a, Frame.trans I (inv_sweepStep I) (frame_sweepStep I) b⟩

theorem inv_sweep {h : Store} (I : Inv sch h) : Inv sch (sweep h) := (sweepN_ok (r := 0) _ I).1
theorem frame_sweep {r : Nat} {h : Store} (I : Inv sch h) : Frame sch r h (sweep h) := (sweepN_ok _ I).2

/-- Reading a lazy pointer. -/
theorem get_ok {h h' : Store} {p i q : Nat} (I : Inv sch h) (e : get sch h p i = .ok (h', q)) :
    Inv sch h' ∧ (∀ r, Frame sch r h h') ∧ ∃ n n' c, h.node p = some n ∧ h'.node p = some n' ∧ n'.slots[i]? = some (.sub (some q)) ∧
      (sch n.cls)[i]? = some (.sub c) ∧ h'.cls q = some c ∧ Filled h.next n n' ∧
      (∀ j, j ≠ i → n'.slots[j]? = n.slots[j]?) := by
  unfold get at e
  split at e
  · cases e
  · rename_i n hn
    split at e
    · rename_i q' hs
      cases e
      obtain ⟨k, m, u, w⟩ := I.sub hn hs
      exact ⟨I, fun _ => Frame.refl I, n, n, m.cls, hn, hn, hs, w, by simp [Store.cls, u], Filled.rfl', fun _ _ => rfl⟩
    · rename_i c hs hc
      cases e
      have lp := I.lt hn
      have I1 := inv_add I (k := .owned p i) (by intro a b e; cases e; exact lp) c
      have ne : p ≠ h.next := by omega
      have hn1 : (h.add (.owned p i) (fresh sch c)).node p = some n := by simp [Store.add, ne, hn]
      have new : (h.add (.owned p i) (fresh sch c)).node h.next = some (fresh sch c) := by simp [Store.add]
      have hn2 : ((h.add (.owned p i) (fresh sch c)).put p i (.sub (some h.next))).node p = some { n with slots := n.slots.set i (.sub (some h.next)) } := by
        simp [Store.put, hn1]
      have li : i < n.slots.length := by
        have := List.getElem?_eq_some_iff.1 hs
        exact this.1
      have I2 : Inv sch ((h.add (.owned p i) (fresh sch c)).put p i (.sub (some h.next))) := by
        refine inv_put I1 hn1 ?_ ?_ ?_
        · intro m e; rw [hc] at e; cases e; rfl
        · intro q e
          cases e
          exact ⟨by simp [Store.add], _, new, by simpa [fresh] using hc⟩
        · intro l o e; cases e
      have fl : Filled h.next n { n with slots := n.slots.set i (.sub (some h.next)) } := by
        refine ⟨rfl, by simp, fun j => ?_⟩
        by_cases a : i = j
        · subst a
          exact .inr ⟨hs, h.next, by simp [li], Nat.le_refl _⟩
        · exact .inl (by simp [a])
      refine ⟨I2, fun r => ?_, n, _, c, hn, hn2, by simp [li], hc, ?_, fl, fun j a => by simp [Ne.symm a]⟩
      · constructor
        · simp [Store.put, Store.add]
        · intro x l
          have : x ≠ h.next := by omega
          simp [Store.put, Store.add, this]
        · intro x n' l _ e
          rcases put_node e with ⟨a, _⟩ | ⟨_, a⟩
          · subst a; rw [hn2] at e; cases e; exact ⟨n, hn, fl⟩
          · have : x ≠ h.next := by omega
            simp only [Store.add, this, if_false] at a
            exact ⟨n', a, Filled.rfl'⟩
        · intro x l e
          have a : x ≠ h.next := by omega
          have b : x ≠ p := fun b => by rw [b, hn] at e; cases e
          simp [Store.put, Store.add, a, b, e]
        · intro x n' l _ e
          rcases put_node e with ⟨a, _⟩ | ⟨_, a⟩
          · omega
          · by_cases b : x = h.next
            · simp only [Store.add, b, if_true, Option.some.injEq] at a
              subst a; exact Filled.rfl'
            · simp only [Store.add, b, if_false] at a
              have := I.lt a; omega
        · intro x w
          refine held_put ?_ ((frame_add (r := r) I c).held w)
          intro m q a b
          rw [hn1] at a; cases a
          rw [hs] at b; cases b
        · intro x m m' a b
          have l := I.lt a
          have ne : x ≠ h.next := by omega
          have a1 : (h.add (.owned p i) (fresh sch c)).node x = some m := by simp [Store.add, ne, a]
          obtain ⟨m2, c2, d2⟩ := put_alive (p := p) (i := i) (s := .sub (some h.next)) a1
          rw [c2] at b; cases b; exact d2
      · obtain ⟨m2, c2, d2⟩ := put_alive (p := p) (i := i) (s := .sub (some h.next)) new
        simp only [Store.cls, c2, Option.map_some, d2]; rfl
    · cases e

end QtPb.Heap
