import Verif.HeapProofs
/-
Lemmas for C102: what is seen of messages before and after a step.
-/
namespace QtPb.Heap
variable {sch : Schema}

theorem incomp_child {k : Nat → Kind} {r x q j : Nat} (e : k q = .owned x j) (a : ¬ Under k r x) (b : ¬ Under k x r) : ¬ Under k r q ∧ ¬ Under k q r := by
  refine ⟨fun u => ?_, fun u => b ((Under.step .here e).trans u)⟩
  rcases u.up e with w | w
  · subst w; exact b (.step .here e)
  · exact a w

theorem seen_dflt (h h' : Store) : ∀ (path : List Nat) (c k : Nat), seen sch h (.dflt c) path k = seen sch h' (.dflt c) path k
  | [], c, k => rfl
  | j :: path, c, k => by
    simp only [seen, nodeOf]
    cases e : (fresh sch c).slots[j]? with
    | none => rfl
    | some s =>
      obtain ⟨m, a, b⟩ := fresh_slot e
      subst b
      cases m with
      | value => rfl
      | many _ => rfl
      | sub d =>
        simp only [Member.default, fresh, a, viewOf]
        exact seen_dflt h h' path d k

/-- An object that was made meanwhile, outside of what was written to, is empty. -/
theorem blank_seen {r : Nat} {h h' : Store} (I' : Inv sch h') (F : Frame sch r h h') : ∀ (path : List Nat) {x : Nat} {n' : Node} (k : Nat), h.next ≤ x →
    ¬ Under h'.kind r x → ¬ Under h'.kind x r → h'.node x = some n' → seen sch h' (.obj x) path k = seen sch h' (.dflt n'.cls) path k
  | [], x, n', k, l, a, b, e => by
    simp only [seen, nodeOf, e]
    rcases (F.blank l a e).2.2 k with f | ⟨f, q, g, _⟩
    · rw [f]
    · rw [f, g]; rfl
  | j :: path, x, n', k, l, a, b, e => by
    rcases (F.blank l a e).2.2 j with f | ⟨f, q, g, _⟩
    · simp only [seen, nodeOf, e, f]; rfl
    · obtain ⟨kd, m, u, w⟩ := I'.sub e g
      obtain ⟨a', b'⟩ := incomp_child kd a b
      have lo := I'.low (I'.lt u) kd
      have ih := blank_seen I' F path k (x := q) (by omega) a' b' u
      have w' : (sch (fresh sch n'.cls).cls)[j]? = some (.sub m.cls) := w
      simp only [seen, nodeOf, e, f, g, w, w', viewOf]
      exact ih

/-- What was not written to is seen as before. -/
theorem seen_frame {r : Nat} {h h' : Store} (I : Inv sch h) (I' : Inv sch h') (F : Frame sch r h h') : ∀ (path : List Nat) {x : Nat} {n' : Node} (k : Nat),
    x < h.next → ¬ Under h'.kind r x → ¬ Under h'.kind x r → h'.node x = some n' → seen sch h' (.obj x) path k = seen sch h (.obj x) path k
  | [], x, n', k, l, a, b, e => by
    obtain ⟨n, f, _, _, g⟩ := F.own l (fun u => a ((under_old I F.kind x l).2 u)) e
    simp only [seen, nodeOf, e, f]
    rcases g k with u | ⟨u, q, w, _⟩
    · rw [u]
    · rw [u, w]; rfl
  | j :: path, x, n', k, l, a, b, e => by
    obtain ⟨n, f, cl, _, g⟩ := F.own l (fun u => a ((under_old I F.kind x l).2 u)) e
    simp only [seen, nodeOf, e, f, cl]
    rcases g j with u | ⟨u, q, w, bq⟩
    · rw [u]
      split
      · rename_i p c hp hc
        cases p with
        | none => exact seen_dflt h' h path c k
        | some q =>
          obtain ⟨_, m, lm, _⟩ := I.sub f hp
          rw [hp] at u
          obtain ⟨kd, m', lm', _⟩ := I'.sub e u
          obtain ⟨a', b'⟩ := incomp_child kd a b
          exact seen_frame I I' F path k (I.lt lm) a' b' lm'
      · rfl
    · obtain ⟨kd, m', lm', ty⟩ := I'.sub e w
      rw [cl] at ty
      obtain ⟨a', b'⟩ := incomp_child kd a b
      simp only [u, w, ty, viewOf]
      rw [blank_seen I' F path k bq a' b' lm']
      exact seen_dflt h' h path _ k

/-- Steps that only fill in null pointers change nothing that is seen. -/
theorem seen_fill {h h' : Store} (I : Inv sch h) (I' : Inv sch h') (F : ∀ r, Frame sch r h h') (path : List Nat) {x : Nat} {n' : Node} (k : Nat)
    (l : x < h.next) (e : h'.node x = some n') : seen sch h' (.obj x) path k = seen sch h (.obj x) path k := by
  have lx := I'.lt e
  refine seen_frame I I' (F h'.next) path k l ?_ ?_ e
  · intro u
    have := u.le I' lx
    omega
  · intro u
    have := u.root (I'.new (Nat.le_refl _))
    omega

/-- What is seen depends on the objects that are followed only. -/
theorem seen_agree {h h' : Store} (P : Nat → Prop) (closed : ∀ {z n} {i q : Nat}, P z → h.node z = some n → n.slots[i]? = some (.sub (some q)) → P q)
    (agree : ∀ {z}, P z → h'.node z = h.node z) : ∀ (path : List Nat) (v : View) (k : Nat), (∀ p, v = .obj p → P p) →
    seen sch h' v path k = seen sch h v path k
  | [], v, k, a => by
    cases v with
    | dflt c => rfl
    | obj p => simp only [seen, nodeOf, agree (a p rfl)]
  | j :: path, v, k, a => by
    cases v with
    | dflt c => exact seen_dflt _ _ _ _ _
    | obj p =>
      simp only [seen, nodeOf, agree (a p rfl)]
      cases e : h.node p with
      | none => rfl
      | some n =>
        simp only
        split
        · rename_i q c hq hc
          refine seen_agree P closed agree path _ k ?_
          intro z hz
          cases q with
          | none => cases hz
          | some q => cases hz; exact closed (a p rfl) e hq
        · rfl

theorem seen_sweepStep {h : Store} (I : Inv sch h) (path : List Nat) {x : Nat} {n : Node} (k : Nat) (e : (sweepStep h).node x = some n) :
    seen sch (sweepStep h) (.obj x) path k = seen sch h (.obj x) path k := by
  refine seen_agree (fun z => ∃ n, (sweepStep h).node z = some n) ?_ ?_ path _ k ?_
  · intro z n i q ⟨m, a⟩ b c
    have := (sweep_node a).1
    rw [b] at this; cases this
    obtain ⟨_, m', d, _⟩ := (inv_sweepStep I).sub a c
    exact ⟨m', d⟩
  · intro z ⟨m, a⟩
    rw [a, (sweep_node a).1]
  · intro p hp; cases hp; exact ⟨n, e⟩

theorem seen_sweepN (path : List Nat) (k : Nat) {x : Nat} : ∀ (i : Nat) {h : Store} {n : Node}, Inv sch h → (sweepN i h).node x = some n →
    seen sch (sweepN i h) (.obj x) path k = seen sch h (.obj x) path k ∧ h.node x = some n
  | 0, h, n, _, e => ⟨rfl, e⟩
  | i + 1, h, n, I, e => by
    obtain ⟨a, b⟩ := seen_sweepN path k i (inv_sweepStep I) e
    exact ⟨a.trans (seen_sweepStep I path k b), (sweep_node b).1⟩

/-! ### Comparing -/

theorem view_child {h : Store} (I : Inv sch h) {v : View} {x : Node} {j c : Nat} {p : Option Nat} (e : nodeOf sch h v = some x)
    (a : x.slots[j]? = some (.sub p)) (b : (sch x.cls)[j]? = some (.sub c)) : ∃ m, nodeOf sch h (viewOf c p) = some m ∧ m.cls = c := by
  cases p with
  | none => exact ⟨_, rfl, rfl⟩
  | some q =>
    cases v with
    | obj z =>
      obtain ⟨_, m, u, w⟩ := I.sub e a
      rw [b] at w; cases w
      exact ⟨m, u, rfl⟩
    | dflt d =>
      cases e
      obtain ⟨m, _, w⟩ := fresh_slot a
      cases m <;> cases w

theorem sameSlots_true {rec : View → View → Res Bool} : ∀ {ms : List Member} {as bs : List Slot}, sameSlots rec ms as bs = .ok true → ∀ i : Nat,
    (ms[i]? = none ∧ as[i]? = none ∧ bs[i]? = none) ∨
    (∃ a, ms[i]? = some .value ∧ as[i]? = some (.value a) ∧ bs[i]? = some (.value a)) ∨
    (∃ c p q, ms[i]? = some (.sub c) ∧ as[i]? = some (.sub p) ∧ bs[i]? = some (.sub q) ∧ lazySame rec c p q = .ok true) ∨
    (∃ c l l', ms[i]? = some (.many c) ∧ as[i]? = some (.many l) ∧ bs[i]? = some (.many l') ∧ l.length = l'.length ∧ sameElems rec l l' = .ok true)
  | ms, as, bs, e, i => by
    unfold sameSlots at e
    split at e
    · split at e
      · rename_i ab
        subst ab
        cases i with
        | zero => exact .inr (.inl ⟨_, rfl, rfl, rfl⟩)
        | succ i => simpa using sameSlots_true e i
      · cases e
    · obtain ⟨r, u, w⟩ := Res.bind_eq_ok.1 e
      split at w
      · rename_i hr
        subst hr
        cases i with
        | zero => exact .inr (.inr (.inl ⟨_, _, _, rfl, rfl, rfl, u⟩))
        | succ i => simpa using sameSlots_true w i
      · cases w
    · split at e
      · cases e
      · rename_i ll
        obtain ⟨r, u, w⟩ := Res.bind_eq_ok.1 e
        split at w
        · rename_i hr
          subst hr
          cases i with
          | zero => exact .inr (.inr (.inr ⟨_, _, _, rfl, rfl, rfl, by simpa using ll, u⟩))
          | succ i => simpa using sameSlots_true w i
        · cases w
    · exact .inl ⟨rfl, rfl, rfl⟩
    · cases e

/-- An outcome that is a value, or not reached. -/
def Fine {α : Type} (r : Res α) : Prop := r = .fuel ∨ ∃ a, r = .ok a

theorem Fine.ok {α : Type} (a : α) : Fine (.ok a) := .inr ⟨a, rfl⟩

theorem Fine.bind {α β : Type} {r : Res α} {f : α → Res β} (a : Fine r) (b : ∀ x, r = .ok x → Fine (f x)) : Fine (r.bind f) := by
  rcases a with a | ⟨x, a⟩
  · subst a; exact .inl rfl
  · subst a; exact b x rfl

theorem sameElems_fine {rec : View → View → Res Bool} : ∀ {l l' : List (Option Nat)},
    (∀ o ∈ l, ∀ o' ∈ l', ∃ x y, o = some x ∧ o' = some y ∧ Fine (rec (.obj x) (.obj y))) → Fine (sameElems rec l l')
  | [], [], _ => .ok _
  | [], _ :: _, _ => .ok _
  | _ :: _, [], _ => .ok _
  | p :: as, q :: bs, H => by
    unfold sameElems
    have rest : Fine (sameElems rec as bs) := sameElems_fine fun o a o' b => H o (.tail _ a) o' (.tail _ b)
    split
    · exact rest
    · obtain ⟨x, y, ex, ey, f⟩ := H p (.head _) q (.head _)
      subst ex ey
      refine f.bind fun r _ => ?_
      split
      · exact rest
      · exact .ok _

theorem sameSlots_fine {rec : View → View → Res Bool} : ∀ {ms : List Member} {as bs : List Slot}, as.length = ms.length → bs.length = ms.length →
    (∀ (i : Nat) m s, ms[i]? = some m → as[i]? = some s → fits m s = true) → (∀ (i : Nat) m s, ms[i]? = some m → bs[i]? = some s → fits m s = true) →
    (∀ (i : Nat) c p q, ms[i]? = some (.sub c) → as[i]? = some (.sub p) → bs[i]? = some (.sub q) → Fine (lazySame rec c p q)) →
    (∀ (i : Nat) c l l', ms[i]? = some (.many c) → as[i]? = some (.many l) → bs[i]? = some (.many l') → Fine (sameElems rec l l')) →
    Fine (sameSlots rec ms as bs)
  | [], [], [], _, _, _, _, _, _ => .ok _
  | m :: ms, s :: as, t :: bs, la, lb, fa, fb, H, H' => by
    have rest : Fine (sameSlots rec ms as bs) :=
      sameSlots_fine (by simpa using la) (by simpa using lb) (fun i m s a b => fa (i + 1) m s (by simpa using a) (by simpa using b))
        (fun i m s a b => fb (i + 1) m s (by simpa using a) (by simpa using b))
        (fun i c p q a b d => H (i + 1) c p q (by simpa using a) (by simpa using b) (by simpa using d))
        (fun i c p q a b d => H' (i + 1) c p q (by simpa using a) (by simpa using b) (by simpa using d))
    have f1 := fa 0 m s rfl rfl
    have f2 := fb 0 m t rfl rfl
    have g1 := H 0
    have g2 := H' 0
    cases m <;> cases s <;> simp [fits] at f1 <;> cases t <;> simp [fits] at f2
    · unfold sameSlots
      split
      · exact rest
      · exact .ok _
    · unfold sameSlots
      refine (g1 _ _ _ rfl rfl rfl).bind fun r _ => ?_
      split
      · exact rest
      · exact .ok _
    · unfold sameSlots
      split
      · exact .ok _
      · refine (g2 _ _ _ rfl rfl rfl).bind fun r _ => ?_
        split
        · exact rest
        · exact .ok _
  | [], _ :: _, _, la, _, _, _, _, _ => by simp at la
  | [], [], _ :: _, _, lb, _, _, _, _ => by simp at lb
  | _ :: _, [], _, la, _, _, _, _, _ => by simp at la
  | _ :: _, _ :: _, [], _, lb, _, _, _, _ => by simp at lb

/-- What the invariant says about objects holds of empty messages as well. -/
theorem view_typed {h : Store} (I : Inv sch h) {v : View} {x : Node} (e : nodeOf sch h v = some x) :
    x.slots.length = (sch x.cls).length ∧ (∀ (i : Nat) m s, (sch x.cls)[i]? = some m → x.slots[i]? = some s → fits m s = true) ∧
    ∀ (i : Nat) l o, x.slots[i]? = some (.many l) → o ∈ l → ∃ z m, o = some z ∧ h.node z = some m ∧ (sch x.cls)[i]? = some (.many m.cls) := by
  cases v with
  | obj p =>
    exact ⟨I.len e, fun i m s a b => I.typed e a b, fun i l o a b => by
      obtain ⟨z, m, u, _, w, y⟩ := I.elem e a b
      exact ⟨z, m, u, w, y⟩⟩
  | dflt c =>
    cases e
    refine ⟨by simp [fresh], fun i m s a b => ?_, fun i l o a b => ?_⟩
    · obtain ⟨m', u, w⟩ := fresh_slot b
      simp only [fresh] at a
      rw [u] at a; cases a
      subst w
      cases m <;> rfl
    · obtain ⟨m', u, w⟩ := fresh_slot a
      cases m' <;> cases w
      cases b

/-- Comparing messages of one class is defined. -/
theorem same_fine {h : Store} (I : Inv sch h) : ∀ (n : Nat) {a b : View} {x y : Node}, nodeOf sch h a = some x → nodeOf sch h b = some y → x.cls = y.cls →
    Fine (same sch h n a b)
  | 0, _, _, _, _, _, _, _ => .inl rfl
  | n + 1, a, b, x, y, ha, hb, cl => by
    simp only [same, ha, hb]
    obtain ⟨la, fa, ea⟩ := view_typed I ha
    obtain ⟨lb, fb, eb⟩ := view_typed I hb
    refine sameSlots_fine la (by rw [lb, cl]) fa (by rw [cl]; exact fb) ?_ ?_
    · intro i c p q t u w
      obtain ⟨m, m1, m2⟩ := view_child I ha u t
      obtain ⟨m', m1', m2'⟩ := view_child I hb w (by rw [← cl]; exact t)
      unfold lazySame
      split
      · exact .ok _
      · exact same_fine I n m1 m1' (by rw [m2, m2'])
    · intro i c l l' t u w
      refine sameElems_fine fun o ho o' ho' => ?_
      obtain ⟨z, m, e1, e2, e3⟩ := ea i l o u ho
      obtain ⟨z', m', e1', e2', e3'⟩ := eb i l' o' w ho'
      refine ⟨z, z', e1, e1', same_fine I n (a := .obj z) (b := .obj z') e2 e2' ?_⟩
      rw [← cl, e3] at e3'
      simpa using e3'

end QtPb.Heap
