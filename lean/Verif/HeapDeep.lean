import Verif.HeapSeen
/-
What is seen through the elements of lists (for C102).
-/
namespace QtPb.Heap
variable {sch : Schema}

theorem through_subs {h : Store} : ∀ (f : List Nat) (v : View) (k : Nat), through sch h v (f.map .sub) k = seen sch h v f k
  | [], _, _ => rfl
  | j :: f, v, k => by
    simp only [List.map_cons, through, seen]
    split
    · split
      · exact through_subs f _ k
      · rfl
    · rfl

/-- One element of a list, and what follows. -/
def throughList (sch : Schema) (h : Store) (s : Option Sight) (e : Nat) (rest : List Step) (k : Nat) : Option Sight :=
  match s with
  | some (.many l) => match l[e]? with
    | some (some x) => through sch h (.obj x) rest k
    | _ => none
  | _ => none

theorem through_elem {h : Store} (i e : Nat) (rest : List Step) (k : Nat) : ∀ (f : List Nat) (v : View),
    through sch h v (f.map .sub ++ .elem i e :: rest) k = throughList sch h (seen sch h v f i) e rest k
  | [], _ => rfl
  | j :: f, v => by
    simp only [List.map_cons, List.cons_append, through, seen]
    cases nodeOf sch h v with
    | none => rfl
    | some n =>
      simp only
      split
      · exact through_elem i e rest k f _
      · rfl

/-- Steps begin with sub-messages. -/
theorem steps_split : ∀ steps : List Step, (∃ f : List Nat, steps = f.map .sub) ∨
    ∃ (f : List Nat) (i e : Nat) (rest : List Step), steps = f.map .sub ++ .elem i e :: rest ∧ rest.length < steps.length
  | [] => .inl ⟨[], rfl⟩
  | .elem i e :: rest => .inr ⟨[], i, e, rest, rfl, by simp⟩
  | .sub j :: steps => by
    rcases steps_split steps with ⟨f, a⟩ | ⟨f, i, e, rest, a, b⟩
    · exact .inl ⟨j :: f, by rw [a]; rfl⟩
    · exact .inr ⟨j :: f, i, e, rest, by rw [a]; rfl, by simp; omega⟩

/-- Two objects look the same, also through elements of lists. -/
def Deep (sch : Schema) (h : Store) (v : View) (h' : Store) (v' : View) : Prop :=
  ∀ steps k, (through sch h v steps k).map Sight.look = (through sch h' v' steps k).map Sight.look

/-- The same value, or lists whose elements look the same. -/
structure Alike (sch : Schema) (h : Store) (s s' : Option Sight) : Prop where
  look : s.map Sight.look = s'.map Sight.look
  deep : ∀ {l l' : List (Option Nat)} {e x y : Nat}, s = some (.many l) → s' = some (.many l') → l[e]? = some (some x) → l'[e]? = some (some y) →
    Deep sch h (.obj x) h (.obj y)
  null : ∀ {l l' : List (Option Nat)} {e : Nat}, s = some (.many l) → s' = some (.many l') → (l[e]? = some none ↔ l'[e]? = some none)

theorem Alike.refl {h : Store} (s : Option Sight) : Alike sch h s s where
  look := rfl
  deep a b c d := by
    rw [a] at b; cases b
    rw [c] at d; cases d
    exact fun _ _ => rfl
  null a b := by rw [a] at b; cases b; rfl

theorem Alike.of_eq {h : Store} {s s' : Option Sight} (e : s = s') : Alike sch h s s' := e ▸ Alike.refl s

theorem Alike.list {h : Store} {s s' : Option Sight} (A : Alike sch h s s') (e : Nat) (rest : List Step) (k : Nat) :
    (throughList sch h s e rest k).map Sight.look = (throughList sch h s' e rest k).map Sight.look := by
  have lk := A.look
  have dp := @A.deep
  have nl := @A.null
  cases s with
  | none => cases s' with
    | none => rfl
    | some _ => cases lk
  | some s =>
    cases s' with
    | none => cases lk
    | some s' =>
      cases s <;> cases s' <;> simp [Sight.look] at lk
      · rfl
      · rename_i l l'
        simp only [throughList]
        have nl := nl (l := l) (l' := l') (e := e) rfl rfl
        cases a : l[e]? with
        | none =>
          have : l'[e]? = none := by
            have := List.getElem?_eq_none_iff.1 a
            exact List.getElem?_eq_none (by omega)
          rw [this]
        | some o =>
          cases b : l'[e]? with
          | none =>
            have := List.getElem?_eq_none_iff.1 b
            have := (List.getElem?_eq_some_iff.1 a).1
            omega
          | some o' =>
            rw [a, b] at nl
            cases o <;> cases o' <;> simp at nl
            · rfl
            · exact dp rfl rfl a b rest k

/-- Objects whose members are alike look the same through elements as well. -/
theorem deep_of {h : Store} {a b : View} (A : ∀ path k, Alike sch h (seen sch h a path k) (seen sch h b path k)) : Deep sch h a h b := by
  intro steps k
  rcases steps_split steps with ⟨f, rfl⟩ | ⟨f, i, e, rest, rfl, _⟩
  · rw [through_subs, through_subs]; exact (A f k).look
  · rw [through_elem, through_elem]; exact (A f i).list e rest k

/-! ### Comparing -/

theorem sameElems_true {rec : View → View → Res Bool} : ∀ {l l' : List (Option Nat)}, l.length = l'.length → sameElems rec l l' = .ok true → ∀ e : Nat,
    l[e]? = l'[e]? ∨ ∃ x y, l[e]? = some (some x) ∧ l'[e]? = some (some y) ∧ rec (.obj x) (.obj y) = .ok true
  | [], [], _, _, _ => .inl rfl
  | [], _ :: _, l, _, _ => by simp at l
  | _ :: _, [], l, _, _ => by simp at l
  | p :: as, q :: bs, l, w, e => by
    have ll : as.length = bs.length := by simpa using l
    unfold sameElems at w
    split at w
    · rename_i pq
      subst pq
      cases e with
      | zero => exact .inl rfl
      | succ e => simpa using sameElems_true ll w e
    · split at w
      · obtain ⟨r, u, v⟩ := Res.bind_eq_ok.1 w
        split at v
        · rename_i hr
          subst hr
          cases e with
          | zero => exact .inr ⟨_, _, rfl, rfl, u⟩
          | succ e => simpa using sameElems_true ll v e
        · cases v
      · cases w

/-- Messages that compare equal look equal, through the elements of their lists as well. -/
theorem same_alike {h : Store} (I : Inv sch h) : ∀ (n : Nat) {a b : View} {x y : Node}, same sch h n a b = .ok true → nodeOf sch h a = some x →
    nodeOf sch h b = some y → x.cls = y.cls → ∀ path k, Alike sch h (seen sch h a path k) (seen sch h b path k)
  | 0, _, _, _, _, e, _, _, _, _, _ => by cases e
  | n + 1, a, b, x, y, e, ha, hb, cl, path, k => by
    simp only [same, ha, hb] at e
    cases path with
    | nil =>
      simp only [seen, ha, hb]
      rcases sameSlots_true e k with ⟨_, u, w⟩ | ⟨v, _, u, w⟩ | ⟨c, p, q, _, u, w, _⟩ | ⟨c, l, l', t, u, w, z, r⟩
      · exact .of_eq (by rw [u, w])
      · exact .of_eq (by rw [u, w])
      · exact .of_eq (by rw [u, w]; rfl)
      · rw [u, w]
        refine ⟨by simp [Slot.sight, Sight.look, z], ?_, ?_⟩
        · intro m m' i p q e1 e2 e3 e4
          simp only [Slot.sight, Option.bind_some, Option.some.injEq, Sight.many.injEq] at e1 e2
          subst e1 e2
          rcases sameElems_true z r i with f | ⟨p', q', f1, f2, f3⟩
          · rw [e3, e4] at f; cases f; exact fun _ _ => rfl
          · rw [e3] at f1; rw [e4] at f2
            cases f1; cases f2
            obtain ⟨_, _, ea⟩ := view_typed I ha
            obtain ⟨_, _, eb⟩ := view_typed I hb
            obtain ⟨z1, m1, g1, g2, g3⟩ := ea k l _ u (List.mem_of_getElem? e3)
            obtain ⟨z2, m2, g1', g2', g3'⟩ := eb k l' _ w (List.mem_of_getElem? e4)
            cases g1; cases g1'
            rw [← cl, g3] at g3'
            exact deep_of (same_alike I n f3 (a := .obj p) (b := .obj q) g2 g2' (by simpa using g3'))
        · intro m m' i e1 e2
          simp only [Slot.sight, Option.bind_some, Option.some.injEq, Sight.many.injEq] at e1 e2
          subst e1 e2
          rcases sameElems_true z r i with f | ⟨p', q', f1, f2, f3⟩
          · rw [f]
          · rw [f1, f2]; simp
    | cons j path =>
      simp only [seen, ha, hb, ← cl]
      rcases sameSlots_true e j with ⟨t, u, w⟩ | ⟨v, t, u, w⟩ | ⟨c, p, q, t, u, w, z⟩ | ⟨c, l, l', t, u, w, z, _⟩
      · exact .of_eq (by rw [u, w])
      · exact .of_eq (by rw [u, w])
      · rw [u, w, t]
        obtain ⟨m, m1, m2⟩ := view_child I ha u t
        obtain ⟨m', m1', m2'⟩ := view_child I hb w (by rw [← cl]; exact t)
        simp only
        unfold lazySame at z
        split at z
        · exact .refl _
        · exact same_alike I n z m1 m1' (by rw [m2, m2']) path k
      · exact .of_eq (by rw [u, w])

/-! ### Elements stay as they are -/

theorem Held.not_elem {h : Store} (I : Inv sch h) {r : Nat} (w : Held h r) : h.kind r ≠ .elem := by
  cases w with
  | root k _ => rw [k]; simp
  | sub _ e s => rw [(I.sub e s).1]; simp

theorem elem_above {h : Store} (I : Inv sch h) {r x : Nat} (w : Held h r) (k : h.kind x = .elem) : ¬ Under h.kind x r := by
  induction w with
  | root kr _ =>
    intro u
    have := u.root kr
    subst this
    rw [k] at kr; cases kr
  | sub _ e s ih =>
    intro u
    have o := (I.sub e s).1
    rcases u.up o with z | z
    · rw [z, k] at o; cases o
    · exact ih z

theorem elem_below {h : Store} (I : Inv sch h) {r x : Nat} (w : Held h r) (k : h.kind x = .elem) : ¬ Under h.kind r x := by
  intro u
  cases u with
  | here => exact w.not_elem I k
  | step _ e => rw [k] at e; cases e

/-- The elements of a list that can be seen are there. -/
theorem seen_elem {h : Store} (I : Inv sch h) : ∀ (path : List Nat) {v : View} {k : Nat} {l : List (Option Nat)} {o : Option Nat},
    seen sch h v path k = some (.many l) → o ∈ l → ∃ z m, o = some z ∧ h.kind z = .elem ∧ h.node z = some m
  | [], v, k, l, o, e, a => by
    simp only [seen] at e
    cases z : nodeOf sch h v with
    | none => rw [z] at e; cases e
    | some n =>
      simp only [z] at e
      cases y : n.slots[k]? with
      | none => rw [y] at e; cases e
      | some t =>
        rw [y] at e
        cases t <;> simp [Slot.sight] at e
        subst e
        cases v with
        | obj p =>
          obtain ⟨x, m, e1, e2, e3, _⟩ := I.elem z y a
          exact ⟨x, m, e1, e2, e3⟩
        | dflt c =>
          cases z
          obtain ⟨m, _, u⟩ := fresh_slot y
          cases m <;> cases u
          cases a
  | j :: path, v, k, l, o, e, a => by
    simp only [seen] at e
    split at e
    · split at e
      · exact seen_elem I path e a
      · cases e
    · cases e

/-- What is written below `r` does not change what is seen of an element. -/
theorem elem_frame {r : Nat} {h h' : Store} (I : Inv sch h) (I' : Inv sch h') (F : Frame sch r h h') (w : Held h r) : ∀ (n : Nat) {steps : List Step},
    steps.length < n → ∀ {x : Nat} {m' : Node} (k : Nat), h.kind x = .elem → x < h.next → h'.node x = some m' →
    through sch h' (.obj x) steps k = through sch h (.obj x) steps k
  | 0, _, l, _, _, _, _, _, _ => by omega
  | n + 1, steps, l, x, m', k, kx, lx, e => by
    have w' := F.held w
    have kx' : h'.kind x = .elem := by rw [F.kind x lx]; exact kx
    have sf := fun path k => seen_frame I I' F path k lx (elem_below I' w' kx') (elem_above I' w' kx') e
    rcases steps_split steps with ⟨f, rfl⟩ | ⟨f, i, j, rest, rfl, lr⟩
    · rw [through_subs, through_subs, sf]
    · rw [through_elem, through_elem, sf]
      cases s : seen sch h (.obj x) f i with
      | none => rfl
      | some t =>
        cases t with
        | value _ => rfl
        | many li =>
          simp only [throughList]
          cases a : li[j]? with
          | none => rfl
          | some o =>
            cases o with
            | none => rfl
            | some z =>
              have me := List.mem_of_getElem? a
              obtain ⟨_, m, e1, e2, e3⟩ := seen_elem I f s me
              cases e1
              obtain ⟨_, m2, e1, _, e4⟩ := seen_elem I' f (by rw [sf]; exact s) me
              cases e1
              exact elem_frame I I' F w n (by simp at l lr ⊢; omega) k e2 (I.lt e3) e4

/-- Members that are alike stay alike. -/
theorem Alike.frame {r : Nat} {h h' : Store} (I : Inv sch h) (I' : Inv sch h') (F : Frame sch r h h') (w : Held h r) {a b a' b' : View}
    {p q p' q' : List Nat} {i j i' j' : Nat} (ea : seen sch h' a' p' i' = seen sch h a p i) (eb : seen sch h' b' q' j' = seen sch h b q j)
    (A : Alike sch h (seen sch h a p i) (seen sch h b q j)) : Alike sch h' (seen sch h' a' p' i') (seen sch h' b' q' j') where
  look := by rw [ea, eb]; exact A.look
  deep {l l' e x y} e1 e2 e3 e4 steps k := by
    have f1 := ea ▸ e1
    have f2 := eb ▸ e2
    obtain ⟨_, m1, z, k1, n1⟩ := seen_elem I p f1 (List.mem_of_getElem? e3); cases z
    obtain ⟨_, m2, z, k2, n2⟩ := seen_elem I q f2 (List.mem_of_getElem? e4); cases z
    obtain ⟨_, m1', z, _, n1'⟩ := seen_elem I' p' e1 (List.mem_of_getElem? e3); cases z
    obtain ⟨_, m2', z, _, n2'⟩ := seen_elem I' q' e2 (List.mem_of_getElem? e4); cases z
    rw [elem_frame I I' F w _ (Nat.lt_succ_self _) k k1 (I.lt n1) n1', elem_frame I I' F w _ (Nat.lt_succ_self _) k k2 (I.lt n2) n2']
    exact A.deep f1 f2 e3 e4 steps k
  null e1 e2 := A.null (ea ▸ e1) (eb ▸ e2)

/-- What is seen of an object through its lists, where its members stay. -/
theorem deep_frame {r : Nat} {h h' : Store} (I : Inv sch h) (I' : Inv sch h') (F : Frame sch r h h') (w : Held h r) {a a' : View} {p : List Nat}
    (ea : ∀ path k, seen sch h' a' path k = seen sch h a (p ++ path) k) (steps : List Step) (k : Nat) :
    through sch h' a' steps k = through sch h a (p.map .sub ++ steps) k := by
  rcases steps_split steps with ⟨f, rfl⟩ | ⟨f, i, e, rest, rfl, _⟩
  · rw [← List.map_append, through_subs, through_subs, ea]
  · rw [← List.append_assoc, ← List.map_append, through_elem, through_elem, ea]
    cases s : seen sch h a (p ++ f) i with
    | none => rfl
    | some t =>
      cases t with
      | value _ => rfl
      | many li =>
        simp only [throughList]
        cases b : li[e]? with
        | none => rfl
        | some o =>
          cases o with
          | none => rfl
          | some z =>
            have me := List.mem_of_getElem? b
            obtain ⟨_, m, e1, e2, e3⟩ := seen_elem I _ s me
            cases e1
            obtain ⟨_, m2, e1, _, e4⟩ := seen_elem I' f (by rw [ea]; exact s) me
            cases e1
            exact elem_frame I I' F w _ (Nat.lt_succ_self _) k e2 (I.lt e3) e4

end QtPb.Heap
