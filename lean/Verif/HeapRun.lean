import Verif.HeapAssign
/-
Lemmas for C102: statements of programs.
-/
namespace QtPb.Heap
variable {sch : Schema}

/-- The steps of a path follow sub-messages only. -/
def directPath (path : List Step) : Bool := path.all fun s => match s with | .sub _ => true | .elem _ _ => false

theorem resolve_ok : ∀ {path : List Step} {h h' : Store} {p q : Nat}, Inv sch h → resolve sch h p path = .ok (h', q) →
    Inv sch h' ∧ (∀ r, Frame sch r h h') ∧ (∃ n, h'.node q = some n) ∧ p < h.next ∧
      (directPath path = true → Under h'.kind p q ∧ (Held h p → Held h' q))
  | [], h, h', p, q, I, e => by
    unfold resolve at e
    split at e
    · rename_i a
      cases e
      obtain ⟨n, b⟩ := Option.isSome_iff_exists.1 a
      exact ⟨I, fun _ => Frame.refl I, ⟨n, b⟩, I.lt b, fun _ => ⟨.here, id⟩⟩
    · cases e
  | .sub i :: path, h, h', p, q, I, e => by
    unfold resolve at e
    obtain ⟨⟨h1, p1⟩, a, b⟩ := Res.bind_eq_ok.1 e
    simp only at b
    obtain ⟨I1, F1, n, n', c, hn, hn', sl, _⟩ := get_ok I a
    obtain ⟨I2, F2, al, lp1, D⟩ := resolve_ok I1 b
    refine ⟨I2, fun r => Frame.trans I I1 (F1 r) (F2 r), al, I.lt hn, fun d => ?_⟩
    obtain ⟨u, w⟩ := D (by simpa [directPath] using d)
    have kd : h'.kind p1 = .owned p i := by rw [(F2 0).kind p1 lp1]; exact (I1.sub hn' sl).1
    exact ⟨(Under.step .here kd).trans u, fun hp => w (get_held I a hp).1⟩
  | .elem i k :: path, h, h', p, q, I, e => by
    unfold resolve at e
    split at e
    · rename_i n hn
      split at e
      · split at e
        · obtain ⟨I2, F2, al, _, _⟩ := resolve_ok I e
          exact ⟨I2, F2, al, I.lt hn, fun d => by simp [directPath] at d⟩
        · cases e
      · cases e
    · cases e

/-- Reading lazy pointers destroys nothing. -/
theorem get_keeps {h h' : Store} {p i q x : Nat} {n : Node} (e : get sch h p i = .ok (h', q)) (a : h.node x = some n) (l : x < h.next) : h'.node x ≠ none := by
  unfold get at e
  split at e
  · cases e
  · split at e
    · cases e; simp [a]
    · cases e
      have ne : x ≠ h.next := by omega
      rename_i c _ _
      obtain ⟨m', z', _⟩ := put_alive (h := h.add (.owned p i) (fresh sch c)) (p := p) (i := i) (s := .sub (some h.next)) (x := x) (n := n)
        (by simp [Store.add, ne, a])
      simp [z']
    · cases e

theorem resolve_keeps' : ∀ {path : List Step} {h h' : Store} {p q x : Nat} {n : Node}, Inv sch h → resolve sch h p path = .ok (h', q) → h.node x = some n →
    h'.node x ≠ none
  | [], h, h', p, q, x, n, I, e, a => by
    unfold resolve at e
    split at e
    · cases e; simp [a]
    · cases e
  | .sub i :: path, h, h', p, q, x, n, I, e, a => by
    unfold resolve at e
    obtain ⟨⟨h1, p1⟩, b, c⟩ := Res.bind_eq_ok.1 e
    simp only at c
    obtain ⟨I1, _⟩ := get_ok I b
    have := get_keeps b a (I.lt a)
    cases z : h1.node x with
    | none => exact absurd z this
    | some m => exact resolve_keeps' I1 c z
  | .elem i k :: path, h, h', p, q, x, n, I, e, a => by
    unfold resolve at e
    split at e
    · split at e
      · split at e
        · exact resolve_keeps' I e a
        · cases e
      · cases e
    · cases e

theorem find_ok {r : Ref} {h h' : Store} {q : Nat} (I : Inv sch h) (e : find sch h r = .ok (h', q)) :
    h.kind r.root = .root ∧ Inv sch h' ∧ (∀ x, Frame sch x h h') ∧ (∃ n, h'.node q = some n) ∧ r.root < h.next ∧
      (r.direct = true → Under h'.kind r.root q ∧ (Held h r.root → Held h' q)) := by
  unfold find at e
  split at e
  · exact ⟨by assumption, resolve_ok I e⟩
  · cases e

def fieldsOf (path : List Step) : List Nat := path.filterMap fun s => match s with | .sub i => some i | .elem _ _ => none

/-- Following sub-messages is defined. -/
theorem resolve_fine : ∀ {path : List Step} {h : Store} {p c : Nat} {n : Node}, Inv sch h → h.node p = some n → directPath path = true →
    classAt sch n.cls (fieldsOf path) = some c → Fine (resolve sch h p path) ∧ ∀ h' q, resolve sch h p path = .ok (h', q) → h'.cls q = some c
  | [], h, p, c, n, I, e, _, T => by
    simp only [fieldsOf, List.filterMap_nil, classAt, Option.some.injEq] at T
    refine ⟨by simp [resolve, e, Fine], fun h' q a => ?_⟩
    simp [resolve, e] at a
    obtain ⟨rfl, rfl⟩ := a
    simp [Store.cls, e, T]
  | .sub i :: path, h, p, c, n, I, e, d, T => by
    have T : classAt sch n.cls (i :: fieldsOf path) = some c := T
    unfold classAt at T
    split at T
    · rename_i b hm
      have next : ∀ a, get sch h p i = .ok a → Fine (resolve sch a.1 a.2 path) ∧ ∀ h' q, resolve sch a.1 a.2 path = .ok (h', q) → h'.cls q = some c := by
        intro a ga
        obtain ⟨I1, _, n1, _, c1, x1, _, _, x2, x3, _⟩ := get_ok (h' := a.1) (q := a.2) I ga
        rw [e] at x1; cases x1
        rw [hm] at x2; cases x2
        obtain ⟨m, m1, m2⟩ := cls_eq x3
        exact resolve_fine I1 m1 (by simpa [directPath] using d) (by rw [m2]; exact T)
      unfold resolve
      refine ⟨(get_fine I e hm).bind fun a ga => (next a ga).1, fun h' q a => ?_⟩
      obtain ⟨x, y, z⟩ := Res.bind_eq_ok.1 a
      exact (next x y).2 h' q z
    · cases T
  | .elem _ _ :: _, _, _, _, _, _, _, d, _ => by simp [directPath] at d

/-- The members lead from one object to the other. -/
inductive Route (sch : Schema) (h : Store) : Nat → List Nat → Nat → Prop
  | here {x : Nat} : Route sch h x [] x
  | step {x y z i c : Nat} {n : Node} {path : List Nat} : h.node x = some n → n.slots[i]? = some (.sub (some y)) → (sch n.cls)[i]? = some (.sub c) →
    Route sch h y path z → Route sch h x (i :: path) z

theorem Route.seen {h : Store} {x z : Nat} {fs : List Nat} (r : Route sch h x fs z) (rest : List Nat) (k : Nat) :
    seen sch h (.obj x) (fs ++ rest) k = seen sch h (.obj z) rest k := by
  induction r with
  | here => rfl
  | step a b c _ ih =>
    simp only [List.cons_append, Heap.seen, nodeOf, a, b, c, viewOf]
    exact ih

theorem Route.le {h : Store} (I : Inv sch h) {x z : Nat} {fs : List Nat} (r : Route sch h x fs z) : x ≤ z := by
  induction r with
  | here => exact Nat.le_refl _
  | step a b _ _ ih =>
    obtain ⟨kd, m, u, _⟩ := I.sub a b
    have := I.low (I.lt u) kd
    omega

/-- Writing below the end of a route leaves the route. -/
theorem Route.frame {h h' : Store} (I : Inv sch h) (I' : Inv sch h') {x z r : Nat} {fs : List Nat} (F : Frame sch r h h') (lz : z ≤ r) (R : Route sch h x fs z)
    (w : Held h x) : Route sch h' x fs z := by
  induction R with
  | here => exact .here
  | @step x y z i c n path a b d R ih =>
    obtain ⟨kd, m, u, _⟩ := I.sub a b
    have lo := I.low (I.lt u) kd
    have := R.le I
    have lx := I.lt a
    obtain ⟨n', hn'⟩ := (F.held w).alive I'
    obtain ⟨n0, e0, cl, _, g⟩ := F.own lx (fun q => by have := q.le I lx; omega) hn'
    rw [a] at e0; cases e0
    refine .step hn' (y := y) (c := c) ?_ (by rw [cl]; exact d) (ih lz (.sub w a b))
    rcases g i with q | ⟨q, _⟩
    · rw [q]; exact b
    · rw [b] at q; cases q

/-- The route that was followed, in the end. -/
theorem resolve_route : ∀ {path : List Step} {h h' : Store} {p q : Nat}, Inv sch h → resolve sch h p path = .ok (h', q) → directPath path = true →
    Route sch h' p (fieldsOf path) q
  | [], h, h', p, q, I, e, _ => by
    unfold resolve at e
    split at e
    · cases e; exact .here
    · cases e
  | .sub i :: path, h, h', p, q, I, e, d => by
    unfold resolve at e
    obtain ⟨⟨h1, p1⟩, a, b⟩ := Res.bind_eq_ok.1 e
    simp only at b
    obtain ⟨I1, F1, n, n', c, hn, hn', sl, ty, cq, fl, _⟩ := get_ok I a
    obtain ⟨I2, F2, al, lp1, D⟩ := resolve_ok I1 b
    have ih := resolve_route I1 b (by simpa [directPath] using d)
    have lp := I1.lt hn'
    have alive : ∃ m, h'.node p = some m := by
      cases z : h'.node p with
      | some m => exact ⟨m, rfl⟩
      | none => exact absurd z (resolve_keeps' I1 b hn')
    obtain ⟨m, hm⟩ := alive
    obtain ⟨x, x1, x2, x3, x4⟩ := (F2 h'.next).own lp (fun u => by have := u.le I1 lp; have := (F2 0).next; omega) hm
    rw [hn'] at x1; cases x1
    refine .step hm (y := p1) (c := c) ?_ (by rw [x2, fl.1]; exact ty) ih
    rcases x4 i with z | ⟨z, _⟩
    · rw [z]; exact sl
    · rw [sl] at z; cases z
  | .elem _ _ :: _, _, _, _, _, _, _, d => by simp [directPath] at d

/-- What one statement leaves alone. `none`: it writes to no variable that was there. -/
theorem exec_ok {n : Nat} {h h' : Store} {op : Op} (I : Inv sch h) (e : exec sch n h op = .ok h') :
    Inv sch h' ∧ (∀ s m, h.kind s = .root → h.node s = some m → (∀ w, op.writes = some w → w.root ≠ s ∧ w.direct = true) →
      ∃ m', h'.node s = some m' ∧ h'.kind s = .root ∧ ∀ path k, seen sch h' (.obj s) path k = seen sch h (.obj s) path k) := by
  -- from frames to what is seen of variables
  have view : ∀ {r : Nat} {h' : Store}, Inv sch h' → Frame sch r h h' → h'.kind r = .root → ∀ s m, h.kind s = .root → h.node s = some m → r ≠ s →
      ∃ m', h'.node s = some m' ∧ h'.kind s = .root ∧ ∀ path k, seen sch h' (.obj s) path k = seen sch h (.obj s) path k := by
    intro r h' I' F kr s m ks hs ne
    obtain ⟨m', hm'⟩ := (F.held (.root ks hs)).alive I'
    have ks' : h'.kind s = .root := by rw [F.kind s (I.lt hs)]; exact ks
    refine ⟨m', hm', ks', fun path k => seen_frame I I' F path k (I.lt hs) (fun u => ne (u.root ks').symm) (fun u => ne (u.root kr)) hm'⟩
  cases op with
  | new c =>
    cases e
    have I' := inv_add I (k := .root) (by intro p i a; cases a) c
    exact ⟨I', fun s m ks hs _ => view I' (frame_add (r := h.next) I c) (by simp [Store.add]) s m ks hs (by have := I.lt hs; omega)⟩
  | copy src =>
    obtain ⟨⟨h1, p⟩, a, b⟩ := Res.bind_eq_ok.1 e
    simp only at b
    obtain ⟨_, I1, F1, ⟨sn, hsn⟩, _, _⟩ := find_ok I a
    simp only [copy, hsn] at b
    have I2 := inv_add I1 (k := .root) (by intro p i a; cases a) sn.cls
    have F2 := frame_add (r := h1.next) (k := .root) I1 sn.cls
    have ne : p ≠ h1.next := by have := I1.lt hsn; omega
    obtain ⟨I3, F3⟩ := assign_writes n I2 (d := fresh sch sn.cls) (s := sn) (by simp [Store.add]) (by simp [Store.add, ne, hsn]) rfl b
    have F := Frame.trans I I2 (Frame.trans I I1 (F1 _) F2) F3
    refine ⟨I3, fun s m ks hs _ => view I3 F ?_ s m ks hs ?_⟩
    · rw [F3.kind _ (by simp [Store.add])]; simp [Store.add]
    · have := I.lt hs; have := (F1 0).next; omega
  | assign dst src =>
    obtain ⟨⟨h1, p⟩, a, b⟩ := Res.bind_eq_ok.1 e
    obtain ⟨⟨h2, q⟩, c, d⟩ := Res.bind_eq_ok.1 b
    simp only at b c d
    obtain ⟨kr, I1, F1, ⟨pn, hpn⟩, lr, D1⟩ := find_ok I a
    obtain ⟨_, I2, F2, ⟨qn, hqn⟩, _, _⟩ := find_ok I1 c
    split at d
    · rename_i cl
      rw [Store.cls, Store.cls, hqn] at cl
      obtain ⟨pn2, hp2, cl⟩ := Option.map_eq_some_iff.1 cl
      obtain ⟨I3, F3⟩ := assign_writes n I2 hp2 hqn cl d
      refine ⟨I3, fun s m ks hs w => ?_⟩
      obtain ⟨ne, dir⟩ := w dst rfl
      have F12 := Frame.trans I I1 (F1 dst.root) (F2 dst.root)
      have u := (under_old I1 (F2 0).kind p (I1.lt hpn)).2 (D1 dir).1
      have F := Frame.trans I I2 F12 (F3.mono I2 (I2.lt hp2) u)
      exact view I3 F (by rw [F.kind _ lr]; exact kr) s m ks hs ne
    · cases d
  | setValue dst i v =>
    obtain ⟨⟨h1, p⟩, a, b⟩ := Res.bind_eq_ok.1 e
    simp only at b
    obtain ⟨kr, I1, F1, ⟨pn, hpn⟩, lr, D1⟩ := find_ok I a
    simp only [hpn, Option.bind_some] at b
    split at b
    · rename_i v0 hv
      cases b
      have I2 : Inv sch (h1.put p i (.value v)) := by
        refine inv_put I1 hpn ?_ ?_ ?_
        · intro m a; have := I1.typed hpn a hv; cases m <;> simp_all [fits]
        · intro q a; cases a
        · intro l o a; cases a
      have F2 : Frame sch p h1 (h1.put p i (.value v)) := frame_put I1 (by intro n q a b; rw [hpn] at a; cases a; rw [hv] at b; cases b)
      refine ⟨I2, fun s m ks hs w => ?_⟩
      obtain ⟨ne, dir⟩ := w dst rfl
      have F := Frame.trans I I1 (F1 dst.root) (F2.mono I1 (I1.lt hpn) (D1 dir).1)
      exact view I2 F (by rw [F.kind _ lr]; exact kr) s m ks hs ne
    · cases b
  | append dst i =>
    obtain ⟨⟨h1, p⟩, a, b⟩ := Res.bind_eq_ok.1 e
    simp only at b
    obtain ⟨kr, I1, F1, ⟨pn, hpn⟩, lr, D1⟩ := find_ok I a
    simp only [hpn] at b
    split at b
    · rename_i l c hl hc
      cases b
      have I2 := inv_add I1 (k := .elem) (by intro p i a; cases a) c
      have F2 := frame_add (r := dst.root) (k := .elem) I1 c
      have ne : p ≠ h1.next := by have := I1.lt hpn; omega
      have hp2 : (h1.add .elem (fresh sch c)).node p = some pn := by simp [Store.add, ne, hpn]
      have I3 : Inv sch ((h1.add .elem (fresh sch c)).put p i (.many (l ++ [some h1.next]))) := by
        refine inv_put I2 hp2 ?_ ?_ ?_
        · intro m a; rw [hc] at a; cases a; rfl
        · intro q a; cases a
        · intro l2 o a b
          cases a
          rcases List.mem_append.1 b with b | b
          · exact I2.elem hp2 hl b
          · rw [List.mem_singleton] at b
            exact ⟨h1.next, fresh sch c, b, by simp [Store.add], by simp [Store.add], by simpa [fresh] using hc⟩
      have F3 : Frame sch p (h1.add .elem (fresh sch c)) ((h1.add .elem (fresh sch c)).put p i (.many (l ++ [some h1.next]))) :=
        frame_put I2 (by intro n q a b; rw [hp2] at a; cases a; rw [hl] at b; cases b)
      refine ⟨I3, fun s m ks hs w => ?_⟩
      obtain ⟨ne, dir⟩ := w dst rfl
      have u := (under_old I1 F2.kind p (I1.lt hpn)).2 (D1 dir).1
      have F := Frame.trans I I2 (Frame.trans I I1 (F1 dst.root) F2) (F3.mono I2 (I2.lt hp2) u)
      exact view I3 F (by rw [F.kind _ lr]; exact kr) s m ks hs ne
    · cases b
  | share dst i src j k =>
    obtain ⟨⟨h1, p⟩, a, b⟩ := Res.bind_eq_ok.1 e
    obtain ⟨⟨h2, q⟩, c, d⟩ := Res.bind_eq_ok.1 b
    simp only at b c d
    obtain ⟨kr, I1, F1, ⟨pn, hpn⟩, lr, D1⟩ := find_ok I a
    obtain ⟨_, I2, F2, ⟨qn, hqn⟩, _, _⟩ := find_ok I1 c
    split at d
    · rename_i pm qm hp2 hq2
      split at d
      · rename_i l l' hl hl'
        split at d
        · rename_i x hx
          split at d
          · rename_i ty
            cases d
            have I3 : Inv sch (h2.put p i (.many (l ++ [some x]))) := by
              refine inv_put I2 hp2 ?_ ?_ ?_
              · intro m a; have := I2.typed hp2 a hl; cases m <;> simp_all [fits]
              · intro q a; cases a
              · intro l2 o a b
                cases a
                rcases List.mem_append.1 b with b | b
                · exact I2.elem hp2 hl b
                · rw [List.mem_singleton] at b
                  subst b
                  rw [ty]
                  exact I2.elem hq2 hl' (List.mem_of_getElem? hx)
            have F3 : Frame sch p h2 (h2.put p i (.many (l ++ [some x]))) :=
              frame_put I2 (by intro n q a b; rw [hp2] at a; cases a; rw [hl] at b; cases b)
            refine ⟨I3, fun s m ks hs w => ?_⟩
            obtain ⟨ne, dir⟩ := w dst rfl
            have F12 := Frame.trans I I1 (F1 dst.root) (F2 dst.root)
            have u := (under_old I1 (F2 0).kind p (I1.lt hpn)).2 (D1 dir).1
            have F := Frame.trans I I2 F12 (F3.mono I2 (I2.lt hp2) u)
            exact view I3 F (by rw [F.kind _ lr]; exact kr) s m ks hs ne
          · cases d
        · cases d
      · cases d
    · cases d
  | clear dst i =>
    obtain ⟨⟨h1, p⟩, a, b⟩ := Res.bind_eq_ok.1 e
    simp only at b
    obtain ⟨kr, I1, F1, ⟨pn, hpn⟩, lr, D1⟩ := find_ok I a
    simp only [hpn, Option.bind_some] at b
    split at b
    · rename_i l hl
      cases b
      have I2 : Inv sch (h1.put p i (.many [])) := by
        refine inv_put I1 hpn ?_ ?_ ?_
        · intro m a; have := I1.typed hpn a hl; cases m <;> simp_all [fits]
        · intro q a; cases a
        · intro l o a b; cases a; cases b
      have F2 : Frame sch p h1 (h1.put p i (.many [])) := frame_put I1 (by intro n q a b; rw [hpn] at a; cases a; rw [hl] at b; cases b)
      refine ⟨inv_sweep I2, fun s m ks hs w => ?_⟩
      obtain ⟨ne, dir⟩ := w dst rfl
      have F := Frame.trans I I2 (Frame.trans I I1 (F1 dst.root) (F2.mono I1 (I1.lt hpn) (D1 dir).1)) (frame_sweep I2)
      exact view (inv_sweep I2) F (by rw [F.kind _ lr]; exact kr) s m ks hs ne
    · cases b
  | destroy r =>
    simp only [exec] at e
    split at e
    · rename_i hr
      obtain ⟨_, kr⟩ := hr
      cases e
      have nd : ∀ {x n}, (if x = r then none else h.node x) = some n → x ≠ r ∧ h.node x = some n := by
        intro x n a
        split at a
        · cases a
        · exact ⟨by assumption, a⟩
      have I1 : Inv sch { h with node := fun x => if x = r then none else h.node x } := by
        constructor
        · intro x n a; exact I.lt (nd a).2
        · intro x p i a b; exact I.low a b
        · intro x a; exact I.new a
        · intro p n a; exact I.len (nd a).2
        · intro p n i m s a; exact I.typed (nd a).2
        · intro p n i q a b
          obtain ⟨x, m, y, z⟩ := I.sub (nd a).2 b
          have : q ≠ r := fun f => by rw [f, kr] at x; cases x
          exact ⟨x, m, by simp [this, y], z⟩
        · intro p n i l o a b c
          obtain ⟨x, m, y, z, u, w⟩ := I.elem (nd a).2 b c
          have : x ≠ r := fun f => by rw [f, kr] at z; cases z
          exact ⟨x, m, y, z, by simp [this, u], w⟩
      refine ⟨inv_sweep I1, fun s m ks hs w => ?_⟩
      obtain ⟨ne, _⟩ := w ⟨r, []⟩ rfl
      simp only at ne
      have hs1 : ({ h with node := fun x => if x = r then none else h.node x } : Store).node s = some m := by simp [Ne.symm ne, hs]
      obtain ⟨m', hm'⟩ := ((frame_sweep (r := 0) I1).held (.root (n := m) ks hs1)).alive (inv_sweep I1)
      refine ⟨m', hm', by rw [(frame_sweep (r := 0) I1).kind s (I.lt hs)]; exact ks, fun path k => ?_⟩
      refine ((seen_sweepN (sch := sch) path k _ I1 hm').1).trans ?_
      refine seen_agree (fun z => z ≠ r) ?_ ?_ path _ k ?_
      · intro z n i q _ a b f
        subst f
        have := (I.sub a b).1
        rw [kr] at this; cases this
      · intro z a; simp [a]
      · intro p hp; cases hp; exact Ne.symm ne
    · cases e

theorem run_inv {n : Nat} : ∀ {ops : List Op} {h h' : Store}, Inv sch h → run sch n h ops = .ok h' → Inv sch h'
  | [], _, _, I, e => by cases e; exact I
  | _ :: _, _, _, I, e => by
    obtain ⟨h1, a, b⟩ := Res.bind_eq_ok.1 e
    exact run_inv (exec_ok I a).1 b

end QtPb.Heap
