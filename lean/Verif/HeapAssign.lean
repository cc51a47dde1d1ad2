import Verif.HeapDeep
/-
Lemmas for C102: assignment.
-/
namespace QtPb.Heap
variable {sch : Schema}

/-- What a nested `operator =` is relied on for: it writes below its target only. -/
def Writes (sch : Schema) (rec : Store → Nat → Nat → Res Store) : Prop :=
  ∀ {h dst src h' d s}, Inv sch h → h.node dst = some d → h.node src = some s → d.cls = s.cls → rec h dst src = .ok h' →
    Inv sch h' ∧ Frame sch dst h h'

/-- What is seen of the other members of an object. -/
def Keeps (sch : Schema) (h h' : Store) (dst i : Nat) : Prop :=
  ∀ {n'}, h'.node dst = some n' → ∀ j, j ≠ i →
    seen sch h' (.obj dst) [] j = seen sch h (.obj dst) [] j ∧ ∀ path k, seen sch h' (.obj dst) (j :: path) k = seen sch h (.obj dst) (j :: path) k

theorem keeps_put {h : Store} (I : Inv sch h) {p i : Nat} {s : Slot} {n : Node} (e : h.node p = some n) : Keeps sch h (h.put p i s) p i := by
  intro n' e' j ne
  rcases put_node e' with ⟨_, m, a, b⟩ | ⟨a, _⟩
  · rw [e] at a; cases a
    subst b
    have sl : (n.slots.set i s)[j]? = n.slots[j]? := by simp [Ne.symm ne]
    refine ⟨by simp only [seen, nodeOf, e, e', sl], fun path k => ?_⟩
    simp only [seen, nodeOf, e, e', sl]
    split
    · rename_i q c hq hc
      refine seen_agree (fun z => p < z) ?_ ?_ path _ k ?_
      · intro z m i q lz a b
        obtain ⟨kd, m', u, _⟩ := I.sub a b
        have := I.low (I.lt u) kd
        omega
      · intro z lz
        have : z ≠ p := by omega
        simp [Store.put, this]
      · intro z hz
        cases q with
        | none => cases hz
        | some q =>
          cases hz
          obtain ⟨kd, m', u, _⟩ := I.sub e hq
          exact I.low (I.lt u) kd
    · rfl
  · exact (a rfl).elim

/-- Writing below the object in one member leaves the other members alone. -/
theorem keeps_frame {h h' : Store} (I : Inv sch h) (I' : Inv sch h') {p dst i : Nat} (F : Frame sch p h h') (kd : h.kind p = .owned dst i)
    (lp : p < h.next) : Keeps sch h h' dst i := by
  intro n' e' j ne
  have lo := I.low lp kd
  have kd' : h'.kind p = .owned dst i := by rw [F.kind p lp]; exact kd
  have nu : ¬ Under h'.kind p dst := fun u => by have := u.le I' (I'.lt e'); omega
  have ld : dst < h.next := by omega
  obtain ⟨n, f, cl, _, g⟩ := F.own ld (fun u => nu ((under_old I F.kind dst ld).2 u)) e'
  have inc : ∀ {q : Nat}, h'.kind q = .owned dst j → ¬ Under h'.kind p q ∧ ¬ Under h'.kind q p := by
    intro q kq
    constructor
    · intro u
      rcases u.up kq with w | w
      · subst w; rw [kd'] at kq; cases kq; exact ne rfl
      · exact nu w
    · intro u
      rcases u.up kd' with w | w
      · subst w; rw [kd'] at kq; cases kq; exact ne rfl
      · have lq : dst < q ∨ h'.next ≤ q := by
          by_cases z : q < h'.next
          · exact .inl (I'.low z kq)
          · exact .inr (by omega)
        have := w.le I' (I'.lt e')
        have := I'.lt e'
        omega
  refine ⟨?_, fun path k => ?_⟩
  · simp only [seen, nodeOf, e', f]
    rcases g j with u | ⟨u, q, w, _⟩
    · rw [u]
    · rw [u, w]; rfl
  · simp only [seen, nodeOf, e', f, cl]
    rcases g j with u | ⟨u, q, w, bq⟩
    · rw [u]
      split
      · rename_i q c hq hc
        cases q with
        | none => exact seen_dflt h' h path c k
        | some q =>
          obtain ⟨_, m, lm, _⟩ := I.sub f hq
          rw [hq] at u
          obtain ⟨kq, m', lm', _⟩ := I'.sub e' u
          obtain ⟨a', b'⟩ := inc kq
          exact seen_frame I I' F path k (I.lt lm) a' b' lm'
      · rfl
    · obtain ⟨kq, m', lm', ty⟩ := I'.sub e' w
      rw [cl] at ty
      obtain ⟨a', b'⟩ := inc kq
      simp only [u, w, ty, viewOf]
      rw [blank_seen I' F path k bq a' b' lm']
      exact seen_dflt h' h path _ k

theorem cls_eq {h : Store} {p c : Nat} (e : h.cls p = some c) : ∃ n, h.node p = some n ∧ n.cls = c := by
  simpa [Store.cls] using e

/-- The two objects belong to different variables. -/
def Apart (k : Nat → Kind) (x y : Nat) : Prop := ∃ a b, k a = .root ∧ k b = .root ∧ a ≠ b ∧ Under k a x ∧ Under k b y

theorem root_unique {k : Nat → Kind} {a b x : Nat} (ha : k a = .root) (hb : k b = .root) (u : Under k a x) (w : Under k b x) : a = b := by
  induction u with
  | here => exact w.root ha
  | step _ e ih =>
    rcases w.up e with z | z
    · subst z; rw [hb] at e; cases e
    · exact ih z

theorem Apart.not {k : Nat → Kind} {x y : Nat} (A : Apart k x y) : ¬ Under k x y ∧ ¬ Under k y x := by
  obtain ⟨a, b, ha, hb, ne, u, w⟩ := A
  exact ⟨fun z => ne (root_unique ha hb (u.trans z) w), fun z => ne (root_unique ha hb u (w.trans z))⟩

theorem Apart.child {k : Nat → Kind} {x y x' y' i j : Nat} (A : Apart k x y) (e : k x' = .owned x i) (f : k y' = .owned y j) : Apart k x' y' := by
  obtain ⟨a, b, ha, hb, ne, u, w⟩ := A
  exact ⟨a, b, ha, hb, ne, u.step e, w.step f⟩

theorem Apart.frame {r : Nat} {h h' : Store} (I : Inv sch h) (F : Frame sch r h h') {x y : Nat} (lx : x < h.next) (ly : y < h.next)
    (A : Apart h.kind x y) : Apart h'.kind x y := by
  obtain ⟨a, b, ha, hb, ne, u, w⟩ := A
  have la := u.le I lx
  have lb := w.le I ly
  refine ⟨a, b, ?_, ?_, ne, (under_old I F.kind x lx).2 u, (under_old I F.kind y ly).2 w⟩
  · rw [F.kind a (by omega)]; exact ha
  · rw [F.kind b (by omega)]; exact hb

/-- One member of the two objects looks the same. -/
def Agree (sch : Schema) (h : Store) (dst src j : Nat) : Prop :=
  seen sch h (.obj dst) [] j = seen sch h (.obj src) [] j ∧
    ∀ path k, Alike sch h (seen sch h (.obj dst) (j :: path) k) (seen sch h (.obj src) (j :: path) k)

/-- What a nested `operator =` does for objects of different variables. -/
def Copies (sch : Schema) (rec : Store → Nat → Nat → Res Store) : Prop :=
  ∀ {h dst src h' d s}, Inv sch h → h.node dst = some d → h.node src = some s → d.cls = s.cls → Held h dst → Held h src → Apart h.kind dst src →
    Fine (rec h dst src) ∧ (rec h dst src = .ok h' → (∀ k, seen sch h' (.obj dst) [] k = seen sch h' (.obj src) [] k) ∧
      ∀ path k, Alike sch h' (seen sch h' (.obj dst) path k) (seen sch h' (.obj src) path k))

/-- The members of a class in an object of it. -/
theorem slot_of {h : Store} (I : Inv sch h) {p i : Nat} {n : Node} {m : Member} (e : h.node p = some n) (a : (sch n.cls)[i]? = some m) :
    ∃ s, n.slots[i]? = some s ∧ fits m s = true := by
  have l : i < n.slots.length := by rw [I.len e]; exact (List.getElem?_eq_some_iff.1 a).1
  exact ⟨n.slots[i], by simp [l], I.typed e a (by simp [l])⟩

theorem get_fine {h : Store} (I : Inv sch h) {p i c : Nat} {n : Node} (e : h.node p = some n) (a : (sch n.cls)[i]? = some (.sub c)) :
    Fine (get sch h p i) := by
  obtain ⟨s, b, f⟩ := slot_of I e a
  cases s with
  | value _ => cases f
  | many _ => cases f
  | sub q =>
    unfold get
    cases q with
    | none => simp only [e, b, a]; exact .ok _
    | some q => simp only [e, b]; exact .ok _

theorem get_held {h h' : Store} {p i q : Nat} (I : Inv sch h) (e : get sch h p i = .ok (h', q)) (w : Held h p) :
    Held h' q ∧ h'.kind q = .owned p i := by
  obtain ⟨I', F, n, n', c, a, b, d, _, f, _⟩ := get_ok I e
  exact ⟨.sub ((F 0).held w) b d, (I'.sub b d).1⟩

theorem field_writes {eq : Store → View → View → Res Bool} {rec : Store → Nat → Nat → Res Store} (R : Writes sch rec) {h h' : Store} {dst src i : Nat}
    {d s : Node} (I : Inv sch h) (hd : h.node dst = some d) (hs : h.node src = some s) (cl : d.cls = s.cls)
    (e : assignField sch eq rec h dst src i = .ok h') : Inv sch h' ∧ Frame sch dst h h' ∧ Keeps sch h h' dst i := by
  unfold assignField at e
  simp only [hd, hs] at e
  split at e
  · rename_i v0 v hm h1 h2
    cases e
    refine ⟨inv_put I hd ?_ ?_ ?_, frame_put I ?_, keeps_put I hd⟩
    · intro m a; rw [hm] at a; cases a; rfl
    · intro q a; cases a
    · intro l o a; cases a
    · intro n q a b; rw [hd] at a; cases a; rw [h1] at b; cases b
  · rename_i c l l' hm h1 h2
    split at e
    · cases e
      exact ⟨I, Frame.refl I, fun _ _ _ => ⟨rfl, fun _ _ => rfl⟩⟩
    · cases e
      have np : ∀ n q, h.node dst = some n → n.slots[i]? = some (.sub (some q)) → False := by
        intro n q a b; rw [hd] at a; cases a; rw [h1] at b; cases b
      have I1 : Inv sch (h.put dst i (.many l')) := by
        refine inv_put I hd ?_ ?_ ?_
        · intro m a; rw [hm] at a; cases a; rfl
        · intro q a; cases a
        · intro l2 o a b
          cases a
          obtain ⟨x, m, u, w, y, z⟩ := I.elem hs h2 b
          exact ⟨x, m, u, w, y, by rw [cl]; exact z⟩
      refine ⟨inv_sweep I1, Frame.trans I I1 (frame_put I np) (frame_sweep I1), ?_⟩
      intro n' e' j ne
      have a := fun path k => seen_sweepN (sch := sch) path k _ I1 e'
      obtain ⟨k1, k2⟩ := keeps_put I hd (s := .many l') (i := i) (a [] 0).2 j ne
      exact ⟨(a [] j).1.trans k1, fun path k => (a (j :: path) k).1.trans (k2 path k)⟩
  · rename_i c p q hm h1 h2
    obtain ⟨r, _, e⟩ := Res.bind_eq_ok.1 e
    split at e
    · cases e
      exact ⟨I, Frame.refl I, fun _ _ _ => ⟨rfl, fun _ _ => rfl⟩⟩
    · obtain ⟨⟨ha, p'⟩, ga, e⟩ := Res.bind_eq_ok.1 e
      obtain ⟨⟨hb, q'⟩, gb, e⟩ := Res.bind_eq_ok.1 e
      simp only at e gb
      obtain ⟨Ia, Fa, n1, n1', c1, a1, a2, a3, a4, a5, a6, a7⟩ := get_ok I ga
      obtain ⟨Ib, Fb, n2, n2', c2, b1, b2, b3, b4, b5, b6, b7⟩ := get_ok Ia gb
      obtain ⟨mp, mp1, mp2⟩ := cls_eq a5
      obtain ⟨mq, mq1, mq2⟩ := cls_eq b5
      have ld := I.lt hd
      have kp : ha.kind p' = .owned dst i := (Ia.sub a2 a3).1
      have lpa := Ia.lt mp1
      have kpb : hb.kind p' = .owned dst i := by rw [(Fb 0).kind p' lpa]; exact kp
      -- the target is still there after the second `get`
      have nd : ∃ nd, hb.node p' = some nd := by
        cases z : hb.node p' with
        | some nd => exact ⟨nd, rfl⟩
        | none =>
          exfalso
          -- `get` destroys nothing
          unfold get at gb
          split at gb
          · cases gb
          · split at gb
            · cases gb; rw [mp1] at z; cases z
            · cases gb
              have ne : p' ≠ ha.next := by omega
              obtain ⟨m', z', _⟩ := put_alive (h := ha.add (.owned src i) (fresh sch _)) (p := src) (i := i) (s := .sub (some ha.next)) (x := p') (n := mp)
                (by simp [Store.add, ne, mp1])
              rw [z'] at z; cases z
            · cases gb
      obtain ⟨nd, nd1⟩ := nd
      have ndc := (Fb 0).cls mp1 nd1
      -- classes
      rw [hd] at a1; cases a1
      have sc : n2.cls = s.cls := (Fa 0).cls hs b1
      rw [sc, ← cl, a4] at b4
      cases b4
      have cc : nd.cls = mq.cls := by rw [ndc, mp2, mq2]
      obtain ⟨Ic, Fc⟩ := R Ib nd1 mq1 cc e
      have lpb := Ib.lt nd1
      have up : Under hb.kind dst p' := .step .here kpb
      have Fab := Frame.trans I Ia (Fa dst) (Fb dst)
      refine ⟨Ic, Frame.trans I Ib Fab (Fc.mono Ib lpb up), ?_⟩
      intro n' e' j ne
      have ldb : dst < hb.next := Nat.lt_of_lt_of_le ld Fab.next
      have nb : ∃ nb, hb.node dst = some nb := by
        cases z : hb.node dst with
        | some nb => exact ⟨nb, rfl⟩
        | none => rw [Fc.dead ldb z] at e'; cases e'
      obtain ⟨nb, nb1⟩ := nb
      obtain ⟨k1, k2⟩ := keeps_frame Ib Ic Fc kpb lpb e' j ne
      have fl := fun path k => seen_fill I Ib (fun r => Frame.trans I Ia (Fa r) (Fb r)) path k ld nb1
      exact ⟨k1.trans (fl _ _), fun path k => (k2 path k).trans (fl _ _)⟩
  · cases e

theorem frame_alive {r : Nat} {h h' : Store} (F : Frame sch r h h') (I : Inv sch h) {x : Nat} {n' : Node} (l : x < h.next) (e : h'.node x = some n') :
    ∃ n, h.node x = some n ∧ n'.cls = n.cls := by
  cases z : h.node x with
  | none => rw [F.dead l z] at e; cases e
  | some n => exact ⟨n, rfl, F.cls z e⟩

theorem fields_writes {eq : Store → View → View → Res Bool} {rec : Store → Nat → Nat → Res Store} (R : Writes sch rec) {dst src : Nat} :
    ∀ (is : List Nat) {h h' : Store} {d s : Node}, Inv sch h → h.node dst = some d → h.node src = some s → d.cls = s.cls →
    assignFields sch eq rec dst src is h = .ok h' → Inv sch h' ∧ Frame sch dst h h'
  | [], h, h', d, s, I, _, _, _, e => by cases e; exact ⟨I, Frame.refl I⟩
  | i :: is, h, h', d, s, I, hd, hs, cl, e => by
    obtain ⟨h1, e1, e2⟩ := Res.bind_eq_ok.1 e
    obtain ⟨I1, F1, _⟩ := field_writes R I hd hs cl e1
    cases is with
    | nil => cases e2; exact ⟨I1, F1⟩
    | cons j js =>
      have both : ∃ d1 s1, h1.node dst = some d1 ∧ h1.node src = some s1 := by
        obtain ⟨h2, e3, _⟩ := Res.bind_eq_ok.1 e2
        unfold assignField at e3
        split at e3
        · exact ⟨_, _, by assumption, by assumption⟩
        · cases e3
      obtain ⟨d1, s1, hd1, hs1⟩ := both
      have c1 := F1.cls hd hd1
      have c2 := F1.cls hs hs1
      obtain ⟨I2, F2⟩ := fields_writes R (j :: js) I1 hd1 hs1 (by rw [c1, c2, cl]) e2
      exact ⟨I2, Frame.trans I I1 F1 F2⟩

theorem assign_writes : ∀ n : Nat, Writes sch (assign sch n)
  | 0 => fun _ _ _ _ e => by cases e
  | n + 1 => fun I hd hs cl e => by
    rename_i h dst src h' d s
    simp only [assign, hd] at e
    exact fields_writes (assign_writes n) _ I hd hs cl e

/-! ### Objects of different variables -/

theorem field_copies {n : Nat} {rec : Store → Nat → Nat → Res Store} (R : Writes sch rec) (C : Copies sch rec) {h : Store} {dst src i : Nat}
    {d s : Node} {m : Member} (I : Inv sch h) (hd : h.node dst = some d) (hs : h.node src = some s) (cl : d.cls = s.cls) (wd : Held h dst) (ws : Held h src)
    (A : Apart h.kind dst src) (hm : (sch d.cls)[i]? = some m) :
    Fine (assignField sch (fun h => same sch h n) rec h dst src i) ∧
    ∀ h', assignField sch (fun h => same sch h n) rec h dst src i = .ok h' → Agree sch h' dst src i := by
  obtain ⟨sd, hsd, fd⟩ := slot_of I hd hm
  obtain ⟨ss, hss, fs⟩ := slot_of I hs (by rw [← cl]; exact hm)
  have nds : src ≠ dst := fun e => A.not.1 (e ▸ .here)
  unfold assignField
  simp only [hd, hs, hm, hsd, hss]
  have li : i < d.slots.length := (List.getElem?_eq_some_iff.1 hsd).1
  cases m with
  | value =>
    cases sd <;> first | (cases fd; done) | skip
    cases ss <;> first | (cases fs; done) | skip
    rename_i v0 v
    refine ⟨.ok _, fun h' e => ?_⟩
    cases e
    have e1 : (h.put dst i (.value v)).node dst = some { d with slots := d.slots.set i (.value v) } := by simp [Store.put, hd]
    have e2 : (h.put dst i (.value v)).node src = some s := by simp [Store.put, nds, hs]
    constructor
    · simp [seen, nodeOf, e1, e2, li, hss]
    · intro path k
      exact .of_eq (by simp [seen, nodeOf, e1, e2, li, hss])
  | many c =>
    cases sd <;> first | (cases fd; done) | skip
    cases ss <;> first | (cases fs; done) | skip
    rename_i l l'
    simp only
    split
    · rename_i ll
      subst ll
      refine ⟨.ok _, fun h' e => ?_⟩
      cases e
      constructor
      · simp [seen, nodeOf, hd, hs, hsd, hss]
      · intro path k; exact .of_eq (by simp [seen, nodeOf, hd, hs, hsd, hss])
    · refine ⟨.ok _, fun h' e => ?_⟩
      cases e
      have e1 : (h.put dst i (.many l')).node dst = some { d with slots := d.slots.set i (.many l') } := by simp [Store.put, hd]
      have e2 : (h.put dst i (.many l')).node src = some s := by simp [Store.put, nds, hs]
      have I1 : Inv sch (h.put dst i (.many l')) := by
        refine inv_put I hd ?_ ?_ ?_
        · intro m a; rw [hm] at a; cases a; rfl
        · intro q a; cases a
        · intro l2 o a b
          cases a
          obtain ⟨x, m, u, w, y, z⟩ := I.elem hs hss b
          exact ⟨x, m, u, w, y, by rw [cl]; exact z⟩
      have np : ∀ n q, h.node dst = some n → n.slots[i]? = some (.sub (some q)) → False := by
        intro n q a b; rw [hd] at a; cases a; rw [hsd] at b; cases b
      have F := Frame.trans I I1 (frame_put I np (s := .many l')) (frame_sweep I1)
      obtain ⟨d', f1⟩ := (F.held wd).alive (inv_sweep I1)
      obtain ⟨s', f2⟩ := (F.held ws).alive (inv_sweep I1)
      have g1 := fun path k => (seen_sweepN (sch := sch) path k _ I1 f1).1
      have g2 := fun path k => (seen_sweepN (sch := sch) path k _ I1 f2).1
      constructor
      · show seen sch (sweepN _ _) _ _ _ = seen sch (sweepN _ _) _ _ _
        rw [g1, g2]
        simp [seen, nodeOf, e1, e2, li, hss]
      · intro path k
        refine .of_eq ?_
        show seen sch (sweepN _ _) _ _ _ = seen sch (sweepN _ _) _ _ _
        rw [g1, g2]
        simp [seen, nodeOf, e1, e2, li, hss]
  | sub c =>
    cases sd <;> first | (cases fd; done) | skip
    cases ss <;> first | (cases fs; done) | skip
    rename_i p q
    have hms : (sch s.cls)[i]? = some (.sub c) := by rw [← cl]; exact hm
    obtain ⟨vp, vp1, vp2⟩ := view_child I (v := .obj dst) hd hsd hm
    obtain ⟨vq, vq1, vq2⟩ := view_child I (v := .obj src) hs hss hms
    have lf : Fine (lazySame (same sch h n) c p q) := by
      unfold lazySame
      split
      · exact .ok _
      · exact same_fine I n vp1 vq1 (by rw [vp2, vq2])
    simp only
    -- what follows when they differ
    have main : ∀ {a b : Store × Nat}, get sch h dst i = .ok a → get sch a.1 src i = .ok b →
        Fine (rec b.1 a.2 b.2) ∧ ∀ h', rec b.1 a.2 b.2 = .ok h' → Agree sch h' dst src i := by
      intro ⟨ha, p'⟩ ⟨hb, q'⟩ ga gb
      simp only at ga gb ⊢
      obtain ⟨Ia, Fa, n1, n1', c1, a1, a2, a3, a4, a5, a6, a7⟩ := get_ok I ga
      obtain ⟨Ib, Fb, n2, n2', c2, b1, b2, b3, b4, b5, b6, b7⟩ := get_ok Ia gb
      obtain ⟨wp, kp⟩ := get_held I ga wd
      obtain ⟨wq, kq⟩ := get_held Ia gb ((Fa 0).held ws)
      have wpb := (Fb 0).held wp
      obtain ⟨mp, mp1, mp2⟩ := cls_eq a5
      obtain ⟨mq, mq1, mq2⟩ := cls_eq b5
      have lpa := Ia.lt mp1
      have kpb : hb.kind p' = .owned dst i := by rw [(Fb 0).kind p' lpa]; exact kp
      obtain ⟨nd, nd1⟩ := wpb.alive Ib
      have ndc := (Fb 0).cls mp1 nd1
      rw [hd] at a1; cases a1
      have sc : n2.cls = s.cls := (Fa 0).cls hs b1
      rw [sc, ← cl, a4] at b4
      cases b4
      have cc : nd.cls = mq.cls := by rw [ndc, mp2, mq2]
      have Fab := Frame.trans I Ia (Fa dst) (Fb dst)
      have Ab := A.frame I Fab (I.lt hd) (I.lt hs)
      have Ac := Ab.child kpb kq
      refine ⟨(C (h' := hb) Ib nd1 mq1 cc wpb wq Ac).1, fun h' e => ?_⟩
      have look := (C (h' := h') Ib nd1 mq1 cc wpb wq Ac).2 e |>.2
      obtain ⟨Ic, Fc⟩ := R Ib nd1 mq1 cc e
      obtain ⟨d', d1⟩ := (Fc.held (Fab.held wd)).alive Ic
      obtain ⟨s', s1⟩ := (Fc.held (Fab.held ws)).alive Ic
      have ldb : dst < hb.next := Nat.lt_of_lt_of_le (I.lt hd) Fab.next
      have lsb : src < hb.next := Nat.lt_of_lt_of_le (I.lt hs) Fab.next
      have lo := Ib.low (Ib.lt nd1) kpb
      have nu : ¬ Under hb.kind p' dst := fun u => by have := u.le Ib ldb; omega
      have nv : ¬ Under hb.kind p' src := fun u => Ab.not.1 ((Under.step .here kpb).trans u)
      obtain ⟨db, x1, x2, x3, x4⟩ := Fc.own ldb nu d1
      obtain ⟨sb, y1, y2, y3, y4⟩ := Fc.own lsb nv s1
      -- the members hold the objects that were assigned
      have pd : d'.slots[i]? = some (.sub (some p')) := by
        have : db.slots[i]? = some (.sub (some p')) := by
          obtain ⟨nn, z1, _, _, z4⟩ := (Fb hb.next).own (Ia.lt a2) (fun u => by have := u.le Ia (Ia.lt a2); have := (Fb 0).next; have := Ia.lt a2; omega) x1
          rw [a2] at z1; cases z1
          rcases z4 i with z | ⟨z, _⟩
          · rw [z]; exact a3
          · rw [a3] at z; cases z
        rcases x4 i with z | ⟨z, _⟩
        · rw [z]; exact this
        · rw [this] at z; cases z
      have ps : s'.slots[i]? = some (.sub (some q')) := by
        rw [b2] at y1; cases y1
        rcases y4 i with z | ⟨z, _⟩
        · rw [z]; exact b3
        · rw [b3] at z; cases z
      have kd : (sch d'.cls)[i]? = some (.sub c1) := by
        have : d'.cls = d.cls := (Frame.trans I Ib Fab (Fc.mono Ib (Ib.lt nd1) (Under.step .here kpb))).cls hd d1
        rw [this]; exact a4
      have ks : (sch s'.cls)[i]? = some (.sub c1) := by
        have : s'.cls = s.cls := (Frame.trans I Ib Fab (Fc.mono Ib (Ib.lt nd1) (Under.step .here kpb))).cls hs s1
        rw [this, ← cl]; exact a4
      constructor
      · simp [seen, nodeOf, d1, s1, pd, ps, Slot.sight]
      · intro path k
        simp only [seen, nodeOf, d1, s1, pd, ps, kd, ks, viewOf]
        exact look path k
    constructor
    · refine lf.bind fun r _ => ?_
      split
      · exact .ok _
      · refine (get_fine I hd hm).bind fun a ga => ?_
        obtain ⟨Ia, Fa, _⟩ := get_ok I ga
        obtain ⟨s', s1⟩ := ((Fa 0).held ws).alive Ia
        refine (get_fine Ia s1 (c := c) (by rw [(Fa 0).cls hs s1]; exact hms)).bind fun b gb => (main ga gb).1
    · intro h' e
      obtain ⟨r, er, e⟩ := Res.bind_eq_ok.1 e
      split at e
      · rename_i hr
        subst hr
        cases e
        constructor
        · simp [seen, nodeOf, hd, hs, hsd, hss, Slot.sight]
        · intro path k
          simp only [seen, nodeOf, hd, hs, hsd, hss, hm, hms]
          unfold lazySame at er
          split at er
          · exact .refl _
          · exact same_alike I n er vp1 vq1 (by rw [vp2, vq2]) path k
      · obtain ⟨a, ga, e⟩ := Res.bind_eq_ok.1 e
        obtain ⟨b, gb, e⟩ := Res.bind_eq_ok.1 e
        exact (main ga gb).2 h' e

theorem fields_copies {n : Nat} {rec : Store → Nat → Nat → Res Store} (R : Writes sch rec) (C : Copies sch rec) {dst src c : Nat} :
    ∀ (is : List Nat) {h : Store} {d s : Node}, Inv sch h → h.node dst = some d → h.node src = some s → d.cls = c → s.cls = c → Held h dst → Held h src →
    Apart h.kind dst src → (∀ i ∈ is, i < (sch c).length) → is.Nodup →
    Fine (assignFields sch (fun h => same sch h n) rec dst src is h) ∧
    ∀ h', assignFields sch (fun h => same sch h n) rec dst src is h = .ok h' → (∀ j, j ∈ is → Agree sch h' dst src j) ∧
      ∀ j, j ∉ is → Agree sch h dst src j → Agree sch h' dst src j
  | [], h, d, s, I, hd, hs, cd, cs, wd, ws, A, lt, nd => by
    refine ⟨.ok _, fun h' e => ?_⟩
    cases e
    exact ⟨fun j a => by simp at a, fun j _ a => a⟩
  | i :: is, h, d, s, I, hd, hs, cd, cs, wd, ws, A, lt, nd => by
    have cl : d.cls = s.cls := by rw [cd, cs]
    have li := lt i (by simp)
    have hm : (sch d.cls)[i]? = some ((sch c)[i]) := by rw [cd]; simp [li]
    obtain ⟨f, g⟩ := field_copies (n := n) R C I hd hs cl wd ws A hm
    have next : ∀ h1, assignField sch (fun h => same sch h n) rec h dst src i = .ok h1 →
        Fine (assignFields sch (fun h => same sch h n) rec dst src is h1) ∧
        ∀ h', assignFields sch (fun h => same sch h n) rec dst src is h1 = .ok h' → (∀ j, j ∈ i :: is → Agree sch h' dst src j) ∧
          ∀ j, j ∉ i :: is → Agree sch h dst src j → Agree sch h' dst src j := by
      intro h1 e1
      obtain ⟨I1, F1, K1⟩ := field_writes R I hd hs cl e1
      have wd1 := F1.held wd
      have ws1 := F1.held ws
      obtain ⟨d1, hd1⟩ := wd1.alive I1
      obtain ⟨s1, hs1⟩ := ws1.alive I1
      have A1 := A.frame I F1 (I.lt hd) (I.lt hs)
      obtain ⟨f2, g2⟩ := fields_copies (n := n) R C is I1 hd1 hs1 (by rw [F1.cls hd hd1, cd]) (by rw [F1.cls hs hs1, cs]) wd1 ws1 A1
        (fun j a => lt j (.tail _ a)) (List.nodup_cons.1 nd).2
      refine ⟨f2, fun h' e => ?_⟩
      obtain ⟨p1, p2⟩ := g2 h' e
      refine ⟨fun j a => ?_, fun j a b => ?_⟩
      · rcases List.mem_cons.1 a with a | a
        · subst a
          exact p2 j (List.nodup_cons.1 nd).1 (g h1 e1)
        · exact p1 j a
      · simp only [List.mem_cons, not_or] at a
        refine p2 j a.2 ?_
        obtain ⟨k1, k2⟩ := K1 hd1 j a.1
        have sr := fun path k => seen_frame I I1 F1 path k (I.lt hs) A1.not.1 A1.not.2 hs1
        refine ⟨by rw [k1, sr]; exact b.1, fun path k => Alike.frame I I1 F1 wd (k2 path k) (sr _ k) (b.2 path k)⟩
    refine ⟨f.bind fun h1 e1 => (next h1 e1).1, fun h' e => ?_⟩
    obtain ⟨h1, e1, e2⟩ := Res.bind_eq_ok.1 e
    exact (next h1 e1).2 h' e2

theorem assign_copies : ∀ n : Nat, Copies sch (assign sch n)
  | 0 => fun _ _ _ _ _ _ _ => ⟨.inl rfl, fun e => by cases e⟩
  | n + 1 => fun I hd hs cl wd ws A => by
    rename_i h dst src h' d s
    simp only [assign, hd]
    obtain ⟨f, g⟩ := fields_copies (n := n) (assign_writes n) (assign_copies n) (List.range (sch d.cls).length) I hd hs rfl cl.symm wd ws A
      (fun i a => by simpa using a) List.nodup_range
    refine ⟨f, fun e => ?_⟩
    obtain ⟨p, _⟩ := g h' e
    obtain ⟨I', F'⟩ := fields_writes (assign_writes n) _ I hd hs cl e
    obtain ⟨d', hd'⟩ := (F'.held wd).alive I'
    obtain ⟨s', hs'⟩ := (F'.held ws).alive I'
    have c1 := F'.cls hd hd'
    have c2 := F'.cls hs hs'
    have out : ∀ j, ¬ j < (sch d.cls).length → d'.slots[j]? = none ∧ s'.slots[j]? = none := by
      intro j l
      constructor
      · apply List.getElem?_eq_none; rw [I'.len hd', c1]; omega
      · apply List.getElem?_eq_none; rw [I'.len hs', c2, ← cl]; omega
    have top : ∀ k, seen sch h' (.obj dst) [] k = seen sch h' (.obj src) [] k := by
      intro k
      by_cases l : k < (sch d.cls).length
      · exact (p k (by simpa using l)).1
      · simp [seen, nodeOf, hd', hs', (out k l).1, (out k l).2]
    refine ⟨top, fun path k => ?_⟩
    cases path with
    | nil => exact .of_eq (top k)
    | cons j path =>
      by_cases l : j < (sch d.cls).length
      · exact (p j (by simpa using l)).2 path k
      · exact .of_eq (by simp [seen, nodeOf, hd', hs', (out j l).1, (out j l).2])

end QtPb.Heap
