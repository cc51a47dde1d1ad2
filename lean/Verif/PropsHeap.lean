import Verif.HeapRun
/-
C102: copied and assigned messages are independent of their sources.
-/
namespace QtPb.Heap
variable {sch : Schema}

theorem reached_inv {h : Store} (R : Reached sch h) : Inv sch h := by
  obtain ⟨n, ops, e⟩ := R
  exact run_inv inv_empty e

/-- A message: two sub-messages of its own class around a value and a list. -/
def demo : Schema := fun _ => [.sub 0, .value, .many 0, .sub 0]

/-- `T a; a.x().setV(5); a.kids().append(…); T b;` -/
def demoOps : List Op := [.new 0, .setValue ⟨0, [.sub 0]⟩ 1 5, .append ⟨0, []⟩ 2, .new 0]

/-- The messages of `demoOps`. -/
def demoRun : Res Store := run demo 9 empty demoOps

/-! ### Independence -/

/-- C102: a variable changes only through statements that write to it: whatever a program does with other variables, and with what is in them, everything
that can be seen of it, sub-messages however deep included, stays. Also if it was copied or assigned from them, or they from it. Partial: statements that
write through an element of a list are left out (see `C102_shared_violated`). -/
theorem C102_independent_partial {n : Nat} {h h' : Store} (R : Reached sch h) {ops : List Op} (e : run sch n h ops = .ok h') {s : Nat} (v : IsVar h s)
    (w : ∀ op ∈ ops, ∀ r, op.writes = some r → r.root ≠ s ∧ r.direct = true) :
    IsVar h' s ∧ ∀ path k, seen sch h' (.obj s) path k = seen sch h (.obj s) path k := by
  have I := reached_inv R
  clear R
  induction ops generalizing h with
  | nil => cases e; exact ⟨v, fun _ _ => rfl⟩
  | cons op ops ih =>
    obtain ⟨h1, a, b⟩ := Res.bind_eq_ok.1 e
    obtain ⟨m, hm⟩ := Option.isSome_iff_exists.1 v.2
    obtain ⟨I1, f⟩ := exec_ok I a
    obtain ⟨m', x, y, z⟩ := f s m v.1 hm (w op (.head _))
    obtain ⟨p, q⟩ := ih b ⟨y, by simp [x]⟩ (fun o ho => w o (.tail _ ho)) I1
    exact ⟨p, fun path k => (q path k).trans (z path k)⟩

example : ∃ h, demoRun = .ok h ∧ IsVar h 0 ∧ ∃ h', run demo 9 h [.copy ⟨0, []⟩, .assign ⟨3, []⟩ ⟨0, []⟩, .setValue ⟨3, [.sub 0]⟩ 1 8, .destroy 3] = .ok h' ∧
    seen demo h' (.obj 0) [0] 1 = some (.value 5) := by
  refine ⟨_, rfl, ⟨rfl, rfl⟩, _, rfl, rfl⟩

/-! ### Copying and assigning -/

/-- The message that a reference of sub-messages stands for. -/
theorem found {h h1 : Store} {r : Ref} {p : Nat} (I : Inv sch h) (dir : r.direct = true) (a : find sch h r = .ok (h1, p)) (path : List Nat) (k : Nat) :
    seen sch h1 (.obj p) path k = seen sch h (.obj r.root) (r.fields ++ path) k := by
  obtain ⟨kr, I1, F1, _, lr, _⟩ := find_ok I a
  unfold find at a
  rw [if_pos kr] at a
  rw [← (resolve_route I a dir).seen path k]
  show seen sch h1 (.obj r.root) (r.fields ++ path) k = _
  have al : ∃ m, h.node r.root = some m := by
    cases r with | mk root path =>
    cases path with
    | nil =>
      simp only [resolve] at a
      split at a
      · exact Option.isSome_iff_exists.1 (by assumption)
      · cases a
    | cons s path =>
      cases s with
      | elem => simp [Ref.direct] at dir
      | sub i =>
        simp only [resolve] at a
        obtain ⟨x, y, _⟩ := Res.bind_eq_ok.1 a
        obtain ⟨_, _, n, _, _, z, _⟩ := get_ok (h' := x.1) (q := x.2) I y
        exact ⟨n, z⟩
  obtain ⟨m, hm⟩ := al
  cases z : h1.node r.root with
  | none => exact absurd z (resolve_keeps' I a hm)
  | some m' => exact seen_fill I I1 F1 _ k (I.lt hm) z

theorem direct_path {r : Ref} (d : r.direct = true) : r.path = r.fields.map .sub := by
  cases r with | mk root path =>
  simp only [Ref.direct, Ref.fields] at d ⊢
  induction path with
  | nil => rfl
  | cons s path ih =>
    cases s with
    | sub i => simp only [List.all_cons, Bool.true_and] at d; simp only [List.filterMap_cons, List.map_cons]; rw [← ih d]
    | elem => simp at d

/-- C102: a copy of a message, or of a message in it, is a new variable; its values, and those of all messages in it, are those of the source before, its
lists have as many elements as those of the source, the lists that are its own members hold the same pointers, and what is seen through elements of lists is
what was seen through those of the source. -/
theorem C102_copy_partial {n : Nat} {h h' : Store} (R : Reached sch h) {src : Ref} (v : IsVar h src.root) (dir : src.direct = true)
    (e : exec sch n h (.copy src) = .ok h') :
    ∃ d, IsVar h' d ∧ h.next ≤ d ∧ (∀ k, seen sch h' (.obj d) [] k = seen sch h (.obj src.root) src.fields k) ∧
      (∀ path k, (seen sch h' (.obj d) path k).map Sight.look = (seen sch h (.obj src.root) (src.fields ++ path) k).map Sight.look) ∧
      ∀ steps k, (through sch h' (.obj d) steps k).map Sight.look = (through sch h (.obj src.root) (src.path ++ steps) k).map Sight.look := by
  have I := reached_inv R
  obtain ⟨⟨h1, p⟩, a, b⟩ := Res.bind_eq_ok.1 e
  simp only at b
  obtain ⟨kr, I1, F1, ⟨sn, hsn⟩, lr, D⟩ := find_ok I a
  obtain ⟨m, hm⟩ := Option.isSome_iff_exists.1 v.2
  obtain ⟨u, w⟩ := D dir
  have wp := w (.root kr hm)
  have F := found I dir a
  simp only [copy, hsn] at b
  have I2 := inv_add I1 (k := .root) (by intro p i a; cases a) sn.cls
  have F2 := frame_add (r := h1.next) (k := .root) I1 sn.cls
  have lp := I1.lt hsn
  have ne : p ≠ h1.next := by omega
  have hd : (h1.add .root (fresh sch sn.cls)).node h1.next = some (fresh sch sn.cls) := by simp [Store.add]
  have hs : (h1.add .root (fresh sch sn.cls)).node p = some sn := by simp [Store.add, ne, hsn]
  have kd : (h1.add .root (fresh sch sn.cls)).kind h1.next = .root := by simp [Store.add]
  have lr1 : src.root < h1.next := Nat.lt_of_lt_of_le lr (F1 0).next
  have kr2 : (h1.add .root (fresh sch sn.cls)).kind src.root = .root := by
    rw [F2.kind _ lr1, (F1 0).kind _ lr]; exact kr
  have A : Apart (h1.add .root (fresh sch sn.cls)).kind h1.next p :=
    ⟨h1.next, src.root, kd, kr2, by omega, .here, (under_old I1 F2.kind p lp).2 u⟩
  obtain ⟨I3, F3⟩ := assign_writes n I2 hd hs rfl b
  have wd : Held (h1.add .root (fresh sch sn.cls)) h1.next := .root kd hd
  obtain ⟨g1, g2⟩ := (assign_copies n I2 hd hs rfl wd (F2.held wp) A).2 b
  obtain ⟨d', hd'⟩ := (F3.held wd).alive I3
  obtain ⟨s', hs'⟩ := (F3.held (F2.held wp)).alive I3
  have A3 := A.frame I2 F3 (I2.lt hd) (I2.lt hs)
  have src_same : ∀ path k, seen sch h' (.obj p) path k = seen sch h (.obj src.root) (src.fields ++ path) k := by
    intro path k
    rw [seen_frame I2 I3 F3 path k (I2.lt hs) A3.not.1 A3.not.2 hs', ← F path k]
    exact seen_fill I1 I2 (fun r => frame_add (r := r) (k := .root) I1 sn.cls) path k lp hs
  refine ⟨h1.next, ⟨?_, by simp [hd']⟩, (F1 0).next, fun k => ?_, fun path k => ?_, fun steps k => ?_⟩
  · rw [F3.kind _ (I2.lt hd)]; exact kd
  · rw [g1, src_same, List.append_nil]
  · rw [(g2 path k).look, src_same]
  · rw [deep_of g2 steps k, direct_path dir]
    have s3 := fun path k => seen_frame I2 I3 F3 path k (I2.lt hs) A3.not.1 A3.not.2 hs'
    have s2 := fun path k => seen_fill I1 I2 (fun r => frame_add (r := r) (k := .root) I1 sn.cls) path k lp hs
    have d3 := deep_frame I2 I3 F3 wd (p := []) s3 steps k
    have d2 := deep_frame I1 I2 (frame_add (r := p) (k := .root) I1 sn.cls) wp (p := []) s2 steps k
    have d1 := deep_frame I I1 (F1 src.root) (.root kr hm) F steps k
    rw [d3, List.map_nil, List.nil_append, d2, List.map_nil, List.nil_append, d1]

example : ∃ h, demoRun = .ok h ∧ IsVar h 0 ∧ ∃ h', exec demo 9 h (.copy ⟨0, []⟩) = .ok h' ∧ seen demo h' (.obj 4) [0] 1 = some (.value 5) ∧
    seen demo h' (.obj 4) [] 2 = some (.many [some 2]) ∧ through demo h' (.obj 4) [.elem 2 0, .sub 3] 1 = some (.value 0) := by
  refine ⟨_, rfl, ⟨rfl, rfl⟩, _, rfl, rfl, rfl, rfl⟩

/-- C102: what is assigned to looks afterwards as the source did before, also through the elements of lists, if the two belong to different variables. -/
theorem C102_assign_partial {n : Nat} {h h' : Store} (R : Reached sch h) {dst src : Ref} (vd : IsVar h dst.root) (vs : IsVar h src.root)
    (ne : dst.root ≠ src.root) (dd : dst.direct = true) (ds : src.direct = true) (e : exec sch n h (.assign dst src) = .ok h') :
    (∀ k, seen sch h' (.obj dst.root) dst.fields k = seen sch h (.obj src.root) src.fields k) ∧
    (∀ path k, (seen sch h' (.obj dst.root) (dst.fields ++ path) k).map Sight.look =
      (seen sch h (.obj src.root) (src.fields ++ path) k).map Sight.look) ∧
    ∀ steps k, (through sch h' (.obj dst.root) (dst.path ++ steps) k).map Sight.look =
      (through sch h (.obj src.root) (src.path ++ steps) k).map Sight.look := by
  have I := reached_inv R
  obtain ⟨⟨h1, p⟩, a, b⟩ := Res.bind_eq_ok.1 e
  obtain ⟨⟨h2, q⟩, c, d⟩ := Res.bind_eq_ok.1 b
  simp only at b c d
  obtain ⟨kd, I1, F1, ⟨pn, hpn⟩, ld, D1⟩ := find_ok I a
  obtain ⟨ks, I2, F2, ⟨qn, hqn⟩, ls, D2⟩ := find_ok I1 c
  obtain ⟨md, hmd⟩ := Option.isSome_iff_exists.1 vd.2
  obtain ⟨ms, hms⟩ := Option.isSome_iff_exists.1 vs.2
  obtain ⟨u1, w1⟩ := D1 dd
  obtain ⟨u2, w2⟩ := D2 ds
  have wp := (F2 0).held (w1 (.root vd.1 hmd))
  have wq := w2 ((F1 0).held (.root vs.1 hms))
  obtain ⟨hs1, hhs1⟩ := ((F1 0).held (.root vs.1 hms)).alive I1
  split at d
  · rename_i cl
    rw [Store.cls, Store.cls, hqn] at cl
    obtain ⟨pn2, hp2, cl⟩ := Option.map_eq_some_iff.1 cl
    have ld2 : dst.root < h2.next := Nat.lt_of_lt_of_le (Nat.lt_of_lt_of_le ld (F1 0).next) (F2 0).next
    have kd2 : h2.kind dst.root = .root := by rw [(F2 0).kind _ (Nat.lt_of_lt_of_le ld (F1 0).next), (F1 0).kind _ ld]; exact kd
    have ks2 : h2.kind src.root = .root := by rw [(F2 0).kind _ ls]; exact ks
    have u1' := (under_old I1 (F2 0).kind p (I1.lt hpn)).2 u1
    have A : Apart h2.kind p q := ⟨dst.root, src.root, kd2, ks2, ne, u1', u2⟩
    obtain ⟨I3, F3⟩ := assign_writes n I2 hp2 hqn cl d
    obtain ⟨g1, g2⟩ := (assign_copies n I2 hp2 hqn cl wp wq A).2 d
    obtain ⟨q', hq'⟩ := (F3.held wq).alive I3
    obtain ⟨p', hp'⟩ := (F3.held wp).alive I3
    have A3 := A.frame I2 F3 (I2.lt hp2) (I2.lt hqn)
    have src_same : ∀ path k, seen sch h' (.obj q) path k = seen sch h (.obj src.root) (src.fields ++ path) k := by
      intro path k
      rw [seen_frame I2 I3 F3 path k (I2.lt hqn) A3.not.1 A3.not.2 hq', found I1 ds c path k]
      exact seen_fill I I1 F1 _ k (I.lt hms) hhs1
    -- the target is still where it was
    have dst_same : ∀ path k, seen sch h' (.obj dst.root) (dst.fields ++ path) k = seen sch h' (.obj p) path k := by
      intro path k
      have a' := a
      unfold find at a'
      rw [if_pos kd] at a'
      exact ((resolve_route I a' dd).frame I1 I3 (Frame.trans I1 I2 (F2 p) F3) (Nat.le_refl _) ((F1 0).held (.root vd.1 hmd))).seen path k
    exact ⟨fun k => by
      have := dst_same [] k
      rw [List.append_nil] at this
      rw [this, g1, src_same, List.append_nil], fun path k => by rw [dst_same, (g2 path k).look, src_same], fun steps k => by
      rw [direct_path dd, direct_path ds]
      have e3 := deep_frame (a := .obj dst.root) (a' := .obj p) I3 I3 (Frame.refl (r := p) I3) (F3.held wp) (p := dst.fields)
        (fun path k => (dst_same path k).symm) steps k
      rw [← e3, deep_of g2 steps k]
      have s3 := fun path k => seen_frame I2 I3 F3 path k (I2.lt hqn) A3.not.1 A3.not.2 hq'
      have d3 := deep_frame I2 I3 F3 wp (p := []) s3 steps k
      have d2 := deep_frame I1 I2 (F2 src.root) ((F1 0).held (.root vs.1 hms)) (found I1 ds c) steps k
      have d1 := deep_frame I I1 (F1 src.root) (.root vs.1 hms) (p := []) (fun path k => seen_fill I I1 F1 path k (I.lt hms) hhs1)
        (src.fields.map .sub ++ steps) k
      rw [d3, List.map_nil, List.nil_append, d2, d1, List.map_nil, List.nil_append]⟩
  · cases d

example : ∃ h, demoRun = .ok h ∧ IsVar h 0 ∧ IsVar h 3 ∧ ∃ h', exec demo 9 h (.assign ⟨3, [.sub 3]⟩ ⟨0, []⟩) = .ok h' ∧
    seen demo h' (.obj 3) [3, 0] 1 = some (.value 5) ∧ through demo h' (.obj 3) [.sub 3, .elem 2 0] 1 = some (.value 0) := by
  refine ⟨_, rfl, ⟨rfl, rfl⟩, ⟨rfl, rfl⟩, _, rfl, rfl, rfl⟩

/-- C102: assigning a message to one of its class in another variable, and copying a message, use no object that is gone and no null pointer. (`Fine`: the
statement ends, or goes on; partial because a list may hold, in the end, the message that it is in, and comparing it then goes on for ever.) -/
theorem C102_defined_partial (n : Nat) {h : Store} (R : Reached sch h) {dst src : Ref} {md ms : Node} {c : Nat} (vd : h.kind dst.root = .root)
    (hd : h.node dst.root = some md) (vs : h.kind src.root = .root) (hs : h.node src.root = some ms) (ne : dst.root ≠ src.root) (dd : dst.direct = true)
    (ds : src.direct = true) (cd : classAt sch md.cls dst.fields = some c) (cs : classAt sch ms.cls src.fields = some c) :
    (exec sch n h (.assign dst src) ≠ .ub ∧ ∀ x, exec sch n h (.assign dst src) ≠ .throw x) ∧
    (exec sch n h (.copy src) ≠ .ub ∧ ∀ x, exec sch n h (.copy src) ≠ .throw x) := by
  have I := reached_inv R
  have fine : ∀ {α : Type} {r : Res α}, Fine r → r ≠ .ub ∧ ∀ x, r ≠ .throw x := by
    intro α r f
    rcases f with f | ⟨a, f⟩ <;> subst f <;> simp
  constructor
  · refine fine ?_
    unfold exec
    have fd := resolve_fine I hd dd cd
    refine Fine.bind (by unfold find; rw [if_pos vd]; exact fd.1) fun ⟨h1, p⟩ a => ?_
    obtain ⟨_, I1, F1, ⟨pn, hpn⟩, ld, D1⟩ := find_ok I a
    obtain ⟨ms1, hs1⟩ := ((F1 0).held (.root vs hs)).alive I1
    have ls := I.lt hs
    have vs1 : h1.kind src.root = .root := by rw [(F1 0).kind _ ls]; exact vs
    have fs := resolve_fine I1 hs1 ds (by rw [(F1 0).cls hs hs1]; exact cs)
    refine Fine.bind (by simp only [find]; rw [if_pos vs1]; exact fs.1) fun ⟨h2, q⟩ b => ?_
    simp only at b ⊢
    obtain ⟨_, I2, F2, ⟨qn, hqn⟩, _, D2⟩ := find_ok I1 b
    obtain ⟨u1, w1⟩ := D1 dd
    obtain ⟨u2, w2⟩ := D2 ds
    have wp := (F2 0).held (w1 (.root vd hd))
    have wq := w2 ((F1 0).held (.root vs hs))
    obtain ⟨pn2, hp2⟩ := wp.alive I2
    have a' := a
    have b' := b
    unfold find at a' b'
    rw [if_pos vd] at a'
    rw [if_pos vs1] at b'
    have cp := fd.2 _ _ a'
    have cq := fs.2 _ _ b'
    have cp2 : h2.cls p = some c := by
      simp only [Store.cls, hpn, Option.map_some, Option.some.injEq] at cp
      simp only [Store.cls, hp2, Option.map_some, (F2 0).cls hpn hp2, cp]
    rw [if_pos (by rw [cp2, cq])]
    simp only [Store.cls, hp2, hqn, Option.map_some, Option.some.injEq] at cp2 cq
    have kd2 : h2.kind dst.root = .root := by
      rw [(F2 0).kind _ (Nat.lt_of_lt_of_le ld (F1 0).next), (F1 0).kind _ ld]; exact vd
    have ks2 : h2.kind src.root = .root := by
      rw [(F2 0).kind _ (Nat.lt_of_lt_of_le ls (F1 0).next)]; exact vs1
    have A : Apart h2.kind p q := ⟨dst.root, src.root, kd2, ks2, ne, (under_old I1 (F2 0).kind p (I1.lt hpn)).2 u1, u2⟩
    exact (assign_copies n (h' := h2) I2 hp2 hqn (by rw [cp2, cq]) wp wq A).1
  · refine fine ?_
    unfold exec
    have fs := resolve_fine I hs ds cs
    refine Fine.bind (by unfold find; rw [if_pos vs]; exact fs.1) fun ⟨h1, p⟩ a => ?_
    obtain ⟨_, I1, F1, ⟨sn, hsn⟩, lr, D⟩ := find_ok I a
    obtain ⟨u, w⟩ := D ds
    simp only [copy, hsn]
    have I2 := inv_add I1 (k := .root) (by intro p i a; cases a) sn.cls
    have F2 := frame_add (r := h1.next) (k := .root) I1 sn.cls
    have lp := I1.lt hsn
    have nep : p ≠ h1.next := by omega
    have hd : (h1.add .root (fresh sch sn.cls)).node h1.next = some (fresh sch sn.cls) := by simp [Store.add]
    have hs' : (h1.add .root (fresh sch sn.cls)).node p = some sn := by simp [Store.add, nep, hsn]
    have kd : (h1.add .root (fresh sch sn.cls)).kind h1.next = .root := by simp [Store.add]
    have lr1 : src.root < h1.next := Nat.lt_of_lt_of_le lr (F1 0).next
    have kr2 : (h1.add .root (fresh sch sn.cls)).kind src.root = .root := by
      rw [F2.kind _ lr1, (F1 0).kind _ lr]; exact vs
    have A : Apart (h1.add .root (fresh sch sn.cls)).kind h1.next p :=
      ⟨h1.next, src.root, kd, kr2, by omega, .here, (under_old I1 F2.kind p lp).2 u⟩
    exact (assign_copies n (h' := h1) I2 hd hs' rfl (.root kd hd) (F2.held (w (.root vs hs))) A).1

example : ∃ h md ms, demoRun = .ok h ∧ h.node 3 = some md ∧ h.node 0 = some ms ∧ classAt demo md.cls [3] = some 0 ∧ classAt demo ms.cls [0] = some 0 := by
  refine ⟨_, _, _, rfl, rfl, rfl, rfl, rfl⟩

/-! ### What goes wrong -/

/-- C102 fails for elements of lists: a copy shares them with its source, whatever was copied. Writing through an element of the copy shows in the source. -/
theorem C102_shared_violated {n : Nat} {h h1 : Store} (R : Reached sch h) {s i k : Nat} (v : IsVar h s) {l : List (Option Nat)}
    (sl : seen sch h (.obj s) [] i = some (.many l)) (hk : k < l.length) (e : exec sch n h (.copy ⟨s, []⟩) = .ok h1) :
    ∃ d, IsVar h1 d ∧ d ≠ s ∧ ∀ j x h2, exec sch n h1 (.setValue ⟨d, [.elem i k]⟩ j x) = .ok h2 → throughElem sch h2 s i k j = some (.value x) := by
  have I := reached_inv R
  have R1 : ∃ m' : Node, h1.node s = some m' ∧ h1.kind s = .root ∧ ∀ path k, seen sch h1 (.obj s) path k = seen sch h (.obj s) path k := by
    obtain ⟨m, hm⟩ := Option.isSome_iff_exists.1 v.2
    exact (exec_ok I e).2 s m v.1 hm (by intro w hw; cases hw)
  obtain ⟨ms, hms, ks, same⟩ := R1
  have I1 := (exec_ok I e).1
  obtain ⟨m, hm⟩ := Option.isSome_iff_exists.1 v.2
  obtain ⟨d, vd, ld, top, _⟩ := C102_copy_partial R (src := ⟨s, []⟩) v rfl e
  have ls := I.lt hm
  refine ⟨d, vd, by omega, fun j x h2 e2 => ?_⟩
  have sd : seen sch h1 (.obj d) [] i = some (.many l) := by
    have := top i
    simp only [Ref.fields, List.filterMap_nil] at this
    rw [this, sl]
  have ss : seen sch h1 (.obj s) [] i = some (.many l) := by rw [same, sl]
  obtain ⟨md, hmd⟩ := Option.isSome_iff_exists.1 vd.2
  have slot : ∀ {y : Nat} {ny : Node}, h1.node y = some ny → seen sch h1 (.obj y) [] i = some (.many l) → ny.slots[i]? = some (.many l) := by
    intro y ny a b
    simp only [seen, nodeOf, a] at b
    cases z : ny.slots[i]? with
    | none => rw [z] at b; cases b
    | some t => cases t <;> simp [z, Slot.sight] at b; rw [b]
  have s1 := slot hmd sd
  have s2 := slot hms ss
  obtain ⟨el, me, o1, o2, o3, _⟩ := I1.elem hmd s1 (o := l[k]) (List.getElem_mem hk)
  have lk : l[k]? = some (some el) := by rw [← o1]; simp [hk]
  have nes : s ≠ el := fun f => by rw [← f, ks] at o2; cases o2
  simp only [exec, find, vd.1, if_true, resolve, hmd, s1, lk, o3, Option.isSome_some, Res.bind, Option.bind_some] at e2
  split at e2
  · rename_i v0 hv0
    cases e2
    have lj : j < me.slots.length := (List.getElem?_eq_some_iff.1 hv0).1
    simp [throughElem, seen, nodeOf, Store.put, nes, hms, s2, lk, o3, lj, Slot.sight]
  · cases e2

example : ∃ h, demoRun = .ok h ∧ IsVar h 0 ∧ seen demo h (.obj 0) [] 2 = some (.many [some 2]) ∧ throughElem demo h 0 2 0 1 = some (.value 0) ∧
    ∃ h1, exec demo 9 h (.copy ⟨0, []⟩) = .ok h1 ∧ ∃ h2, exec demo 9 h1 (.setValue ⟨4, [.elem 2 0]⟩ 1 7) = .ok h2 ∧
      throughElem demo h2 0 2 0 1 = some (.value 7) := by
  refine ⟨_, rfl, ⟨rfl, rfl⟩, rfl, rfl, _, rfl, _, rfl, rfl⟩

/-- `T a; a.x().setV(v);` where `T` is a message of its own class and a value -/
def listed : Schema := fun _ => [.sub 0, .value]

/-- C102 fails where the source is part of the target: after `a = a.x()` the value of `a` is not that of `a.x()` but 0, whatever it was: `a.x()` is written
to before its value is read. -/
theorem C102_child_violated (n v : Nat) (nz : v ≠ 0) : ∃ h h', Reached listed h ∧ seen listed h (.obj 0) [0] 1 = some (.value v) ∧
    exec listed (n + 4) h (.assign ⟨0, []⟩ ⟨0, [.sub 0]⟩) = .ok h' ∧ seen listed h' (.obj 0) [] 1 = some (.value 0) := by
  obtain ⟨w, rfl⟩ : ∃ w, v = w + 1 := ⟨v - 1, by omega⟩
  exact ⟨_, _, ⟨4, [.new 0, .setValue ⟨0, [.sub 0]⟩ 1 (w + 1)], rfl⟩, rfl, rfl, rfl⟩

/-- A value and a message of its own class. -/
def chained : Schema := fun _ => [.value, .sub 0]

/-- Each call writes the value, finds that the new sub-message differs from the one it is in, and calls itself. -/
theorem assign_chain {v w : Nat} (nz : v ≠ 0) : ∀ (n : Nat) {h : Store} {p q : Nat}, p ≠ q → p < h.next → q < h.next →
    h.node q = some ⟨0, [.value v, .sub (some p)]⟩ → h.node p = some ⟨0, [.value w, .sub none]⟩ → assign chained n h p q = .fuel
  | 0, _, _, _, _, _, _, _, _ => rfl
  | 1, h, p, q, ne, lp, lq, hq, hp => by
    have r : List.range (chained 0).length = [0, 1] := rfl
    simp only [assign, hp, r, assignFields]
    simp [assignField, hp, hq, chained, Store.put, Ne.symm ne, lazySame, same]
  | n + 2, h, p, q, ne, lp, lq, hq, hp => by
    have r : List.range (chained 0).length = [0, 1] := rfl
    have np : p ≠ h.next := by omega
    have nq : q ≠ h.next := by omega
    have ih := assign_chain (v := v) (w := 0) nz (n + 1)
      (h := ((h.put p 0 (.value v)).add (.owned p 1) (fresh chained 0)).put p 1 (.sub (some h.next))) (p := h.next) (q := p) (Ne.symm np)
      (by simp [Store.put, Store.add]) (by simp [Store.put, Store.add]; omega) (by simp [Store.put, Store.add, np, hp])
      (by simp [Store.put, Store.add, Ne.symm np, fresh, chained, Member.default])
    have hp1 : (h.put p 0 (.value v)).node p = some ⟨0, [.value v, .sub none]⟩ := by simp [Store.put, hp]
    have hq1 : (h.put p 0 (.value v)).node q = some ⟨0, [.value v, .sub (some p)]⟩ := by simp [Store.put, Ne.symm ne, hq]
    have f0 : assignField chained (fun h => same chained h (n + 1)) (assign chained (n + 1)) h p q 0 = .ok (h.put p 0 (.value v)) := by
      simp [assignField, hp, hq, chained]
    have cmp : lazySame (same chained (h.put p 0 (.value v)) (n + 1)) 0 none (some p) = .ok false := by
      simp [lazySame, viewOf, same, nodeOf, hp1, fresh, chained, Member.default, sameSlots, Ne.symm nz]
    have g1 : get chained (h.put p 0 (.value v)) p 1 =
        .ok (((h.put p 0 (.value v)).add (.owned p 1) (fresh chained 0)).put p 1 (.sub (some h.next)), h.next) := by
      simp only [get, hp1]
      rfl
    have hq2 : (((h.put p 0 (.value v)).add (.owned p 1) (fresh chained 0)).put p 1 (.sub (some h.next))).node q = some ⟨0, [.value v, .sub (some p)]⟩ := by
      simp [Store.put, Store.add, Ne.symm ne, hq]
      omega
    have g2 : get chained (((h.put p 0 (.value v)).add (.owned p 1) (fresh chained 0)).put p 1 (.sub (some h.next))) q 1 =
        .ok (((h.put p 0 (.value v)).add (.owned p 1) (fresh chained 0)).put p 1 (.sub (some h.next)), p) := by
      simp only [get, hq2]
      rfl
    have f1 : assignField chained (fun h => same chained h (n + 1)) (assign chained (n + 1)) (h.put p 0 (.value v)) p q 1 = .fuel := by
      have c1 : (chained 0)[1]? = some (.sub 0) := rfl
      simp only [assignField, hp1, hq1, c1, List.getElem?_cons_succ, List.getElem?_cons_zero, cmp, Res.bind, g1, g2, Bool.false_eq_true, if_false]
      exact ih
    simp only [assign, hp, r, assignFields] at *
    rw [f0]
    simp only [Res.bind, f1]

/-- C102 fails where the target is part of the source: `a.x() = a` (or `a.setX(a)`) never returns, whatever the value of `a` (if it is not 0): the message
that is copied grows with the copy. -/
theorem C102_parent_violated (v : Nat) (nz : v ≠ 0) : ∃ h, Reached chained h ∧ seen chained h (.obj 0) [] 0 = some (.value v) ∧
    ∀ n, exec chained n h (.assign ⟨0, [.sub 1]⟩ ⟨0, []⟩) = .fuel := by
  refine ⟨_, ⟨4, [.new 0, .setValue ⟨0, []⟩ 0 v], rfl⟩, rfl, fun n => ?_⟩
  exact assign_chain (v := v) (w := 0) nz n (p := 1) (q := 0) (by decide) (show 1 < 2 by decide) (show 0 < 2 by decide) rfl rfl

/-- A list of messages of its own class and a value. -/
def tree : Schema := fun _ => [.many 0, .value]

/-- C102 fails where the source is an element of the target: `a = *a.kids()[0]` frees the message that it is reading. -/
theorem C102_element_violated (n v : Nat) : ∃ h, Reached tree h ∧ throughElem tree h 0 0 0 1 = some (.value v) ∧
    exec tree (n + 1) h (.assign ⟨0, []⟩ ⟨0, [.elem 0 0]⟩) = .ub := by
  exact ⟨_, ⟨4, [.new 0, .append ⟨0, []⟩ 0, .setValue ⟨0, [.elem 0 0]⟩ 1 v], rfl⟩, rfl, rfl⟩

end QtPb.Heap
