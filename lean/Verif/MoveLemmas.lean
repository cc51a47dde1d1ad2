import Verif.CompareLemmas
import Verif.SetterLemmas
import Verif.SpecMove
/-
Lemmas about moving messages.
-/
namespace QtPb
open Spec

variable {env : Env} {q : Containers}

theorem plainEq_same {ty : FieldTy} {a b : Val} (h1 : ∀ m, ty ≠ .msg m) (h2 : ∀ m, ty ≠ .msgList m)
    (h3 : ∀ kk m, ty ≠ .map kk (.msg m)) (ha : HasTy env ty a) (hb : HasTy env ty b) :
    plainEq ty a b = true ↔ Same env ty a b := by
  obtain ⟨N, r, hN, hr⟩ := decidesOther h1 h2 h3 ha hb
  have key : eqVal env (objEq env N) ty a b = .ok (plainEq ty a b) := by
    cases ha with
    | sc => cases hb; rfl
    | scList => cases hb; rfl
    | enum => cases hb; rfl
    | enumList => cases hb; rfl
    | null m => exact absurd rfl (h1 m)
    | msg => exact absurd rfl (h1 _)
    | msgList => exact absurd rfl (h2 _)
    | @map kk vt =>
      cases hb
      cases vt with
      | scalar => rfl
      | enum => rfl
      | msg m => exact absurd rfl (h3 kk m)
  have := hN N (Nat.le_refl _)
  simp only [key, Res.ok.injEq] at this
  rw [this]; exact hr

theorem wholeEq_mirrors (hq : Containers.Sound env q) {ty : FieldTy} {a b : Val} (h1 : ∀ m, ty ≠ .msg m)
    (ha : HasTy env ty a) (hb : HasTy env ty b) (h : wholeEq q ty a b = true) : Mirrors env ty a b := by
  unfold wholeEq at h
  split at h
  · exact hq.samePtrs _ _ _ ha hb h
  · exact hq.samePtrs _ _ _ ha hb h
  · rename_i h2 h3
    exact .same ((plainEq_same h1 h2 h3 ha hb).mp h)

/-- A field is moved: the target has a copy of the old source, both hold values of the type. -/
structure MovedOk (env : Env) (ty : FieldTy) (src : Val) (r : Moved) : Prop where
  copy : Mirrors env ty r.target src
  target : HasTy env ty r.target
  source : HasTy env ty r.source

def Moves (env : Env) (ty : FieldTy) (P : Nat → Res Moved) (src : Val) : Prop :=
  ∃ N, ∀ n, N ≤ n → ∃ r, P n = .ok r ∧ MovedOk env ty src r

/-- All fields of an object are moved. -/
def MovesObj (env : Env) (m : Nat) (P : Nat → Res (List Moved)) (src : Obj) : Prop :=
  ∃ N, ∀ n, N ≤ n → ∃ r, P n = .ok r ∧ Mirrors env (.msg m) (.msg (targets r)) (.msg src) ∧
    HasTy env (.msg m) (.msg (targets r)) ∧ HasTy env (.msg m) (.msg (sources r))

theorem moveFields_moves {F : Nat → FieldTy → Val → Val → Res Moved}
    {G : Nat → List Field → Obj → Obj → Res (List Moved)}
    (hG : ∀ n f fs a as b bs, G n (f :: fs) (a :: as) (b :: bs) = (do
      let v ← F n f.ty a b
      let r ← G n fs as bs
      .ok (v :: r)))
    (hG0 : ∀ n as bs, G n [] as bs = .ok [])
    {fs : List Field} {c s : Obj} (hlc : c.length = fs.length) (hls : s.length = fs.length)
    (h : ∀ (i : Nat) (f : Field) (x y : Val), fs[i]? = some f → c[i]? = some x → s[i]? = some y →
      Moves env f.ty (fun n => F n f.ty x y) y) :
    ∃ N, ∀ n, N ≤ n → ∃ r, G n fs c s = .ok r ∧ r.length = fs.length ∧
      ∀ (i : Nat) (f : Field) (x : Moved) (y : Val), fs[i]? = some f → r[i]? = some x → s[i]? = some y →
        MovedOk env f.ty y x := by
  induction fs generalizing c s with
  | nil => exact ⟨0, fun n _ => ⟨[], hG0 n c s, rfl, by simp⟩⟩
  | cons f fs ih =>
    cases c with
    | nil => simp at hlc
    | cons x c =>
      cases s with
      | nil => simp at hls
      | cons y s =>
        obtain ⟨N, hN⟩ := h 0 f x y rfl rfl rfl
        obtain ⟨M, hM⟩ := ih (c := c) (s := s) (by simpa using hlc) (by simpa using hls)
          fun i f x y hf hx hy =>
            h (i + 1) f x y (by simpa using hf) (by simpa using hx) (by simpa using hy)
        refine ⟨max N M, fun n hn => ?_⟩
        obtain ⟨v, hv, hv1⟩ := hN n (by omega)
        obtain ⟨r, hr, hr1, hr2⟩ := hM n (by omega)
        simp only at hv
        refine ⟨v :: r, by rw [hG, hv]; simp [hr, Res.bind], by simp [hr1], ?_⟩
        intro i f' x' y' hf hx hy
        cases i with
        | zero => simp at hf hx hy; subst hf hx hy; exact hv1
        | succ i => exact hr2 i f' x' y' (by simpa using hf) (by simpa using hx) (by simpa using hy)

theorem movesObj_of {m : Nat} {r : List Moved} {s : Obj} (hs : HasTy env (.msg m) (.msg s))
    (hl : r.length = (env.sch m).length)
    (h : ∀ (i : Nat) (f : Field) (x : Moved) (y : Val), (env.sch m)[i]? = some f → r[i]? = some x → s[i]? = some y →
        MovedOk env f.ty y x) :
    Mirrors env (.msg m) (.msg (targets r)) (.msg s) ∧
    HasTy env (.msg m) (.msg (targets r)) ∧ HasTy env (.msg m) (.msg (sources r)) := by
  cases hs with
  | msg hls hs =>
    have get : ∀ {i : Nat} {f : Field} {x : Moved}, (env.sch m)[i]? = some f → r[i]? = some x →
        ∃ y, s[i]? = some y ∧ MovedOk env f.ty y x := by
      intro i f x hf hx
      obtain ⟨y, hy⟩ := getElem?_of_len (hl.trans hls.symm) hx
      exact ⟨y, hy, h i f x y hf hx hy⟩
    refine ⟨.msg fun i f x y hf hx hy => ?_, .msg (by simpa [targets] using hl) fun i f v hf hv => ?_,
      .msg (by simpa [sources] using hl) fun i f v hf hv => ?_⟩
    · simp only [contents, targets, List.getElem?_map, Option.map_eq_some_iff] at hx hy
      obtain ⟨w, hw, rfl⟩ := hx
      exact (h i f w y hf hw hy).copy
    · simp only [targets, List.getElem?_map, Option.map_eq_some_iff] at hv
      obtain ⟨w, hw, rfl⟩ := hv
      obtain ⟨y, _, hk⟩ := get hf hw
      exact hk.target
    · simp only [sources, List.getElem?_map, Option.map_eq_some_iff] at hv
      obtain ⟨w, hw, rfl⟩ := hv
      obtain ⟨y, _, hk⟩ := get hf hw
      exact hk.source

theorem moveAssign_moves {m : Nat} {c s : Obj} (hc : HasTy env (.msg m) (.msg c)) (hs : HasTy env (.msg m) (.msg s))
    (h : ∀ (i : Nat) (f : Field) (x y : Val), (env.sch m)[i]? = some f → c[i]? = some x → s[i]? = some y →
      Moves env f.ty (fun n => moveVal env q (lazyNe env n) (moveAssign env q n) f.ty x y) y) :
    MovesObj env m (fun n => moveAssign env q n m c s) s := by
  have hlc := hasTy_contents_length (v := .msg c) hc
  have hls := hasTy_contents_length (v := .msg s) hs
  obtain ⟨N, hN⟩ := moveFields_moves
    (F := fun n => moveVal env q (lazyNe env n) (moveAssign env q n))
    (G := fun n => moveFields env q (lazyNe env n) (moveAssign env q n))
    (fun n f fs a as b bs => rfl) (fun n as bs => by simp [moveFields]) (fs := env.sch m) hlc hls h
  refine ⟨N + 1, fun n hn => ?_⟩
  obtain ⟨k, rfl⟩ : ∃ k, n = k + 1 := ⟨n - 1, by omega⟩
  obtain ⟨r, hr, h1, h2⟩ := hN k (by omega)
  exact ⟨r, hr, movesObj_of hs h1 h2⟩

/-- Messages: both the assignment and the construction. -/
theorem moveMsg_moves {a b : Bool} {m : Nat} {c s : Val} (hcmp : Comparable env (.msg m) c s)
    (hc : HasTy env (.msg m) c) (hs : HasTy env (.msg m) s)
    (h : MovesObj env m (fun n => moveAssign env q n m (contents env m c) (contents env m s)) (contents env m s)) :
    Moves env (.msg m) (fun n => do
      let differ ← lazyNe env n m c s
      if differ then
        let r ← moveAssign env q n m (deref env m c) (deref env m s)
        .ok ⟨.msg (r.map Moved.target), .msg (r.map Moved.source), a, b⟩
      else .ok ⟨c, s, false, false⟩) s := by
  have hd := cmp_comparable hcmp hc hs
  obtain ⟨N, e, hN, he⟩ := lazyEq_decides (hd.1.obj m rfl) (hd.2.obj m rfl)
  obtain ⟨M, hM⟩ := h
  refine ⟨max N M, fun n hn => ?_⟩
  have e1 := hN n (by omega)
  obtain ⟨r, hr, h1, h2, h3⟩ := hM n (by omega)
  cases e with
  | true =>
    exact ⟨⟨c, s, false, false⟩, by simp [lazyNe, e1, Res.bind], ⟨.same (he.mp rfl), hc, hs⟩⟩
  | false =>
    simp only at hr
    exact ⟨⟨.msg (targets r), .msg (sources r), a, b⟩, by
      simp [lazyNe, e1, Res.bind, deref_eq, hr]; exact ⟨rfl, rfl⟩, ⟨mirrors_contents h1, h2, h3⟩⟩

theorem moveVal_other_moves (hq : Containers.Sound env q) {ty : FieldTy} {c s : Val} (hty : ∀ m, ty ≠ .msg m)
    (hc : HasTy env ty c) (hs : HasTy env ty s) :
    Moves env ty (fun n => moveVal env q (lazyNe env n) (moveAssign env q n) ty c s) s := by
  have whole : movedWhole ty = true → Moves env ty (fun _ =>
      if movedWhole ty then
        if wholeEq q ty c s then .ok ⟨c, s, false, false⟩ else .ok ⟨s, q.left ty c s, true, true⟩
      else .ok ⟨writeVal ty c s, defaultVal ty, !plainEq ty c s, true⟩) s := by
    intro hw
    rw [hw]
    refine ⟨0, fun _ _ => ?_⟩
    simp only [if_true]
    split
    · rename_i h
      exact ⟨_, rfl, wholeEq_mirrors hq hty hc hs h, hc, hs⟩
    · exact ⟨_, rfl, .refl _ _, hs, hq.left _ _ _ hc hs⟩
  have number : movedWhole ty = false → Moves env ty (fun _ =>
      if movedWhole ty then
        if wholeEq q ty c s then .ok ⟨c, s, false, false⟩ else .ok ⟨s, q.left ty c s, true, true⟩
      else .ok ⟨writeVal ty c s, defaultVal ty, !plainEq ty c s, true⟩) s := by
    intro hw
    rw [hw]
    have := writeVal_hasTy hty hc hs
    exact ⟨0, fun _ _ => ⟨_, rfl, this.1, this.2, hasTy_default ty⟩⟩
  cases ty with
  | msg m => exact absurd rfl (hty m)
  | enum => exact ⟨0, fun _ _ => ⟨_, rfl, .refl _ _, hs, hs⟩⟩
  | scalar k =>
    cases hw : movedWhole (.scalar k) with
    | true => exact whole hw
    | false => exact number hw
  | list k => exact whole rfl
  | enumList => exact whole rfl
  | msgList m => exact whole rfl
  | map kk vt => exact whole rfl

theorem moveInitVal_other_moves (hq : Containers.Sound env q) {ty : FieldTy} {c s : Val} (hty : ∀ m, ty ≠ .msg m)
    (hc : HasTy env ty c) (hs : HasTy env ty s) :
    Moves env ty (fun n => moveInitVal env q (lazyNe env n) (moveAssign env q n) ty c s) s := by
  have whole : movedWhole ty = true → Moves env ty (fun _ =>
      if movedWhole ty then .ok ⟨s, q.left ty c s, false, true⟩
      else .ok ⟨writeVal ty c s, defaultVal ty, !plainEq ty c s, true⟩) s := by
    intro hw
    rw [hw]
    exact ⟨0, fun _ _ => ⟨_, rfl, .refl _ _, hs, hq.left _ _ _ hc hs⟩⟩
  have number : movedWhole ty = false → Moves env ty (fun _ =>
      if movedWhole ty then .ok ⟨s, q.left ty c s, false, true⟩
      else .ok ⟨writeVal ty c s, defaultVal ty, !plainEq ty c s, true⟩) s := by
    intro hw
    rw [hw]
    have := writeVal_hasTy hty hc hs
    exact ⟨0, fun _ _ => ⟨_, rfl, this.1, this.2, hasTy_default ty⟩⟩
  cases ty with
  | msg m => exact absurd rfl (hty m)
  | enum => exact ⟨0, fun _ _ => ⟨_, rfl, .refl _ _, hs, hs⟩⟩
  | scalar k =>
    cases hw : movedWhole (.scalar k) with
    | true => exact whole hw
    | false => exact number hw
  | list k => exact whole rfl
  | enumList => exact whole rfl
  | msgList m => exact whole rfl
  | map kk vt => exact whole rfl

theorem moveVal_default_moves (hq : Containers.Sound env q) (ty : FieldTy) : Moves env ty
    (fun n => moveVal env q (lazyNe env n) (moveAssign env q n) ty (defaultVal ty) (defaultVal ty)) (defaultVal ty) := by
  cases ty with
  | msg m =>
    exact ⟨0, fun n _ => ⟨⟨.msgNull, .msgNull, false, false⟩, by simp [moveVal, lazyNe, lazyEq, Res.bind, defaultVal],
      .refl _ _, .null m, .null m⟩⟩
  | _ => exact moveVal_other_moves hq (by simp) (hasTy_default _) (hasTy_default _)

theorem move_comparable (hq : Containers.Sound env q) {ty : FieldTy} {c s : Val} (h : Comparable env ty c s)
    (hc : HasTy env ty c) (hs : HasTy env ty s) : ∀ m, ty = .msg m →
    MovesObj env m (fun n => moveAssign env q n m (contents env m c) (contents env m s)) (contents env m s) := by
  induction h with
  | other h1 => intro m hm; exact absurd hm (h1 m)
  | unset m =>
    intro m' hm'; cases hm'
    refine moveAssign_moves (hasTy_contents (.null m)) (hasTy_contents (.null m)) fun i f x y hf hx hy => ?_
    rw [defaultObj_field hf hx, defaultObj_field hf hy]
    exact moveVal_default_moves hq f.ty
  | @msg m a b h ih =>
    intro m' hm'; cases hm'
    refine moveAssign_moves (hasTy_contents hc) (hasTy_contents hs) fun i f x y hf hx hy => ?_
    have hx' := hasTy_contents_field hc hf hx
    have hy' := hasTy_contents_field hs hf hy
    by_cases hty : ∃ m2, f.ty = .msg m2
    · obtain ⟨m2, hty⟩ := hty
      have ih' := ih i f x y hf hx hy hx' hy' m2 hty
      have hcmp := h i f x y hf hx hy
      rw [hty] at hcmp hx' hy' ⊢
      exact moveMsg_moves hcmp hx' hy' ih'
    · exact moveVal_other_moves hq (fun m2 h => hty ⟨m2, h⟩) hx' hy'
  | msgList => intro m hm; cases hm
  | map => intro m hm; cases hm

/-- Moving between objects whose sub-messages are comparable. -/
theorem move_comparableSubs (hq : Containers.Sound env q) {m : Nat} {c s : Obj} (h : ComparableSubs env m c s)
    (hc : HasTy env (.msg m) (.msg c)) (hs : HasTy env (.msg m) (.msg s)) :
    MovesObj env m (fun n => moveAssign env q n m c s) s := by
  refine moveAssign_moves hc hs fun i f x y hf hx hy => ?_
  have hx' : HasTy env f.ty x := hasTy_contents_field (v := .msg c) hc hf hx
  have hy' : HasTy env f.ty y := hasTy_contents_field (v := .msg s) hs hf hy
  by_cases hty : ∃ m2, f.ty = .msg m2
  · obtain ⟨m2, hty⟩ := hty
    have hcmp := h i f m2 x y hf hty hx hy
    rw [hty] at hx' hy' ⊢
    exact moveMsg_moves hcmp hx' hy' (move_comparable hq hcmp hx' hy' m2 rfl)
  · exact moveVal_other_moves hq (fun m2 h => hty ⟨m2, h⟩) hx' hy'

theorem copyStart_msg (fs : List Field) (g : Obj) {i : Nat} {f : Field} {v : Val} {m : Nat}
    (hf : fs[i]? = some f) (hty : f.ty = .msg m) (hv : (copyStart fs g)[i]? = some v) : v = .msgNull := by
  induction fs generalizing g i with
  | nil => simp at hf
  | cons f' fs ih =>
    cases g with
    | nil =>
      cases i with
      | zero => simp [copyStart] at hf hv; subst hf hv; rw [hty]; rfl
      | succ i => exact ih [] (by simpa using hf) (by simpa [copyStart] using hv)
    | cons g gs =>
      cases i with
      | zero =>
        simp only [copyStart, List.getElem?_cons_zero, Option.some.injEq] at hf hv
        subst hf hv
        rw [hty]; rfl
      | succ i => exact ih gs (by simpa using hf) (by simpa [copyStart] using hv)

theorem moveConstruct_moves (hq : Containers.Sound env q) {m : Nat} (g : Obj) {s : Obj} (hs : HasTy env (.msg m) (.msg s)) :
    MovesObj env m (fun n => moveConstruct env q n m g s) s := by
  have hc : HasTy env (.msg m) (.msg (copyStart (env.sch m) g)) := (copyStart_holds m g).hasTy
  have hlc := hasTy_contents_length (v := .msg (copyStart (env.sch m) g)) hc
  have hls := hasTy_contents_length (v := .msg s) hs
  obtain ⟨N, hN⟩ := moveFields_moves (env := env)
    (F := fun n => moveInitVal env q (lazyNe env n) (moveAssign env q n))
    (G := fun n => moveInitFields env q (lazyNe env n) (moveAssign env q n))
    (fun n f fs a as b bs => rfl) (fun n as bs => by simp [moveInitFields]) (fs := env.sch m)
    (c := copyStart (env.sch m) g) (s := s) hlc hls (by
      intro i f x y hf hx hy
      have hx' : HasTy env f.ty x := hasTy_contents_field (v := .msg (copyStart (env.sch m) g)) hc hf hx
      have hy' : HasTy env f.ty y := hasTy_contents_field (v := .msg s) hs hf hy
      by_cases hty : ∃ m2, f.ty = .msg m2
      · obtain ⟨m2, hty⟩ := hty
        have hx0 := copyStart_msg _ _ hf hty hx
        subst hx0
        rw [hty] at hx' hy' ⊢
        have hcmp : Comparable env (.msg m2) .msgNull y := comparable_default hy'
        exact moveMsg_moves hcmp hx' hy' (move_comparable hq hcmp hx' hy' m2 rfl)
      · exact moveInitVal_other_moves hq (fun m2 h => hty ⟨m2, h⟩) hx' hy')
  refine ⟨N, fun n hn => ?_⟩
  obtain ⟨r, hr, h1, h2⟩ := hN n hn
  exact ⟨r, hr, movesObj_of hs h1 h2⟩

/-! ### Moving to itself -/

theorem selfMoveFields_copies {fs : List Field} {s : Obj} (hls : s.length = fs.length)
    (h : ∀ (i : Nat) (f : Field) (y : Val), fs[i]? = some f → s[i]? = some y →
      Copies env f.ty (fun n => selfMoveVal env (lazyNe env n) (selfMove env n) f.ty y) y) :
    ∃ N, ∀ n, N ≤ n → ∃ r, selfMoveFields env (lazyNe env n) (selfMove env n) fs s = .ok r ∧
      r.length = fs.length ∧ ∀ (i : Nat) (f : Field) (x y : Val), fs[i]? = some f → r[i]? = some x →
        s[i]? = some y → Mirrors env f.ty x y ∧ HasTy env f.ty x := by
  induction fs generalizing s with
  | nil => exact ⟨0, fun n _ => ⟨[], by simp [selfMoveFields], rfl, by simp⟩⟩
  | cons f fs ih =>
    cases s with
    | nil => simp at hls
    | cons y s =>
      obtain ⟨N, hN⟩ := h 0 f y rfl rfl
      obtain ⟨M, hM⟩ := ih (s := s) (by simpa using hls)
        fun i f y hf hy => h (i + 1) f y (by simpa using hf) (by simpa using hy)
      refine ⟨max N M, fun n hn => ?_⟩
      obtain ⟨v, hv, hv1, hv2⟩ := hN n (by omega)
      obtain ⟨r, hr, hr1, hr2⟩ := hM n (by omega)
      simp only at hv
      refine ⟨v :: r, by simp [selfMoveFields, hv, hr, Res.bind], by simp [hr1], ?_⟩
      intro i f' x' y' hf hx hy
      cases i with
      | zero => simp at hf hx hy; subst hf hx hy; exact ⟨hv1, hv2⟩
      | succ i => exact hr2 i f' x' y' (by simpa using hf) (by simpa using hx) (by simpa using hy)

theorem selfMoveVal_other {ty : FieldTy} {s : Val} (hty : ∀ m, ty ≠ .msg m) (hs : HasTy env ty s) :
    Copies env ty (fun n => selfMoveVal env (lazyNe env n) (selfMove env n) ty s) s := by
  have h := writeVal_hasTy hty (hasTy_default ty) hs
  have same : (∀ n, selfMoveVal env (lazyNe env n) (selfMove env n) ty s = .ok s) →
      Copies env ty (fun n => selfMoveVal env (lazyNe env n) (selfMove env n) ty s) s :=
    fun e => ⟨0, fun n _ => ⟨s, e n, .refl _ _, hs⟩⟩
  cases ty with
  | msg m => exact absurd rfl (hty m)
  | scalar k =>
    cases hw : movedWhole (.scalar k) with
    | true => exact same fun n => by simp [selfMoveVal, hw]
    | false => exact ⟨0, fun n _ => ⟨_, by simp [selfMoveVal, hw], h.1, h.2⟩⟩
  | enum => exact same fun n => rfl
  | _ => exact same fun n => by simp [selfMoveVal, movedWhole]

theorem selfMove_copies {ty : FieldTy} {s : Val} (hs : HasTy env ty s) : ∀ m, ty = .msg m →
    ∃ N, ∀ n, N ≤ n → ∃ r, selfMove env n m (contents env m s) = .ok r ∧
      Mirrors env (.msg m) (.msg r) (.msg (contents env m s)) ∧ HasTy env (.msg m) (.msg r) := by
  have obj : ∀ {m : Nat} {s : Obj}, HasTy env (.msg m) (.msg s) →
      (∀ (i : Nat) (f : Field) (y : Val), (env.sch m)[i]? = some f → s[i]? = some y →
        Copies env f.ty (fun n => selfMoveVal env (lazyNe env n) (selfMove env n) f.ty y) y) →
      ∃ N, ∀ n, N ≤ n → ∃ r, selfMove env n m s = .ok r ∧ Mirrors env (.msg m) (.msg r) (.msg s) ∧
        HasTy env (.msg m) (.msg r) := by
    intro m s hs h
    have hls := hasTy_contents_length (v := .msg s) hs
    obtain ⟨N, hN⟩ := selfMoveFields_copies hls h
    refine ⟨N + 1, fun n hn => ?_⟩
    obtain ⟨k, rfl⟩ : ∃ k, n = k + 1 := ⟨n - 1, by omega⟩
    obtain ⟨r, hr, h1, h2⟩ := hN k (by omega)
    refine ⟨r, hr, .msg fun i f x y hf hx hy => (h2 i f x y hf hx hy).1, .msg h1 fun i f v hf hv => ?_⟩
    obtain ⟨y, hy⟩ := getElem?_of_len (h1.trans hls.symm) hv
    exact (h2 i f v y hf hv hy).2
  have msg : ∀ {m : Nat} {s : Val}, HasTy env (.msg m) s →
      (∃ N, ∀ n, N ≤ n → ∃ r, selfMove env n m (contents env m s) = .ok r ∧
        Mirrors env (.msg m) (.msg r) (.msg (contents env m s)) ∧ HasTy env (.msg m) (.msg r)) →
      Copies env (.msg m) (fun n => selfMoveVal env (lazyNe env n) (selfMove env n) (.msg m) s) s := by
    intro m s hs h
    have hd := cmp_comparable (comparable_refl hs) hs hs
    obtain ⟨N, e, hN, he⟩ := lazyEq_decides (hd.1.obj m rfl) (hd.2.obj m rfl)
    obtain ⟨M, hM⟩ := h
    refine ⟨max N M, fun n hn => ?_⟩
    have e1 := hN n (by omega)
    obtain ⟨r, hr, h1, h2⟩ := hM n (by omega)
    cases e with
    | true => exact ⟨s, by simp [selfMoveVal, lazyNe, e1, Res.bind], .refl _ _, hs⟩
    | false => exact ⟨.msg r, by simp [selfMoveVal, lazyNe, e1, Res.bind, deref_eq, hr], mirrors_contents h1, h2⟩
  have dflt : ∀ ty, Copies env ty (fun n => selfMoveVal env (lazyNe env n) (selfMove env n) ty (defaultVal ty)) (defaultVal ty) := by
    intro ty
    cases ty with
    | msg m => exact ⟨0, fun n _ => ⟨.msgNull, by simp [selfMoveVal, lazyNe, lazyEq, Res.bind, defaultVal], .refl _ _, .null m⟩⟩
    | _ => exact selfMoveVal_other (by simp) (hasTy_default _)
  induction hs with
  | null m =>
    intro m' hm'; cases hm'
    refine obj (hasTy_contents (.null m)) fun i f y hf hy => ?_
    rw [defaultObj_field hf hy]
    exact dflt f.ty
  | @msg m o hl hh ih =>
    intro m' hm'; cases hm'
    refine obj (.msg hl hh) fun i f y hf hy => ?_
    have hy' := hh i f y hf hy
    by_cases hty : ∃ m2, f.ty = .msg m2
    · obtain ⟨m2, hty⟩ := hty
      have ih' := ih i f y hf hy m2 hty
      rw [hty] at hy' ⊢
      exact msg hy' ih'
    · exact selfMoveVal_other (fun m2 h => hty ⟨m2, h⟩) hy'
  | _ => intro m hm; cases hm

end QtPb
