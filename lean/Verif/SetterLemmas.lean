import Verif.SpecSetters
import Verif.FieldLemmas
import Verif.AssignLemmas
import Verif.SafeLemmas
/-
Budgets of comparison and assignment only matter for termination; lemmas about setters.
-/
namespace QtPb
open Spec

variable {env : Env}

/-- Answers of `r` are answers of `r'`. -/
def Agree {α : Type} (r r' : Res α) : Prop := ∀ a, r = .ok a → r' = .ok a

theorem Agree.bind {α β : Type} {r r' : Res α} {f f' : α → Res β} (h : Agree r r')
    (hf : ∀ a, Agree (f a) (f' a)) : Agree (r >>= f) (r' >>= f') := by
  intro b hb
  simp only [Res.bind_eq, Res.bind_eq_ok] at hb ⊢
  obtain ⟨a, ha, hb⟩ := hb
  exact ⟨a, h a ha, hf a b hb⟩

theorem Agree.refl {α : Type} (r : Res α) : Agree r r := fun _ h => h

theorem Agree.ite {α : Type} {c : Bool} {a b a' b' : Res α} (h1 : Agree a a') (h2 : Agree b b') :
    Agree (if c = true then a else b) (if c = true then a' else b') := by
  cases c
  · simpa using h2
  · simpa using h1

theorem eqVal_agree {rec rec' : Nat → Obj → Obj → Res Bool} (h : ∀ m a b, Agree (rec m a b) (rec' m a b))
    (ty : FieldTy) (a b : Val) : Agree (eqVal env rec ty a b) (eqVal env rec' ty a b) := by
  have hlazy : ∀ m a b, Agree (lazyEq env rec m a b) (lazyEq env rec' m a b) := by
    intro m a b
    unfold lazyEq
    split <;> first | exact h _ _ _ | exact Agree.refl _
  have hlist : ∀ m (l l' : List Val), Agree (listEq rec m l l') (listEq rec' m l l') := by
    intro m l
    induction l with
    | nil => intro l'; unfold listEq; exact Agree.refl _
    | cons x l ih =>
      intro l'
      cases l' with
      | nil => cases x <;> exact Agree.refl _
      | cons y l' =>
        cases x <;> cases y <;> first
          | exact Agree.refl _
          | exact ih l'
          | exact Agree.bind (h _ _ _) fun r => Agree.ite (ih l') (Agree.refl _)
  have hmap : ∀ kk m (es' es : List (Scalar × Val)),
      Agree (mapMsgEq rec kk m es' es) (mapMsgEq rec' kk m es' es) := by
    intro kk m es' es
    induction es with
    | nil => exact Agree.refl _
    | cons e es ih =>
      obtain ⟨key, v⟩ := e
      simp only [mapMsgEq]
      split
      · exact Agree.bind (h _ _ _) fun r => Agree.ite ih (Agree.refl _)
      · exact Agree.refl _
      · exact Agree.refl _
      · exact ih
  unfold eqVal
  split <;> first
    | exact Agree.refl _
    | (unfold msgFieldEq
       exact Agree.bind (hlazy _ _ _) fun r => Agree.ite (Agree.refl _) (h _ _ _))
    | (split
       · exact Agree.refl _
       · exact hlist _ _ _)
    | (split
       · exact Agree.refl _
       · exact hmap _ _ _ _)

theorem eqFields_agree {rec rec' : Nat → Obj → Obj → Res Bool} (h : ∀ m a b, Agree (rec m a b) (rec' m a b))
    (fs : List Field) : ∀ a b : Obj, Agree (eqFields env rec fs a b) (eqFields env rec' fs a b) := by
  induction fs with
  | nil => intro a b; exact Agree.refl _
  | cons f fs ih =>
    intro a b
    cases a with
    | nil => exact Agree.refl _
    | cons x a =>
      cases b with
      | nil => exact Agree.refl _
      | cons y b => exact Agree.bind (eqVal_agree h _ _ _) fun r => Agree.ite (ih a b) (Agree.refl _)

theorem objEq_agree {n k : Nat} (hnk : n ≤ k) : ∀ m a b, Agree (objEq env n m a b) (objEq env k m a b) := by
  induction n generalizing k with
  | zero => intro m a b r h; simp [objEq] at h
  | succ n ih =>
    cases k with
    | zero => omega
    | succ k => intro m a b; exact eqFields_agree (ih (by omega)) _ _ _

theorem lazyNe_agree {n k : Nat} (hnk : n ≤ k) (m : Nat) (a b : Val) :
    Agree (lazyNe env n m a b) (lazyNe env k m a b) := by
  unfold lazyNe
  refine Agree.bind ?_ fun r => Agree.refl _
  unfold lazyEq
  split <;> first | exact objEq_agree hnk _ _ _ | exact Agree.refl _

theorem assign_agree {n k : Nat} (hnk : n ≤ k) : ∀ m a b, Agree (assign env n m a b) (assign env k m a b) := by
  induction n generalizing k with
  | zero => intro m a b r h; simp [assign] at h
  | succ n ih =>
    cases k with
    | zero => omega
    | succ k =>
      intro m a b
      simp only [assign]
      generalize env.sch m = fs
      induction fs generalizing a b with
      | nil => exact Agree.refl _
      | cons f fs ihf =>
        cases a with
        | nil => exact Agree.refl _
        | cons x a =>
          cases b with
          | nil => exact Agree.refl _
          | cons y b =>
            refine Agree.bind ?_ fun v => Agree.bind (ihf a b) fun r => Agree.refl _
            unfold assignVal
            split
            · exact Agree.bind (lazyNe_agree (by omega) _ _ _) fun r =>
                Agree.ite (Agree.bind (ih (by omega) _ _ _) fun o => Agree.refl _) (Agree.refl _)
            · exact Agree.refl _

theorem objNe_agree {n k : Nat} (hnk : n ≤ k) (m : Nat) (a b : Obj) :
    Agree (objNe env n m a b) (objNe env k m a b) :=
  Agree.bind (objEq_agree hnk m a b) fun _ => Agree.refl _

theorem setProperty_agree {n k : Nat} (hnk : n ≤ k) (fs : List Field) (s : MsgState) (i : Nat) (arg : Arg) :
    Agree (setProperty env n fs s i arg) (setProperty env k fs s i arg) := by
  unfold setProperty
  split <;> first
    | exact Agree.refl _
    | exact Agree.bind (objNe_agree hnk _ _ _) fun r =>
        Agree.ite (Agree.bind (assign_agree hnk _ _ _) fun o => Agree.refl _) (Agree.refl _)

theorem runSetters_agree {n k : Nat} (hnk : n ≤ k) (fs : List Field) (ops : List (Nat × Arg)) :
    ∀ s, Agree (runSetters env n fs s ops) (runSetters env k fs s ops) := by
  induction ops with
  | nil => intro s; exact Agree.refl _
  | cons op ops ih =>
    intro s
    exact Agree.bind (setProperty_agree hnk fs s op.1 op.2) fun s' => ih s'

/-! ### Plain comparisons -/

theorem plainEq_iff {ty : FieldTy} {a b : Val} (h1 : ∀ m, ty ≠ .msg m) (h2 : ∀ m, ty ≠ .msgList m)
    (h3 : ∀ kk m, ty ≠ .map kk (.msg m)) (ha : Safe env ty a) (hb : Safe env ty b) :
    plainEq ty a b = true ↔ Same env ty a b := by
  have hd := (dec_safe ha hb).left
  have key : ∀ n, eqVal env (objEq env n) ty a b = .ok (plainEq ty a b) := by
    intro n
    cases ha with
    | sc => cases hb; rfl
    | scList => cases hb; rfl
    | enum => cases hb; rfl
    | enumList => cases hb; rfl
    | null m => exact absurd rfl (h1 m)
    | msg => exact absurd rfl (h1 _)
    | msgList => exact absurd rfl (h2 _)
    | @map kk vt =>
      cases hb
      cases vt with
      | scalar => rfl
      | enum => rfl
      | msg m => exact absurd rfl (h3 kk m)
  exact hd.sound 0 _ (key 0)

theorem ptrMapEq_iff {kk : Kind} (hk : mapKey kk) {a b : List (Scalar × Nat)} (ha : ∀ e ∈ a, kk.holds e.1)
    (hb : ∀ e ∈ b, kk.holds e.1) : ptrMapEq kk a b = true ↔
    a.length = b.length ∧ ∀ (i : Nat) (x y : Scalar × Nat), a[i]? = some x → b[i]? = some y →
        sameKey x.1 y.1 = true ∧ x.2 = y.2 := by
  induction a generalizing b with
  | nil => cases b <;> simp [ptrMapEq]
  | cons x a ih =>
    cases b with
    | nil => simp [ptrMapEq]
    | cons y b =>
      obtain ⟨kx, px⟩ := x
      obtain ⟨ky, py⟩ := y
      have ih := ih (fun e he => ha e (by simp [he])) (b := b) fun e he => hb e (by simp [he])
      have hke := keyEqv_iff hk (ha (kx, px) (by simp)) (hb (ky, py) (by simp))
      simp only [keyEqv] at hke
      simp only [ptrMapEq, Bool.and_eq_true, Bool.not_eq_true', beq_iff_eq, ih, List.length_cons,
        Nat.add_right_cancel_iff, hke]
      constructor
      · rintro ⟨⟨h1, h2⟩, h3, h4⟩
        refine ⟨h3, fun i x y hx hy => ?_⟩
        cases i with
        | zero => simp at hx hy; subst hx hy; exact ⟨h1, h2⟩
        | succ i => exact h4 i x y (by simpa using hx) (by simpa using hy)
      · rintro ⟨h1, h2⟩
        have h0 := h2 0 _ _ rfl rfl
        exact ⟨h0, h1, fun i x y hx hy => h2 (i + 1) x y (by simpa using hx) (by simpa using hy)⟩

end QtPb
