import Verif.Objects
import Verif.KeyLemmas
/-
The generated equality decides `Spec.Same`.
-/
namespace QtPb
open Spec

/-! ### Scalars -/

theorem f32Eq_symm (a b : BitVec 32) : f32Eq a b = f32Eq b a := by
  unfold f32Eq
  rw [Bool.and_comm (!isNaN32 a), Bool.and_comm (a.toNat % 2 ^ 31 == 0),
    show (a == b) = (b == a) from BEq.comm]

theorem f64Eq_symm (a b : BitVec 64) : f64Eq a b = f64Eq b a := by
  unfold f64Eq
  rw [Bool.and_comm (!isNaN64 a), Bool.and_comm (a.toNat % 2 ^ 63 == 0),
    show (a == b) = (b == a) from BEq.comm]

theorem scalarEq_symm (k : Kind) (a b : Scalar) : scalarEq k a b = scalarEq k b a := by
  cases k <;> cases a <;> cases b <;> simp only [scalarEq] <;>
    first | exact f32Eq_symm _ _ | exact f64Eq_symm _ _ | exact BEq.comm | rfl

theorem f32Eq_trans {a b c : BitVec 32} (h1 : f32Eq a b = true) (h2 : f32Eq b c = true) :
    f32Eq a c = true := by
  simp only [f32Eq, Bool.and_eq_true, Bool.or_eq_true, beq_iff_eq, Bool.not_eq_true'] at *
  refine ⟨⟨h1.1.1, h2.1.2⟩, ?_⟩
  rcases h1.2 with h | h <;> rcases h2.2 with h' | h'
  · left; rw [h, h']
  · right; rw [h]; exact h'
  · right; rw [← h']; exact h
  · right; exact ⟨h.1, h'.2⟩

theorem f64Eq_trans {a b c : BitVec 64} (h1 : f64Eq a b = true) (h2 : f64Eq b c = true) :
    f64Eq a c = true := by
  simp only [f64Eq, Bool.and_eq_true, Bool.or_eq_true, beq_iff_eq, Bool.not_eq_true'] at *
  refine ⟨⟨h1.1.1, h2.1.2⟩, ?_⟩
  rcases h1.2 with h | h <;> rcases h2.2 with h' | h'
  · left; rw [h, h']
  · right; rw [h]; exact h'
  · right; rw [← h']; exact h
  · right; exact ⟨h.1, h'.2⟩

theorem scalarEq_trans {k : Kind} {a b c : Scalar} (h1 : scalarEq k a b = true)
    (h2 : scalarEq k b c = true) : scalarEq k a c = true := by
  cases k <;> cases a <;> cases b <;> simp [scalarEq] at h1 <;>
    cases c <;> simp [scalarEq] at h2 ⊢ <;>
    first
      | exact f32Eq_trans h1 h2
      | exact f64Eq_trans h1 h2
      | simp_all

theorem scalarEq_refl {k : Kind} {a : Scalar} (hn : notNaN k a) : scalarEq k a a = true := by
  cases k <;> cases a <;> simp_all [scalarEq, notNaN, f32Eq, f64Eq]

theorem default_notNaN (k : Kind) : notNaN k (defaultScalar k) := by
  cases k <;> simp [notNaN, defaultScalar, isNaN32, isNaN64]

theorem scalarListEq_iff {k : Kind} {a b : List Scalar} : scalarListEq k a b = true ↔
    a.length = b.length ∧ ∀ (i : Nat) (x y : Scalar), a[i]? = some x → b[i]? = some y →
      scalarEq k x y = true := by
  induction a generalizing b with
  | nil => cases b <;> simp [scalarListEq]
  | cons x a ih =>
    cases b with
    | nil => simp [scalarListEq]
    | cons y b =>
      simp only [scalarListEq, Bool.and_eq_true, ih, List.length_cons, Nat.add_right_cancel_iff]
      constructor
      · rintro ⟨h1, h2, h3⟩
        refine ⟨h2, fun i p q hp hq => ?_⟩
        cases i with
        | zero => simp at hp hq; subst hp hq; exact h1
        | succ i => exact h3 i p q (by simpa using hp) (by simpa using hq)
      · rintro ⟨h1, h2⟩
        exact ⟨h2 0 x y rfl rfl, h1, fun i p q hp hq => h2 (i + 1) p q (by simpa using hp) (by simpa using hq)⟩

theorem mapScalarEq_iff {kk vk : Kind} {a b : List (Scalar × Val)}
    (ha : ∀ e ∈ a, ∃ s, e.2 = .sc s) (hb : ∀ e ∈ b, ∃ s, e.2 = .sc s) :
    mapScalarEq kk vk a b = true ↔
    a.length = b.length ∧ ∀ (i : Nat) (x y : Scalar × Val), a[i]? = some x → b[i]? = some y →
      keyEqv kk x.1 y.1 ∧ ∃ s t, x.2 = .sc s ∧ y.2 = .sc t ∧ scalarEq vk s t = true := by
  induction a generalizing b with
  | nil => cases b <;> simp [mapScalarEq]
  | cons x a ih =>
    obtain ⟨s, hs⟩ := ha x (by simp)
    cases b with
    | nil => obtain ⟨k1, v1⟩ := x; simp at hs; subst hs; simp [mapScalarEq]
    | cons y b =>
      obtain ⟨t, ht⟩ := hb y (by simp)
      obtain ⟨k1, v1⟩ := x
      obtain ⟨k2, v2⟩ := y
      simp only at hs ht
      subst hs ht
      have := ih (b := b) (fun e he => ha e (List.mem_cons_of_mem _ he))
        (fun e he => hb e (List.mem_cons_of_mem _ he))
      simp only [mapScalarEq, Bool.and_eq_true, this, Bool.not_eq_true', List.length_cons,
        Nat.add_right_cancel_iff]
      constructor
      · rintro ⟨⟨⟨h1, h2⟩, h3⟩, h4, h5⟩
        refine ⟨h4, fun i p q hp hq => ?_⟩
        cases i with
        | zero => simp at hp hq; subst hp hq; exact ⟨⟨h1, h2⟩, s, t, rfl, rfl, h3⟩
        | succ i => exact h5 i p q (by simpa using hp) (by simpa using hq)
      · rintro ⟨h1, h2⟩
        have h0 := h2 0 _ _ rfl rfl
        obtain ⟨⟨e1, e2⟩, s', t', e3, e4, e5⟩ := h0
        simp only [Val.sc.injEq] at e3 e4
        subst e3 e4
        exact ⟨⟨⟨e1, e2⟩, e5⟩, h1, fun i p q hp hq => h2 (i + 1) p q (by simpa using hp) (by simpa using hq)⟩

theorem mapEnumEq_iff {kk : Kind} {a b : List (Scalar × Val)}
    (ha : ∀ e ∈ a, ∃ s, e.2 = .enum s) (hb : ∀ e ∈ b, ∃ s, e.2 = .enum s) :
    mapEnumEq kk a b = true ↔
    a.length = b.length ∧ ∀ (i : Nat) (x y : Scalar × Val), a[i]? = some x → b[i]? = some y →
      keyEqv kk x.1 y.1 ∧ x.2 = y.2 := by
  induction a generalizing b with
  | nil => cases b <;> simp [mapEnumEq]
  | cons x a ih =>
    obtain ⟨s, hs⟩ := ha x (by simp)
    cases b with
    | nil => obtain ⟨k1, v1⟩ := x; simp at hs; subst hs; simp [mapEnumEq]
    | cons y b =>
      obtain ⟨t, ht⟩ := hb y (by simp)
      obtain ⟨k1, v1⟩ := x
      obtain ⟨k2, v2⟩ := y
      simp only at hs ht
      subst hs ht
      have := ih (b := b) (fun e he => ha e (List.mem_cons_of_mem _ he))
        (fun e he => hb e (List.mem_cons_of_mem _ he))
      simp only [mapEnumEq, Bool.and_eq_true, this, Bool.not_eq_true', List.length_cons,
        Nat.add_right_cancel_iff, beq_iff_eq]
      constructor
      · rintro ⟨⟨⟨h1, h2⟩, h3⟩, h4, h5⟩
        refine ⟨h4, fun i p q hp hq => ?_⟩
        cases i with
        | zero => simp at hp hq; subst hp hq; exact ⟨⟨h1, h2⟩, by simp [h3]⟩
        | succ i => exact h5 i p q (by simpa using hp) (by simpa using hq)
      · rintro ⟨h1, h2⟩
        have h0 := h2 0 _ _ rfl rfl
        obtain ⟨⟨e1, e2⟩, e3⟩ := h0
        simp only [Val.enum.injEq] at e3
        exact ⟨⟨⟨e1, e2⟩, e3⟩, h1, fun i p q hp hq => h2 (i + 1) p q (by simpa using hp) (by simpa using hq)⟩

/-! ### `Same` -/

theorem Spec.Same.symm {env : Env} {ty : FieldTy} {a b : Val} (h : Same env ty a b) :
    Same env ty b a := by
  induction h with
  | sc h => exact .sc (by rw [scalarEq_symm]; exact h)
  | scList hl h =>
    exact .scList hl.symm fun i x y hx hy => by rw [scalarEq_symm]; exact h i y x hy hx
  | enum e => exact .enum e
  | enumList l => exact .enumList l
  | unset m => exact .unset m
  | msg _ ih => exact .msg fun i f x y hf hx hy => ih i f y x hf hy hx
  | msgList hl _ ih => exact .msgList hl.symm fun i x y hx hy => ih i y x hy hx
  | map hl hk _ ih =>
    exact .map hl.symm (fun i x y hx hy => (hk i y x hy hx).symm)
      fun i x y hx hy => ih i y x hy hx

/-- The fields of two message objects are the same. -/
def FieldsSame (env : Env) (m : Nat) (a b : Obj) : Prop :=
  ∀ (i : Nat) (f : Field) (x y : Val), (env.sch m)[i]? = some f → a[i]? = some x → b[i]? = some y →
    Same env f.ty x y

theorem FieldsSame.symm {env : Env} {m : Nat} {a b : Obj} (h : FieldsSame env m a b) :
    FieldsSame env m b a := fun i f x y hf hx hy => (h i f y x hf hy hx).symm

theorem same_default (env : Env) (ty : FieldTy) : Same env ty (defaultVal ty) (defaultVal ty) := by
  cases ty with
  | scalar k => exact .sc (scalarEq_refl (default_notNaN k))
  | list k => exact .scList rfl (by simp)
  | enum => exact .enum 0
  | enumList => exact .enumList []
  | msg m => exact .unset m
  | msgList m => exact .msgList rfl (by simp)
  | map kk vt => exact .map rfl (by simp) (by simp)

theorem fieldsSame_default (env : Env) (m : Nat) :
    FieldsSame env m (defaultObj env m) (defaultObj env m) := by
  intro i f x y hf hx hy
  simp only [defaultObj, List.getElem?_map, hf, Option.map_some, Option.some.injEq] at hx hy
  subst hx hy
  exact same_default env f.ty

theorem same_msg_iff {env : Env} {m : Nat} {a b : Val} :
    Same env (.msg m) a b ↔ FieldsSame env m (contents env m a) (contents env m b) := by
  constructor
  · intro h
    cases h with
    | unset => exact fieldsSame_default env m
    | msg h => exact h
  · intro h; exact .msg h

theorem deref_eq (env : Env) (m : Nat) (v : Val) : deref env m v = contents env m v := by
  cases v <;> rfl

theorem contents_default (env : Env) (m : Nat) {v : Val} (h : v = .msgNull) :
    contents env m v = defaultObj env m := by subst h; rfl

/-! ### Deciding by computation with a budget -/

/-- `P` computes the truth value of `S`: every answer is right, a true `S` is confirmed by every large
enough budget, and every large enough budget yields an answer (or undefined behaviour). -/
structure Dec (P : Nat → Res Bool) (S : Prop) : Prop where
  sound : ∀ n r, P n = .ok r → (r = true ↔ S)
  complete : S → ∃ N, ∀ n, N ≤ n → P n = .ok true
  halts : ∃ N, ∀ n, N ≤ n → P n ≠ .fuel

theorem Dec.pure {r : Bool} {S : Prop} (h : r = true ↔ S) : Dec (fun _ => .ok r) S :=
  ⟨fun n r' h' => by simp only [Res.ok.injEq] at h'; subst h'; exact h,
   fun hs => ⟨0, fun _ _ => by rw [h.mpr hs]⟩, ⟨0, fun _ _ => by simp⟩⟩

theorem Dec.congr {P : Nat → Res Bool} {S T : Prop} (h : Dec P S) (hst : S ↔ T) : Dec P T :=
  ⟨fun n r hr => (h.sound n r hr).trans hst, fun t => h.complete (hst.mpr t), h.halts⟩

theorem Dec.and {P Q : Nat → Res Bool} {S T : Prop} (hp : Dec P S) (hq : Dec Q T) :
    Dec (fun n => do let r ← P n; if r then Q n else .ok false) (S ∧ T) := by
  refine ⟨?_, ?_, ?_⟩
  · intro n r h
    simp only [Res.bind_eq, Res.bind_eq_ok] at h
    obtain ⟨a, ha, h⟩ := h
    have hs := hp.sound n a ha
    cases a with
    | false =>
      simp only [Bool.false_eq_true, if_false, Res.ok.injEq] at h
      subst h
      simp only [Bool.false_eq_true, false_iff] at hs ⊢
      exact fun hc => hs hc.1
    | true =>
      simp only [if_true] at h
      have ht := hq.sound n r h
      simp only [true_iff] at hs
      rw [ht]
      exact ⟨fun t => ⟨hs, t⟩, fun st => st.2⟩
  · rintro ⟨s, t⟩
    obtain ⟨N, hN⟩ := hp.complete s
    obtain ⟨M, hM⟩ := hq.complete t
    refine ⟨max N M, fun n hn => ?_⟩
    simp [hN n (by omega), hM n (by omega)]
  · obtain ⟨N, hN⟩ := hp.halts
    obtain ⟨M, hM⟩ := hq.halts
    refine ⟨max N M, fun n hn => ?_⟩
    have h1 := hN n (by omega)
    have h2 := hM n (by omega)
    cases hpn : P n with
    | ok a => cases a <;> simp [h2]
    | throw e => simp
    | ub => simp
    | fuel => exact absurd hpn h1

theorem Dec.or_same {P Q : Nat → Res Bool} {S : Prop} (hp : Dec P S) (hq : Dec Q S) :
    Dec (fun n => do let r ← P n; if r then .ok true else Q n) S := by
  refine ⟨?_, ?_, ?_⟩
  · intro n r h
    simp only [Res.bind_eq, Res.bind_eq_ok] at h
    obtain ⟨a, ha, h⟩ := h
    have hs := hp.sound n a ha
    cases a with
    | true => simp only [if_true, Res.ok.injEq] at h; subst h; exact hs
    | false => simp only [Bool.false_eq_true, if_false] at h; exact hq.sound n r h
  · intro s
    obtain ⟨N, hN⟩ := hp.complete s
    exact ⟨N, fun n hn => by simp [hN n hn]⟩
  · obtain ⟨N, hN⟩ := hp.halts
    obtain ⟨M, hM⟩ := hq.halts
    refine ⟨max N M, fun n hn => ?_⟩
    have h1 := hN n (by omega)
    have h2 := hM n (by omega)
    cases hpn : P n with
    | ok a => cases a <;> simp [h2]
    | throw e => simp
    | ub => simp
    | fuel => exact absurd hpn h1

theorem Dec.shift {P Q : Nat → Res Bool} {S : Prop} (h : Dec P S) (h0 : Q 0 = .fuel)
    (hs : ∀ n, Q (n + 1) = P n) : Dec Q S := by
  refine ⟨?_, ?_, ?_⟩
  · intro n r hr
    cases n with
    | zero => rw [h0] at hr; exact absurd hr (by simp)
    | succ n => exact h.sound n r (by rw [← hs]; exact hr)
  · intro s
    obtain ⟨N, hN⟩ := h.complete s
    refine ⟨N + 1, fun n hn => ?_⟩
    cases n with
    | zero => omega
    | succ n => rw [hs]; exact hN n (by omega)
  · obtain ⟨N, hN⟩ := h.halts
    refine ⟨N + 1, fun n hn => ?_⟩
    cases n with
    | zero => omega
    | succ n => rw [hs]; exact hN n (by omega)

/-! ### Fields and objects -/

variable {env : Env}

/-- Field comparison decides `Same`. -/
def DecVal (env : Env) (ty : FieldTy) (a b : Val) : Prop :=
  Dec (fun n => eqVal env (objEq env n) ty a b) (Same env ty a b)

/-- Object comparison decides `FieldsSame`. -/
def DecObj (env : Env) (m : Nat) (a b : Obj) : Prop :=
  Dec (fun n => objEq env n m a b) (FieldsSame env m a b)

theorem decFields (fs : List Field) (a b : Obj) (ha : a.length = fs.length) (hb : b.length = fs.length)
    (h : ∀ (i : Nat) (f : Field) (x y : Val), fs[i]? = some f → a[i]? = some x → b[i]? = some y →
      DecVal env f.ty x y) :
    Dec (fun n => eqFields env (objEq env n) fs a b)
      (∀ (i : Nat) (f : Field) (x y : Val), fs[i]? = some f → a[i]? = some x → b[i]? = some y →
        Same env f.ty x y) := by
  induction fs generalizing a b with
  | nil =>
    refine (Dec.pure (r := true) (S := True) (by simp)).congr ?_
    simp
  | cons f fs ih =>
    cases a with
    | nil => simp at ha
    | cons x a =>
      cases b with
      | nil => simp at hb
      | cons y b =>
        have h1 := h 0 f x y rfl rfl rfl
        have h2 := ih a b (by simpa using ha) (by simpa using hb) fun i f x y hf hx hy =>
          h (i + 1) f x y (by simpa using hf) (by simpa using hx) (by simpa using hy)
        refine (Dec.and h1 h2).congr ?_
        constructor
        · rintro ⟨h3, h4⟩ i f' x' y' hf hx hy
          cases i with
          | zero => simp at hf hx hy; subst hf hx hy; exact h3
          | succ i => exact h4 i f' x' y' (by simpa using hf) (by simpa using hx) (by simpa using hy)
        · intro h3
          exact ⟨h3 0 f x y rfl rfl rfl, fun i f x y hf hx hy =>
            h3 (i + 1) f x y (by simpa using hf) (by simpa using hx) (by simpa using hy)⟩

theorem decObj {m : Nat} {a b : Obj} (ha : a.length = (env.sch m).length)
    (hb : b.length = (env.sch m).length)
    (h : ∀ (i : Nat) (f : Field) (x y : Val), (env.sch m)[i]? = some f → a[i]? = some x →
      b[i]? = some y → DecVal env f.ty x y) : DecObj env m a b :=
  Dec.shift (decFields _ a b ha hb h) rfl (fun _ => rfl)

/-- Message fields, given the comparisons of the contents in both orders. -/
theorem decMsg {m : Nat} {a b : Val} (h1 : DecObj env m (contents env m a) (contents env m b))
    (h2 : DecObj env m (contents env m b) (contents env m a)) : DecVal env (.msg m) a b := by
  have h1' : Dec (fun n => objEq env n m (contents env m a) (contents env m b))
      (Same env (.msg m) a b) := Dec.congr h1 same_msg_iff.symm
  have h2' : Dec (fun n => objEq env n m (contents env m b) (contents env m a))
      (Same env (.msg m) a b) :=
    Dec.congr h2 ⟨fun h => same_msg_iff.mpr h.symm, fun h => (same_msg_iff.mp h).symm⟩
  have e : ∀ n, eqVal env (objEq env n) (.msg m) a b = msgFieldEq env (objEq env n) m a b := by
    intro n; cases a <;> cases b <;> rfl
  unfold DecVal
  simp only [e, msgFieldEq, deref_eq]
  refine Dec.or_same ?_ h1'
  cases ea : a with
  | msg x =>
    cases eb : b with
    | msg y => simpa [lazyEq, ea, eb, contents] using h1'
    | _ => simpa [lazyEq, ea, eb, contents] using h1'
  | _ =>
    cases eb : b with
    | msg y => simpa [lazyEq, ea, eb, contents] using h2'
    | _ =>
      refine Dec.pure (by
        simp only [true_iff]
        exact same_msg_iff.mpr (fieldsSame_default env m))

theorem decList {m : Nat} {a b : List Val} (hl : a.length = b.length)
    (ha : ∀ v ∈ a, ∃ o, v = .msg o) (hb : ∀ v ∈ b, ∃ o, v = .msg o)
    (h : ∀ (i : Nat) (x y : Obj), a[i]? = some (.msg x) → b[i]? = some (.msg y) → DecObj env m x y) :
    Dec (fun n => listEq (objEq env n) m a b)
      (∀ (i : Nat) (x y : Val), a[i]? = some x → b[i]? = some y → Same env (.msg m) x y) := by
  induction a generalizing b with
  | nil =>
    have : ∀ n, listEq (objEq env n) m [] b = .ok true := by intro n; cases b <;> rfl
    simp only [this]
    exact (Dec.pure (r := true) (S := True) (by simp)).congr (by simp)
  | cons v a ih =>
    cases b with
    | nil => simp at hl
    | cons w b =>
      obtain ⟨x, rfl⟩ := ha v (by simp)
      obtain ⟨y, rfl⟩ := hb w (by simp)
      have h1 := h 0 x y rfl rfl
      have h2 := ih (b := b) (by simpa using hl) (fun v hv => ha v (List.mem_cons_of_mem _ hv))
        (fun v hv => hb v (List.mem_cons_of_mem _ hv))
        (fun i x y hx hy => h (i + 1) x y (by simpa using hx) (by simpa using hy))
      refine (Dec.and h1 h2).congr ?_
      constructor
      · rintro ⟨h3, h4⟩ i x' y' hx hy
        cases i with
        | zero => simp at hx hy; subst hx hy; exact same_msg_iff.mpr h3
        | succ i => exact h4 i x' y' (by simpa using hx) (by simpa using hy)
      · intro h3
        exact ⟨same_msg_iff.mp (h3 0 _ _ rfl rfl), fun i x y hx hy =>
          h3 (i + 1) x y (by simpa using hx) (by simpa using hy)⟩

theorem mapLookup_cases (kk : Kind) (key : Scalar) (b : List (Scalar × Val)) :
    (∃ e ∈ b, keyEqv kk e.1 key ∧ mapLookup kk key b = e.2) ∨
    (mapLookup kk key b = .msgNull ∧ ∀ e ∈ b, ¬ keyEqv kk e.1 key) := by
  induction b with
  | nil => simp [mapLookup]
  | cons e b ih =>
    obtain ⟨k', v⟩ := e
    unfold mapLookup
    split
    · rename_i h
      left
      simp only [Bool.and_eq_true, Bool.not_eq_true'] at h
      exact ⟨_, List.mem_cons_self, h, rfl⟩
    · rename_i h
      rcases ih with ⟨e, he, h1, h2⟩ | ⟨h1, h2⟩
      · exact Or.inl ⟨e, List.mem_cons_of_mem _ he, h1, h2⟩
      · right
        refine ⟨h1, fun e he => ?_⟩
        rcases List.mem_cons.mp he with rfl | he
        · intro hc
          apply h
          simp [hc.1, hc.2]
        · exact h2 e he

/-- The loop over the entries of `a` looks for a partner of each of them in `b`. -/
theorem decMapLoop {kk : Kind} {m : Nat} {a b : List (Scalar × Val)}
    (ha : ∀ e ∈ a, ∃ o, e.2 = .msg o) (hb : ∀ e ∈ b, ∃ o, e.2 = .msg o) (hsb : SortedKeys kk b)
    (hka : ∀ e ∈ a, kk.holds e.1)
    (h : ∀ x ∈ a, ∀ y ∈ b, ∀ o o', x.2 = .msg o → y.2 = .msg o' → DecObj env m o' o) :
    Dec (fun n => mapMsgEq (objEq env n) kk m b a)
      (∀ x ∈ a, ∃ y ∈ b, keyEqv kk y.1 x.1 ∧ Same env (.msg m) y.2 x.2) := by
  induction a with
  | nil => exact (Dec.pure (r := true) (S := True) (by simp)).congr (by simp)
  | cons e a ih =>
    obtain ⟨key, v⟩ := e
    obtain ⟨o, ho⟩ := ha _ (List.mem_cons_self)
    simp only at ho
    subst ho
    have ih' := ih (fun e he => ha e (List.mem_cons_of_mem _ he))
      (fun e he => hka e (List.mem_cons_of_mem _ he))
      (fun x hx => h x (List.mem_cons_of_mem _ hx))
    rcases mapLookup_cases kk key b with ⟨y, hy, hyk, hyv⟩ | ⟨hnone, hno⟩
    · obtain ⟨o', ho'⟩ := hb y hy
      have h1 := h _ List.mem_cons_self y hy o o' rfl ho'
      simp only [mapMsgEq, hyv, ho']
      refine (Dec.and h1 ih').congr ?_
      constructor
      · rintro ⟨h2, h3⟩ x hx
        rcases List.mem_cons.mp hx with rfl | hx
        · refine ⟨y, hy, hyk, ?_⟩
          rw [ho']; exact same_msg_iff.mpr h2
        · exact h3 x hx
      · intro h2
        refine ⟨?_, fun x hx => h2 x (List.mem_cons_of_mem _ hx)⟩
        obtain ⟨z, hz, hzk, hzs⟩ := h2 _ List.mem_cons_self
        -- `z` and `y` have equivalent keys, so they are the same entry
        have hzy : keyEqv kk z.1 y.1 :=
          keyEqv.trans (hsb.1 z hz) (hka _ List.mem_cons_self) (hsb.1 y hy) hzk hyk.symm
        obtain ⟨i, hi, rfl⟩ := List.getElem_of_mem hz
        obtain ⟨j, hj, rfl⟩ := List.getElem_of_mem hy
        have := hsb.unique (i := i) (j := j) (by simp [hi]) (by simp [hj]) hzy
        subst this
        rw [ho'] at hzs
        exact same_msg_iff.mp hzs
    · simp only [mapMsgEq, hnone]
      refine ⟨by simp, ?_, ⟨0, by simp⟩⟩
      intro hc
      obtain ⟨z, hz, hzk, _⟩ := hc _ List.mem_cons_self
      exact absurd hzk (hno z hz)

/-- `QMap` comparison through lookups is position-wise comparison. -/
theorem mapPositions {kk : Kind} {m : Nat} {a b : List (Scalar × Val)} (hl : a.length = b.length)
    (hsa : SortedKeys kk a) (hsb : SortedKeys kk b) :
    (∀ x ∈ a, ∃ y ∈ b, keyEqv kk y.1 x.1 ∧ Same env (.msg m) y.2 x.2) ↔
    ((∀ (i : Nat) (x y : Scalar × Val), a[i]? = some x → b[i]? = some y → keyEqv kk x.1 y.1) ∧
     (∀ (i : Nat) (x y : Scalar × Val), a[i]? = some x → b[i]? = some y →
       Same env (.msg m) x.2 y.2)) := by
  constructor
  · intro h
    have hpos := (sorted_embed hsa hsb fun x hx => by
      obtain ⟨y, hy, hk, _⟩ := h x hx; exact ⟨y, hy, hk.symm⟩).2 hl
    refine ⟨hpos, fun i x y hx hy => ?_⟩
    obtain ⟨z, hz, hzk, hzs⟩ := h x (List.mem_of_getElem? hx)
    have hxy := hpos i x y hx hy
    have hzy : keyEqv kk z.1 y.1 := keyEqv.trans (hsb.1 z hz)
      (hsa.1 x (List.mem_of_getElem? hx)) (hsb.1 y (List.mem_of_getElem? hy)) hzk hxy
    obtain ⟨j, hj, rfl⟩ := List.getElem_of_mem hz
    have := hsb.unique (i := j) (j := i) (by simp [hj]) hy hzy
    subst this
    simp only [hj, List.getElem?_eq_getElem, Option.some.injEq] at hy
    subst hy
    exact hzs.symm
  · rintro ⟨h1, h2⟩ x hx
    obtain ⟨i, hi, rfl⟩ := List.getElem_of_mem hx
    have hi' : i < b.length := by omega
    refine ⟨b[i], List.getElem_mem hi', ?_, ?_⟩
    · exact (h1 i _ _ (by simp [hi]) (by simp [hi'])).symm
    · exact (h2 i _ _ (by simp [hi]) (by simp [hi'])).symm

/-! ### All values -/

theorem Spec.Holds.default {P : Kind → Scalar → Prop} (hP : ∀ k, P k (defaultScalar k)) (ty : FieldTy) :
    Holds env P ty (defaultVal ty) := by
  cases ty with
  | scalar k => exact .sc (hP k)
  | list k => exact .scList (by simp)
  | enum => exact .enum 0
  | enumList => exact .enumList []
  | msg m => exact .null m
  | msgList m => exact .msgList (by simp) (by simp)
  | map kk vt => exact .map (by simp) (by simp) (by simp) (by simp)

theorem default_holds (k : Kind) : k.holds (defaultScalar k) := by cases k <;> rfl

theorem decScalar {k : Kind} {a b : Scalar} : DecVal env (.scalar k) (.sc a) (.sc b) :=
  Dec.pure ⟨fun h => .sc h, fun h => by cases h; assumption⟩

theorem decScList {k : Kind} {a b : List Scalar} : DecVal env (.list k) (.scList a) (.scList b) :=
  Dec.pure ⟨fun h => .scList (scalarListEq_iff.mp h).1 (scalarListEq_iff.mp h).2,
    fun h => by cases h with | scList h1 h2 => exact scalarListEq_iff.mpr ⟨h1, h2⟩⟩

theorem decEnum {a b : BitVec 32} : DecVal env .enum (.enum a) (.enum b) := by
  refine Dec.pure ⟨fun h => ?_, fun h => by cases h; simp⟩
  simp at h; subst h; exact .enum _

theorem decEnumList {a b : List (BitVec 32)} : DecVal env .enumList (.enumList a) (.enumList b) := by
  refine Dec.pure ⟨fun h => ?_, fun h => by cases h; simp⟩
  simp at h; subst h; exact .enumList _

theorem decMapScalar {kk vk : Kind} {a b : List (Scalar × Val)}
    (ha : ∀ e ∈ a, ∃ s, e.2 = .sc s) (hb : ∀ e ∈ b, ∃ s, e.2 = .sc s) :
    DecVal env (.map kk (.scalar vk)) (.map a) (.map b) := by
  refine Dec.pure ?_
  rw [mapScalarEq_iff ha hb]
  constructor
  · rintro ⟨h1, h2⟩
    refine .map h1 (fun i x y hx hy => (h2 i x y hx hy).1) (fun i x y hx hy => ?_)
    obtain ⟨s, t, h3, h4, h5⟩ := (h2 i x y hx hy).2
    rw [h3, h4]; exact .sc h5
  · intro h
    cases h with
    | map h1 h2 h3 =>
      refine ⟨h1, fun i x y hx hy => ⟨h2 i x y hx hy, ?_⟩⟩
      obtain ⟨s, hs⟩ := ha x (List.mem_of_getElem? hx)
      obtain ⟨t, ht⟩ := hb y (List.mem_of_getElem? hy)
      have := h3 i x y hx hy
      rw [hs, ht] at this
      cases this with
      | sc h => exact ⟨s, t, hs, ht, h⟩

theorem decMapEnum {kk : Kind} {a b : List (Scalar × Val)}
    (ha : ∀ e ∈ a, ∃ s, e.2 = .enum s) (hb : ∀ e ∈ b, ∃ s, e.2 = .enum s) :
    DecVal env (.map kk .enum) (.map a) (.map b) := by
  refine Dec.pure ?_
  rw [mapEnumEq_iff ha hb]
  constructor
  · rintro ⟨h1, h2⟩
    refine .map h1 (fun i x y hx hy => (h2 i x y hx hy).1) (fun i x y hx hy => ?_)
    obtain ⟨s, hs⟩ := ha x (List.mem_of_getElem? hx)
    rw [← (h2 i x y hx hy).2, hs]; exact .enum s
  · intro h
    cases h with
    | map h1 h2 h3 =>
      refine ⟨h1, fun i x y hx hy => ⟨h2 i x y hx hy, ?_⟩⟩
      obtain ⟨s, hs⟩ := ha x (List.mem_of_getElem? hx)
      obtain ⟨t, ht⟩ := hb y (List.mem_of_getElem? hy)
      have := h3 i x y hx hy
      rw [hs, ht] at this ⊢
      cases this with
      | enum => rfl

theorem decMsgList {m : Nat} {a b : List Val} (ha : ∀ v ∈ a, ∃ o, v = .msg o)
    (hb : ∀ v ∈ b, ∃ o, v = .msg o)
    (h : ∀ (i : Nat) (x y : Obj), a[i]? = some (.msg x) → b[i]? = some (.msg y) → DecObj env m x y) :
    DecVal env (.msgList m) (.msgList a) (.msgList b) := by
  unfold DecVal
  simp only [eqVal]
  by_cases hl : a.length = b.length
  · simp only [ne_eq, hl, not_true_eq_false, if_false]
    refine (decList hl ha hb h).congr ?_
    exact ⟨fun h => .msgList hl h, fun h => by cases h; assumption⟩
  · simp only [ne_eq, hl, not_false_eq_true, if_true]
    refine Dec.pure ⟨by simp, fun h => ?_⟩
    cases h with
    | msgList h1 _ => exact absurd h1 hl

theorem decMapMsg {kk : Kind} {m : Nat} {a b : List (Scalar × Val)}
    (ha : ∀ e ∈ a, ∃ o, e.2 = .msg o) (hb : ∀ e ∈ b, ∃ o, e.2 = .msg o) (hsa : SortedKeys kk a)
    (hsb : SortedKeys kk b)
    (h : ∀ x ∈ a, ∀ y ∈ b, ∀ o o', x.2 = .msg o → y.2 = .msg o' → DecObj env m o' o) :
    DecVal env (.map kk (.msg m)) (.map a) (.map b) := by
  unfold DecVal
  simp only [eqVal]
  by_cases hl : a.length = b.length
  · simp only [ne_eq, hl, not_true_eq_false, if_false]
    refine ((decMapLoop ha hb hsb hsa.1 h).congr (mapPositions hl hsa hsb)).congr ?_
    exact ⟨fun h => .map hl h.1 h.2, fun h => by
      cases h with | map _ h1 h2 => exact ⟨h1, h2⟩⟩
  · simp only [ne_eq, hl, not_false_eq_true, if_true]
    refine Dec.pure ⟨by simp, fun h => ?_⟩
    cases h with
    | map h1 _ _ => exact absurd h1 hl

theorem safe_msg_elem {P : Kind → Scalar → Prop} {m : Nat} {v : Val} (h : Holds env P (.msg m) v)
    (hn : v ≠ .msgNull) : ∃ o, v = .msg o := by
  cases h with
  | null => exact absurd rfl hn
  | msg => exact ⟨_, rfl⟩

theorem safe_sc_elem {P : Kind → Scalar → Prop} {k : Kind} {v : Val} (h : Holds env P (.scalar k) v) :
    ∃ s, v = .sc s := by
  cases h; exact ⟨_, rfl⟩

theorem safe_enum_elem {P : Kind → Scalar → Prop} {v : Val} (h : Holds env P .enum v) :
    ∃ s, v = .enum s := by
  cases h; exact ⟨_, rfl⟩

theorem safe_contents_length {P : Kind → Scalar → Prop} {m : Nat} {v : Val}
    (h : Holds env P (.msg m) v) : (contents env m v).length = (env.sch m).length := by
  cases h with
  | null => simp [contents, defaultObj]
  | msg h _ => exact h

theorem safe_contents_field {P : Kind → Scalar → Prop} (hP : ∀ k, P k (defaultScalar k)) {m : Nat}
    {v : Val} (h : Holds env P (.msg m) v) {i : Nat} {f : Field} {x : Val}
    (hf : (env.sch m)[i]? = some f) (hx : (contents env m v)[i]? = some x) : Holds env P f.ty x := by
  cases h with
  | null =>
    simp only [contents, defaultObj, List.getElem?_map, hf, Option.map_some, Option.some.injEq] at hx
    subst hx
    exact Holds.default hP f.ty
  | msg _ h => exact h i f x hf hx

/-- Both orders of comparing two values, and the same for the contents of message values. -/
structure Both (env : Env) (ty : FieldTy) (a b : Val) : Prop where
  left : DecVal env ty a b
  right : DecVal env ty b a
  leftObj : ∀ m, ty = .msg m → DecObj env m (contents env m a) (contents env m b)
  rightObj : ∀ m, ty = .msg m → DecObj env m (contents env m b) (contents env m a)

theorem Both.other {ty : FieldTy} {a b : Val} (h1 : DecVal env ty a b) (h2 : DecVal env ty b a)
    (hn : ∀ m, ty ≠ .msg m) : Both env ty a b :=
  ⟨h1, h2, fun m h => absurd h (hn m), fun m h => absurd h (hn m)⟩

theorem Both.ofObj {m : Nat} {a b : Val} (h1 : DecObj env m (contents env m a) (contents env m b))
    (h2 : DecObj env m (contents env m b) (contents env m a)) : Both env (.msg m) a b :=
  ⟨decMsg h1 h2, decMsg h2 h1, fun m' h => by cases h; exact h1, fun m' h => by cases h; exact h2⟩

theorem decNull (m : Nat) : DecVal env (.msg m) .msgNull .msgNull := by
  refine Dec.congr (P := fun _ => .ok true) (S := True) (Dec.pure (by simp)) ?_
  simp only [true_iff]; exact .unset m

theorem sortedNil (kk : Kind) : SortedKeys kk [] := ⟨by simp, by simp⟩

theorem decDefaultDefault (ty : FieldTy) : DecVal env ty (defaultVal ty) (defaultVal ty) := by
  cases ty with
  | scalar k => exact decScalar
  | list k => exact decScList
  | enum => exact decEnum
  | enumList => exact decEnumList
  | msg m => exact decNull m
  | msgList m => exact decMsgList (by simp) (by simp) (by simp)
  | map kk vt =>
    cases vt with
    | scalar k => exact decMapScalar (by simp) (by simp)
    | enum => exact decMapEnum (by simp) (by simp)
    | msg m => exact decMapMsg (by simp) (by simp) (sortedNil kk) (sortedNil kk) (by simp)

theorem defaultObj_length (m : Nat) : (defaultObj env m).length = (env.sch m).length := by
  simp [defaultObj]

theorem defaultObj_field {m i : Nat} {f : Field} {x : Val} (hf : (env.sch m)[i]? = some f)
    (hx : (defaultObj env m)[i]? = some x) : x = defaultVal f.ty := by
  simp only [defaultObj, List.getElem?_map, hf, Option.map_some, Option.some.injEq] at hx
  exact hx.symm

/-- Comparison with the default value, in both orders. -/
theorem dec_default {ty : FieldTy} {b : Val} (h : Safe env ty b) : Both env ty (defaultVal ty) b := by
  unfold Safe at h
  induction h with
  | sc => exact .other decScalar decScalar (by simp)
  | scList => exact .other decScList decScList (by simp)
  | enum => exact .other decEnum decEnum (by simp)
  | enumList => exact .other decEnumList decEnumList (by simp)
  | null m =>
    have h1 : DecObj env m (defaultObj env m) (defaultObj env m) :=
      decObj (defaultObj_length m) (defaultObj_length m) fun i f x y hf hx hy => by
        rw [defaultObj_field hf hx, defaultObj_field hf hy]; exact decDefaultDefault f.ty
    exact Both.ofObj (a := .msgNull) (b := .msgNull) h1 h1
  | @msg m o hl _ ih =>
    have h1 : DecObj env m (defaultObj env m) o := decObj (defaultObj_length m) hl
      fun i f x y hf hx hy => by
        rw [defaultObj_field hf hx]; exact (ih i f y hf hy).left
    have h2 : DecObj env m o (defaultObj env m) := decObj hl (defaultObj_length m)
      fun i f x y hf hx hy => by
        rw [defaultObj_field hf hy]; exact (ih i f x hf hx).right
    exact Both.ofObj (a := .msgNull) (b := .msg o) h1 h2
  | @msgList m l hn h ih =>
    have hl : ∀ v ∈ l, ∃ o, v = .msg o := fun v hv => safe_msg_elem (h v hv) (hn v hv)
    exact .other (decMsgList (by simp) hl (by simp)) (decMsgList hl (by simp) (by simp)) (by simp)
  | @map kk vt es hk hn h hs ih =>
    refine .other ?_ ?_ (by simp)
    all_goals
      cases vt with
      | scalar k =>
        have hl : ∀ e ∈ es, ∃ o, e.2 = .sc o := fun e he => safe_sc_elem (h e he)
        first | exact decMapScalar (by simp) hl | exact decMapScalar hl (by simp)
      | enum =>
        have hl : ∀ e ∈ es, ∃ o, e.2 = .enum o := fun e he => safe_enum_elem (h e he)
        first | exact decMapEnum (by simp) hl | exact decMapEnum hl (by simp)
      | msg m =>
        have hl : ∀ e ∈ es, ∃ o, e.2 = .msg o := fun e he => safe_msg_elem (h e he) (hn e he)
        first
          | exact decMapMsg (by simp) hl (sortedNil kk) ⟨hk, hs⟩ (by simp)
          | exact decMapMsg hl (by simp) ⟨hk, hs⟩ (sortedNil kk) (by simp)

/-- The generated comparison decides `Same` on safe values, in both orders. -/
theorem dec_safe {ty : FieldTy} {a b : Val} (ha : Safe env ty a) (hb : Safe env ty b) :
    Both env ty a b := by
  unfold Safe at ha
  induction ha generalizing b with
  | sc => cases hb; exact .other decScalar decScalar (by simp)
  | scList => cases hb; exact .other decScList decScList (by simp)
  | enum => cases hb; exact .other decEnum decEnum (by simp)
  | enumList => cases hb; exact .other decEnumList decEnumList (by simp)
  | null m => exact dec_default hb
  | @msg m o hl _ ih =>
    have hlb := safe_contents_length hb
    have h1 : DecObj env m o (contents env m b) := decObj hl hlb fun i f x y hf hx hy =>
      (ih i f x hf hx (safe_contents_field default_holds hb hf hy)).left
    have h2 : DecObj env m (contents env m b) o := decObj hlb hl fun i f x y hf hx hy =>
      (ih i f y hf hy (safe_contents_field default_holds hb hf hx)).right
    exact Both.ofObj (a := .msg o) h1 h2
  | @msgList m l hn h ih =>
    cases hb with
    | @msgList _ l' hn' h' =>
      have hl : ∀ v ∈ l, ∃ o, v = .msg o := fun v hv => safe_msg_elem (h v hv) (hn v hv)
      have hl' : ∀ v ∈ l', ∃ o, v = .msg o := fun v hv => safe_msg_elem (h' v hv) (hn' v hv)
      exact .other
        (decMsgList hl hl' fun i x y hx hy =>
          (ih _ (List.mem_of_getElem? hx) (h' _ (List.mem_of_getElem? hy))).leftObj m rfl)
        (decMsgList hl' hl fun i x y hx hy =>
          (ih _ (List.mem_of_getElem? hy) (h' _ (List.mem_of_getElem? hx))).rightObj m rfl)
        (by simp)
  | @map kk vt es hk hn h hs ih =>
    cases hb with
    | @map _ _ es' hk' hn' h' hs' =>
      cases vt with
      | scalar k =>
        have hl : ∀ e ∈ es, ∃ o, e.2 = .sc o := fun e he => safe_sc_elem (h e he)
        have hl' : ∀ e ∈ es', ∃ o, e.2 = .sc o := fun e he => safe_sc_elem (h' e he)
        exact .other (decMapScalar hl hl') (decMapScalar hl' hl) (by simp)
      | enum =>
        have hl : ∀ e ∈ es, ∃ o, e.2 = .enum o := fun e he => safe_enum_elem (h e he)
        have hl' : ∀ e ∈ es', ∃ o, e.2 = .enum o := fun e he => safe_enum_elem (h' e he)
        exact .other (decMapEnum hl hl') (decMapEnum hl' hl) (by simp)
      | msg m =>
        have hl : ∀ e ∈ es, ∃ o, e.2 = .msg o := fun e he => safe_msg_elem (h e he) (hn e he)
        have hl' : ∀ e ∈ es', ∃ o, e.2 = .msg o := fun e he => safe_msg_elem (h' e he) (hn' e he)
        refine .other (decMapMsg hl hl' ⟨hk, hs⟩ ⟨hk', hs'⟩ fun x hx y hy o o' ho ho' => ?_)
          (decMapMsg hl' hl ⟨hk', hs'⟩ ⟨hk, hs⟩ fun x hx y hy o o' ho ho' => ?_) (by simp)
        · have := (ih x hx (h' y hy)).rightObj m rfl
          rw [ho, ho'] at this; exact this
        · have := (ih y hy (h' x hx)).leftObj m rfl
          rw [ho, ho'] at this; exact this

end QtPb
