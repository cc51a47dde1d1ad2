import Verif.SpecCompare
import Verif.SafeLemmas
/-
The generated comparison and assignment give a result on all comparable pairs of objects, null pointers
in lists and maps included.
-/
namespace QtPb
open Spec

variable {env : Env}

/-! ### Computations with a budget that decide -/

/-- Every large enough budget gives the truth value of `S`. -/
def Decides (P : Nat → Res Bool) (S : Prop) : Prop :=
  ∃ N r, (∀ n, N ≤ n → P n = .ok r) ∧ (r = true ↔ S)

theorem Decides.pure {r : Bool} {S : Prop} (h : r = true ↔ S) : Decides (fun _ => .ok r) S :=
  ⟨0, r, fun _ _ => rfl, h⟩

theorem Decides.congr {P : Nat → Res Bool} {S T : Prop} (h : Decides P S) (hst : S ↔ T) : Decides P T := by
  obtain ⟨N, r, h1, h2⟩ := h
  exact ⟨N, r, h1, h2.trans hst⟩

theorem Decides.and {P Q : Nat → Res Bool} {S T : Prop} (hp : Decides P S) (hq : Decides Q T) :
    Decides (fun n => do let r ← P n; if r then Q n else .ok false) (S ∧ T) := by
  obtain ⟨N, r, h1, h2⟩ := hp
  obtain ⟨M, q, h3, h4⟩ := hq
  refine ⟨max N M, r && q, fun n hn => ?_, ?_⟩
  · have e1 := h1 n (by omega)
    have e2 := h3 n (by omega)
    simp only [e1, e2, Res.bind_eq, Res.bind]
    cases r <;> simp
  · rw [← h2, ← h4]; simp

theorem Decides.or_same {P Q : Nat → Res Bool} {S : Prop} (hp : Decides P S) (hq : Decides Q S) :
    Decides (fun n => do let r ← P n; if r then .ok true else Q n) S := by
  obtain ⟨N, r, h1, h2⟩ := hp
  obtain ⟨M, q, h3, h4⟩ := hq
  refine ⟨max N M, r || q, fun n hn => ?_, ?_⟩
  · have e1 := h1 n (by omega)
    have e2 := h3 n (by omega)
    simp only [e1, e2, Res.bind_eq, Res.bind]
    cases r <;> simp
  · simp only [Bool.or_eq_true, h2, h4, or_self]

theorem Decides.shift {P Q : Nat → Res Bool} {S : Prop} (h : Decides P S) (hs : ∀ n, Q (n + 1) = P n) :
    Decides Q S := by
  obtain ⟨N, r, h1, h2⟩ := h
  refine ⟨N + 1, r, fun n hn => ?_, h2⟩
  cases n with
  | zero => omega
  | succ n => rw [hs]; exact h1 n (by omega)

theorem Decides.of_dec {r : Nat → Bool} {P : Nat → Res Bool} {S : Prop} (h : Dec P S)
    (hp : ∀ n, P n = .ok (r n)) : Decides P S := by
  refine ⟨0, r 0, fun n _ => ?_, h.sound 0 _ (hp 0)⟩
  rw [hp n]
  have h1 := h.sound n _ (hp n)
  have h2 := h.sound 0 _ (hp 0)
  have h3 : (r n = true) ↔ (r 0 = true) := h1.trans h2.symm
  congr 1
  cases hx : r n <;> cases hy : r 0 <;> simp [hx, hy] at h3 ⊢

def DecidesVal (env : Env) (ty : FieldTy) (a b : Val) : Prop :=
  Decides (fun n => eqVal env (objEq env n) ty a b) (Same env ty a b)

def DecidesObj (env : Env) (m : Nat) (a b : Obj) : Prop :=
  Decides (fun n => objEq env n m a b) (FieldsSame env m a b)

theorem decidesFields (fs : List Field) (a b : Obj) (ha : a.length = fs.length) (hb : b.length = fs.length)
    (h : ∀ (i : Nat) (f : Field) (x y : Val), fs[i]? = some f → a[i]? = some x → b[i]? = some y →
      DecidesVal env f.ty x y) :
    Decides (fun n => eqFields env (objEq env n) fs a b)
      (∀ (i : Nat) (f : Field) (x y : Val), fs[i]? = some f → a[i]? = some x → b[i]? = some y →
        Same env f.ty x y) := by
  induction fs generalizing a b with
  | nil => exact (Decides.pure (r := true) (S := True) (by simp)).congr (by simp)
  | cons f fs ih =>
    cases a with
    | nil => simp at ha
    | cons x a =>
      cases b with
      | nil => simp at hb
      | cons y b =>
        have h1 := h 0 f x y rfl rfl rfl
        have h2 := ih a b (by simpa using ha) (by simpa using hb) fun i f x y hf hx hy =>
          h (i + 1) f x y (by simpa using hf) (by simpa using hx) (by simpa using hy)
        refine (Decides.and h1 h2).congr ?_
        constructor
        · rintro ⟨h3, h4⟩ i f' x' y' hf hx hy
          cases i with
          | zero => simp at hf hx hy; subst hf hx hy; exact h3
          | succ i => exact h4 i f' x' y' (by simpa using hf) (by simpa using hx) (by simpa using hy)
        · intro h3
          exact ⟨h3 0 f x y rfl rfl rfl, fun i f x y hf hx hy =>
            h3 (i + 1) f x y (by simpa using hf) (by simpa using hx) (by simpa using hy)⟩

theorem decidesObj {m : Nat} {a b : Obj} (ha : a.length = (env.sch m).length)
    (hb : b.length = (env.sch m).length)
    (h : ∀ (i : Nat) (f : Field) (x y : Val), (env.sch m)[i]? = some f → a[i]? = some x →
      b[i]? = some y → DecidesVal env f.ty x y) : DecidesObj env m a b :=
  Decides.shift (decidesFields _ a b ha hb h) (fun _ => rfl)

theorem lazyEq_decides {m : Nat} {a b : Val} (h1 : DecidesObj env m (contents env m a) (contents env m b))
    (h2 : DecidesObj env m (contents env m b) (contents env m a)) :
    Decides (fun n => lazyEq env (objEq env n) m a b) (Same env (.msg m) a b) := by
  have h1' : Decides (fun n => objEq env n m (contents env m a) (contents env m b))
      (Same env (.msg m) a b) := Decides.congr h1 same_msg_iff.symm
  have h2' : Decides (fun n => objEq env n m (contents env m b) (contents env m a))
      (Same env (.msg m) a b) :=
    Decides.congr h2 ⟨fun h => same_msg_iff.mpr h.symm, fun h => (same_msg_iff.mp h).symm⟩
  cases ea : a with
  | msg x =>
    cases eb : b with
    | msg y => simpa [lazyEq, ea, eb, contents] using h1'
    | _ => simpa [lazyEq, ea, eb, contents] using h1'
  | _ =>
    cases eb : b with
    | msg y => simpa [lazyEq, ea, eb, contents] using h2'
    | _ =>
      refine Decides.pure (by
        simp only [true_iff]
        exact same_msg_iff.mpr (fieldsSame_default env m))

theorem decidesMsg {m : Nat} {a b : Val} (h1 : DecidesObj env m (contents env m a) (contents env m b))
    (h2 : DecidesObj env m (contents env m b) (contents env m a)) : DecidesVal env (.msg m) a b := by
  have e : ∀ n, eqVal env (objEq env n) (.msg m) a b = msgFieldEq env (objEq env n) m a b := by
    intro n; cases a <;> cases b <;> rfl
  unfold DecidesVal
  simp only [e, msgFieldEq, deref_eq]
  exact Decides.or_same (lazyEq_decides h1 h2) (Decides.congr h1 same_msg_iff.symm)

theorem hasTy_msg_elem {m : Nat} {v : Val} (h : HasTy env (.msg m) v) : v = .msgNull ∨ ∃ o, v = .msg o := by
  cases h with
  | null => exact Or.inl rfl
  | msg => exact Or.inr ⟨_, rfl⟩

theorem hasTy_sc_elem {k : Kind} {v : Val} (h : HasTy env (.scalar k) v) : ∃ s, v = .sc s := by
  cases h; exact ⟨_, rfl⟩

theorem hasTy_enum_elem {v : Val} (h : HasTy env .enum v) : ∃ e, v = .enum e := by
  cases h; exact ⟨_, rfl⟩

theorem decidesList {m : Nat} {a b : List Val} (hl : a.length = b.length)
    (ha : ∀ v ∈ a, v = .msgNull ∨ ∃ o, v = .msg o) (hb : ∀ v ∈ b, v = .msgNull ∨ ∃ o, v = .msg o)
    (hn : ∀ (i : Nat) (x y : Val), a[i]? = some x → b[i]? = some y → (x = .msgNull ↔ y = .msgNull))
    (h : ∀ (i : Nat) (x y : Obj), a[i]? = some (.msg x) → b[i]? = some (.msg y) → DecidesObj env m x y) :
    Decides (fun n => listEq (objEq env n) m a b)
      (∀ (i : Nat) (x y : Val), a[i]? = some x → b[i]? = some y → Same env (.msg m) x y) := by
  induction a generalizing b with
  | nil =>
    have : ∀ n, listEq (objEq env n) m [] b = .ok true := by intro n; cases b <;> rfl
    simp only [this]
    exact (Decides.pure (r := true) (S := True) (by simp)).congr (by simp)
  | cons v a ih =>
    cases b with
    | nil => simp at hl
    | cons w b =>
      have h2 := ih (b := b) (by simpa using hl) (fun v hv => ha v (List.mem_cons_of_mem _ hv))
        (fun v hv => hb v (List.mem_cons_of_mem _ hv))
        (fun i x y hx hy => hn (i + 1) x y (by simpa using hx) (by simpa using hy))
        (fun i x y hx hy => h (i + 1) x y (by simpa using hx) (by simpa using hy))
      have h0 := hn 0 v w rfl rfl
      have split : ∀ {S : Prop}, (S ↔ Same env (.msg m) v w) →
          (S ∧ (∀ (i : Nat) (x y : Val), a[i]? = some x → b[i]? = some y → Same env (.msg m) x y) ↔
          ∀ (i : Nat) (x y : Val), (v :: a)[i]? = some x → (w :: b)[i]? = some y →
            Same env (.msg m) x y) := by
        intro S hS
        constructor
        · rintro ⟨h3, h4⟩ i x' y' hx hy
          cases i with
          | zero => simp at hx hy; subst hx hy; exact hS.mp h3
          | succ i => exact h4 i x' y' (by simpa using hx) (by simpa using hy)
        · intro h3
          exact ⟨hS.mpr (h3 0 _ _ rfl rfl), fun i x y hx hy =>
            h3 (i + 1) x y (by simpa using hx) (by simpa using hy)⟩
      rcases ha v (by simp) with rfl | ⟨x, rfl⟩
      · have := h0.mp rfl
        subst this
        exact h2.congr ⟨fun h => (split (S := True) (by simp; exact .unset m)).mp ⟨trivial, h⟩,
          fun h => ((split (S := True) (by simp; exact .unset m)).mpr h).2⟩
      · rcases hb w (by simp) with rfl | ⟨y, rfl⟩
        · exact absurd (h0.mpr rfl) (by simp)
        · exact (Decides.and (h 0 x y rfl rfl) h2).congr (split (same_msg_iff (a := .msg x) (b := .msg y)).symm)

theorem decidesMapLoop {kk : Kind} {m : Nat} {a b : List (Scalar × Val)}
    (ha : ∀ e ∈ a, e.2 = .msgNull ∨ ∃ o, e.2 = .msg o) (hb : ∀ e ∈ b, e.2 = .msgNull ∨ ∃ o, e.2 = .msg o)
    (hsb : SortedKeys kk b) (hka : ∀ e ∈ a, kk.holds e.1)
    (hkey : ∀ x ∈ a, ∃ y ∈ b, sameMapKey kk x.1 y.1)
    (hn : ∀ x ∈ a, ∀ y ∈ b, sameMapKey kk x.1 y.1 → (x.2 = .msgNull ↔ y.2 = .msgNull))
    (h : ∀ x ∈ a, ∀ y ∈ b, sameMapKey kk x.1 y.1 → ∀ o o', x.2 = .msg o → y.2 = .msg o' →
      DecidesObj env m o' o) :
    Decides (fun n => mapMsgEq (objEq env n) kk m b a)
      (∀ x ∈ a, ∃ y ∈ b, keyEqv kk y.1 x.1 ∧ Same env (.msg m) y.2 x.2) := by
  induction a with
  | nil => exact (Decides.pure (r := true) (S := True) (by simp)).congr (by simp)
  | cons e a ih =>
    obtain ⟨key, v⟩ := e
    have ih' := ih (fun e he => ha e (List.mem_cons_of_mem _ he))
      (fun e he => hka e (List.mem_cons_of_mem _ he))
      (fun x hx => hkey x (List.mem_cons_of_mem _ hx))
      (fun x hx => hn x (List.mem_cons_of_mem _ hx))
      (fun x hx => h x (List.mem_cons_of_mem _ hx))
    rcases mapLookup_cases kk key b with ⟨y, hy, hyk, hyv⟩ | ⟨hnone, hno⟩
    · have hsame : sameMapKey kk (key, v).1 y.1 := ⟨hyk.2, hyk.1⟩
      have h0 := hn _ List.mem_cons_self y hy hsame
      have hsplit : ∀ {S : Prop}, (S ↔ Same env (.msg m) y.2 v) →
          (S ∧ (∀ x ∈ a, ∃ y ∈ b, keyEqv kk y.1 x.1 ∧ Same env (.msg m) y.2 x.2) ↔
          ∀ x ∈ (key, v) :: a, ∃ y ∈ b, keyEqv kk y.1 x.1 ∧ Same env (.msg m) y.2 x.2) := by
        intro S hS
        constructor
        · rintro ⟨h2, h3⟩ x hx
          rcases List.mem_cons.mp hx with rfl | hx
          · exact ⟨y, hy, hyk, hS.mp h2⟩
          · exact h3 x hx
        · intro h2
          refine ⟨hS.mpr ?_, fun x hx => h2 x (List.mem_cons_of_mem _ hx)⟩
          obtain ⟨z, hz, hzk, hzs⟩ := h2 _ List.mem_cons_self
          have hzy : keyEqv kk z.1 y.1 :=
            keyEqv.trans (hsb.1 z hz) (hka _ List.mem_cons_self) (hsb.1 y hy) hzk hyk.symm
          obtain ⟨i, hi, rfl⟩ := List.getElem_of_mem hz
          obtain ⟨j, hj, rfl⟩ := List.getElem_of_mem hy
          have := hsb.unique (i := i) (j := j) (by simp [hi]) (by simp [hj]) hzy
          subst this
          exact hzs
      rcases ha _ List.mem_cons_self with hv | ⟨o, hv⟩
      · simp only at hv
        subst hv
        have hy2 := h0.mp rfl
        have e : ∀ n, mapMsgEq (objEq env n) kk m b ((key, .msgNull) :: a)
            = mapMsgEq (objEq env n) kk m b a := by
          intro n; simp only [mapMsgEq, hyv, hy2]
        simp only [e]
        have hS : True ↔ Same env (.msg m) y.2 .msgNull := by rw [hy2]; simp; exact .unset m
        exact ih'.congr ⟨fun h => (hsplit hS).mp ⟨trivial, h⟩, fun h => ((hsplit hS).mpr h).2⟩
      · simp only at hv
        subst hv
        rcases hb y hy with hy2 | ⟨o', ho'⟩
        · exact absurd (h0.mpr hy2) (by simp)
        · have h1 := h _ List.mem_cons_self y hy hsame o o' rfl ho'
          simp only [mapMsgEq, hyv, ho']
          refine (Decides.and h1 ih').congr (hsplit ?_)
          rw [ho']
          exact (same_msg_iff (a := .msg o') (b := .msg o)).symm
    · obtain ⟨y, hy, hk⟩ := hkey _ List.mem_cons_self
      exact absurd ⟨hk.2, hk.1⟩ (hno y hy)

theorem decidesMsgList {m : Nat} {a b : List Val} (ha : ∀ v ∈ a, v = .msgNull ∨ ∃ o, v = .msg o)
    (hb : ∀ v ∈ b, v = .msgNull ∨ ∃ o, v = .msg o)
    (hn : a.length = b.length → ∀ (i : Nat) (x y : Val), a[i]? = some x → b[i]? = some y →
      (x = .msgNull ↔ y = .msgNull))
    (h : a.length = b.length → ∀ (i : Nat) (x y : Obj), a[i]? = some (.msg x) → b[i]? = some (.msg y) →
      DecidesObj env m x y) :
    DecidesVal env (.msgList m) (.msgList a) (.msgList b) := by
  unfold DecidesVal
  simp only [eqVal]
  by_cases hl : a.length = b.length
  · simp only [ne_eq, hl, not_true_eq_false, if_false]
    refine (decidesList hl ha hb (hn hl) (h hl)).congr ?_
    exact ⟨fun h => .msgList hl h, fun h => by cases h; assumption⟩
  · simp only [ne_eq, hl, not_false_eq_true, if_true]
    refine Decides.pure ⟨by simp, fun h => ?_⟩
    cases h with
    | msgList h1 _ => exact absurd h1 hl

theorem decidesMapMsg {kk : Kind} {m : Nat} {a b : List (Scalar × Val)}
    (ha : ∀ e ∈ a, e.2 = .msgNull ∨ ∃ o, e.2 = .msg o) (hb : ∀ e ∈ b, e.2 = .msgNull ∨ ∃ o, e.2 = .msg o)
    (hsa : SortedKeys kk a) (hsb : SortedKeys kk b)
    (hkey : a.length = b.length → ∀ x ∈ a, ∃ y ∈ b, sameMapKey kk x.1 y.1)
    (hn : a.length = b.length → ∀ x ∈ a, ∀ y ∈ b, sameMapKey kk x.1 y.1 →
      (x.2 = .msgNull ↔ y.2 = .msgNull))
    (h : a.length = b.length → ∀ x ∈ a, ∀ y ∈ b, sameMapKey kk x.1 y.1 → ∀ o o', x.2 = .msg o →
      y.2 = .msg o' → DecidesObj env m o' o) :
    DecidesVal env (.map kk (.msg m)) (.map a) (.map b) := by
  unfold DecidesVal
  simp only [eqVal]
  by_cases hl : a.length = b.length
  · simp only [ne_eq, hl, not_true_eq_false, if_false]
    refine ((decidesMapLoop ha hb hsb hsa.1 (hkey hl) (hn hl) (h hl)).congr (mapPositions hl hsa hsb)).congr ?_
    exact ⟨fun h => .map hl h.1 h.2, fun h => by
      cases h with | map _ h1 h2 => exact ⟨h1, h2⟩⟩
  · simp only [ne_eq, hl, not_false_eq_true, if_true]
    refine Decides.pure ⟨by simp, fun h => ?_⟩
    cases h with
    | map h1 _ _ => exact absurd h1 hl

/-- Values whose comparison follows no pointers. -/
theorem decidesOther {ty : FieldTy} {a b : Val} (h1 : ∀ m, ty ≠ .msg m) (h2 : ∀ m, ty ≠ .msgList m)
    (h3 : ∀ kk m, ty ≠ .map kk (.msg m)) (ha : HasTy env ty a) (hb : HasTy env ty b) :
    DecidesVal env ty a b := by
  cases ha with
  | sc => cases hb; exact Decides.of_dec decScalar fun _ => rfl
  | scList => cases hb; exact Decides.of_dec decScList fun _ => rfl
  | enum => cases hb; exact Decides.of_dec decEnum fun _ => rfl
  | enumList => cases hb; exact Decides.of_dec decEnumList fun _ => rfl
  | null m => exact absurd rfl (h1 m)
  | msg => exact absurd rfl (h1 _)
  | msgList => exact absurd rfl (h2 _)
  | @map kk vt es _ ha =>
    cases hb with
    | @map _ _ es' _ hb =>
      cases vt with
      | scalar k =>
        exact Decides.of_dec (decMapScalar (fun e he => hasTy_sc_elem (ha e he))
          (fun e he => hasTy_sc_elem (hb e he))) fun _ => rfl
      | enum =>
        exact Decides.of_dec (decMapEnum (fun e he => hasTy_enum_elem (ha e he))
          (fun e he => hasTy_enum_elem (hb e he))) fun _ => rfl
      | msg m => exact absurd rfl (h3 kk m)

theorem hasTy_default (ty : FieldTy) : HasTy env ty (defaultVal ty) :=
  Safe.hasTy (Holds.default default_holds ty)

theorem hasTy_contents {m : Nat} {v : Val} (h : HasTy env (.msg m) v) :
    HasTy env (.msg m) (.msg (contents env m v)) := by
  cases h with
  | null => exact (default_safe m).hasTy
  | msg h1 h2 => exact .msg h1 h2

theorem hasTy_contents_length {m : Nat} {v : Val} (h : HasTy env (.msg m) v) :
    (contents env m v).length = (env.sch m).length := by
  cases hasTy_contents h with
  | msg h1 _ => exact h1

theorem hasTy_contents_field {m : Nat} {v : Val} (h : HasTy env (.msg m) v) {i : Nat} {f : Field} {x : Val}
    (hf : (env.sch m)[i]? = some f) (hx : (contents env m v)[i]? = some x) : HasTy env f.ty x := by
  cases hasTy_contents h with
  | msg _ h2 => exact h2 i f x hf hx

theorem Spec.Comparable.symm {ty : FieldTy} {a b : Val} (h : Comparable env ty a b) :
    Comparable env ty b a := by
  induction h with
  | other h1 h2 h3 => exact .other h1 h2 h3
  | unset m => exact .unset m
  | msg _ ih => exact .msg fun i f x y hf hx hy => ih i f y x hf hy hx
  | msgList h1 _ ih =>
    exact .msgList (fun hl i x y hx hy => (h1 hl.symm i y x hy hx).symm)
      fun hl i x y hx hy => ih hl.symm i y x hy hx
  | map h1 h2 _ ih =>
    refine .map (fun hl => ⟨fun x hx => ?_, fun y hy => ?_⟩)
      (fun hl x hx y hy hk => (h2 hl.symm y hy x hx ⟨hk.2, hk.1⟩).symm)
      fun hl x hx y hy hk => ih hl.symm y hy x hx ⟨hk.2, hk.1⟩
    · obtain ⟨y, hy, hk⟩ := (h1 hl.symm).2 x hx
      exact ⟨y, hy, hk.2, hk.1⟩
    · obtain ⟨x, hx, hk⟩ := (h1 hl.symm).1 y hy
      exact ⟨x, hx, hk.2, hk.1⟩

theorem decidesNull (m : Nat) : DecidesVal env (.msg m) .msgNull .msgNull := by
  refine Decides.congr (P := fun _ => .ok true) (S := True) (Decides.pure (by simp)) ?_
  simp only [true_iff]; exact .unset m

theorem decidesDefault (ty : FieldTy) : DecidesVal env ty (defaultVal ty) (defaultVal ty) := by
  cases ty with
  | msg m => exact decidesNull m
  | msgList m => exact decidesMsgList (by simp) (by simp) (by simp) (by simp)
  | map kk vt =>
    cases vt with
    | msg m =>
      exact decidesMapMsg (by simp) (by simp) (sortedNil kk) (sortedNil kk) (by simp) (by simp) (by simp)
    | _ => exact decidesOther (by simp) (by simp) (by simp) (hasTy_default _) (hasTy_default _)
  | _ => exact decidesOther (by simp) (by simp) (by simp) (hasTy_default _) (hasTy_default _)

/-- The comparisons of two values and of the contents of two message values, in one order. -/
structure Cmp (env : Env) (ty : FieldTy) (a b : Val) : Prop where
  val : DecidesVal env ty a b
  obj : ∀ m, ty = .msg m → DecidesObj env m (contents env m a) (contents env m b)

/-- Comparable values are compared rightly, in both orders. -/
theorem cmp_comparable {ty : FieldTy} {a b : Val} (h : Comparable env ty a b) (ha : HasTy env ty a)
    (hb : HasTy env ty b) : Cmp env ty a b ∧ Cmp env ty b a := by
  induction h with
  | other h1 h2 h3 =>
    exact ⟨⟨decidesOther h1 h2 h3 ha hb, fun m h => absurd h (h1 m)⟩,
      ⟨decidesOther h1 h2 h3 hb ha, fun m h => absurd h (h1 m)⟩⟩
  | unset m =>
    have h1 : DecidesObj env m (defaultObj env m) (defaultObj env m) :=
      decidesObj (defaultObj_length m) (defaultObj_length m) fun i f x y hf hx hy => by
        rw [defaultObj_field hf hx, defaultObj_field hf hy]; exact decidesDefault f.ty
    have : Cmp env (.msg m) .msgNull .msgNull := ⟨decidesNull m, fun m' h => by cases h; exact h1⟩
    exact ⟨this, this⟩
  | @msg m a b h ih =>
    have la := hasTy_contents_length ha
    have lb := hasTy_contents_length hb
    have h1 : DecidesObj env m (contents env m a) (contents env m b) :=
      decidesObj la lb fun i f x y hf hx hy =>
        (ih i f x y hf hx hy (hasTy_contents_field ha hf hx) (hasTy_contents_field hb hf hy)).1.val
    have h2 : DecidesObj env m (contents env m b) (contents env m a) :=
      decidesObj lb la fun i f x y hf hx hy =>
        (ih i f y x hf hy hx (hasTy_contents_field ha hf hy) (hasTy_contents_field hb hf hx)).2.val
    exact ⟨⟨decidesMsg h1 h2, fun m' h => by cases h; exact h1⟩,
      ⟨decidesMsg h2 h1, fun m' h => by cases h; exact h2⟩⟩
  | @msgList m a b h1 _ ih =>
    cases ha with
    | msgList ha =>
      cases hb with
      | msgList hb =>
        have ea := fun v hv => hasTy_msg_elem (ha v hv)
        have eb := fun v hv => hasTy_msg_elem (hb v hv)
        refine ⟨⟨decidesMsgList ea eb h1 fun hl i x y hx hy => ?_, by simp⟩,
          ⟨decidesMsgList eb ea (fun hl i x y hx hy => (h1 hl.symm i y x hy hx).symm)
            fun hl i x y hx hy => ?_, by simp⟩⟩
        · exact (ih hl i _ _ hx hy (ha _ (List.mem_of_getElem? hx)) (hb _ (List.mem_of_getElem? hy))).1.obj m rfl
        · exact (ih hl.symm i _ _ hy hx (ha _ (List.mem_of_getElem? hy))
            (hb _ (List.mem_of_getElem? hx))).2.obj m rfl
  | @map kk m a b h1 h2 _ ih =>
    cases ha with
    | map ka ha sa =>
      cases hb with
      | map kb hb sb =>
        have ea := fun e he => hasTy_msg_elem (ha e he)
        have eb := fun e he => hasTy_msg_elem (hb e he)
        refine ⟨⟨decidesMapMsg ea eb ⟨ka, sa⟩ ⟨kb, sb⟩ (fun hl => (h1 hl).1) h2
            fun hl x hx y hy hk o o' ho ho' => ?_, by simp⟩,
          ⟨decidesMapMsg eb ea ⟨kb, sb⟩ ⟨ka, sa⟩ (fun hl x hx => ?_)
            (fun hl x hx y hy hk => (h2 hl.symm y hy x hx ⟨hk.2, hk.1⟩).symm)
            fun hl x hx y hy hk o o' ho ho' => ?_, by simp⟩⟩
        · have := (ih hl x hx y hy hk (ha x hx) (hb y hy)).2.obj m rfl
          rw [ho, ho'] at this; exact this
        · obtain ⟨y, hy, hk⟩ := (h1 hl.symm).2 x hx
          exact ⟨y, hy, hk.2, hk.1⟩
        · have := (ih hl.symm y hy x hx ⟨hk.2, hk.1⟩ (ha y hy) (hb x hx)).1.obj m rfl
          rw [ho, ho'] at this; exact this

/-! ### Comparable pairs -/

/-- Every value is comparable with the default value of its type. -/
theorem comparable_default {ty : FieldTy} {a : Val} (h : HasTy env ty a) :
    Comparable env ty (defaultVal ty) a := by
  induction h with
  | null m => exact .unset m
  | @msg m o hl _ ih =>
    refine .msg fun i f x y hf hx hy => ?_
    rw [defaultObj_field hf hx]
    exact ih i f y hf hy
  | @msgList m l _ _ =>
    refine .msgList (fun hl => ?_) (fun hl => ?_) <;>
      (intro i x y hx hy; simp at hx)
  | @map kk vt es _ _ _ _ =>
    cases vt with
    | msg m =>
      refine .map (fun hl => ⟨by simp, ?_⟩) (by simp) (by simp)
      intro y hy
      have : es = [] := List.length_eq_zero_iff.mp (by simpa using hl.symm)
      subst this; simp at hy
    | _ => exact .other (by simp) (by simp) (by simp)
  | _ => exact .other (by simp) (by simp) (by simp)

/-- Every value is comparable with itself. -/
theorem comparable_refl {ty : FieldTy} {a : Val} (h : HasTy env ty a) : Comparable env ty a a := by
  induction h with
  | null m => exact .unset m
  | @msg m o hl _ ih =>
    refine .msg fun i f x y hf hx hy => ?_
    rw [getElem?_inj hx hy]
    exact ih i f y hf hy
  | @msgList m l _ ih =>
    refine .msgList (fun _ i x y hx hy => ?_) (fun _ i x y hx hy => ?_)
    · rw [getElem?_inj hx hy]
    · rw [getElem?_inj hx hy]; exact ih y (List.mem_of_getElem? hy)
  | @map kk vt es hk _ hs ih =>
    cases vt with
    | msg m =>
      have hu : ∀ x ∈ es, ∀ y ∈ es, sameMapKey kk x.1 y.1 → x = y := by
        intro x hx y hy hxy
        obtain ⟨i, hi, rfl⟩ := List.getElem_of_mem hx
        obtain ⟨j, hj, rfl⟩ := List.getElem_of_mem hy
        have := SortedKeys.unique ⟨hk, hs⟩ (i := i) (j := j) (by simp [hi]) (by simp [hj]) hxy
        subst this; rfl
      refine .map (fun _ => ⟨fun x hx => ⟨x, hx, keyLt_irrefl _ _, keyLt_irrefl _ _⟩,
        fun x hx => ⟨x, hx, keyLt_irrefl _ _, keyLt_irrefl _ _⟩⟩) (fun _ x hx y hy hxy => ?_)
        (fun _ x hx y hy hxy => ?_)
      · rw [hu x hx y hy hxy]
      · rw [hu x hx y hy hxy]; exact ih y hy
    | _ => exact .other (by simp) (by simp) (by simp)
  | _ => exact .other (by simp) (by simp) (by simp)

/-- Without maps of messages, all values without null list elements are comparable. -/
theorem comparable_noMaps (hm : NoMessageMaps env) {ty : FieldTy} {a b : Val}
    (hty : ∀ kk m, ty ≠ .map kk (.msg m)) (ha : Safe env ty a) (hb : Safe env ty b) :
    Comparable env ty a b := by
  unfold Safe at ha
  induction ha generalizing b with
  | null m => exact comparable_default hb.hasTy
  | @msg m o hl _ ih =>
    exact .msg fun i f x y hf hx hy =>
      ih i f x hf hx (hm m f (List.mem_of_getElem? hf)) (safe_contents_field default_holds hb hf hy)
  | @msgList m l hn _ ih =>
    cases hb with
    | msgList hn' hb =>
      refine .msgList (fun _ i x y hx hy => ?_) (fun _ i x y hx hy => ?_)
      · have h1 := hn x (List.mem_of_getElem? hx)
        have h2 := hn' y (List.mem_of_getElem? hy)
        simp [h1, h2]
      · exact ih x (List.mem_of_getElem? hx) (by simp) (hb y (List.mem_of_getElem? hy))
  | @map kk vt es _ _ _ _ ih =>
    cases vt with
    | msg m => exact absurd rfl (hty kk m)
    | _ => exact .other (by simp) (by simp) (by simp)
  | _ => exact .other (by simp) (by simp) (by simp)

/-! ### Assignment -/

theorem writeVal_hasTy {ty : FieldTy} {cur src : Val} (hty : ∀ m, ty ≠ .msg m) (hc : HasTy env ty cur)
    (hs : HasTy env ty src) : Mirrors env ty (writeVal ty cur src) src ∧ HasTy env ty (writeVal ty cur src) := by
  cases ty with
  | scalar k =>
    cases hc; cases hs
    rename_i hc _ hs
    simp only [writeVal]
    split
    · rename_i h; exact ⟨.same (.sc h), .sc hc⟩
    · exact ⟨.refl _ _, .sc hs⟩
  | list k =>
    cases hc; cases hs
    rename_i hc _ hs
    simp only [writeVal]
    split
    · rename_i h
      exact ⟨.same (.scList (scalarListEq_iff.mp h).1 (scalarListEq_iff.mp h).2), .scList hc⟩
    · exact ⟨.refl _ _, .scList hs⟩
  | map kk vt =>
    cases vt with
    | scalar vk =>
      cases hc with
      | @map _ _ a k1 h1 s1 =>
        cases hs with
        | @map _ _ b k2 h2 s2 =>
          simp only [writeVal]
          split
          · rename_i h
            have hd := (decMapScalar (env := env) (kk := kk) (vk := vk) (a := a) (b := b)
              (fun e he => hasTy_sc_elem (h1 e he))
              (fun e he => hasTy_sc_elem (h2 e he)))
            have := (hd.sound 0 true (by simp [eqVal, h])).mp rfl
            exact ⟨.same this, .map k1 h1 s1⟩
          · exact ⟨.refl _ _, .map k2 h2 s2⟩
    | enum =>
      cases hc with
      | @map _ _ a k1 h1 s1 =>
        cases hs with
        | @map _ _ b k2 h2 s2 =>
          simp only [writeVal]
          split
          · rename_i h
            have hd := (decMapEnum (env := env) (kk := kk) (a := a) (b := b)
              (fun e he => hasTy_enum_elem (h1 e he)) (fun e he => hasTy_enum_elem (h2 e he)))
            have := (hd.sound 0 true (by simp [eqVal, h])).mp rfl
            exact ⟨.same this, .map k1 h1 s1⟩
          · exact ⟨.refl _ _, .map k2 h2 s2⟩
    | msg m => cases hc; exact ⟨.refl _ _, hs⟩
  | enum => exact ⟨.refl _ _, hs⟩
  | enumList => exact ⟨.refl _ _, hs⟩
  | msg m => exact absurd rfl (hty m)
  | msgList m => exact ⟨.refl _ _, hs⟩

/-- An assignment returns a copy. -/
def Copies (env : Env) (ty : FieldTy) (P : Nat → Res Val) (src : Val) : Prop :=
  ∃ N, ∀ n, N ≤ n → ∃ v, P n = .ok v ∧ Mirrors env ty v src ∧ HasTy env ty v

theorem assignFields_copies {fs : List Field} {c s : Obj} (hlc : c.length = fs.length)
    (hls : s.length = fs.length)
    (h : ∀ (i : Nat) (f : Field) (x y : Val), fs[i]? = some f → c[i]? = some x → s[i]? = some y →
      Copies env f.ty (fun n => assignVal env (lazyNe env n) (assign env n) f.ty x y) y) :
    ∃ N, ∀ n, N ≤ n → ∃ r, assignFields env (lazyNe env n) (assign env n) fs c s = .ok r ∧
      r.length = fs.length ∧ ∀ (i : Nat) (f : Field) (x y : Val), fs[i]? = some f → r[i]? = some x →
        s[i]? = some y → Mirrors env f.ty x y ∧ HasTy env f.ty x := by
  induction fs generalizing c s with
  | nil => exact ⟨0, fun n _ => ⟨[], by simp [assignFields], rfl, by simp⟩⟩
  | cons f fs ih =>
    cases c with
    | nil => simp at hlc
    | cons x c =>
      cases s with
      | nil => simp at hls
      | cons y s =>
        obtain ⟨N, hN⟩ := h 0 f x y rfl rfl rfl
        obtain ⟨M, hM⟩ := ih (c := c) (s := s) (by simpa using hlc) (by simpa using hls)
          fun i f x y hf hx hy =>
            h (i + 1) f x y (by simpa using hf) (by simpa using hx) (by simpa using hy)
        refine ⟨max N M, fun n hn => ?_⟩
        obtain ⟨v, hv, hv1, hv2⟩ := hN n (by omega)
        obtain ⟨r, hr, hr1, hr2⟩ := hM n (by omega)
        simp only at hv
        refine ⟨v :: r, by simp [assignFields, hv, hr, Res.bind], by simp [hr1], ?_⟩
        intro i f' x' y' hf hx hy
        cases i with
        | zero => simp at hf hx hy; subst hf hx hy; exact ⟨hv1, hv2⟩
        | succ i => exact hr2 i f' x' y' (by simpa using hf) (by simpa using hx) (by simpa using hy)

theorem assignObj_copies {m : Nat} {c s : Obj} (hc : HasTy env (.msg m) (.msg c))
    (hs : HasTy env (.msg m) (.msg s))
    (h : ∀ (i : Nat) (f : Field) (x y : Val), (env.sch m)[i]? = some f → c[i]? = some x → s[i]? = some y →
      Copies env f.ty (fun n => assignVal env (lazyNe env n) (assign env n) f.ty x y) y) :
    ∃ N, ∀ n, N ≤ n → ∃ r, assign env n m c s = .ok r ∧ Mirrors env (.msg m) (.msg r) (.msg s) ∧
      HasTy env (.msg m) (.msg r) := by
  cases hc with
  | msg hlc hc =>
    cases hs with
    | msg hls hs =>
      obtain ⟨N, hN⟩ := assignFields_copies hlc hls h
      refine ⟨N + 1, fun n hn => ?_⟩
      obtain ⟨k, rfl⟩ : ∃ k, n = k + 1 := ⟨n - 1, by omega⟩
      obtain ⟨r, hr, h1, h2⟩ := hN k (by omega)
      refine ⟨r, hr, .msg fun i f x y hf hx hy => (h2 i f x y hf hx hy).1, .msg h1 fun i f v hf hv => ?_⟩
      obtain ⟨y, hy⟩ := getElem?_of_len (h1.trans hls.symm) hv
      exact (h2 i f v y hf hv hy).2

theorem mirrors_contents {m : Nat} {a : Obj} {b : Val}
    (h : Mirrors env (.msg m) (.msg a) (.msg (contents env m b))) : Mirrors env (.msg m) (.msg a) b := by
  cases h with
  | refl =>
    refine .msg fun i f x y hf hx hy => ?_
    have : x = y := getElem?_inj hx hy
    subst this; exact .refl _ _
  | same h => exact .same (same_msg_iff.mpr (same_msg_iff (b := .msg (contents env m b)).mp h))
  | msg h => exact .msg h

theorem assignMsg_copies {m : Nat} {c s : Val} (hcmp : Comparable env (.msg m) c s)
    (hc : HasTy env (.msg m) c) (hs : HasTy env (.msg m) s)
    (h : ∃ N, ∀ n, N ≤ n → ∃ r, assign env n m (contents env m c) (contents env m s) = .ok r ∧
      Mirrors env (.msg m) (.msg r) (.msg (contents env m s)) ∧ HasTy env (.msg m) (.msg r)) :
    Copies env (.msg m) (fun n => assignVal env (lazyNe env n) (assign env n) (.msg m) c s) s := by
  have hd := cmp_comparable hcmp hc hs
  obtain ⟨N, q, hN, hq⟩ := lazyEq_decides (hd.1.obj m rfl) (hd.2.obj m rfl)
  obtain ⟨M, hM⟩ := h
  refine ⟨max N M, fun n hn => ?_⟩
  have e1 := hN n (by omega)
  obtain ⟨r, hr, h1, h2⟩ := hM n (by omega)
  cases q with
  | true => exact ⟨c, by simp [assignVal, lazyNe, e1, Res.bind], .same (hq.mp rfl), hc⟩
  | false =>
    exact ⟨.msg r, by simp [assignVal, lazyNe, e1, Res.bind, deref_eq, hr], mirrors_contents h1, h2⟩

theorem assignVal_other_copies {ty : FieldTy} {c s : Val} (hty : ∀ m, ty ≠ .msg m) (hc : HasTy env ty c)
    (hs : HasTy env ty s) :
    Copies env ty (fun n => assignVal env (lazyNe env n) (assign env n) ty c s) s := by
  refine ⟨0, fun n _ => ⟨writeVal ty c s, ?_, writeVal_hasTy hty hc hs⟩⟩
  cases ty with
  | msg m => exact absurd rfl (hty m)
  | _ => rfl

theorem assignVal_default_copies (ty : FieldTy) : Copies env ty
    (fun n => assignVal env (lazyNe env n) (assign env n) ty (defaultVal ty) (defaultVal ty))
    (defaultVal ty) := by
  cases ty with
  | msg m =>
    exact ⟨0, fun n _ => ⟨.msgNull, by simp [assignVal, lazyNe, lazyEq, Res.bind, defaultVal], .refl _ _,
      .null m⟩⟩
  | _ => exact assignVal_other_copies (by simp) (hasTy_default _) (hasTy_default _)

theorem assign_comparable {ty : FieldTy} {c s : Val} (h : Comparable env ty c s) (hc : HasTy env ty c)
    (hs : HasTy env ty s) : ∀ m, ty = .msg m →
    ∃ N, ∀ n, N ≤ n → ∃ r, assign env n m (contents env m c) (contents env m s) = .ok r ∧
      Mirrors env (.msg m) (.msg r) (.msg (contents env m s)) ∧ HasTy env (.msg m) (.msg r) := by
  induction h with
  | other h1 => intro m hm; exact absurd hm (h1 m)
  | unset m =>
    intro m' hm'; cases hm'
    refine assignObj_copies (hasTy_contents (.null m)) (hasTy_contents (.null m)) fun i f x y hf hx hy => ?_
    rw [defaultObj_field hf hx, defaultObj_field hf hy]
    exact assignVal_default_copies f.ty
  | @msg m a b h ih =>
    intro m' hm'; cases hm'
    refine assignObj_copies (hasTy_contents hc) (hasTy_contents hs) fun i f x y hf hx hy => ?_
    have hx' := hasTy_contents_field hc hf hx
    have hy' := hasTy_contents_field hs hf hy
    by_cases hty : ∃ m2, f.ty = .msg m2
    · obtain ⟨m2, hty⟩ := hty
      have ih' := ih i f x y hf hx hy hx' hy' m2 hty
      have hcmp := h i f x y hf hx hy
      rw [hty] at hcmp hx' hy' ⊢
      exact assignMsg_copies hcmp hx' hy' ih'
    · exact assignVal_other_copies (fun m2 h => hty ⟨m2, h⟩) hx' hy'
  | msgList => intro m hm; cases hm
  | map => intro m hm; cases hm

/-- Assignment between objects whose sub-messages are comparable. -/
theorem assign_comparableSubs {m : Nat} {c s : Obj} (h : ComparableSubs env m c s)
    (hc : HasTy env (.msg m) (.msg c)) (hs : HasTy env (.msg m) (.msg s)) :
    ∃ N, ∀ n, N ≤ n → ∃ r, assign env n m c s = .ok r ∧ Mirrors env (.msg m) (.msg r) (.msg s) ∧
      HasTy env (.msg m) (.msg r) := by
  refine assignObj_copies hc hs fun i f x y hf hx hy => ?_
  have hx' : HasTy env f.ty x := hasTy_contents_field (v := .msg c) hc hf hx
  have hy' : HasTy env f.ty y := hasTy_contents_field (v := .msg s) hs hf hy
  by_cases hty : ∃ m2, f.ty = .msg m2
  · obtain ⟨m2, hty⟩ := hty
    have hcmp := h i f m2 x y hf hty hx hy
    rw [hty] at hx' hy' ⊢
    exact assignMsg_copies hcmp hx' hy' (assign_comparable hcmp hx' hy' m2 rfl)
  · exact assignVal_other_copies (fun m2 h => hty ⟨m2, h⟩) hx' hy'

theorem comparableSubs_of {m : Nat} {a b : Obj} (h : Comparable env (.msg m) (.msg a) (.msg b)) :
    ComparableSubs env m a b := by
  intro i f m' x y hf hty hx hy
  cases h with
  | other h1 => exact absurd rfl (h1 _)
  | msg h => have := h i f x y hf hx hy; rw [hty] at this; exact this

/-! ### Whatever the input, the decoded object is an object of its class -/

def RecTyped (env : Env) (rec : Nat → Bytes → MsgResult) : Prop :=
  ∀ m body, HasTy env (.msg m) (.msg (rec m body).2)

theorem deserializeObject_typed {rec : Nat → Bytes → MsgResult} (hr : RecTyped env rec) {m : Nat}
    {it it' : It} {o : Obj} (h : deserializeObject rec m it = .ok (o, it')) :
    HasTy env (.msg m) (.msg o) := by
  simp only [deserializeObject, Res.bind_eq, Res.bind_eq_ok] at h
  obtain ⟨⟨body, it1⟩, _, h⟩ := h
  have := hr m body
  split at h <;> simp_all

theorem mapPairLoop_typed {rec : Nat → Bytes → MsgResult} (hr : RecTyped env rec) {kk : Kind} {vt : MapVal}
    {last n : Nat} {key key' : Scalar} {v v' : Val} {it it' : It}
    (hk : kk.holds key) (hv : HasTy env (MapVal.toTy vt) v)
    (h : mapPairLoop env rec kk vt last n key v it = .ok (key', v', it')) :
    kk.holds key' ∧ HasTy env (MapVal.toTy vt) v' := by
  induction n generalizing key v it with
  | zero => simp [mapPairLoop] at h
  | succ n ih =>
    simp only [mapPairLoop] at h
    split at h
    · simp only [Res.ok.injEq, Prod.mk.injEq] at h
      rw [← h.1, ← h.2.1]; exact ⟨hk, hv⟩
    · simp only [Res.bind_eq, Res.bind_eq_ok] at h
      obtain ⟨⟨hd, it1⟩, _, h⟩ := h
      simp only at h
      split at h
      · simp only [Res.bind_eq_ok] at h
        obtain ⟨⟨s, it2⟩, hs, h⟩ := h
        exact ih (deserializeBasic_holds hs) hv h
      · simp only [Res.bind_eq_ok] at h
        obtain ⟨⟨s, it2⟩, hs, h⟩ := h
        refine ih hk ?_ h
        cases vt with
        | scalar k =>
          simp only [deserializeMapValue, Res.bind_eq, Res.bind_eq_ok] at hs
          obtain ⟨⟨x, it3⟩, hx, hs⟩ := hs
          simp only [Res.ok.injEq, Prod.mk.injEq] at hs
          simp only [← hs.1]
          exact .sc (deserializeBasic_holds hx)
        | enum =>
          simp only [deserializeMapValue, Res.bind_eq, Res.bind_eq_ok] at hs
          obtain ⟨⟨x, it3⟩, hx, hs⟩ := hs
          simp only [Res.ok.injEq, Prod.mk.injEq] at hs
          simp only [← hs.1]
          exact .enum _
        | msg m =>
          simp only [deserializeMapValue, Res.bind_eq, Res.bind_eq_ok] at hs
          obtain ⟨⟨x, it3⟩, hx, hs⟩ := hs
          simp only [Res.ok.injEq, Prod.mk.injEq] at hs
          simp only [← hs.1]
          exact deserializeObject_typed hr hx

theorem mapInsert_typed {kk : Kind} {vt : MapVal} {key : Scalar} {v : Val} {es : List (Scalar × Val)}
    (hk : kk.holds key) (hv : HasTy env (MapVal.toTy vt) v)
    (h : HasTy env (.map kk vt) (.map es)) : HasTy env (.map kk vt) (.map (mapInsert kk key v es)) := by
  cases h with
  | map h1 h3 h4 =>
    have hs := mapInsert_sorted (v := v) hk ⟨h1, h4⟩
    exact .map hs.1.1 (mapInsert_values (P := fun v => HasTy env (MapVal.toTy vt) v) hv h3) hs.1.2

theorem deserializeValue_typed {rec : Nat → Bytes → MsgResult} (hr : RecTyped env rec) {ty : FieldTy}
    {n : Nat} {cur v : Val} {it it' : It}
    (hc : HasTy env ty cur) (h : deserializeValue env rec ty n cur it = .ok (v, it')) :
    HasTy env ty v := by
  cases ty <;> simp only [deserializeValue, Res.bind_eq, Res.bind_eq_ok] at h
  case scalar k =>
    obtain ⟨⟨x, it1⟩, hx, h⟩ := h
    simp only [Res.ok.injEq, Prod.mk.injEq] at h
    rw [← h.1]; exact .sc (deserializeBasic_holds hx)
  case list k =>
    obtain ⟨⟨x, it1⟩, hx, h⟩ := h
    simp only [Res.ok.injEq, Prod.mk.injEq] at h
    rw [← h.1]
    cases hc with
    | scList hc => exact .scList (deserializeScalarList_holds hc hx)
  case enum =>
    obtain ⟨⟨x, it1⟩, hx, h⟩ := h
    simp only [Res.ok.injEq, Prod.mk.injEq] at h
    rw [← h.1]; exact .enum _
  case enumList =>
    obtain ⟨⟨x, it1⟩, hx, h⟩ := h
    simp only [Res.ok.injEq, Prod.mk.injEq] at h
    rw [← h.1]; exact .enumList _
  case msg m =>
    obtain ⟨⟨x, it1⟩, hx, h⟩ := h
    simp only [Res.ok.injEq, Prod.mk.injEq] at h
    rw [← h.1]; exact deserializeObject_typed hr hx
  case msgList m =>
    obtain ⟨⟨x, it1⟩, hx, h⟩ := h
    simp only [Res.ok.injEq, Prod.mk.injEq] at h
    rw [← h.1]
    have := deserializeObject_typed hr hx
    cases hc with
    | msgList h2 =>
      refine .msgList ?_
      intro w hw
      rcases List.mem_append.mp hw with hw | hw
      · exact h2 w hw
      · rw [List.mem_singleton.mp hw]; exact this
  case map kk vt =>
    obtain ⟨⟨key, x, it1⟩, hx, h⟩ := h
    simp only [Res.ok.injEq, Prod.mk.injEq] at h
    rw [← h.1]
    simp only [deserializeMapPair, Res.bind_eq, Res.bind_eq_ok] at hx
    obtain ⟨⟨c, it2⟩, _, last, _, hx⟩ := hx
    have := mapPairLoop_typed hr (default_holds kk)
      (by cases vt with
        | scalar k => exact .sc (default_holds k)
        | enum => exact .enum _
        | msg m => exact .null m) hx
    cases hc with
    | map h1 h3 h4 => exact mapInsert_typed this.1 this.2 (.map h1 h3 h4)

theorem set_typed {m i : Nat} {o : Obj} {f : Field} {v : Val} (ho : HasTy env (.msg m) (.msg o))
    (hf : (env.sch m)[i]? = some f) (hv : HasTy env f.ty v) : HasTy env (.msg m) (.msg (o.set i v)) := by
  cases ho with
  | msg hl hh =>
    refine .msg (by simpa using hl) fun j g w hg hw => ?_
    rw [List.getElem?_set] at hw
    split at hw
    · rename_i hij
      subst hij
      split at hw
      · have := getElem?_inj hf hg
        subst this
        cases hw
        exact hv
      · cases hw
    · exact hh j g w hg hw

theorem messageLoop_typed {rec : Nat → Bytes → MsgResult}
    (hr : RecTyped env rec) {m n : Nat} {it : It} {o : Obj} (ho : HasTy env (.msg m) (.msg o)) :
    HasTy env (.msg m) (.msg (messageLoop env rec m n it o).2) := by
  induction n generalizing it o with
  | zero => exact ho
  | succ n ih =>
    simp only [messageLoop]
    split
    · exact ho
    · split
      · rename_i it' o' h
        refine ih ?_
        simp only [deserializeProperty, Res.bind_eq, Res.bind_eq_ok] at h
        obtain ⟨⟨hd, it1⟩, _, h⟩ := h
        simp only at h
        split at h
        · cases h
        · split at h
          · simp only [Res.bind_eq_ok] at h
            obtain ⟨it2, _, h⟩ := h
            simp only [Res.ok.injEq, Prod.mk.injEq] at h
            rw [← h.2]; exact ho
          · split at h
            · rename_i i _ _ _ f cur hf hcur
              simp only [Res.bind_eq_ok] at h
              obtain ⟨⟨v, it2⟩, hv, h⟩ := h
              simp only [Res.ok.injEq, Prod.mk.injEq] at h
              rw [← h.2]
              have hc : HasTy env f.ty cur := by
                cases ho with | msg _ hh => exact hh i f cur hf hcur
              have hv' := deserializeValue_typed hr hc hv
              refine set_typed ho hf ?_
              by_cases hty : ∃ m2, f.ty = .msg m2
              · obtain ⟨m2, hty⟩ := hty
                rw [hty] at hv' ⊢
                exact hv'
              · exact (writeVal_hasTy (fun m2 h => hty ⟨m2, h⟩) hc hv').2
            · cases h
      · exact ho
      · exact ho
      · exact ho

theorem deserializeMessage_typed (n m : Nat) (data : Bytes) :
    HasTy env (.msg m) (.msg (deserializeMessage env n m data).2) := by
  induction n generalizing m data with
  | zero => exact (default_safe m).hasTy
  | succ n ih => exact messageLoop_typed (fun m body => ih m body) (default_safe m).hasTy

end QtPb
