import Verif.EqLemmas
/-
Reflexivity and transitivity of `Same`, assignment and copy construction.
-/
namespace QtPb
open Spec

variable {env : Env}

/-! ### `Same` is an equivalence -/

theorem Spec.Holds.mono {P Q : Kind → Scalar → Prop} (hPQ : ∀ k s, P k s → Q k s) {ty : FieldTy}
    {v : Val} (h : Holds env P ty v) : Holds env Q ty v := by
  induction h with
  | sc h => exact .sc (hPQ _ _ h)
  | scList h => exact .scList fun s hs => hPQ _ _ (h s hs)
  | enum e => exact .enum e
  | enumList l => exact .enumList l
  | null m => exact .null m
  | msg hl _ ih => exact .msg hl ih
  | msgList hn _ ih => exact .msgList hn ih
  | map hk hn _ hs ih => exact .map (fun e he => hPQ _ _ (hk e he)) hn ih hs

theorem Spec.Plain.safe {ty : FieldTy} {v : Val} (h : Plain env ty v) : Safe env ty v :=
  Holds.mono (fun _ _ h => h.1) h

theorem Spec.Clean.plain {ty : FieldTy} {v : Val} (h : Clean env ty v) : Plain env ty v :=
  Holds.mono (fun _ _ h => ⟨h.1, h.2.1⟩) h

theorem getElem?_inj {α : Type} {l : List α} {i : Nat} {x y : α} (h1 : l[i]? = some x)
    (h2 : l[i]? = some y) : x = y := by rw [h1] at h2; exact Option.some.inj h2

theorem Spec.Same.refl {ty : FieldTy} {v : Val} (h : Plain env ty v) : Same env ty v v := by
  unfold Plain at h
  induction h with
  | sc h => exact .sc (scalarEq_refl h.2)
  | scList h =>
    exact .scList rfl fun i x y hx hy => by
      have := getElem?_inj hx hy
      subst this
      exact scalarEq_refl (h x (List.mem_of_getElem? hx)).2
  | enum e => exact .enum e
  | enumList l => exact .enumList l
  | null m => exact .unset m
  | msg hl _ ih =>
    exact .msg fun i f x y hf hx hy => by
      have := getElem?_inj hx hy
      subst this
      exact ih i f x hf hx
  | msgList hn _ ih =>
    exact .msgList rfl fun i x y hx hy => by
      have := getElem?_inj hx hy
      subst this
      exact ih x (List.mem_of_getElem? hx)
  | @map kk vt es hk hn _ hs ih =>
    refine .map rfl (fun i x y hx hy => ?_) (fun i x y hx hy => ?_)
    · have := getElem?_inj hx hy
      subst this
      exact keyEqv.refl kk x.1
    · have := getElem?_inj hx hy
      subst this
      exact ih x (List.mem_of_getElem? hx)

theorem getElem?_of_len {α β : Type} {a : List α} {b : List β} (h : a.length = b.length) {i : Nat}
    {x : α} (hx : a[i]? = some x) : ∃ y, b[i]? = some y := by
  have := (List.getElem?_eq_some_iff.mp hx).1
  exact ⟨b[i]'(by omega), by simp [← h, this]⟩

theorem Spec.Same.trans {ty : FieldTy} {a b c : Val} (hab : Same env ty a b) (hbc : Same env ty b c)
    (ha : Safe env ty a) (hb : Safe env ty b) (hc : Safe env ty c) : Same env ty a c := by
  induction hab generalizing c with
  | sc h => cases hbc with | sc h' => exact .sc (scalarEq_trans h h')
  | scList hl h =>
    cases hbc with
    | scList hl' h' =>
      refine .scList (hl.trans hl') fun i x z hx hz => ?_
      obtain ⟨y, hy⟩ := getElem?_of_len hl hx
      exact scalarEq_trans (h i x y hx hy) (h' i y z hy hz)
  | enum e => cases hbc; exact .enum e
  | enumList l => cases hbc; exact .enumList l
  | unset m => exact hbc
  | @msg m a b h ih =>
    have hbc' := same_msg_iff.mp hbc
    have hla := safe_contents_length ha
    have hlb := safe_contents_length hb
    refine .msg fun i f x z hf hx hz => ?_
    obtain ⟨y, hy⟩ := getElem?_of_len (hla.trans hlb.symm) hx
    exact ih i f x y hf hx hy (hbc' i f y z hf hy hz) (safe_contents_field default_holds ha hf hx)
      (safe_contents_field default_holds hb hf hy) (safe_contents_field default_holds hc hf hz)
  | msgList hl h ih =>
    cases hbc with
    | msgList hl' h' =>
      cases ha with
      | msgList _ ha =>
        cases hb with
        | msgList _ hb =>
          cases hc with
          | msgList _ hc =>
            refine .msgList (hl.trans hl') fun i x z hx hz => ?_
            obtain ⟨y, hy⟩ := getElem?_of_len hl hx
            exact ih i x y hx hy (h' i y z hy hz) (ha x (List.mem_of_getElem? hx))
              (hb y (List.mem_of_getElem? hy)) (hc z (List.mem_of_getElem? hz))
  | map hl hk h ih =>
    cases hbc with
    | map hl' hk' h' =>
      cases ha with
      | map ka _ ha _ =>
        cases hb with
        | map kb _ hb _ =>
          cases hc with
          | map kc _ hc _ =>
            refine .map (hl.trans hl') (fun i x z hx hz => ?_) (fun i x z hx hz => ?_)
            · obtain ⟨y, hy⟩ := getElem?_of_len hl hx
              exact keyEqv.trans (ka x (List.mem_of_getElem? hx)) (kb y (List.mem_of_getElem? hy))
                (kc z (List.mem_of_getElem? hz)) (hk i x y hx hy) (hk' i y z hy hz)
            · obtain ⟨y, hy⟩ := getElem?_of_len hl hx
              exact ih i x y hx hy (h' i y z hy hz) (ha x (List.mem_of_getElem? hx))
                (hb y (List.mem_of_getElem? hy)) (hc z (List.mem_of_getElem? hz))

theorem holds_contents {P : Kind → Scalar → Prop} (hP : ∀ k, P k (defaultScalar k)) {m : Nat} {v : Val}
    (h : Holds env P (.msg m) v) : Holds env P (.msg m) (.msg (contents env m v)) :=
  .msg (safe_contents_length h) fun _ _ _ hf hx => safe_contents_field hP h hf hx

theorem Spec.Mirrors.toSame {ty : FieldTy} {a b : Val} (h : Mirrors env ty a b) (hb : Plain env ty b) :
    Same env ty a b := by
  induction h with
  | refl ty v => exact Same.refl hb
  | same h => exact h
  | msg h ih =>
    exact .msg fun i f x y hf hx hy => ih i f x y hf hx hy
      (safe_contents_field (fun k => ⟨default_holds k, default_notNaN k⟩) hb hf hy)

theorem scalarEq_notNaN {k : Kind} {a b : Scalar} (h : scalarEq k a b = true) (ha : k.holds a)
    (hb : k.holds b) : notNaN k b := by
  cases k <;> try trivial
  · cases a <;> simp [Kind.holds] at ha
    cases b <;> simp [Kind.holds] at hb
    simp only [scalarEq, f32Eq, Bool.and_eq_true, Bool.not_eq_true'] at h
    exact h.1.2
  · cases a <;> simp [Kind.holds] at ha
    cases b <;> simp [Kind.holds] at hb
    simp only [scalarEq, f64Eq, Bool.and_eq_true, Bool.not_eq_true'] at h
    exact h.1.2

theorem keyEqv_notNaN {k : Kind} {a b : Scalar} (h : keyEqv k a b) (ha : k.holds a) (hb : k.holds b)
    (hn : notNaN k a) : notNaN k b := by
  cases k <;> try trivial
  · cases a <;> simp [Kind.holds] at ha
    cases b <;> simp [Kind.holds] at hb
    simp only [keyEqv, keyLt, decide_eq_false_iff_not, Nat.not_lt] at h
    rename_i x y
    have : x = y := BitVec.eq_of_toNat_eq (by omega)
    subst this; exact hn
  · cases a <;> simp [Kind.holds] at ha
    cases b <;> simp [Kind.holds] at hb
    simp only [keyEqv, keyLt, decide_eq_false_iff_not, Nat.not_lt] at h
    rename_i x y
    have : x = y := BitVec.eq_of_toNat_eq (by omega)
    subst this; exact hn

theorem Spec.Same.plain_right {ty : FieldTy} {a b : Val} (h : Same env ty a b) (ha : Plain env ty a)
    (hb : Safe env ty b) : Plain env ty b := by
  have hd : ∀ k, k.holds (defaultScalar k) ∧ notNaN k (defaultScalar k) :=
    fun k => ⟨default_holds k, default_notNaN k⟩
  unfold Safe at hb
  induction hb generalizing a with
  | sc hb =>
    cases h with
    | sc h => cases ha with | sc ha => exact .sc ⟨hb, scalarEq_notNaN h ha.1 hb⟩
  | scList hb =>
    cases h with
    | scList hl h =>
      cases ha with
      | scList ha =>
        refine .scList fun s hs => ⟨hb s hs, ?_⟩
        obtain ⟨i, hi⟩ := List.mem_iff_getElem?.mp hs
        obtain ⟨x, hx⟩ := getElem?_of_len hl.symm hi
        exact scalarEq_notNaN (h i x s hx hi) (ha x (List.mem_of_getElem? hx)).1 (hb s hs)
  | enum e => exact .enum e
  | enumList l => exact .enumList l
  | null m => exact .null m
  | @msg m o hl _ ih =>
    have h' := same_msg_iff.mp h
    refine .msg hl fun i f y hf hy => ?_
    obtain ⟨x, hx⟩ := getElem?_of_len (hl.trans (safe_contents_length ha).symm) hy
    exact ih i f y hf hy (h' i f x y hf hx hy) (safe_contents_field hd ha hf hx)
  | msgList hn _ ih =>
    cases h with
    | msgList hl h =>
      cases ha with
      | msgList _ ha =>
        refine .msgList hn fun v hv => ?_
        obtain ⟨i, hi⟩ := List.mem_iff_getElem?.mp hv
        obtain ⟨x, hx⟩ := getElem?_of_len hl.symm hi
        exact ih v hv (h i x v hx hi) (ha x (List.mem_of_getElem? hx))
  | map hk hn _ hs ih =>
    cases h with
    | map hl h1 h2 =>
      cases ha with
      | map ka _ ha _ =>
        refine .map (fun e he => ⟨hk e he, ?_⟩) hn (fun e he => ?_) hs
        · obtain ⟨i, hi⟩ := List.mem_iff_getElem?.mp he
          obtain ⟨x, hx⟩ := getElem?_of_len hl.symm hi
          have hx' := ka x (List.mem_of_getElem? hx)
          exact keyEqv_notNaN (h1 i x e hx hi) hx'.1 (hk e he) hx'.2
        · obtain ⟨i, hi⟩ := List.mem_iff_getElem?.mp he
          obtain ⟨x, hx⟩ := getElem?_of_len hl.symm hi
          exact ih e he (h2 i x e hx hi) (ha x (List.mem_of_getElem? hx))

/-! ### Equality never fails without message-valued maps -/

theorem lazyEq_dec {m : Nat} {a b : Val} (ha : Safe env (.msg m) a) (hb : Safe env (.msg m) b) :
    Dec (fun n => lazyEq env (objEq env n) m a b) (Same env (.msg m) a b) := by
  have h := dec_safe ha hb
  have h1 : Dec (fun n => objEq env n m (contents env m a) (contents env m b))
      (Same env (.msg m) a b) := Dec.congr (h.leftObj m rfl) same_msg_iff.symm
  have h2 : Dec (fun n => objEq env n m (contents env m b) (contents env m a))
      (Same env (.msg m) a b) :=
    Dec.congr (h.rightObj m rfl)
      ⟨fun h => same_msg_iff.mpr h.symm, fun h => (same_msg_iff.mp h).symm⟩
  cases ha with
  | null =>
    cases hb with
    | null => exact Dec.pure (by simp only [true_iff]; exact .unset m)
    | msg => exact h2
  | msg =>
    cases hb with
    | null => exact h1
    | msg => exact h1

/-- Neither an exception nor undefined behaviour. -/
def Calm {α : Type} (r : Res α) : Prop := (∃ a, r = .ok a) ∨ r = .fuel

theorem Calm.ok {α : Type} (a : α) : Calm (.ok a) := Or.inl ⟨a, rfl⟩

theorem Calm.bind {α β : Type} {r : Res α} {f : α → Res β} (h : Calm r)
    (hf : ∀ a, r = .ok a → Calm (f a)) : Calm (r >>= f) := by
  rcases h with ⟨a, rfl⟩ | rfl
  · exact hf a rfl
  · exact Or.inr rfl

theorem eq_calm (hm : NoMessageMaps env) (n : Nat) : ∀ {m : Nat} {a b : Obj},
    Safe env (.msg m) (.msg a) → Safe env (.msg m) (.msg b) → Calm (objEq env n m a b) := by
  induction n with
  | zero => intro m a b _ _; exact Or.inr rfl
  | succ n ih =>
    have hlist : ∀ {m : Nat} {l l' : List Val}, (∀ v ∈ l, v ≠ .msgNull) → (∀ v ∈ l', v ≠ .msgNull) →
        (∀ v ∈ l, Safe env (.msg m) v) → (∀ v ∈ l', Safe env (.msg m) v) →
        Calm (listEq (objEq env n) m l l') := by
      intro m l
      induction l with
      | nil => intro l' _ _ _ _; cases l' <;> exact Calm.ok _
      | cons v l ihl =>
        intro l' hn hn' hs hs'
        cases l' with
        | nil => unfold listEq; cases v <;> exact Calm.ok _
        | cons w l' =>
          obtain ⟨x, rfl⟩ := safe_msg_elem (hs v (by simp)) (hn v (by simp))
          obtain ⟨y, rfl⟩ := safe_msg_elem (hs' w (by simp)) (hn' w (by simp))
          simp only [listEq]
          refine Calm.bind (ih (hs _ (by simp)) (hs' _ (by simp))) fun r _ => ?_
          cases r with
          | false => exact Calm.ok _
          | true =>
            exact ihl (fun v hv => hn v (List.mem_cons_of_mem _ hv))
              (fun v hv => hn' v (List.mem_cons_of_mem _ hv))
              (fun v hv => hs v (List.mem_cons_of_mem _ hv))
              (fun v hv => hs' v (List.mem_cons_of_mem _ hv))
    have hval : ∀ {ty : FieldTy} {x y : Val}, (∀ kk m', ty ≠ .map kk (.msg m')) → Safe env ty x →
        Safe env ty y → Calm (eqVal env (objEq env n) ty x y) := by
      intro ty x y hty hx hy
      have hmsg : ∀ {m : Nat} {x y : Val}, Safe env (.msg m) x → Safe env (.msg m) y →
          Calm (msgFieldEq env (objEq env n) m x y) := by
        intro m x y hx hy
        have cx := holds_contents default_holds hx
        have cy := holds_contents default_holds hy
        have cd : Safe env (.msg m) (.msg (defaultObj env m)) := by
          have := holds_contents default_holds (Holds.null (env := env) (P := fun k s => k.holds s) m)
          exact this
        refine Calm.bind ?_ fun r _ => ?_
        · cases hx with
          | null =>
            cases hy with
            | null => exact Calm.ok _
            | msg => exact ih cy cd
          | msg =>
            cases hy with
            | null => exact ih cx cd
            | msg => exact ih cx cy
        · cases r with
          | true => exact Calm.ok _
          | false => simp only [Bool.false_eq_true, if_false, deref_eq]; exact ih cx cy
      cases hx with
      | sc => cases hy; exact Calm.ok _
      | scList => cases hy; exact Calm.ok _
      | enum => cases hy; exact Calm.ok _
      | enumList => cases hy; exact Calm.ok _
      | null m => exact hmsg (.null m) hy
      | msg h1 h2 => exact hmsg (.msg h1 h2) hy
      | msgList hn hs =>
        cases hy with
        | msgList hn' hs' =>
          simp only [eqVal]
          split
          · exact Calm.ok _
          · exact hlist hn hn' hs hs'
      | @map kk vt =>
        cases hy with
        | map =>
          cases vt with
          | scalar => exact Calm.ok _
          | enum => exact Calm.ok _
          | msg m' => exact absurd rfl (hty kk m')
    intro m a b ha hb
    cases ha with
    | msg hla ha =>
      cases hb with
      | msg hlb hb =>
        simp only [objEq]
        have hfs : ∀ (fs : List Field) (a b : Obj), (∀ f ∈ fs, ∀ kk m', f.ty ≠ .map kk (.msg m')) →
            (∀ (i : Nat) (f : Field) (v : Val), fs[i]? = some f → a[i]? = some v → Safe env f.ty v) →
            (∀ (i : Nat) (f : Field) (v : Val), fs[i]? = some f → b[i]? = some v → Safe env f.ty v) →
            Calm (eqFields env (objEq env n) fs a b) := by
          intro fs
          induction fs with
          | nil => intro a b _ _ _; exact Calm.ok _
          | cons f fs ihf =>
            intro a b hty ha hb
            cases a with
            | nil => exact Calm.ok _
            | cons x a =>
              cases b with
              | nil => exact Calm.ok _
              | cons y b =>
                refine Calm.bind (hval (hty f (by simp)) (ha 0 f x rfl rfl) (hb 0 f y rfl rfl))
                  fun r _ => ?_
                cases r with
                | false => exact Calm.ok _
                | true =>
                  exact ihf a b (fun f hf => hty f (List.mem_cons_of_mem _ hf))
                    (fun i f v hf hv => ha (i + 1) f v (by simpa using hf) (by simpa using hv))
                    (fun i f v hf hv => hb (i + 1) f v (by simpa using hf) (by simpa using hv))
        exact hfs _ a b (hm m) ha hb

theorem lazy_calm (hm : NoMessageMaps env) (n : Nat) {m : Nat} {x y : Val} (hx : Safe env (.msg m) x)
    (hy : Safe env (.msg m) y) : Calm (lazyEq env (objEq env n) m x y) := by
  have cx := holds_contents default_holds hx
  have cy := holds_contents default_holds hy
  have cd : Safe env (.msg m) (.msg (defaultObj env m)) :=
    holds_contents default_holds (Holds.null (env := env) (P := fun k s => k.holds s) m)
  cases hx with
  | null =>
    cases hy with
    | null => exact Calm.ok _
    | msg => exact eq_calm hm n cy cd
  | msg =>
    cases hy with
    | null => exact eq_calm hm n cx cd
    | msg => exact eq_calm hm n cx cy

/-! ### Assignment -/

theorem writeVal_mirrors {ty : FieldTy} {cur src : Val} (hc : Safe env ty cur) (hs : Safe env ty src) :
    Mirrors env ty (writeVal ty cur src) src ∧ Safe env ty (writeVal ty cur src) := by
  cases ty with
  | scalar k =>
    cases hc; cases hs
    rename_i hc _ hs
    simp only [writeVal]
    split
    · rename_i h; exact ⟨.same (.sc h), .sc hc⟩
    · exact ⟨.refl _ _, .sc hs⟩
  | list k =>
    cases hc; cases hs
    rename_i hc _ hs
    simp only [writeVal]
    split
    · rename_i h
      exact ⟨.same (.scList (scalarListEq_iff.mp h).1 (scalarListEq_iff.mp h).2), .scList hc⟩
    · exact ⟨.refl _ _, .scList hs⟩
  | map kk vt =>
    cases vt with
    | scalar vk =>
      cases hc with
      | @map _ _ a k1 n1 h1 s1 =>
        cases hs with
        | @map _ _ b k2 n2 h2 s2 =>
          simp only [writeVal]
          split
          · rename_i h
            have hd := (decMapScalar (env := env) (kk := kk) (vk := vk) (a := a) (b := b)
              (fun e he => safe_sc_elem (h1 e he)) (fun e he => safe_sc_elem (h2 e he)))
            have := (hd.sound 0 true (by simp [eqVal, h])).mp rfl
            exact ⟨.same this, .map k1 n1 h1 s1⟩
          · exact ⟨.refl _ _, .map k2 n2 h2 s2⟩
    | enum =>
      cases hc with
      | @map _ _ a k1 n1 h1 s1 =>
        cases hs with
        | @map _ _ b k2 n2 h2 s2 =>
          simp only [writeVal]
          split
          · rename_i h
            have hd := (decMapEnum (env := env) (kk := kk) (a := a) (b := b)
              (fun e he => safe_enum_elem (h1 e he)) (fun e he => safe_enum_elem (h2 e he)))
            have := (hd.sound 0 true (by simp [eqVal, h])).mp rfl
            exact ⟨.same this, .map k1 n1 h1 s1⟩
          · exact ⟨.refl _ _, .map k2 n2 h2 s2⟩
    | msg m => cases hc; exact ⟨.refl _ _, hs⟩
  | enum => exact ⟨.refl _ _, hs⟩
  | enumList => exact ⟨.refl _ _, hs⟩
  | msg m => exact ⟨.refl _ _, hs⟩
  | msgList m => exact ⟨.refl _ _, hs⟩

theorem lazyNe_sound {n m : Nat} {a b : Val} {r : Bool} (ha : Safe env (.msg m) a)
    (hb : Safe env (.msg m) b) (h : lazyNe env n m a b = .ok r) :
    (r = false ↔ Same env (.msg m) a b) := by
  simp only [lazyNe, Res.bind_eq, Res.bind_eq_ok] at h
  obtain ⟨q, hq, h⟩ := h
  simp only [Res.ok.injEq] at h
  have := (lazyEq_dec ha hb).sound n q hq
  rw [← this, ← h]; simp

theorem assignFields_sound {neq : Nat → Val → Val → Res Bool} {rec : Nat → Obj → Obj → Res Obj}
    (h : ∀ {ty : FieldTy} {c s v : Val}, Safe env ty c → Safe env ty s →
      assignVal env neq rec ty c s = .ok v → Mirrors env ty v s ∧ Safe env ty v)
    {fs : List Field} {cur src r : Obj} (hlc : cur.length = fs.length) (hls : src.length = fs.length)
    (hc : ∀ (i : Nat) (f : Field) (v : Val), fs[i]? = some f → cur[i]? = some v → Safe env f.ty v)
    (hs : ∀ (i : Nat) (f : Field) (v : Val), fs[i]? = some f → src[i]? = some v → Safe env f.ty v)
    (hr : assignFields env neq rec fs cur src = .ok r) :
    r.length = fs.length ∧ (∀ (i : Nat) (f : Field) (x y : Val), fs[i]? = some f → r[i]? = some x →
      src[i]? = some y → Mirrors env f.ty x y ∧ Safe env f.ty x) := by
  induction fs generalizing cur src r with
  | nil =>
    simp only [assignFields, Res.ok.injEq] at hr
    subst hr
    simp
  | cons f fs ih =>
    cases cur with
    | nil => simp at hlc
    | cons c cur =>
      cases src with
      | nil => simp at hls
      | cons s src =>
        simp only [assignFields, Res.bind_eq, Res.bind_eq_ok] at hr
        obtain ⟨v, hv, r', hr', hr⟩ := hr
        simp only [Res.ok.injEq] at hr
        subst hr
        have h1 := h (hc 0 f c rfl rfl) (hs 0 f s rfl rfl) hv
        have h2 := ih (by simpa using hlc) (by simpa using hls)
          (fun i f v hf hv => hc (i + 1) f v (by simpa using hf) (by simpa using hv))
          (fun i f v hf hv => hs (i + 1) f v (by simpa using hf) (by simpa using hv)) hr'
        refine ⟨by simp [h2.1], fun i f' x y hf hx hy => ?_⟩
        cases i with
        | zero => simp at hf hx hy; subst hf hx hy; exact h1
        | succ i => exact h2.2 i f' x y (by simpa using hf) (by simpa using hx) (by simpa using hy)

theorem assignVal_sound {n : Nat} (ih : ∀ {m : Nat} {cur src r : Obj}, Safe env (.msg m) (.msg cur) →
      Safe env (.msg m) (.msg src) → assign env n m cur src = .ok r →
      Mirrors env (.msg m) (.msg r) (.msg src) ∧ Safe env (.msg m) (.msg r))
    {ty : FieldTy} {c s v : Val} (hc : Safe env ty c) (hs : Safe env ty s)
    (hv : assignVal env (lazyNe env n) (assign env n) ty c s = .ok v) :
    Mirrors env ty v s ∧ Safe env ty v := by
  cases ty with
  | msg m =>
    simp only [assignVal, Res.bind_eq, Res.bind_eq_ok] at hv
    obtain ⟨q, hq, hv⟩ := hv
    have hq' := lazyNe_sound hc hs hq
    cases q with
    | false =>
      simp only [Bool.false_eq_true, if_false, Res.ok.injEq] at hv
      subst hv
      exact ⟨.same (hq'.mp rfl), hc⟩
    | true =>
      simp only [if_true, Res.bind_eq_ok, Res.ok.injEq] at hv
      obtain ⟨o, ho, rfl⟩ := hv
      rw [deref_eq, deref_eq] at ho
      have := ih (holds_contents default_holds hc) (holds_contents default_holds hs) ho
      refine ⟨?_, this.2⟩
      cases this.1 with
      | refl =>
        refine .msg fun i f x y hf hx hy => ?_
        have : x = y := getElem?_inj hx hy
        subst this; exact .refl _ _
      | same h => exact .same (same_msg_iff.mpr (same_msg_iff (b := .msg (contents env m s)).mp h))
      | msg h => exact .msg h
  | _ =>
    simp only [assignVal, Res.ok.injEq] at hv
    subst hv
    exact writeVal_mirrors hc hs

/-- Whenever an assignment returns, the target is a copy of the source. -/
theorem assign_sound {n : Nat} : ∀ {m : Nat} {cur src r : Obj}, Safe env (.msg m) (.msg cur) →
    Safe env (.msg m) (.msg src) → assign env n m cur src = .ok r →
    Mirrors env (.msg m) (.msg r) (.msg src) ∧ Safe env (.msg m) (.msg r) := by
  induction n with
  | zero => intro m cur src r _ _ h; simp [assign] at h
  | succ n ih =>
    intro m cur src r hc hs h
    cases hc with
    | msg hlc hc =>
      cases hs with
      | msg hls hs =>
        simp only [assign] at h
        have := assignFields_sound (fun h1 h2 h3 => assignVal_sound ih h1 h2 h3) hlc hls hc hs h
        refine ⟨.msg fun i f x y hf hx hy => (this.2 i f x y hf hx hy).1, .msg this.1 ?_⟩
        intro i f v hf hv
        obtain ⟨y, hy⟩ := getElem?_of_len (this.1.trans hls.symm) hv
        exact (this.2 i f v y hf hv hy).2

/-! ### Assignment returns -/

/-- Every large enough budget gives a result. -/
def Returns {α : Type} (P : Nat → Res α) : Prop := ∃ N, ∀ n, N ≤ n → ∃ r, P n = .ok r

theorem Returns.pure {α : Type} (a : α) : Returns (fun _ => Res.ok a) := ⟨0, fun _ _ => ⟨a, rfl⟩⟩

theorem Returns.shift {α : Type} {P Q : Nat → Res α} (h : Returns P) (hs : ∀ n, Q (n + 1) = P n) :
    Returns Q := by
  obtain ⟨N, hN⟩ := h
  refine ⟨N + 1, fun n hn => ?_⟩
  cases n with
  | zero => omega
  | succ n => rw [hs]; exact hN n (by omega)

theorem lazyNe_returns (hm : NoMessageMaps env) {m : Nat} {a b : Val} (ha : Safe env (.msg m) a)
    (hb : Safe env (.msg m) b) : Returns (fun n => lazyNe env n m a b) := by
  obtain ⟨N, hN⟩ := (lazyEq_dec ha hb).halts
  refine ⟨N, fun n hn => ?_⟩
  have h1 := hN n hn
  rcases lazy_calm hm n ha hb with ⟨r, hr⟩ | hr
  · exact ⟨!r, by simp [lazyNe, hr, Res.bind]⟩
  · exact absurd hr h1

def AssignVal (env : Env) (ty : FieldTy) (c s : Val) : Prop :=
  Returns fun n => assignVal env (lazyNe env n) (assign env n) ty c s

def AssignObj (env : Env) (m : Nat) (c s : Obj) : Prop := Returns fun n => assign env n m c s

theorem assignFields_returns {fs : List Field} {c s : Obj}
    (h : ∀ (i : Nat) (f : Field) (x y : Val), fs[i]? = some f → c[i]? = some x → s[i]? = some y →
      AssignVal env f.ty x y) :
    Returns fun n => assignFields env (lazyNe env n) (assign env n) fs c s := by
  induction fs generalizing c s with
  | nil => exact Returns.pure _
  | cons f fs ih =>
    cases c with
    | nil => exact Returns.pure _
    | cons x c =>
      cases s with
      | nil => exact Returns.pure _
      | cons y s =>
        obtain ⟨N, hN⟩ := h 0 f x y rfl rfl rfl
        obtain ⟨M, hM⟩ := ih (c := c) (s := s) fun i f x y hf hx hy =>
          h (i + 1) f x y (by simpa using hf) (by simpa using hx) (by simpa using hy)
        refine ⟨max N M, fun n hn => ?_⟩
        obtain ⟨v, hv⟩ := hN n (by omega)
        obtain ⟨r, hr⟩ := hM n (by omega)
        exact ⟨v :: r, by simp [assignFields, hv, hr, Res.bind]⟩

theorem assignObj_of {m : Nat} {c s : Obj}
    (h : ∀ (i : Nat) (f : Field) (x y : Val), (env.sch m)[i]? = some f → c[i]? = some x →
      s[i]? = some y → AssignVal env f.ty x y) : AssignObj env m c s :=
  Returns.shift (assignFields_returns h) fun _ => rfl

theorem assignMsg_of (hm : NoMessageMaps env) {m : Nat} {c s : Val} (hc : Safe env (.msg m) c)
    (hs : Safe env (.msg m) s) (h : AssignObj env m (contents env m c) (contents env m s)) :
    AssignVal env (.msg m) c s := by
  obtain ⟨N, hN⟩ := lazyNe_returns hm hc hs
  obtain ⟨M, hM⟩ := h
  refine ⟨max N M, fun n hn => ?_⟩
  obtain ⟨q, hq⟩ := hN n (by omega)
  obtain ⟨r, hr⟩ := hM n (by omega)
  cases q with
  | false => exact ⟨c, by simp [assignVal, hq, Res.bind]⟩
  | true => exact ⟨.msg r, by simp [assignVal, hq, Res.bind, deref_eq, hr]⟩

theorem assignOther {ty : FieldTy} (hty : ∀ m, ty ≠ .msg m) (c s : Val) : AssignVal env ty c s := by
  refine ⟨0, fun n _ => ⟨writeVal ty c s, ?_⟩⟩
  cases ty with
  | msg m => exact absurd rfl (hty m)
  | _ => rfl

theorem assignNull (m : Nat) : AssignVal env (.msg m) .msgNull .msgNull :=
  ⟨0, fun n _ => ⟨.msgNull, by simp [assignVal, lazyNe, lazyEq, Res.bind]⟩⟩

theorem assignDefaultDefault (ty : FieldTy) :
    AssignVal env ty (defaultVal ty) (defaultVal ty) := by
  cases ty with
  | msg m => exact assignNull m
  | _ => exact assignOther (by simp) _ _

/-- Assigning a default value. -/
theorem assign_default (hm : NoMessageMaps env) {ty : FieldTy} {c : Val} (h : Safe env ty c) :
    AssignVal env ty c (defaultVal ty) ∧
    (∀ m, ty = .msg m → AssignObj env m (contents env m c) (defaultObj env m)) := by
  have key : ∀ {ty : FieldTy} {c : Val}, Holds env (fun k s => k.holds s) ty c →
      (∀ m, ty = .msg m → AssignObj env m (contents env m c) (defaultObj env m)) := by
    intro ty c h
    induction h with
    | null m =>
      intro m' hm'; cases hm'
      exact assignObj_of fun i f x y hf hx hy => by
        simp only [contents] at hx
        rw [defaultObj_field hf hx, defaultObj_field hf hy]; exact assignDefaultDefault f.ty
    | @msg m o hl hh ih =>
      intro m' hm'; cases hm'
      exact assignObj_of fun i f x y hf hx hy => by
        rw [defaultObj_field hf hy]
        cases hty : f.ty with
        | msg m2 =>
          have hx' : Safe env (.msg m2) x := by rw [← hty]; exact hh i f x hf hx
          exact assignMsg_of hm hx' (.null m2) (ih i f x hf hx m2 hty)
        | _ => exact assignOther (by simp) _ _
    | _ => intro m hm'; cases hm'
  refine ⟨?_, key h⟩
  cases ty with
  | msg m => exact assignMsg_of hm h (.null m) (key h m rfl)
  | _ => exact assignOther (by simp) _ _

/-- Without message-valued maps every assignment returns. -/
theorem assign_returns (hm : NoMessageMaps env) {m : Nat} {cur src : Obj}
    (hc : Safe env (.msg m) (.msg cur)) (hs : Safe env (.msg m) (.msg src)) :
    AssignObj env m cur src := by
  have key : ∀ {ty : FieldTy} {s : Val}, Holds env (fun k s => k.holds s) ty s →
      ∀ m, ty = .msg m → ∀ c, Safe env (.msg m) c →
        AssignObj env m (contents env m c) (contents env m s) := by
    intro ty s h
    induction h with
    | null m => intro m' hm' c hc; cases hm'; exact (assign_default hm hc).2 m rfl
    | @msg m o hl hh ih =>
      intro m' hm' c hc
      cases hm'
      exact assignObj_of fun i f x y hf hx hy => by
        have hx' := safe_contents_field default_holds hc hf hx
        cases hty : f.ty with
        | msg m2 =>
          rw [hty] at hx'
          have hy' : Safe env (.msg m2) y := by rw [← hty]; exact hh i f y hf hy
          exact assignMsg_of hm hx' hy' (ih i f y hf hy m2 hty x hx')
        | _ => exact assignOther (by simp) _ _
    | _ => intro m hm'; cases hm'
  exact key hs m rfl (.msg cur) hc

/-! ### Copy construction -/

theorem copyStart_length (fs : List Field) (g : Obj) : (copyStart fs g).length = fs.length := by
  induction fs generalizing g with
  | nil => simp [copyStart]
  | cons f fs ih => cases g <;> simp [copyStart, ih]

theorem copyStart_safe (fs : List Field) (g : Obj) {i : Nat} {f : Field} {v : Val}
    (hf : fs[i]? = some f) (hv : (copyStart fs g)[i]? = some v) : Safe env f.ty v := by
  have hd : ∀ ty, Safe env ty (defaultVal ty) := fun ty => Holds.default default_holds ty
  induction fs generalizing g i with
  | nil => simp at hf
  | cons f' fs ih =>
    cases g with
    | nil =>
      cases i with
      | zero => simp [copyStart] at hf hv; subst hf hv; exact hd _
      | succ i => exact ih [] (by simpa using hf) (by simpa [copyStart] using hv)
    | cons g gs =>
      cases i with
      | zero =>
        simp only [copyStart, List.getElem?_cons_zero, Option.some.injEq] at hf hv
        subst hf hv
        split
        iterate 7
          · rename_i h; rw [h]; exact .sc rfl
        · rename_i h; rw [h]; exact .enum _
        · exact hd _
      | succ i => exact ih gs (by simpa using hf) (by simpa [copyStart] using hv)

theorem copyStart_holds (m : Nat) (g : Obj) : Safe env (.msg m) (.msg (copyStart (env.sch m) g)) :=
  .msg (copyStart_length _ _) fun _ _ _ hf hv => copyStart_safe _ _ hf hv

end QtPb
