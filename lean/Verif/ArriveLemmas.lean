import Verif.AssignLemmas
import Verif.EncodeLemmas
/-
What arrives is the same as what was sent (`Arrives` implies `Same`), equality with a default message
is always defined, and serialization returns for schemas without cycles of singular messages.
-/
namespace QtPb
open Spec

variable {env : Env}

/-! ### Scalars -/

theorem transmitted_same {k : Kind} {s : Scalar} (h : k.holds s ∧ notNaN k s ∧ textExact env s) :
    scalarEq k s (transmitted env s) = true := by
  obtain ⟨h1, h2, h3⟩ := h
  cases s with
  | str s =>
    cases k <;> simp_all [Kind.holds, transmitted, scalarEq, textExact]
  | bytes b =>
    cases k <;> simp_all [Kind.holds, transmitted, scalarEq]
  | _ => exact scalarEq_refl h2

theorem transmitted_holds {k : Kind} {s : Scalar} (h : k.holds s) : k.holds (transmitted env s) := by
  cases s <;> cases k <;> simp_all [Kind.holds, transmitted]

theorem fieldScalar_same {k : Kind} {s : Scalar} (h : k.holds s ∧ notNaN k s ∧ textExact env s) :
    scalarEq k s (fieldScalar env k s) = true := by
  unfold fieldScalar
  split
  · exact scalarEq_refl h.2.1
  · split
    · rename_i h2
      rw [scalarEq_symm] at h2
      exact scalarEq_trans (transmitted_same h) h2
    · exact transmitted_same h

theorem fieldScalar_holds {k : Kind} {s : Scalar} (h : k.holds s) : k.holds (fieldScalar env k s) := by
  unfold fieldScalar
  split
  · exact h
  · split
    · exact default_holds k
    · exact transmitted_holds h

theorem entryScalar_holds {k : Kind} {s : Scalar} (h : k.holds s) : k.holds (entryScalar env s) := by
  unfold entryScalar
  split
  · exact h
  · exact transmitted_holds h

theorem entryScalar_same {k : Kind} {s : Scalar} (h : k.holds s ∧ notNaN k s ∧ textExact env s) :
    scalarEq k s (entryScalar env s) = true := by
  unfold entryScalar
  split
  · exact scalarEq_refl h.2.1
  · exact transmitted_same h

theorem keyLt_entry {k : Kind} {a b : Scalar} (ha : textExact env a) (hb : textExact env b) :
    keyLt k (entryScalar env a) b = keyLt k a b ∧ keyLt k b (entryScalar env a) = keyLt k b a := by
  unfold entryScalar
  split
  · exact ⟨rfl, rfl⟩
  · cases a with
    | str s =>
      simp only [textExact] at ha
      cases b <;> cases k <;> simp [transmitted, keyLt, ha]
    | bytes s => cases b <;> cases k <;> simp [transmitted, keyLt]
    | _ => exact ⟨rfl, rfl⟩

theorem textExact_entry {a : Scalar} (ha : textExact env a) : textExact env (entryScalar env a) := by
  unfold entryScalar
  split
  · exact ha
  · cases a with
    | str s => simp only [textExact] at ha; simp [transmitted, textExact, ha]
    | _ => simp [transmitted, textExact]

/-! ### Inserting entries in key order -/

theorem mapScalarEq_length {kk vk : Kind} {a b : List (Scalar × Val)}
    (h : mapScalarEq kk vk a b = true) : a.length = b.length := by
  induction a generalizing b with
  | nil => cases b <;> simp_all [mapScalarEq]
  | cons x a ih =>
    obtain ⟨kx, vx⟩ := x
    cases b with
    | nil => cases vx <;> simp [mapScalarEq] at h
    | cons y b =>
      obtain ⟨ky, vy⟩ := y
      cases vx <;> cases vy <;> simp [mapScalarEq] at h
      simp [ih h.2]

theorem mapEnumEq_length {kk : Kind} {a b : List (Scalar × Val)}
    (h : mapEnumEq kk a b = true) : a.length = b.length := by
  induction a generalizing b with
  | nil => cases b <;> simp_all [mapEnumEq]
  | cons x a ih =>
    obtain ⟨kx, vx⟩ := x
    cases b with
    | nil => cases vx <;> simp [mapEnumEq] at h
    | cons y b =>
      obtain ⟨ky, vy⟩ := y
      cases vx <;> cases vy <;> simp [mapEnumEq] at h
      simp [ih h.2]

theorem store_map_ne {kk : Kind} {vt : MapVal} {a b : List (Scalar × Val)} (h : a.length ≠ b.length) :
    store (.map kk vt) (.map a) (.map b) = .map b := by
  cases vt with
  | scalar vk =>
    simp only [store]
    split
    · rename_i h'; exact absurd (mapScalarEq_length h') h
    · rfl
  | enum =>
    simp only [store]
    split
    · rename_i h'; exact absurd (mapEnumEq_length h') h
    · rfl
  | _ => rfl

theorem insertAll_sorted {kk : Kind} {vt : MapVal} {es acc : List (Scalar × Val)}
    (h : (acc ++ es).Pairwise fun a b => keyLt kk a.1 b.1 = true) :
    insertAll kk vt es acc = .map (acc ++ es) := by
  induction es generalizing acc with
  | nil => simp [insertAll]
  | cons e es ih =>
    have h1 : ∀ x ∈ acc, keyLt kk x.1 e.1 = true := by
      intro x hx
      exact (List.pairwise_append.mp h).2.2 x hx e (by simp)
    have h2 : insertAll kk vt (e :: es) acc = insertAll kk vt es (acc ++ [e]) := by
      simp only [insertAll, List.foldl_cons]
      rw [mapInsert_append h1, store_map_ne (by simp)]
    rw [h2, ih (by simpa using h)]
    simp

/-! ### `Arrives` implies `Same` -/

/-- Elements arrive the same. -/
def ListSame (env : Env) (m : Nat) (l l' : List Val) : Prop :=
  l.length = l'.length ∧
  (∀ (i : Nat) (x y : Val), l[i]? = some x → l'[i]? = some y → Same env (.msg m) x y) ∧
  (∀ v ∈ l', v ≠ .msgNull) ∧ (∀ v ∈ l', Safe env (.msg m) v)

/-- Entries arrive the same. -/
def EntriesSame (env : Env) (vt : MapVal) (es es' : List (Scalar × Val)) : Prop :=
  es'.map (·.1) = es.map (fun e => entryScalar env e.1) ∧
  (∀ (i : Nat) (x y : Scalar × Val), es[i]? = some x → es'[i]? = some y →
    Same env (MapVal.toTy vt) x.2 y.2) ∧
  (∀ e ∈ es', e.2 ≠ .msgNull) ∧ (∀ e ∈ es', Safe env (MapVal.toTy vt) e.2)

theorem sorted_entries {kk : Kind} {es es' : List (Scalar × Val)}
    (hm : es'.map (·.1) = es.map (fun e => entryScalar env e.1))
    (ht : ∀ e ∈ es, textExact env e.1) (h : es.Pairwise fun a b => keyLt kk a.1 b.1 = true) :
    es'.Pairwise fun a b => keyLt kk a.1 b.1 = true := by
  have h1 : (es'.map (·.1)).Pairwise fun a b => keyLt kk a b = true := by
    rw [hm, List.pairwise_map]
    refine h.imp_of_mem fun {a b} ha hb hab => ?_
    rw [(keyLt_entry (ht a ha) (textExact_entry (ht b hb))).1, (keyLt_entry (ht b hb) (ht a ha)).2]
    exact hab
  exact List.pairwise_map.mp h1

theorem arrives_same (hE : env.fromUtf8 (env.toUtf8 []) = []) {ty : FieldTy} {v v' : Val}
    (h : Arrives env ty v v') (hc : Clean env ty v) : Same env ty v v' ∧ Safe env ty v' := by
  have hdef : ∀ k : Kind, k.holds (defaultScalar k) ∧ notNaN k (defaultScalar k) ∧
      textExact env (defaultScalar k) := by
    intro k
    refine ⟨default_holds k, default_notNaN k, ?_⟩
    cases k <;> simp [defaultScalar, textExact, hE]
  refine Arrives.rec
    (motive_1 := fun ty v v' _ => Clean env ty v → Same env ty v v' ∧ Safe env ty v')
    (motive_2 := fun m l l' _ => (∀ v ∈ l, v ≠ .msgNull) → (∀ v ∈ l, Clean env (.msg m) v) →
      ListSame env m l l')
    (motive_3 := fun vt es es' _ => (∀ e ∈ es, e.2 ≠ .msgNull) →
      (∀ e ∈ es, Clean env (MapVal.toTy vt) e.2) → EntriesSame env vt es es')
    ?_ ?_ ?_ ?_ ?_ ?_ ?_ ?_ ?_ ?_ ?_ ?_ ?_ ?_ ?_ ?_ h hc
  · intro k s hc
    cases hc with | sc hs => exact ⟨.sc (fieldScalar_same hs), .sc (fieldScalar_holds hs.1)⟩
  · intro k l hc
    cases hc with
    | scList hs =>
      refine ⟨.scList (by simp) fun i x y hx hy => ?_, .scList fun s hs' => ?_⟩
      · simp only [List.getElem?_map, hx, Option.map_some, Option.some.injEq] at hy
        subst hy
        exact transmitted_same (hs x (List.mem_of_getElem? hx))
      · obtain ⟨s0, h0, rfl⟩ := List.mem_map.mp hs'
        exact transmitted_holds (hs s0 h0).1
  · intro e _; exact ⟨.enum e, .enum e⟩
  · intro l _; exact ⟨.enumList l, .enumList l⟩
  · intro m v _ ih _
    have hd : Clean env (.msg m) (.msg (defaultObj env m)) :=
      holds_contents hdef (Holds.null (env := env) m)
    have := ih hd
    exact ⟨same_msg_iff.mpr ((same_msg_iff (a := .msg (defaultObj env m))).mp this.1), this.2⟩
  · intro m o o' hl _ ih hc
    cases hc with
    | msg hlo hf =>
      refine ⟨.msg fun i f x y hfi hx hy => (ih i f x y hfi hx hy (hf i f x hfi hx)).1,
        .msg hl fun i f y hfi hy => ?_⟩
      obtain ⟨x, hx⟩ := getElem?_of_len (hl.trans hlo.symm) hy
      exact (ih i f x y hfi hx hy (hf i f x hfi hx)).2
  · intro m l l' _ ih hc
    cases hc with
    | msgList hn hs =>
      have := ih hn hs
      exact ⟨.msgList this.1 this.2.1, .msgList this.2.2.1 this.2.2.2⟩
  · intro kk vt es es' _ ih hc
    cases hc with
    | map hk hn hs hsorted =>
      obtain ⟨i1, i2, i3, i4⟩ := ih hn hs
      have hlen : es.length = es'.length := by
        have := congrArg List.length i1
        simpa using this.symm
      have hso := sorted_entries i1 (fun e he => (hk e he).2.2) hsorted
      rw [insertAll_sorted (by simpa using hso)]
      have hkey : ∀ (i : Nat) (x y : Scalar × Val), es[i]? = some x → es'[i]? = some y →
          y.1 = entryScalar env x.1 := by
        intro i x y hx hy
        have h1 := congrArg (fun l => l[i]?) i1
        simpa [hx, hy] using h1
      refine ⟨.map hlen (fun i x y hx hy => ?_) i2, .map (fun e he => ?_) i3 i4 hso⟩
      · have hx' := (hk x (List.mem_of_getElem? hx)).2.2
        rw [hkey i x y hx hy, (keyLt_entry hx' hx').1, (keyLt_entry hx' hx').2]
        exact ⟨keyLt_irrefl _ _, keyLt_irrefl _ _⟩
      · obtain ⟨i, hi⟩ := List.mem_iff_getElem?.mp he
        obtain ⟨x, hx⟩ := getElem?_of_len hlen.symm hi
        rw [hkey i x e hx hi]
        exact entryScalar_holds (hk x (List.mem_of_getElem? hx)).1
  · intro m _ _; exact ⟨rfl, by simp, by simp, by simp⟩
  · intro m l l' _ _ hn _; exact absurd rfl (hn .msgNull (by simp))
  · intro m o o' l l' _ _ ih1 ih2 hn hs
    obtain ⟨j1, j2, j3, j4⟩ := ih2 (fun v hv => hn v (List.mem_cons_of_mem _ hv))
      (fun v hv => hs v (List.mem_cons_of_mem _ hv))
    have := ih1 (hs _ (by simp))
    refine ⟨by simp [j1], fun i x y hx hy => ?_, ?_, ?_⟩
    · cases i with
      | zero => simp at hx hy; subst hx hy; exact this.1
      | succ i => exact j2 i x y (by simpa using hx) (by simpa using hy)
    · intro v hv; rcases List.mem_cons.mp hv with rfl | hv
      · simp
      · exact j3 v hv
    · intro v hv; rcases List.mem_cons.mp hv with rfl | hv
      · exact this.2
      · exact j4 v hv
  · intro vt _ _; exact ⟨rfl, by simp, by simp, by simp⟩
  · intro vt key es es' _ _ hn _; exact absurd rfl (hn _ (List.mem_cons_self ..))
  · intro k key s es es' _ ih hn hs
    obtain ⟨j1, j2, j3, j4⟩ := ih (fun v hv => hn v (List.mem_cons_of_mem _ hv))
      (fun v hv => hs v (List.mem_cons_of_mem _ hv))
    have h0 : Clean env (.scalar k) (.sc s) := hs _ (List.mem_cons_self ..)
    cases h0 with
    | sc h0 =>
    refine ⟨by simp [j1], fun i x y hx hy => ?_, ?_, ?_⟩
    · cases i with
      | zero => simp at hx hy; subst hx hy; exact .sc (entryScalar_same h0)
      | succ i => exact j2 i x y (by simpa using hx) (by simpa using hy)
    · intro v hv; rcases List.mem_cons.mp hv with rfl | hv
      · simp
      · exact j3 v hv
    · intro v hv; rcases List.mem_cons.mp hv with rfl | hv
      · exact .sc (entryScalar_holds h0.1)
      · exact j4 v hv
  · intro key e es es' _ ih hn hs
    obtain ⟨j1, j2, j3, j4⟩ := ih (fun v hv => hn v (List.mem_cons_of_mem _ hv))
      (fun v hv => hs v (List.mem_cons_of_mem _ hv))
    refine ⟨by simp [j1], fun i x y hx hy => ?_, ?_, ?_⟩
    · cases i with
      | zero => simp at hx hy; subst hx hy; exact .enum e
      | succ i => exact j2 i x y (by simpa using hx) (by simpa using hy)
    · intro v hv; rcases List.mem_cons.mp hv with rfl | hv
      · simp
      · exact j3 v hv
    · intro v hv; rcases List.mem_cons.mp hv with rfl | hv
      · exact .enum e
      · exact j4 v hv
  · intro m key o o' es es' _ _ ih1 ih2 hn hs
    obtain ⟨j1, j2, j3, j4⟩ := ih2 (fun v hv => hn v (List.mem_cons_of_mem _ hv))
      (fun v hv => hs v (List.mem_cons_of_mem _ hv))
    have := ih1 (hs _ (List.mem_cons_self ..))
    refine ⟨by simp [j1], fun i x y hx hy => ?_, ?_, ?_⟩
    · cases i with
      | zero => simp at hx hy; subst hx hy; exact this.1
      | succ i => exact j2 i x y (by simpa using hx) (by simpa using hy)
    · intro v hv; rcases List.mem_cons.mp hv with rfl | hv
      · simp
      · exact j3 v hv
    · intro v hv; rcases List.mem_cons.mp hv with rfl | hv
      · exact this.2
      · exact j4 v hv

theorem Spec.Safe.hasTy {ty : FieldTy} {v : Val} (h : Safe env ty v) : HasTy env ty v := by
  unfold Safe at h
  induction h with
  | sc h => exact .sc h
  | scList h => exact .scList h
  | enum e => exact .enum e
  | enumList l => exact .enumList l
  | null m => exact .null m
  | msg hl _ ih => exact .msg hl ih
  | msgList _ _ ih => exact .msgList ih
  | map hk _ _ hs ih => exact .map hk ih hs

/-! ### Comparing with, and assigning to, a default message -/

/-- Comparing with a default message is defined for every schema. -/
theorem eq_default_calm (n : Nat) : ∀ {m : Nat} {a : Obj}, Safe env (.msg m) (.msg a) →
    Calm (objEq env n m a (defaultObj env m)) := by
  induction n with
  | zero => intro m a _; exact Or.inr rfl
  | succ n ih =>
    have hval : ∀ {ty : FieldTy} {x : Val}, Safe env ty x →
        Calm (eqVal env (objEq env n) ty x (defaultVal ty)) := by
      intro ty x hx
      have hmsg : ∀ {m : Nat} {x : Val}, Safe env (.msg m) x →
          Calm (msgFieldEq env (objEq env n) m x .msgNull) := by
        intro m x hx
        have cx := holds_contents default_holds hx
        refine Calm.bind ?_ fun r _ => ?_
        · cases hx with
          | null => exact Calm.ok _
          | msg => exact ih cx
        · cases r with
          | true => exact Calm.ok _
          | false => simp only [Bool.false_eq_true, if_false, deref_eq]; exact ih cx
      cases hx with
      | sc => exact Calm.ok _
      | scList => exact Calm.ok _
      | enum => exact Calm.ok _
      | enumList => exact Calm.ok _
      | null m => exact hmsg (.null m)
      | msg h1 h2 => exact hmsg (.msg h1 h2)
      | @msgList m l hn hs =>
        simp only [eqVal, defaultVal]
        cases l with
        | nil => simp [listEq]; exact Calm.ok _
        | cons v l => simp; exact Calm.ok _
      | @map kk vt es =>
        cases vt with
        | scalar => exact Calm.ok _
        | enum => exact Calm.ok _
        | msg m' =>
          simp only [eqVal, defaultVal]
          cases es with
          | nil => simp [mapMsgEq]; exact Calm.ok _
          | cons v l => simp; exact Calm.ok _
    intro m a ha
    cases ha with
    | msg hla ha =>
      simp only [objEq, defaultObj]
      have hfs : ∀ (fs : List Field) (a : Obj),
          (∀ (i : Nat) (f : Field) (v : Val), fs[i]? = some f → a[i]? = some v → Safe env f.ty v) →
          Calm (eqFields env (objEq env n) fs a (fs.map fun f => defaultVal f.ty)) := by
        intro fs
        induction fs with
        | nil => intro a _; exact Calm.ok _
        | cons f fs ihf =>
          intro a ha
          cases a with
          | nil => exact Calm.ok _
          | cons x a =>
            refine Calm.bind (hval (ha 0 f x rfl rfl)) fun r _ => ?_
            cases r with
            | false => exact Calm.ok _
            | true =>
              exact ihf a
                (fun i f v hf hv => ha (i + 1) f v (by simpa using hf) (by simpa using hv))
      exact hfs _ a ha

theorem lazyNe_null_returns {m : Nat} {s : Val} (hs : Safe env (.msg m) s) :
    Returns (fun n => lazyNe env n m .msgNull s) := by
  obtain ⟨N, hN⟩ := (lazyEq_dec (.null m) hs).halts
  refine ⟨N, fun n hn => ?_⟩
  have h1 := hN n hn
  have hc : Calm (lazyEq env (objEq env n) m .msgNull s) := by
    have cs := holds_contents default_holds hs
    cases hs with
    | null => exact Calm.ok _
    | msg => exact eq_default_calm n cs
  rcases hc with ⟨r, hr⟩ | hr
  · exact ⟨!r, by simp [lazyNe, hr, Res.bind]⟩
  · exact absurd hr h1

/-- Assigning to a default message returns, for every schema. -/
theorem assign_to_default {m : Nat} {src : Obj} (hs : Safe env (.msg m) (.msg src)) :
    AssignObj env m (defaultObj env m) src := by
  have key : ∀ {ty : FieldTy} {s : Val}, Holds env (fun k s => k.holds s) ty s →
      ∀ m, ty = .msg m → AssignObj env m (defaultObj env m) (contents env m s) := by
    intro ty s h
    induction h with
    | null m =>
      intro m' hm'; cases hm'
      exact assignObj_of fun i f x y hf hx hy => by
        simp only [contents] at hy
        rw [defaultObj_field hf hx, defaultObj_field hf hy]; exact assignDefaultDefault f.ty
    | @msg m o hl hh ih =>
      intro m' hm'
      cases hm'
      exact assignObj_of fun i f x y hf hx hy => by
        rw [defaultObj_field hf hx]
        cases hty : f.ty with
        | msg m2 =>
          have hy' : Safe env (.msg m2) y := by rw [← hty]; exact hh i f y hf hy
          obtain ⟨N, hN⟩ := lazyNe_null_returns hy'
          obtain ⟨M, hM⟩ := ih i f y hf hy m2 hty
          refine ⟨max N M, fun n hn => ?_⟩
          obtain ⟨q, hq⟩ := hN n (by omega)
          obtain ⟨r, hr⟩ := hM n (by omega)
          cases q with
          | false => exact ⟨.msgNull, by simp [assignVal, defaultVal, hq, Res.bind]⟩
          | true =>
            refine ⟨.msg r, ?_⟩
            simp [assignVal, defaultVal, hq, Res.bind, deref_eq]
            have : contents env m2 .msgNull = defaultObj env m2 := rfl
            simp only at hr
            rw [this, hr]
        | _ => exact assignOther (by simp) _ _
    | _ => intro m hm'; cases hm'
  exact key hs m rfl

end QtPb
