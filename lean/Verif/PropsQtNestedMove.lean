import Verif.SpecQtNestedMove
import Verif.PropsQtNestedObjects
import Verif.PropsMove
/-
C124: moves of objects in which Qt values occur at any depth.
-/
namespace QtPb.Qt
open QtPb QtPb.Spec CopySpec MoveSpec

section
variable {q : Movers} {eq : QtVal → QtVal → Bool} {env : Env} {cls : Classes}

theorem typed_proper {d : Nat} {ty : DeepTy} {s : Deep} (h : TypedAt env cls d ty s) : Proper env cls ty s := by
  induction h with
  | plain h => exact .plain h.hasTy
  | qt q => exact .qt q
  | unset => exact .unset
  | sub hl _ ih => exact .sub hl ih
  | subs _ _ ih => exact .subs ih

/-- A field is moved: the target has a copy of the old source, both hold values of the type. -/
structure MovedWell (eq : QtVal → QtVal → Bool) (env : Env) (cls : Classes) (ty : DeepTy) (src : Deep) (r : DeepMoved) : Prop where
  copy : DeepCopy eq env cls ty src r.target
  target : Proper env cls ty r.target
  source : Proper env cls ty r.source

def FieldsMoved (eq : QtVal → QtVal → Bool) (env : Env) (cls : Classes) (fs : List DeepField) (src : List Deep) (r : List DeepMoved) : Prop :=
  r.length = fs.length ∧ ∀ (i : Nat) (f : DeepField) (y : Deep) (v : DeepMoved), fs[i]? = some f → src[i]? = some y → r[i]? = some v →
    MovedWell eq env cls f.ty y v

theorem moveDeepFields_moves {F : Nat → DeepTy → Deep → Deep → Res DeepMoved} {G : Nat → List DeepField → List Deep → List Deep → Res (List DeepMoved)}
    (hG : ∀ n f fs a as b bs, G n (f :: fs) (a :: as) (b :: bs) = (do
      let v ← F n f.ty a b
      let r ← G n fs as bs
      .ok (v :: r)))
    (hG0 : ∀ n as bs, G n [] as bs = .ok []) : ∀ {fs : List DeepField} {a b : List Deep}, a.length = fs.length → b.length = fs.length →
    (∀ (i : Nat) (f : DeepField) (x y : Deep), fs[i]? = some f → a[i]? = some x → b[i]? = some y →
      ∃ N, ∀ n, N ≤ n → ∃ r, F n f.ty x y = .ok r ∧ MovedWell eq env cls f.ty y r) →
    ∃ N, ∀ n, N ≤ n → ∃ r, G n fs a b = .ok r ∧ FieldsMoved eq env cls fs b r
  | [], _, _, _, _, _ => ⟨0, fun n _ => ⟨[], hG0 n _ _, rfl, by simp⟩⟩
  | f :: fs, [], _, ha, _, _ => by simp at ha
  | f :: fs, _ :: _, [], _, hb, _ => by simp at hb
  | f :: fs, x :: a, y :: b, ha, hb, h => by
    obtain ⟨N, hN⟩ := h 0 f x y rfl rfl rfl
    obtain ⟨M, hM⟩ := moveDeepFields_moves hG hG0 (fs := fs) (a := a) (b := b) (by simpa using ha) (by simpa using hb)
      fun i f x y hf hx hy => h (i + 1) f x y (by simpa using hf) (by simpa using hx) (by simpa using hy)
    refine ⟨max N M, fun n hn => ?_⟩
    obtain ⟨v, hv, h1⟩ := hN n (by omega)
    obtain ⟨r, hr, h2, h3⟩ := hM n (by omega)
    refine ⟨v :: r, by rw [hG]; simp [hv, hr, Res.bind], by simp [h2], fun i f' y' v' hf hy hv' => ?_⟩
    cases i with
    | zero => simp at hf hy hv'; subst hf hy hv'; exact h1
    | succ i => exact h3 i f' y' v' (by simpa using hf) (by simpa using hy) (by simpa using hv')

theorem fieldsMoved_object {c : Nat} {src : Deep} {r : List DeepMoved} (hl : (inner cls c src).length = (cls.tab c).length)
    (h : FieldsMoved eq env cls (cls.tab c) (inner cls c src) r) :
    DeepCopy eq env cls (.sub c) src (.sub (movedTo r)) ∧ Proper env cls (.sub c) (.sub (movedTo r)) ∧ Proper env cls (.sub c) (.sub (movedFrom r)) := by
  have get : ∀ {i : Nat} {f : DeepField}, (cls.tab c)[i]? = some f → ∃ y, (inner cls c src)[i]? = some y := fun {i f} hf =>
    ⟨(inner cls c src)[i]'(by have := (List.getElem?_eq_some_iff.mp hf).1; omega), by simp⟩
  refine ⟨.sub fun i f x z hf hx hz => ?_, .sub (by simp [movedTo, h.1]) fun i f z hf hz => ?_, .sub (by simp [movedFrom, h.1]) fun i f z hf hz => ?_⟩
  · simp only [inner, movedTo, List.getElem?_map, Option.map_eq_some_iff] at hz
    obtain ⟨v, hv, rfl⟩ := hz
    exact (h.2 i f x v hf hx hv).copy
  · simp only [movedTo, List.getElem?_map, Option.map_eq_some_iff] at hz
    obtain ⟨v, hv, rfl⟩ := hz
    obtain ⟨y, hy⟩ := get hf
    exact (h.2 i f y v hf hy hv).target
  · simp only [movedFrom, List.getElem?_map, Option.map_eq_some_iff] at hz
    obtain ⟨v, hv, rfl⟩ := hz
    obtain ⟨y, hy⟩ := get hf
    exact (h.2 i f y v hf hy hv).source

theorem plain_moves (hq : Containers.Sound env q.plain) (hm : NoMessageMaps env) {ty : FieldTy} {c s : Val} (hc : Safe env ty c) (hs : Safe env ty s) :
    Moves env ty (fun n => moveVal env q.plain (lazyNe env n) (moveAssign env q.plain n) ty c s) s ∧
    Moves env ty (fun n => moveInitVal env q.plain (lazyNe env n) (moveAssign env q.plain n) ty c s) s := by
  cases ty with
  | msg m =>
    have hcmp := comparable_noMaps hm (by simp) hc hs
    have h := move_comparable hq hcmp hc.hasTy hs.hasTy m rfl
    exact ⟨moveMsg_moves hcmp hc.hasTy hs.hasTy h, moveMsg_moves hcmp hc.hasTy hs.hasTy h⟩
  | _ => exact ⟨moveVal_other_moves hq (by simp) hc.hasTy hs.hasTy, moveInitVal_other_moves hq (by simp) hc.hasTy hs.hasTy⟩

theorem ofPlain_moves {ty : FieldTy} {P : Nat → Res Moved} {s : Val} (h : Moves env ty P s) :
    ∃ N, ∀ n, N ≤ n → ∃ r, (do let v ← P n; .ok (DeepMoved.ofPlain v)) = .ok r ∧ MovedWell eq env cls (.plain ty) (.val s) r := by
  obtain ⟨N, hN⟩ := h
  refine ⟨N, fun n hn => ?_⟩
  obtain ⟨r, hr, h1, h2, h3⟩ := hN n hn
  exact ⟨.ofPlain r, by simp only [hr, Res.bind_eq, Res.bind], .plain h1, .plain h2, .plain h3⟩

/-- A member of class type, in an assignment and in a construction. -/
theorem sub_moves (hsym : ∀ a b, eq a b = eq b a) (hm : NoMaps env cls) {rec : Nat → Nat → List Deep → List Deep → Res (List DeepMoved)} {d1 d2 c : Nat}
    {x y : Deep} (hx : TypedAt env cls d1 (.sub c) x) (hy : TypedAt env cls d2 (.sub c) y) (t s : Bool)
    (h : x ≠ .unset ∨ y ≠ .unset → ∃ N, ∀ n, N ≤ n → ∃ r, rec n c (inner cls c x) (inner cls c y) = .ok r ∧
      FieldsMoved eq env cls (cls.tab c) (inner cls c y) r) :
    ∃ N, ∀ n, N ≤ n → ∃ r, (do
      let same ← lazyEqDeep cls (eqDeep eq env cls n) c x y
      if same then .ok (DeepMoved.mk x y false false)
      else do
        let r ← rec n c (lazyGet cls c x) (lazyGet cls c y)
        .ok ⟨.sub (r.map DeepMoved.target), .sub (r.map DeepMoved.source), t, s⟩) = .ok r ∧ MovedWell eq env cls (.sub c) y r := by
  by_cases hu : x = .unset ∧ y = .unset
  · obtain ⟨rfl, rfl⟩ := hu
    exact ⟨0, fun n _ => ⟨⟨.unset, .unset, false, false⟩, rfl, .refl _ _, .unset, .unset⟩⟩
  · have hu' : x ≠ .unset ∨ y ≠ .unset := by
      by_cases h : x = .unset
      · exact .inr fun h' => hu ⟨h, h'⟩
      · exact .inl h
    have hly : (inner cls c y).length = (cls.tab c).length := objLength (object_inner (hy.mono (Nat.le_succ _)))
    obtain ⟨M, hM⟩ := h hu'
    obtain ⟨N, hN⟩ := lazyEqDeep_returns hsym hm hx hy
    refine ⟨max N M, fun n hn => ?_⟩
    obtain ⟨e, he⟩ := hN n (by omega)
    obtain ⟨r, hr, h1⟩ := hM n (by omega)
    simp only [lazyGet_inner]
    cases e with
    | true =>
      exact ⟨⟨x, y, false, false⟩, by simp only [he, Res.bind_eq, Res.bind, if_true],
        .alike (((lazyEqDeep_dec hsym hx hy).sound n true he).mp rfl), typed_proper hx, typed_proper hy⟩
    | false =>
      obtain ⟨p1, p2, p3⟩ := fieldsMoved_object hly h1
      exact ⟨⟨.sub (movedTo r), .sub (movedFrom r), t, s⟩,
        by simp only [he, hr, Res.bind_eq, Res.bind, Bool.false_eq_true, if_false]; rfl, p1, p2, p3⟩

theorem moveDeep_moves (hsym : ∀ a b, eq a b = eq b a) (hm : NoMaps env cls) (hq : Movers.Sound env cls q) (D : Nat) :
    ∀ {d1 d2 c : Nat} {cur src : List Deep}, d1 + d2 ≤ D → ObjectAt env cls d1 c cur → ObjectAt env cls d2 c src →
    ∃ N, ∀ n, N ≤ n → ∃ r, moveDeep q eq env cls n c cur src = .ok r ∧ FieldsMoved eq env cls (cls.tab c) src r := by
  induction D using Nat.strongRecOn with
  | ind D ih =>
    intro d1 d2 c cur src hD hc hs
    have main : ∃ N, ∀ n, N ≤ n → ∃ r, moveDeepFields q eq env cls (moveDeep q eq env cls n) n (cls.tab c) cur src = .ok r ∧
        FieldsMoved eq env cls (cls.tab c) src r := by
      refine moveDeepFields_moves (F := fun n => moveDeepVal q eq env cls (moveDeep q eq env cls n) n)
        (G := fun n => moveDeepFields q eq env cls (moveDeep q eq env cls n) n) (fun n f fs a as b bs => rfl) (fun n as bs => by simp [moveDeepFields])
        (objLength hc) (objLength hs) fun i f x y hf hx hy => ?_
      have tx := objField hc hf hx
      have ty' := objField hs hf hy
      obtain ⟨num, ty⟩ := f
      cases ty with
      | plain ty =>
        cases tx with
        | plain h1 => cases ty' with
          | plain h2 => exact ofPlain_moves (plain_moves hq.plain hm.1 h1 h2).1
      | qt m =>
        cases tx with
        | qt p => cases ty' with
          | qt p' =>
            refine ⟨0, fun n _ => ?_⟩
            simp only [moveDeepVal]
            cases he : eq p p' with
            | true => exact ⟨⟨.qt p, .qt p', false, false⟩, by simp, .alike (.qt he), .qt _, .qt _⟩
            | false => exact ⟨⟨.qt p', .qt (q.leftQt p p'), true, true⟩, by simp, .refl _ _, .qt _, .qt _⟩
      | sub c' =>
        refine sub_moves hsym hm tx ty' true true fun hu => ?_
        have : ∃ e1 e2, e1 + e2 < D ∧ ObjectAt env cls e1 c' (inner cls c' x) ∧ ObjectAt env cls e2 c' (inner cls c' y) := by
          cases tx with
          | unset =>
            cases ty' with
            | unset => simp at hu
            | @sub e _ _ h1 h2 => exact ⟨0, e, by omega, object_new 0 c', .sub h1 h2⟩
          | @sub e _ _ h1 h2 =>
            cases ty' with
            | unset => exact ⟨e, 0, by omega, .sub h1 h2, object_new 0 c'⟩
            | @sub e' _ _ h3 h4 => exact ⟨e, e', by omega, .sub h1 h2, .sub h3 h4⟩
        obtain ⟨e1, e2, he, o1, o2⟩ := this
        exact ih (e1 + e2) he (Nat.le_refl _) o1 o2
      | subs c' =>
        have px := typed_proper tx
        have py := typed_proper ty'
        cases tx with
        | @subs _ _ l => cases ty' with
          | @subs _ _ l' =>
            refine ⟨0, fun n _ => ?_⟩
            simp only [moveDeepVal]
            cases he : q.sameSubs l l' with
            | true =>
              cases hq.same _ _ he
              exact ⟨⟨.subs l, .subs l, false, false⟩, by simp, .refl _ _, px, py⟩
            | false => exact ⟨⟨.subs l', .subs (q.leftSubs l l'), true, true⟩, by simp, .refl _ _, py, hq.left _ _ _ px py⟩
    obtain ⟨N, hN⟩ := main
    refine ⟨N + 1, fun n hn => ?_⟩
    obtain ⟨k, rfl⟩ : ∃ k, n = k + 1 := ⟨n - 1, by omega⟩
    exact hN k (by omega)

theorem moveConstructDeep_moves (hsym : ∀ a b, eq a b = eq b a) (hm : NoMaps env cls) (hq : Movers.Sound env cls q) {d c : Nat} {garbage src : List Deep}
    (hg : garbage.length = (cls.tab c).length) (hs : ObjectAt env cls d c src) :
    ∃ N, ∀ n, N ≤ n → ∃ r, moveConstructDeep q eq env cls n c garbage src = .ok r ∧ FieldsMoved eq env cls (cls.tab c) src r := by
  have hc := start_typed (env := env) 0 c hg
  refine moveDeepFields_moves (F := fun n => moveInitDeepVal q eq env cls (moveDeep q eq env cls n) n)
    (G := fun n => moveInitDeepFields q eq env cls (moveDeep q eq env cls n) n) (fun n f fs a as b bs => rfl) (fun n as bs => by simp [moveInitDeepFields])
    (objLength hc) (objLength hs) fun i f x y hf hx hy => ?_
  have tx := objField hc hf hx
  have ty' := objField hs hf hy
  obtain ⟨num, ty⟩ := f
  cases ty with
  | plain ty =>
    cases tx with
    | plain h1 => cases ty' with
      | plain h2 => exact ofPlain_moves (plain_moves hq.plain hm.1 h1 h2).2
  | qt m =>
    cases tx with
    | qt p => cases ty' with
      | qt p' => exact ⟨0, fun n _ => ⟨⟨.qt p', .qt (q.leftQt p p'), false, true⟩, rfl, .refl _ _, .qt _, .qt _⟩⟩
  | sub c' =>
    exact sub_moves hsym hm tx ty' false false fun _ => moveDeep_moves hsym hm hq _ (Nat.le_refl _) (object_inner (tx.mono (Nat.le_succ _)))
      (object_inner (ty'.mono (Nat.le_succ _)))
  | subs c' =>
    have px := typed_proper tx
    have py := typed_proper ty'
    cases tx with
    | @subs _ _ l => cases ty' with
      | @subs _ _ l' => exact ⟨0, fun n _ => ⟨⟨.subs l', .subs (q.leftSubs l l'), false, true⟩, rfl, .refl _ _, py, hq.left _ _ _ px py⟩⟩

/-! ### Moving to itself -/

theorem plain_selfMoves {ty : FieldTy} {s : Val} (hs : HasTy env ty s) :
    ∃ N, ∀ n, N ≤ n → ∃ r, selfMoveVal env (lazyNe env n) (selfMove env n) ty s = .ok r ∧ Mirrors env ty r s ∧ HasTy env ty r := by
  cases ty with
  | msg m =>
    have hd := cmp_comparable (comparable_refl hs) hs hs
    obtain ⟨N, e, hN, he⟩ := lazyEq_decides (hd.1.obj m rfl) (hd.2.obj m rfl)
    obtain ⟨M, hM⟩ := selfMove_copies hs m rfl
    refine ⟨max N M, fun n hn => ?_⟩
    have e1 := hN n (by omega)
    obtain ⟨r, hr, h1, h2⟩ := hM n (by omega)
    cases e with
    | true => exact ⟨s, by simp [selfMoveVal, lazyNe, e1, Res.bind], .refl _ _, hs⟩
    | false => exact ⟨.msg r, by simp [selfMoveVal, lazyNe, e1, Res.bind, deref_eq, hr], mirrors_contents h1, h2⟩
  | _ => exact selfMoveVal_other (by simp) hs

theorem selfMoveDeepFields_keeps : ∀ {fs : List DeepField} {a : List Deep}, a.length = fs.length →
    (∀ (i : Nat) (f : DeepField) (x : Deep), fs[i]? = some f → a[i]? = some x →
      ∃ N, ∀ n, N ≤ n → ∃ r, selfMoveDeepVal eq env cls (selfMoveDeep eq env cls n) n f.ty x = .ok r ∧ DeepCopy eq env cls f.ty x r ∧ Proper env cls f.ty r) →
    ∃ N, ∀ n, N ≤ n → ∃ r, selfMoveDeepFields eq env cls (selfMoveDeep eq env cls n) n fs a = .ok r ∧ r.length = fs.length ∧
      ∀ (i : Nat) (f : DeepField) (x z : Deep), fs[i]? = some f → a[i]? = some x → r[i]? = some z → DeepCopy eq env cls f.ty x z ∧ Proper env cls f.ty z
  | [], _, _, _ => ⟨0, fun n _ => ⟨[], by simp [selfMoveDeepFields], rfl, by simp⟩⟩
  | f :: fs, [], ha, _ => by simp at ha
  | f :: fs, x :: a, ha, h => by
    obtain ⟨N, hN⟩ := h 0 f x rfl rfl
    obtain ⟨M, hM⟩ := selfMoveDeepFields_keeps (fs := fs) (a := a) (by simpa using ha)
      fun i f x hf hx => h (i + 1) f x (by simpa using hf) (by simpa using hx)
    refine ⟨max N M, fun n hn => ?_⟩
    obtain ⟨v, hv, h1⟩ := hN n (by omega)
    obtain ⟨r, hr, h2, h3⟩ := hM n (by omega)
    refine ⟨v :: r, by simp [selfMoveDeepFields, hv, hr, Res.bind], by simp [h2], fun i f' x' z' hf hx hz => ?_⟩
    cases i with
    | zero => simp at hf hx hz; subst hf hx hz; exact h1
    | succ i => exact h3 i f' x' z' (by simpa using hf) (by simpa using hx) (by simpa using hz)

theorem selfMoveDeep_keeps (hsym : ∀ a b, eq a b = eq b a) (hm : NoMaps env cls) (d : Nat) : ∀ {c : Nat} {o : List Deep}, ObjectAt env cls d c o →
    ∃ N, ∀ n, N ≤ n → ∃ r, selfMoveDeep eq env cls n c o = .ok r ∧ DeepCopy eq env cls (.sub c) (.sub o) (.sub r) ∧ Proper env cls (.sub c) (.sub r) := by
  induction d using Nat.strongRecOn with
  | ind d ih =>
    intro c o ho
    obtain ⟨N, hN⟩ := selfMoveDeepFields_keeps (eq := eq) (env := env) (cls := cls) (objLength ho) fun i f x hf hx => by
      have tx := objField ho hf hx
      obtain ⟨num, ty⟩ := f
      cases ty with
      | plain ty =>
        cases tx with
        | plain h =>
          obtain ⟨N, hN⟩ := plain_selfMoves h.hasTy
          refine ⟨N, fun n hn => ?_⟩
          obtain ⟨r, hr, h1, h2⟩ := hN n hn
          exact ⟨.val r, by simp only [selfMoveDeepVal, hr, Res.bind_eq, Res.bind], .plain h1, .plain h2⟩
      | qt m =>
        cases tx with
        | qt p => exact ⟨0, fun n _ => ⟨.qt p, rfl, .refl _ _, .qt p⟩⟩
      | subs c' =>
        have p := typed_proper tx
        cases tx with
        | @subs _ _ l => exact ⟨0, fun n _ => ⟨.subs l, rfl, .refl _ _, p⟩⟩
      | sub c' =>
        cases tx with
        | unset => exact ⟨0, fun n _ => ⟨.unset, rfl, .refl _ _, .unset⟩⟩
        | @sub e _ o' h1 h2 =>
          have t : TypedAt env cls (e + 1) (.sub c') (.sub o') := .sub h1 h2
          obtain ⟨N, hN⟩ := lazyEqDeep_returns (eq := eq) hsym hm t t
          obtain ⟨M, hM⟩ := ih e (by omega) (c := c') (o := o') t
          refine ⟨max N M, fun n hn => ?_⟩
          obtain ⟨b, hb⟩ := hN n (by omega)
          obtain ⟨r, hr, h3, h4⟩ := hM n (by omega)
          cases b with
          | true => exact ⟨.sub o', by simp only [selfMoveDeepVal, hb, Res.bind_eq, Res.bind, if_true], .refl _ _, typed_proper t⟩
          | false =>
            exact ⟨.sub r, by simp only [selfMoveDeepVal, hb, lazyGet_inner, inner, hr, Res.bind_eq, Res.bind, Bool.false_eq_true, if_false], h3, h4⟩
    refine ⟨N + 1, fun n hn => ?_⟩
    obtain ⟨k, rfl⟩ : ∃ k, n = k + 1 := ⟨n - 1, by omega⟩
    obtain ⟨r, hr, h1, h2⟩ := hN k (by omega)
    refine ⟨r, hr, .sub fun i f x z hf hx hz => (h2 i f x z hf hx hz).1, .sub h1 fun i f z hf hz => ?_⟩
    have hi : i < o.length := by rw [objLength ho]; exact (List.getElem?_eq_some_iff.mp hf).1
    exact (h2 i f o[i] z hf (by simp [hi]) hz).2

theorem moveDeepFields_field {F : DeepTy → Deep → Deep → Res DeepMoved} {G : List DeepField → List Deep → List Deep → Res (List DeepMoved)}
    (hG : ∀ f fs a as b bs, G (f :: fs) (a :: as) (b :: bs) = (do
      let v ← F f.ty a b
      let r ← G fs as bs
      .ok (v :: r))) : ∀ {fs : List DeepField} {a b : List Deep} {r : List DeepMoved}, G fs a b = .ok r →
    ∀ (i : Nat) (f : DeepField) (x y : Deep) (v : DeepMoved), fs[i]? = some f → a[i]? = some x → b[i]? = some y → r[i]? = some v → F f.ty x y = .ok v
  | [], _, _, _, _, _, _, _, _, _, hf, _, _, _ => by simp at hf
  | _ :: _, [], _, _, _, _, _, _, _, _, _, hx, _, _ => by simp at hx
  | _ :: _, _ :: _, [], _, _, _, _, _, _, _, _, _, hy, _ => by simp at hy
  | f :: fs, x :: a, y :: b, r, h, i, f', x', y', v', hf, hx, hy, hv => by
    rw [hG] at h
    simp only [Res.bind_eq, Res.bind_eq_ok, Res.ok.injEq] at h
    obtain ⟨v, h1, r', h2, rfl⟩ := h
    cases i with
    | zero => simp at hf hx hy hv; subst hf hx hy hv; exact h1
    | succ i => exact moveDeepFields_field hG h2 i f' x' y' v' (by simpa using hf) (by simpa using hx) (by simpa using hy) (by simpa using hv)

/-! ### The claims -/

/-- C124, `target = std::move(source)`: it returns, whatever the target contained; the target is a copy of what the source was at every depth, equal to that
if there is no NaN, and the source stays a proper object of its class.
Missing: maps with message values. -/
theorem C124_assign_partial (hsym : ∀ a b, eq a b = eq b a) (hm : NoMaps env cls) (hq : Movers.Sound env cls q) {d1 d2 c : Nat} {cur src : List Deep}
    (hc : ObjectAt env cls d1 c cur) (hs : ObjectAt env cls d2 c src) :
    ∃ N, ∀ n, N ≤ n → ∃ r, moveDeep q eq env cls n c cur src = .ok r ∧ DeepCopy eq env cls (.sub c) (.sub src) (.sub (movedTo r)) ∧
      Proper env cls (.sub c) (.sub (movedTo r)) ∧ Proper env cls (.sub c) (.sub (movedFrom r)) ∧
      ((∀ q, eq q q = true) → DeepPlain env cls (.sub c) (.sub src) → DeepAlike eq env cls (.sub c) (.sub (movedTo r)) (.sub src)) := by
  obtain ⟨N, hN⟩ := moveDeep_moves hsym hm hq _ (Nat.le_refl _) hc hs
  refine ⟨N, fun n hn => ?_⟩
  obtain ⟨r, hr, h⟩ := hN n hn
  obtain ⟨h1, h2, h3⟩ := fieldsMoved_object (src := .sub src) (objLength hs) h
  exact ⟨r, hr, h1, h2, h3, fun hq hp => h1.toAlike hq hp⟩

/-- C124, construction by move: the same, whatever the memory contained.
Missing: maps with message values. -/
theorem C124_construct_partial (hsym : ∀ a b, eq a b = eq b a) (hm : NoMaps env cls) (hq : Movers.Sound env cls q) {d c : Nat} {garbage src : List Deep}
    (hg : garbage.length = (cls.tab c).length) (hs : ObjectAt env cls d c src) :
    ∃ N, ∀ n, N ≤ n → ∃ r, moveConstructDeep q eq env cls n c garbage src = .ok r ∧ DeepCopy eq env cls (.sub c) (.sub src) (.sub (movedTo r)) ∧
      Proper env cls (.sub c) (.sub (movedTo r)) ∧ Proper env cls (.sub c) (.sub (movedFrom r)) ∧
      ((∀ q, eq q q = true) → DeepPlain env cls (.sub c) (.sub src) → DeepAlike eq env cls (.sub c) (.sub (movedTo r)) (.sub src)) := by
  obtain ⟨N, hN⟩ := moveConstructDeep_moves hsym hm hq hg hs
  refine ⟨N, fun n hn => ?_⟩
  obtain ⟨r, hr, h⟩ := hN n hn
  obtain ⟨h1, h2, h3⟩ := fieldsMoved_object (src := .sub src) (objLength hs) h
  exact ⟨r, hr, h1, h2, h3, fun hq hp => h1.toAlike hq hp⟩

/-- In an object constructed by move the fields of Qt's types and the lists of messages are the very values of the source, also those that Qt takes for
equal to the values of a new object. -/
theorem C124_construct_exact {n d c : Nat} {garbage src : List Deep} {r : List DeepMoved} (hg : garbage.length = (cls.tab c).length)
    (hs : ObjectAt env cls d c src) (h : moveConstructDeep q eq env cls n c garbage src = .ok r) {i : Nat} {f : DeepField}
    (hf : (cls.tab c)[i]? = some f) (hty : (∃ m, f.ty = .qt m) ∨ ∃ c', f.ty = .subs c') {v : DeepMoved} (hv : r[i]? = some v) : src[i]? = some v.target := by
  have hc := start_typed (env := env) 0 c hg
  have hi := (List.getElem?_eq_some_iff.mp hf).1
  have hi1 : i < ((cls.tab c).zipWith startDeep garbage).length := by rw [objLength hc]; exact hi
  have hi2 : i < src.length := by rw [objLength hs]; exact hi
  have hx : ((cls.tab c).zipWith startDeep garbage)[i]? = some _ := List.getElem?_eq_getElem hi1
  have hy : src[i]? = some _ := List.getElem?_eq_getElem hi2
  have h1 := moveDeepFields_field (F := moveInitDeepVal q eq env cls (moveDeep q eq env cls n) n)
    (G := moveInitDeepFields q eq env cls (moveDeep q eq env cls n) n) (fun f fs a as b bs => rfl) h i f _ _ v hf hx hy hv
  have tx := objField hc hf hx
  have ty' := objField hs hf hy
  rw [hy]
  generalize ((cls.tab c).zipWith startDeep garbage)[i] = x at h1 tx
  generalize src[i] = y at h1 ty'
  obtain ⟨num, ty⟩ := f
  rcases hty with ⟨m, rfl⟩ | ⟨c', rfl⟩
  · cases tx with
    | qt p => cases ty' with
      | qt p' => cases h1; rfl
  · cases tx with
    | subs => cases ty' with
      | subs => cases h1; rfl

/-- C124, an object moved to itself keeps its contents.
Missing: maps with message values. -/
theorem C124_self_partial (hsym : ∀ a b, eq a b = eq b a) (hm : NoMaps env cls) {d c : Nat} {o : List Deep} (ho : ObjectAt env cls d c o) :
    ∃ N, ∀ n, N ≤ n → ∃ r, selfMoveDeep eq env cls n c o = .ok r ∧ DeepCopy eq env cls (.sub c) (.sub o) (.sub r) ∧ Proper env cls (.sub c) (.sub r) :=
  selfMoveDeep_keeps hsym hm d ho

/-- C124, signals of a move assignment, for fields of Qt's types, of messages and of lists of messages: an object that does not emit the change signal of a
field has the value it had; a field of a Qt type for which the signal is emitted had a value that Qt takes for different from the new one. -/
theorem C124_signal_partial {n d1 d2 c : Nat} {cur src : List Deep} {r : List DeepMoved} (hc : ObjectAt env cls d1 c cur) (hs : ObjectAt env cls d2 c src)
    (h : moveDeep q eq env cls n c cur src = .ok r) {i : Nat} {f : DeepField} {x y : Deep} {v : DeepMoved} (hf : (cls.tab c)[i]? = some f)
    (hty : ∀ t, f.ty ≠ .plain t) (hx : cur[i]? = some x) (hy : src[i]? = some y) (hv : r[i]? = some v) :
    (v.targetSignal = false → v.target = x) ∧ (v.sourceSignal = false → v.source = y) ∧
    (∀ p p', x = .qt p → y = .qt p' → v.targetSignal = true → eq p p' = false) := by
  cases n with
  | zero => simp [moveDeep] at h
  | succ n =>
    have h1 := moveDeepFields_field (F := moveDeepVal q eq env cls (moveDeep q eq env cls n) n)
      (G := moveDeepFields q eq env cls (moveDeep q eq env cls n) n) (fun f fs a as b bs => rfl) h i f _ _ v hf hx hy hv
    have tx := objField hc hf hx
    have ty' := objField hs hf hy
    obtain ⟨num, ty⟩ := f
    cases ty with
    | plain t => exact absurd rfl (hty t)
    | qt m =>
      cases tx with
      | qt p => cases ty' with
        | qt p' =>
          simp only [moveDeepVal] at h1
          cases he : eq p p' with
          | true =>
            simp only [he, if_true, Res.ok.injEq] at h1
            subst h1
            simp
          | false =>
            simp only [he, Bool.false_eq_true, if_false, Res.ok.injEq] at h1
            subst h1
            simp only [Bool.true_eq_false, false_implies, true_and]
            intro a b ha hb _
            cases ha; cases hb
            exact he
    | sub c' =>
      simp only [moveDeepVal, Res.bind_eq, Res.bind_eq_ok] at h1
      obtain ⟨same, _, h1⟩ := h1
      refine ⟨?_, ?_, fun p p' hp _ _ => by subst hp; cases tx⟩ <;>
      · cases same with
        | true =>
          simp only [if_true, Res.ok.injEq] at h1
          subst h1
          simp
        | false =>
          simp only [Bool.false_eq_true, if_false, Res.bind_eq_ok, Res.ok.injEq] at h1
          obtain ⟨o, _, rfl⟩ := h1
          simp
    | subs c' =>
      cases tx with
      | @subs _ _ l => cases ty' with
        | @subs _ _ l' =>
          simp only [moveDeepVal] at h1
          cases he : q.sameSubs l l' with
          | true =>
            simp only [he, if_true, Res.ok.injEq] at h1
            subst h1
            simp
          | false =>
            simp only [he, Bool.false_eq_true, if_false, Res.ok.injEq] at h1
            subst h1
            simp

end

/-! ### Cases -/

/-- Everything is swapped when it is moved; pointers are never shared. -/
def swappers : Movers := ⟨swapping, fun a _ => a, fun a _ => a, fun _ _ => false⟩

/-- The hypotheses on what Qt does; those on objects, classes and Qt's == are met by the objects beside `C123_equal`. -/
example {env : Env} {cls : Classes} : Movers.Sound env cls swappers :=
  ⟨⟨fun _ _ _ ha _ => ha, fun _ _ _ _ _ h => by cases h⟩, fun _ _ _ h _ => h, fun _ _ h => by cases h⟩

/-- A route is moved over one with a first leg. -/
example : moveDeep swappers (fun _ _ => false) demoEnv route 3 1 [.val (.sc (.w32 0)), .sub (leg 9 9), .subs [], .qt (.rect ⟨0, 0, 0, 0⟩)] routeValue =
    .ok [⟨.val (.sc (.w32 7)), .val (.sc (.w32 0)), true, true⟩, ⟨.sub [.qt (.size ⟨-1, -1⟩), .qt (.point ⟨0, 0⟩)], .sub (leg 9 9), true, true⟩,
      ⟨.subs [.sub (leg 3 1), .sub (leg 5 2)], .subs [], true, true⟩, ⟨.qt (.rect ⟨1, 2, 3, 4⟩), .qt (.rect ⟨0, 0, 0, 0⟩), true, true⟩] := by
  with_unfolding_all rfl

/-! ### Where it fails -/

/-- A point that Qt takes for equal to (0, 0), such as (1e-13, 0), in a sub-message does not reach an object that is constructed by move: the sub-message is
unset in the new object, and stays in the source. -/
theorem C124_construct_violated (q : Movers) (eq : QtVal → QtVal → Bool) (h : eq (.pointF ⟨0x3d3c25c268497682#64, 0#64⟩) (.pointF ⟨0#64, 0#64⟩) = true)
    (garbage : Deep) :
    moveConstructDeep q eq demoEnv pointIn 3 1 [garbage] [.sub [.qt (.pointF ⟨0x3d3c25c268497682#64, 0#64⟩)]] =
      .ok [⟨.unset, .sub [.qt (.pointF ⟨0x3d3c25c268497682#64, 0#64⟩)], false, false⟩] := by
  have hq : qtDefault 8 = .pointF ⟨0#64, 0#64⟩ := by with_unfolding_all rfl
  have hn : newObject pointIn 0 = [.qt (.pointF ⟨0#64, 0#64⟩)] := by simp [newObject, pointIn, DeepField.default, hq]
  have hst : startDeep ⟨1, .sub 0⟩ garbage = .unset := by cases garbage <;> rfl
  simp [moveConstructDeep, moveInitDeepFields, moveInitDeepVal, lazyEqDeep, eqDeep, eqDeepFields, eqDeepVal, hst, hn, h, Res.bind,
    show pointIn.tab 1 = [⟨1, .sub 0⟩] from rfl, show pointIn.tab 0 = [⟨1, .qt 8⟩] from rfl]

end QtPb.Qt
