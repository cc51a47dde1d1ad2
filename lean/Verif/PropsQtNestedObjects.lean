import Verif.SpecQtNestedObjects
import Verif.PropsQtObjects
import Verif.PropsQtNested
/-
C123: copies and comparisons of objects in which Qt values occur at any depth.
-/
namespace QtPb.Qt
open QtPb QtPb.Spec CopySpec
open FieldSpec (World)

section
variable {eq : QtVal → QtVal → Bool} {env envQ : Env} {cls : Classes}

theorem lazyGet_inner (c : Nat) (s : Deep) : lazyGet cls c s = inner cls c s := by cases s <;> rfl

/-! ### Typing -/

theorem _root_.QtPb.Qt.CopySpec.TypedAt.mono {d d' : Nat} {ty : DeepTy} {s : Deep} (h : TypedAt env cls d ty s) (hd : d ≤ d') : TypedAt env cls d' ty s := by
  induction h generalizing d' with
  | plain h => exact .plain h
  | qt q => exact .qt q
  | unset => exact .unset
  | sub hl _ ih =>
    cases d' with
    | zero => omega
    | succ d' => exact .sub hl fun i f s hf hs => ih i f s hf hs (by omega)
  | subs hn _ ih => exact .subs hn fun s hs => ih s hs hd

theorem typed_default (d : Nat) (f : DeepField) : TypedAt env cls d f.ty f.default := by
  unfold DeepField.default
  cases f.ty with
  | plain ty => exact .plain (Holds.default default_holds ty)
  | qt m => exact .qt _
  | sub c => exact .unset
  | subs c => exact .subs (by simp) (by simp)

theorem object_new (d c : Nat) : ObjectAt env cls d c (newObject cls c) := by
  refine .sub (by simp [newObject]) fun i f s hf hs => ?_
  simp only [newObject, List.getElem?_map, hf, Option.map_some, Option.some.injEq] at hs
  subst hs
  exact typed_default d f

theorem object_inner {d c : Nat} {s : Deep} (h : TypedAt env cls (d + 1) (.sub c) s) : ObjectAt env cls d c (inner cls c s) := by
  cases h with
  | unset => exact object_new d c
  | sub hl h => exact .sub hl h

theorem objLength {d c : Nat} {o : List Deep} (h : ObjectAt env cls d c o) : o.length = (cls.tab c).length := by
  cases h; assumption

theorem objField {d c : Nat} {o : List Deep} (h : ObjectAt env cls d c o) {i : Nat} {f : DeepField} {s : Deep} (hf : (cls.tab c)[i]? = some f)
    (hs : o[i]? = some s) : TypedAt env cls d f.ty s := by
  cases h with
  | sub _ h => exact h i f s hf hs

/-! ### Comparison -/

/-- All fields of two objects are equal. -/
def FieldsAlike (eq : QtVal → QtVal → Bool) (env : Env) (cls : Classes) (fs : List DeepField) (a b : List Deep) : Prop :=
  ∀ (i : Nat) (f : DeepField) (x y : Deep), fs[i]? = some f → a[i]? = some x → b[i]? = some y → DeepAlike eq env cls f.ty x y

theorem _root_.QtPb.Qt.CopySpec.DeepAlike.symm (hsym : ∀ a b, eq a b = eq b a) {ty : DeepTy} {a b : Deep} (h : DeepAlike eq env cls ty a b) : DeepAlike eq env cls ty b a := by
  induction h with
  | plain h => exact .plain h.symm
  | qt h => exact .qt (by rw [hsym]; exact h)
  | unset => exact .unset
  | sub _ ih => exact .sub fun i f x y hf hx hy => ih i f y x hf hy hx
  | subs hl _ ih => exact .subs hl.symm fun i x y hx hy => ih i y x hy hx

theorem alike_sub {c : Nat} {a b : Deep} (h : a ≠ .unset ∨ b ≠ .unset) :
    DeepAlike eq env cls (.sub c) a b ↔ FieldsAlike eq env cls (cls.tab c) (inner cls c a) (inner cls c b) := by
  refine ⟨fun h' => ?_, fun h' => .sub h'⟩
  cases h' with
  | unset => simp at h
  | sub h' => exact h'

theorem eqDeepFields_dec {rec : Nat → Nat → List Deep → List Deep → Res Bool} {d1 d2 : Nat} : ∀ {fs : List DeepField} {a b : List Deep},
    a.length = fs.length → b.length = fs.length →
    (∀ (i : Nat) (f : DeepField) (x y : Deep), fs[i]? = some f → a[i]? = some x → b[i]? = some y →
      Dec (fun n => eqDeepVal eq env cls (rec n) n f.ty x y) (DeepAlike eq env cls f.ty x y)) →
    Dec (fun n => eqDeepFields eq env cls (rec n) n fs a b) (FieldsAlike eq env cls fs a b)
  | [], _, _, _, _, _ => Dec.pure (by simp [FieldsAlike])
  | f :: fs, [], _, ha, _, _ => by simp at ha
  | f :: fs, _ :: _, [], _, hb, _ => by simp at hb
  | f :: fs, x :: a, y :: b, ha, hb, h => by
    have h2 := eqDeepFields_dec (d1 := d1) (d2 := d2) (fs := fs) (a := a) (b := b) (by simpa using ha) (by simpa using hb)
      fun i f x y hf hx hy => h (i + 1) f x y (by simpa using hf) (by simpa using hx) (by simpa using hy)
    refine ((h 0 f x y rfl rfl rfl).and h2).congr ⟨?_, ?_⟩
    · rintro ⟨h1, h2⟩ i f' x' y' hf hx hy
      cases i with
      | zero => simp at hf hx hy; subst hf hx hy; exact h1
      | succ i => exact h2 i f' x' y' (by simpa using hf) (by simpa using hx) (by simpa using hy)
    · intro h
      exact ⟨h 0 f x y rfl rfl rfl, fun i f' x' y' hf hx hy => h (i + 1) f' x' y' (by simpa using hf) (by simpa using hx) (by simpa using hy)⟩

theorem subsEq_dec {rec : Nat → Nat → List Deep → List Deep → Res Bool} {c : Nat} : ∀ {a b : List Deep}, a.length = b.length →
    (∀ s ∈ a, ∃ o, s = .sub o) → (∀ s ∈ b, ∃ o, s = .sub o) →
    (∀ x y : List Deep, .sub x ∈ a → .sub y ∈ b → Dec (fun n => rec n c x y) (DeepAlike eq env cls (.sub c) (.sub x) (.sub y))) →
    Dec (fun n => subsEq (rec n) c a b) (∀ (i : Nat) (x y : Deep), a[i]? = some x → b[i]? = some y → DeepAlike eq env cls (.sub c) x y)
  | [], [], _, _, _, _ => Dec.pure (by simp)
  | [], _ :: _, hl, _, _, _ => by simp at hl
  | _ :: _, [], hl, _, _, _ => by simp at hl
  | s :: a, t :: b, hl, ha, hb, h => by
    obtain ⟨x, rfl⟩ := ha s List.mem_cons_self
    obtain ⟨y, rfl⟩ := hb t List.mem_cons_self
    have h2 := subsEq_dec (rec := rec) (a := a) (b := b) (by simpa using hl) (fun s hs => ha s (List.mem_cons_of_mem _ hs))
      (fun s hs => hb s (List.mem_cons_of_mem _ hs)) fun x y hx hy => h x y (List.mem_cons_of_mem _ hx) (List.mem_cons_of_mem _ hy)
    refine ((h x y List.mem_cons_self List.mem_cons_self).and h2).congr ⟨?_, ?_⟩
    · rintro ⟨h1, h2⟩ i x' y' hx hy
      cases i with
      | zero => simp at hx hy; subst hx hy; exact h1
      | succ i => exact h2 i x' y' (by simpa using hx) (by simpa using hy)
    · intro h
      exact ⟨h 0 _ _ rfl rfl, fun i x' y' hx hy => h (i + 1) x' y' (by simpa using hx) (by simpa using hy)⟩

/-- The comparison of two objects decides whether they are equal. -/
theorem eqDeep_dec (hsym : ∀ a b, eq a b = eq b a) (D : Nat) : ∀ {d1 d2 c : Nat} {a b : List Deep}, d1 + d2 ≤ D → ObjectAt env cls d1 c a →
    ObjectAt env cls d2 c b → Dec (fun n => eqDeep eq env cls n c a b) (FieldsAlike eq env cls (cls.tab c) a b) := by
  induction D using Nat.strongRecOn with
  | ind D ih =>
    intro d1 d2 c a b hD ha hb
    refine Dec.shift (eqDeepFields_dec (rec := eqDeep eq env cls) (d1 := d1) (d2 := d2) (objLength ha) (objLength hb) fun i f x y hf hx hy => ?_) rfl (fun _ => rfl)
    have hx' := objField ha hf hx
    have hy' := objField hb hf hy
    obtain ⟨num, ty⟩ := f
    cases ty with
    | plain ty =>
      cases hx' with
      | plain h1 =>
        cases hy' with
        | plain h2 => exact ((dec_safe h1 h2).left).congr ⟨fun h => .plain h, fun h => by cases h; assumption⟩
    | qt m =>
      cases hx' with
      | qt p =>
        cases hy' with
        | qt q => exact Dec.pure ⟨fun h => .qt h, fun h => by cases h; assumption⟩
    | sub c' =>
      simp only [eqDeepVal, lazyGet_inner]
      by_cases hu : x = .unset ∧ y = .unset
      · obtain ⟨rfl, rfl⟩ := hu
        exact Dec.pure ⟨fun _ => .unset, fun _ => rfl⟩
      · have hu' : x ≠ .unset ∨ y ≠ .unset := by
          by_cases h : x = .unset
          · exact .inr fun h' => hu ⟨h, h'⟩
          · exact .inl h
        have hu'' : y ≠ .unset ∨ x ≠ .unset := hu'.symm
        have main : ∃ e1 e2, e1 + e2 < D ∧ ObjectAt env cls e1 c' (inner cls c' x) ∧ ObjectAt env cls e2 c' (inner cls c' y) := by
          cases hx' with
          | unset =>
            cases hy' with
            | unset => simp at hu
            | @sub e _ _ h1 h2 => exact ⟨0, e, by omega, object_new 0 c', .sub h1 h2⟩
          | @sub e _ _ h1 h2 =>
            cases hy' with
            | unset => exact ⟨e, 0, by omega, .sub h1 h2, object_new 0 c'⟩
            | @sub e' _ _ h3 h4 => exact ⟨e, e', by omega, .sub h1 h2, .sub h3 h4⟩
        obtain ⟨e1, e2, he, o1, o2⟩ := main
        have hd := (ih (e1 + e2) he (Nat.le_refl _) o1 o2).congr (alike_sub hu').symm
        have hd' := (ih (e1 + e2) he (by omega) o2 o1).congr ((alike_sub hu'').symm.trans ⟨DeepAlike.symm hsym, DeepAlike.symm hsym⟩)
        refine Dec.or_same ?_ hd
        cases hx' with
        | unset =>
          cases hy' with
          | unset => simp at hu
          | sub => exact hd'
        | sub =>
          cases hy' with
          | unset => exact hd
          | sub => exact hd
    | subs c' =>
      cases hx' with
      | @subs _ _ l hn1 h1 =>
        cases hy' with
        | @subs _ _ l' hn2 h2 =>
          have obj : ∀ {d : Nat} {l : List Deep}, (∀ s ∈ l, s ≠ .unset) → (∀ s ∈ l, TypedAt env cls d (.sub c') s) → ∀ s ∈ l, ∃ o, s = .sub o := by
            intro d l hn h s hs
            cases h s hs with
            | unset => exact absurd rfl (hn _ hs)
            | @sub _ _ o => exact ⟨o, rfl⟩
          simp only [eqDeepVal]
          by_cases hl : l.length = l'.length
          · simp only [hl, ne_eq, not_true_eq_false, if_false]
            refine (subsEq_dec (eq := eq) (env := env) (cls := cls) (rec := eqDeep eq env cls) hl (obj hn1 h1) (obj hn2 h2) fun x y hx hy => ?_).congr
              ⟨fun h => .subs hl h, fun h => by cases h; assumption⟩
            have t1 := h1 _ hx
            have t2 := h2 _ hy
            cases t1 with
            | @sub e1 _ _ p1 p2 =>
              cases t2 with
              | @sub e2 _ _ q1 q2 =>
                exact (ih (e1 + e2) (by omega) (Nat.le_refl _) (.sub p1 p2) (.sub q1 q2)).congr (alike_sub (a := .sub x) (b := .sub y) (by simp)).symm
          · simp only [hl, ne_eq, not_false_eq_true, if_true]
            exact Dec.pure ⟨by simp, fun h => absurd (by cases h; assumption) hl⟩

theorem lazyEqDeep_dec (hsym : ∀ a b, eq a b = eq b a) {d1 d2 c : Nat} {x y : Deep} (hx : TypedAt env cls d1 (.sub c) x) (hy : TypedAt env cls d2 (.sub c) y) :
    Dec (fun n => lazyEqDeep cls (eqDeep eq env cls n) c x y) (DeepAlike eq env cls (.sub c) x y) := by
  cases hx with
  | unset =>
    cases hy with
    | unset => exact Dec.pure ⟨fun _ => .unset, fun _ => rfl⟩
    | @sub e _ _ h1 h2 =>
      exact (eqDeep_dec hsym _ (Nat.le_refl _) (.sub h1 h2) (object_new 0 c)).congr
        ((alike_sub (a := .sub _) (b := .unset) (by simp)).symm.trans ⟨DeepAlike.symm hsym, DeepAlike.symm hsym⟩)
  | @sub e _ _ h1 h2 =>
    cases hy with
    | unset => exact (eqDeep_dec hsym _ (Nat.le_refl _) (.sub h1 h2) (object_new 0 c)).congr (alike_sub (a := .sub _) (b := .unset) (by simp)).symm
    | @sub e' _ _ h3 h4 => exact (eqDeep_dec hsym _ (Nat.le_refl _) (.sub h1 h2) (.sub h3 h4)).congr (alike_sub (a := .sub _) (b := .sub _) (by simp)).symm

/-! ### Assignment -/

theorem assignDeepFields_get {rec : Nat → List Deep → List Deep → Res (List Deep)} {n : Nat} : ∀ {fs : List DeepField} {a b r : List Deep},
    a.length = fs.length → b.length = fs.length → assignDeepFields eq env cls rec n fs a b = .ok r →
    r.length = fs.length ∧ ∀ (i : Nat) (f : DeepField) (x y z : Deep), fs[i]? = some f → a[i]? = some x → b[i]? = some y → r[i]? = some z →
      assignDeepVal eq env cls rec n f.ty x y = .ok z
  | [], _, _, _, _, _, h => by
    simp only [assignDeepFields, Res.ok.injEq] at h
    subst h
    simp
  | f :: fs, [], _, _, ha, _, _ => by simp at ha
  | f :: fs, _ :: _, [], _, _, hb, _ => by simp at hb
  | f :: fs, x :: a, y :: b, r, ha, hb, h => by
    simp only [assignDeepFields, Res.bind_eq, Res.bind_eq_ok, Res.ok.injEq] at h
    obtain ⟨z, hz, r', hr, rfl⟩ := h
    obtain ⟨h1, h2⟩ := assignDeepFields_get (by simpa using ha) (by simpa using hb) hr
    refine ⟨by simp [h1], fun i f' x' y' z' hf hx hy hz' => ?_⟩
    cases i with
    | zero => simp at hf hx hy hz'; subst hf hx hy hz'; exact hz
    | succ i => exact h2 i f' x' y' z' (by simpa using hf) (by simpa using hx) (by simpa using hy) (by simpa using hz')

theorem assignDeep_sound (hsym : ∀ a b, eq a b = eq b a) (n : Nat) : ∀ {d1 d2 c : Nat} {cur src r : List Deep}, ObjectAt env cls d1 c cur →
    ObjectAt env cls d2 c src → assignDeep eq env cls n c cur src = .ok r →
    ObjectAt env cls (max d1 d2) c r ∧ DeepCopy eq env cls (.sub c) (.sub src) (.sub r) := by
  induction n with
  | zero => intro d1 d2 c cur src r _ _ h; simp [assignDeep] at h
  | succ n ih =>
    intro d1 d2 c cur src r hc hs h
    obtain ⟨hl, hz⟩ := assignDeepFields_get (objLength hc) (objLength hs) h
    have key : ∀ (i : Nat) (f : DeepField) (y z : Deep), (cls.tab c)[i]? = some f → src[i]? = some y → r[i]? = some z →
        TypedAt env cls (max d1 d2) f.ty z ∧ DeepCopy eq env cls f.ty y z := by
      intro i f y z hf hy hz'
      have hi := (List.getElem?_eq_some_iff.mp hf).1
      have hi1 : i < cur.length := by rw [objLength hc]; exact hi
      have hxe : cur[i]? = some cur[i] := by simp [hi1]
      have hv := hz i f cur[i] y z hf hxe hy hz'
      have tx := objField hc hf hxe
      have ty' := objField hs hf hy
      generalize cur[i] = x at hv tx
      obtain ⟨num, ty⟩ := f
      cases ty with
      | plain ty =>
        cases tx with
        | plain h1 =>
          cases ty' with
          | plain h2 =>
            simp only [assignDeepVal, Res.bind_eq, Res.bind_eq_ok, Res.ok.injEq] at hv
            obtain ⟨v, hv, rfl⟩ := hv
            obtain ⟨h3, h4⟩ := assignVal_sound (fun h1 h2 h3 => assign_sound h1 h2 h3) h1 h2 hv
            exact ⟨.plain h4, .plain h3⟩
      | qt m =>
        cases tx with
        | qt p =>
          cases ty' with
          | qt q =>
            simp only [assignDeepVal, Res.ok.injEq, setQt] at hv
            subst hv
            cases he : eq p q with
            | true => exact ⟨.qt _, .alike (.qt he)⟩
            | false => exact ⟨.qt _, .refl _ _⟩
      | sub c' =>
        simp only [assignDeepVal, Res.bind_eq, Res.bind_eq_ok, lazyGet_inner] at hv
        obtain ⟨same, hsame, hv⟩ := hv
        cases same with
        | true =>
          simp only [if_true, Res.ok.injEq] at hv
          subst hv
          exact ⟨tx.mono (by omega), .alike (((lazyEqDeep_dec hsym tx ty').sound n true hsame).mp rfl)⟩
        | false =>
          simp only [Bool.false_eq_true, if_false, Res.bind_eq_ok, Res.ok.injEq] at hv
          obtain ⟨o, ho, rfl⟩ := hv
          have main : ∃ e1 e2, max e1 e2 + 1 ≤ max d1 d2 ∧ ObjectAt env cls e1 c' (inner cls c' x) ∧ ObjectAt env cls e2 c' (inner cls c' y) := by
            cases tx with
            | unset =>
              cases ty' with
              | unset => simp [lazyEqDeep] at hsame
              | @sub e _ _ h1 h2 => exact ⟨0, e, by omega, object_new 0 c', .sub h1 h2⟩
            | @sub e _ _ h1 h2 =>
              cases ty' with
              | unset => exact ⟨e, 0, by omega, .sub h1 h2, object_new 0 c'⟩
              | @sub e' _ _ h3 h4 => exact ⟨e, e', by omega, .sub h1 h2, .sub h3 h4⟩
          obtain ⟨e1, e2, he, o1, o2⟩ := main
          obtain ⟨h1, h2⟩ := ih o1 o2 ho
          refine ⟨TypedAt.mono h1 he, ?_⟩
          cases h2 with
          | refl =>
            cases y with
            | unset =>
              refine .sub fun i f x y _ hx hy => ?_
              · simp only [inner] at hx hy
                rw [hx] at hy
                cases hy
                exact .refl _ _
            | sub o => exact .refl _ _
            | _ => cases ty'
          | alike h2 =>
            cases h2 with
            | sub h2 => exact .sub fun i f x y hf hx hy => .alike (h2 i f y x hf hy hx)
          | sub h2 => exact .sub h2
      | subs c' =>
        cases tx with
        | subs hn1 h1 =>
          cases ty' with
          | subs hn2 h2 =>
            simp only [assignDeepVal, Res.ok.injEq] at hv
            subst hv
            exact ⟨.subs hn2 fun s hs => (h2 s hs).mono (by omega), .refl _ _⟩
    refine ⟨.sub hl fun i f z hf hz' => ?_, .sub fun i f y z hf hy hz' => (key i f y z hf hy hz').2⟩
    have hi := (List.getElem?_eq_some_iff.mp hf).1
    have hi2 : i < src.length := by rw [objLength hs]; exact hi
    exact (key i f src[i] z hf (by simp [hi2]) hz').1

/-! ### Comparison returns -/

theorem listEq_calm (hm : NoMessageMaps env) (n : Nat) {m : Nat} : ∀ {l l' : List Val}, (∀ v ∈ l, v ≠ .msgNull) → (∀ v ∈ l', v ≠ .msgNull) →
    (∀ v ∈ l, Safe env (.msg m) v) → (∀ v ∈ l', Safe env (.msg m) v) → Calm (listEq (objEq env n) m l l')
  | [], l', _, _, _, _ => by cases l' <;> exact Calm.ok _
  | v :: l, [], _, _, _, _ => by unfold listEq; cases v <;> exact Calm.ok _
  | v :: l, w :: l', hn, hn', hs, hs' => by
    obtain ⟨x, rfl⟩ := safe_msg_elem (hs v (by simp)) (hn v (by simp))
    obtain ⟨y, rfl⟩ := safe_msg_elem (hs' w (by simp)) (hn' w (by simp))
    simp only [listEq]
    refine Calm.bind (eq_calm hm n (hs _ (by simp)) (hs' _ (by simp))) fun r _ => ?_
    cases r with
    | false => exact Calm.ok _
    | true =>
      exact listEq_calm hm n (fun v hv => hn v (List.mem_cons_of_mem _ hv)) (fun v hv => hn' v (List.mem_cons_of_mem _ hv))
        (fun v hv => hs v (List.mem_cons_of_mem _ hv)) (fun v hv => hs' v (List.mem_cons_of_mem _ hv))

theorem eqVal_calm (hm : NoMessageMaps env) (n : Nat) {ty : FieldTy} {x y : Val} (hty : ∀ kk m', ty ≠ .map kk (.msg m')) (hx : Safe env ty x)
    (hy : Safe env ty y) : Calm (eqVal env (objEq env n) ty x y) := by
  have hmsg : ∀ {m : Nat} {x y : Val}, Safe env (.msg m) x → Safe env (.msg m) y → Calm (msgFieldEq env (objEq env n) m x y) := by
    intro m x y hx hy
    refine Calm.bind (lazy_calm hm n hx hy) fun r _ => ?_
    cases r with
    | true => exact Calm.ok _
    | false =>
      simp only [Bool.false_eq_true, if_false, deref_eq]
      exact eq_calm hm n (holds_contents default_holds hx) (holds_contents default_holds hy)
  cases hx with
  | sc => cases hy; exact Calm.ok _
  | scList => cases hy; exact Calm.ok _
  | enum => cases hy; exact Calm.ok _
  | enumList => cases hy; exact Calm.ok _
  | null m => exact hmsg (.null m) hy
  | msg h1 h2 => exact hmsg (.msg h1 h2) hy
  | msgList hn hs =>
    cases hy with
    | msgList hn' hs' =>
      simp only [eqVal]
      split
      · exact Calm.ok _
      · exact listEq_calm hm n hn hn' hs hs'
  | @map kk vt =>
    cases hy with
    | map =>
      cases vt with
      | scalar => exact Calm.ok _
      | enum => exact Calm.ok _
      | msg m' => exact absurd rfl (hty kk m')

theorem lazyEqDeep_calm {rec : Nat → List Deep → List Deep → Res Bool} {d1 d2 c : Nat} {x y : Deep} (hx : TypedAt env cls d1 (.sub c) x)
    (hy : TypedAt env cls d2 (.sub c) y)
    (h : ∀ {e1 e2 : Nat} {a b : List Deep}, ObjectAt env cls e1 c a → ObjectAt env cls e2 c b → Calm (rec c a b)) : Calm (lazyEqDeep cls rec c x y) := by
  cases hx with
  | unset =>
    cases hy with
    | unset => exact Calm.ok _
    | sub h1 h2 => exact h (.sub h1 h2) (object_new 0 c)
  | sub h1 h2 =>
    cases hy with
    | unset => exact h (.sub h1 h2) (object_new 0 c)
    | sub h3 h4 => exact h (.sub h1 h2) (.sub h3 h4)

theorem subsEq_calm {rec : Nat → List Deep → List Deep → Res Bool} {d1 d2 c : Nat}
    (h : ∀ {e1 e2 : Nat} {a b : List Deep}, ObjectAt env cls e1 c a → ObjectAt env cls e2 c b → Calm (rec c a b)) : ∀ {l l' : List Deep},
    (∀ s ∈ l, s ≠ .unset) → (∀ s ∈ l, TypedAt env cls d1 (.sub c) s) → (∀ s ∈ l', s ≠ .unset) → (∀ s ∈ l', TypedAt env cls d2 (.sub c) s) →
    Calm (subsEq rec c l l')
  | [], l', _, _, _, _ => by cases l' <;> exact Calm.ok _
  | s :: l, [], _, _, _, _ => by unfold subsEq; cases s <;> exact Calm.ok _
  | s :: l, t :: l', hn, hs, hn', hs' => by
    have ih := subsEq_calm (d1 := d1) (d2 := d2) h (fun s h => hn s (List.mem_cons_of_mem _ h)) (fun s h => hs s (List.mem_cons_of_mem _ h))
      (fun s h => hn' s (List.mem_cons_of_mem _ h)) (fun s h => hs' s (List.mem_cons_of_mem _ h))
    have t1 := hs s List.mem_cons_self
    have t2 := hs' t List.mem_cons_self
    cases t1 with
    | unset => exact absurd rfl (hn _ List.mem_cons_self)
    | sub p1 p2 =>
      cases t2 with
      | unset => exact absurd rfl (hn' _ List.mem_cons_self)
      | sub q1 q2 =>
        simp only [subsEq]
        refine Calm.bind (h (.sub p1 p2) (.sub q1 q2)) fun r _ => ?_
        cases r with
        | false => exact Calm.ok _
        | true => exact ih

theorem eqDeep_calm (hm : NoMaps env cls) (n : Nat) : ∀ {d1 d2 c : Nat} {a b : List Deep}, ObjectAt env cls d1 c a → ObjectAt env cls d2 c b →
    Calm (eqDeep eq env cls n c a b) := by
  induction n with
  | zero => intro d1 d2 c a b _ _; exact Or.inr rfl
  | succ n ih =>
    intro d1 d2 c a b ha hb
    have hfs : ∀ (fs : List DeepField) (a b : List Deep), (∀ f ∈ fs, ∀ kk m, f.ty ≠ .plain (.map kk (.msg m))) →
        (∀ (i : Nat) (f : DeepField) (s : Deep), fs[i]? = some f → a[i]? = some s → TypedAt env cls d1 f.ty s) →
        (∀ (i : Nat) (f : DeepField) (s : Deep), fs[i]? = some f → b[i]? = some s → TypedAt env cls d2 f.ty s) →
        Calm (eqDeepFields eq env cls (eqDeep eq env cls n) n fs a b) := by
      intro fs
      induction fs with
      | nil => intro a b _ _ _; exact Calm.ok _
      | cons f fs ihf =>
        intro a b hty ha hb
        cases a with
        | nil => exact Calm.ok _
        | cons x a =>
          cases b with
          | nil => exact Calm.ok _
          | cons y b =>
            have hx := ha 0 f x rfl rfl
            have hy := hb 0 f y rfl rfl
            have ht := hty f (by simp)
            refine Calm.bind (r := eqDeepVal eq env cls (eqDeep eq env cls n) n f.ty x y) ?_ fun r _ => ?_
            · clear ihf ha hb hty
              obtain ⟨num, ty⟩ := f
              cases ty with
              | plain ty =>
                cases hx with
                | plain h1 =>
                  cases hy with
                  | plain h2 => exact eqVal_calm hm.1 n (fun kk m h => ht kk m (by rw [h])) h1 h2
              | qt m =>
                cases hx with
                | qt =>
                  cases hy with
                  | qt => exact Calm.ok _
              | sub c' =>
                simp only [eqDeepVal, lazyGet_inner]
                refine Calm.bind (lazyEqDeep_calm hx hy fun h1 h2 => ih h1 h2) fun r _ => ?_
                cases r with
                | true => exact Calm.ok _
                | false =>
                  exact ih (object_inner (hx.mono (Nat.le_succ _))) (object_inner (hy.mono (Nat.le_succ _)))
              | subs c' =>
                cases hx with
                | subs h1 h2 =>
                  cases hy with
                  | subs h3 h4 =>
                    simp only [eqDeepVal]
                    split
                    · exact Calm.ok _
                    · exact subsEq_calm (fun h1 h2 => ih h1 h2) h1 h2 h3 h4
            · cases r with
              | false => exact Calm.ok _
              | true =>
                exact ihf a b (fun f hf => hty f (List.mem_cons_of_mem _ hf))
                  (fun i f v hf hv => ha (i + 1) f v (by simpa using hf) (by simpa using hv))
                  (fun i f v hf hv => hb (i + 1) f v (by simpa using hf) (by simpa using hv))
    exact hfs _ a b (hm.2 c) (fun i f s => objField ha) (fun i f s => objField hb)

theorem lazyEqDeep_returns (hsym : ∀ a b, eq a b = eq b a) (hm : NoMaps env cls) {d1 d2 c : Nat} {x y : Deep} (hx : TypedAt env cls d1 (.sub c) x)
    (hy : TypedAt env cls d2 (.sub c) y) : Returns fun n => lazyEqDeep cls (eqDeep eq env cls n) c x y := by
  obtain ⟨N, hN⟩ := (lazyEqDeep_dec hsym hx hy).halts
  refine ⟨N, fun n hn => ?_⟩
  rcases lazyEqDeep_calm hx hy (fun h1 h2 => eqDeep_calm (eq := eq) hm n h1 h2) with h | h
  · exact h
  · exact absurd h (hN n hn)

/-! ### Assignment returns -/

theorem assignDeepFields_returns : ∀ {fs : List DeepField} {a b : List Deep},
    (∀ (i : Nat) (f : DeepField) (x y : Deep), fs[i]? = some f → a[i]? = some x → b[i]? = some y →
      Returns fun n => assignDeepVal eq env cls (assignDeep eq env cls n) n f.ty x y) →
    Returns fun n => assignDeepFields eq env cls (assignDeep eq env cls n) n fs a b
  | [], _, _, _ => Returns.pure _
  | _ :: _, [], _, _ => Returns.pure _
  | _ :: _, _ :: _, [], _ => Returns.pure _
  | f :: fs, x :: a, y :: b, h => by
    obtain ⟨N, hN⟩ := h 0 f x y rfl rfl rfl
    obtain ⟨M, hM⟩ := assignDeepFields_returns (fs := fs) (a := a) (b := b) fun i f x y hf hx hy =>
      h (i + 1) f x y (by simpa using hf) (by simpa using hx) (by simpa using hy)
    refine ⟨max N M, fun n hn => ?_⟩
    obtain ⟨v, hv⟩ := hN n (by omega)
    obtain ⟨r, hr⟩ := hM n (by omega)
    exact ⟨v :: r, by simp [assignDeepFields, hv, hr, Res.bind]⟩

theorem assignDeep_returns (hsym : ∀ a b, eq a b = eq b a) (hm : NoMaps env cls) (D : Nat) : ∀ {d1 d2 c : Nat} {cur src : List Deep}, d1 + d2 ≤ D →
    ObjectAt env cls d1 c cur → ObjectAt env cls d2 c src → Returns fun n => assignDeep eq env cls n c cur src := by
  induction D using Nat.strongRecOn with
  | ind D ih =>
    intro d1 d2 c cur src hD hc hs
    refine Returns.shift (P := fun n => assignDeepFields eq env cls (assignDeep eq env cls n) n (cls.tab c) cur src)
      (assignDeepFields_returns fun i f x y hf hx hy => ?_) (fun _ => rfl)
    have tx := objField hc hf hx
    have ty' := objField hs hf hy
    obtain ⟨num, ty⟩ := f
    cases ty with
    | plain ty =>
      cases tx with
      | plain h1 =>
        cases ty' with
        | plain h2 =>
          obtain ⟨N, hN⟩ := assignVal_any hm.1 h1 h2
          refine ⟨N, fun n hn => ?_⟩
          obtain ⟨v, hv⟩ := hN n hn
          exact ⟨.val v, by simp only [assignDeepVal, hv, Res.bind_eq, Res.bind]⟩
    | qt m =>
      cases tx with
      | qt =>
        cases ty' with
        | qt => exact Returns.pure _
    | subs c' =>
      cases tx with
      | subs =>
        cases ty' with
        | subs => exact Returns.pure _
    | sub c' =>
      simp only [assignDeepVal, lazyGet_inner]
      by_cases hu : x = .unset ∧ y = .unset
      · obtain ⟨rfl, rfl⟩ := hu
        exact Returns.pure _
      · have main : ∃ e1 e2, e1 + e2 < D ∧ ObjectAt env cls e1 c' (inner cls c' x) ∧ ObjectAt env cls e2 c' (inner cls c' y) := by
          cases tx with
          | unset =>
            cases ty' with
            | unset => simp at hu
            | @sub e _ _ h1 h2 => exact ⟨0, e, by omega, object_new 0 c', .sub h1 h2⟩
          | @sub e _ _ h1 h2 =>
            cases ty' with
            | unset => exact ⟨e, 0, by omega, .sub h1 h2, object_new 0 c'⟩
            | @sub e' _ _ h3 h4 => exact ⟨e, e', by omega, .sub h1 h2, .sub h3 h4⟩
        obtain ⟨e1, e2, he, o1, o2⟩ := main
        obtain ⟨N, hN⟩ := lazyEqDeep_returns hsym hm tx ty'
        obtain ⟨M, hM⟩ := ih (e1 + e2) he (Nat.le_refl _) o1 o2
        refine ⟨max N M, fun n hn => ?_⟩
        obtain ⟨q, hq⟩ := hN n (by omega)
        obtain ⟨r, hr⟩ := hM n (by omega)
        cases q with
        | true => exact ⟨x, by simp only [hq, Res.bind_eq, Res.bind, if_true]⟩
        | false => exact ⟨.sub r, by simp only [hq, hr, Res.bind_eq, Res.bind, Bool.false_eq_true, if_false]⟩

/-! ### The copy constructor -/

theorem start_typed (d c : Nat) {garbage : List Deep} (hg : garbage.length = (cls.tab c).length) :
    ObjectAt env cls d c ((cls.tab c).zipWith startDeep garbage) := by
  refine .sub (by simp [hg]) fun i f s hf hs => ?_
  rw [List.getElem?_zipWith, hf] at hs
  obtain ⟨g, hg'⟩ : ∃ g, garbage[i]? = some g := by
    have := (List.getElem?_eq_some_iff.mp hf).1
    exact ⟨_, List.getElem?_eq_getElem (by omega)⟩
  rw [hg'] at hs
  simp only [Option.some.injEq] at hs
  subst hs
  obtain ⟨num, ty⟩ := f
  cases ty with
  | plain ty =>
    cases g with
    | val g =>
      cases h : copyStart [⟨num, ty⟩] [g] with
      | nil => simp [copyStart] at h
      | cons v l =>
        have : startDeep ⟨num, .plain ty⟩ (.val g) = .val v := by simp [startDeep, h]
        rw [this]
        exact .plain (copyStart_safe [⟨num, ty⟩] [g] (i := 0) (f := ⟨num, ty⟩) rfl (by rw [h]; rfl))
    | _ => exact typed_default d _
  | _ => exact typed_default d _

theorem _root_.QtPb.Qt.CopySpec.DeepPlain.alike (hr : ∀ q, eq q q = true) {ty : DeepTy} {s : Deep} (h : DeepPlain env cls ty s) :
    DeepAlike eq env cls ty s s := by
  induction h with
  | plain h => exact .plain (Mirrors.toSame (.refl _ _) h)
  | qt q => exact .qt (hr q)
  | unset => exact .unset
  | sub hl _ ih =>
    refine .sub fun i f x y hf hx hy => ?_
    simp only [inner] at hx hy
    rw [hx] at hy
    cases hy
    exact ih i f x hf hx
  | subs _ ih =>
    refine .subs rfl fun i x y hx hy => ?_
    rw [hx] at hy
    cases hy
    exact ih x (List.mem_of_getElem? hx)

theorem plain_default (f : DeepField) : DeepPlain env cls f.ty f.default := by
  unfold DeepField.default
  cases f.ty with
  | plain ty => exact .plain (Holds.default (fun k => ⟨default_holds k, default_notNaN k⟩) ty)
  | qt m => exact .qt _
  | sub c => exact .unset
  | subs c => exact .subs (by simp)

/-- A copy of a value without NaN is equal to it, if Qt takes values for equal to themselves. -/
theorem _root_.QtPb.Qt.CopySpec.DeepCopy.toAlike (hr : ∀ q, eq q q = true) {ty : DeepTy} {src new : Deep} (h : DeepCopy eq env cls ty src new)
    (hp : DeepPlain env cls ty src) : DeepAlike eq env cls ty new src := by
  induction h with
  | refl => exact hp.alike hr
  | plain h => cases hp with
    | plain hp => exact .plain (h.toSame hp)
  | alike h => exact h
  | sub _ ih =>
    refine .sub fun i f x y hf hx hy => ih i f y x hf hy hx ?_
    cases hp with
    | unset =>
      simp only [inner, newObject, List.getElem?_map, hf, Option.map_some, Option.some.injEq] at hy
      subst hy
      exact plain_default f
    | sub _ hp => exact hp i f y hf hy

/-! ### The claims -/

/-- C123, comparison: `==` answers whether all fields are equal at every depth, Qt's values in the sense of Qt; it confirms equality whenever it holds. -/
theorem C123_equal (hsym : ∀ a b, eq a b = eq b a) {d1 d2 c : Nat} {a b : List Deep} (ha : ObjectAt env cls d1 c a) (hb : ObjectAt env cls d2 c b) :
    (∀ n r, eqDeep eq env cls n c a b = .ok r → (r = true ↔ DeepAlike eq env cls (.sub c) (.sub a) (.sub b))) ∧
    (DeepAlike eq env cls (.sub c) (.sub a) (.sub b) → ∃ N, ∀ n, N ≤ n → eqDeep eq env cls n c a b = .ok true) := by
  have h := (eqDeep_dec hsym _ (Nat.le_refl _) ha hb).congr (alike_sub (a := .sub a) (b := .sub b) (by simp)).symm
  exact ⟨h.sound, h.complete⟩

/-- It gives an answer.
Missing: maps with message values, for which `==` may read a null pointer (C24). -/
theorem C123_equal_returns_partial (hsym : ∀ a b, eq a b = eq b a) (hm : NoMaps env cls) {d1 d2 c : Nat} {a b : List Deep} (ha : ObjectAt env cls d1 c a)
    (hb : ObjectAt env cls d2 c b) : ∃ N, ∀ n, N ≤ n → ∃ r, eqDeep eq env cls n c a b = .ok r := by
  obtain ⟨N, hN⟩ := (eqDeep_dec (eq := eq) hsym _ (Nat.le_refl _) ha hb).halts
  refine ⟨N, fun n hn => ?_⟩
  rcases eqDeep_calm (eq := eq) hm n ha hb with h | h
  · exact h
  · exact absurd h (hN n hn)

/-- C123, assignment: whenever `a = b` returns, `a` is an object of the same class and a copy of `b` at every depth. -/
theorem C123_assign (hsym : ∀ a b, eq a b = eq b a) {n d1 d2 c : Nat} {cur src r : List Deep} (hc : ObjectAt env cls d1 c cur)
    (hs : ObjectAt env cls d2 c src) (h : assignDeep eq env cls n c cur src = .ok r) :
    ObjectAt env cls (max d1 d2) c r ∧ DeepCopy eq env cls (.sub c) (.sub src) (.sub r) := assignDeep_sound hsym n hc hs h

/-- It returns.
Missing: maps with message values. -/
theorem C123_assign_returns_partial (hsym : ∀ a b, eq a b = eq b a) (hm : NoMaps env cls) {d1 d2 c : Nat} {cur src : List Deep}
    (hc : ObjectAt env cls d1 c cur) (hs : ObjectAt env cls d2 c src) : ∃ N, ∀ n, N ≤ n → ∃ r, assignDeep eq env cls n c cur src = .ok r :=
  assignDeep_returns hsym hm _ (Nat.le_refl _) hc hs

/-- After `a = b`, `a == b` holds, if there is no NaN and Qt takes values for equal to themselves. -/
theorem C123_assign_equal (hsym : ∀ a b, eq a b = eq b a) (hr : ∀ q, eq q q = true) {n d1 d2 c : Nat} {cur src r : List Deep}
    (hc : ObjectAt env cls d1 c cur) (hs : ObjectAt env cls d2 c src) (hp : DeepPlain env cls (.sub c) (.sub src))
    (h : assignDeep eq env cls n c cur src = .ok r) : ∃ N, ∀ n, N ≤ n → eqDeep eq env cls n c r src = .ok true := by
  obtain ⟨h1, h2⟩ := C123_assign hsym hc hs h
  exact (C123_equal hsym h1 hs).2 (h2.toAlike hr hp)

/-- C123, copy construction: whatever the memory contained, it returns a copy, equal to the original if that has no NaN.
Missing: maps with message values. -/
theorem C123_copy_partial (hsym : ∀ a b, eq a b = eq b a) (hm : NoMaps env cls) {d c : Nat} {src garbage : List Deep} (hs : ObjectAt env cls d c src)
    (hg : garbage.length = (cls.tab c).length) : ∃ N, ∀ n, N ≤ n → ∃ r, copyDeep eq env cls n c garbage src = .ok r ∧ ObjectAt env cls d c r ∧
      DeepCopy eq env cls (.sub c) (.sub src) (.sub r) ∧
      ((∀ q, eq q q = true) → DeepPlain env cls (.sub c) (.sub src) → ∃ M, ∀ m, M ≤ m → eqDeep eq env cls m c r src = .ok true) := by
  have hst := start_typed (env := env) 0 c hg
  obtain ⟨N, hN⟩ := C123_assign_returns_partial (eq := eq) hsym hm hst hs
  refine ⟨N, fun n hn => ?_⟩
  obtain ⟨r, hr⟩ := hN n hn
  obtain ⟨h1, h2⟩ := C123_assign hsym hst hs hr
  exact ⟨r, hr, TypedAt.mono h1 (by omega), h2, fun hq hp => C123_assign_equal hsym hq hst hs hp hr⟩

/-- C123, `deserialize` into an object: the target becomes a copy of whatever the decoding of the bytes gives, also after an exception.
Missing: maps with message values. -/
theorem C123_target_partial (hsym : ∀ a b, eq a b = eq b a) (hm : NoMaps env cls) {n d1 d2 c : Nat} {data : Bytes} {st : Res Unit} {o old : List Deep}
    (h : deserializeDeep eq env envQ cls n c data = (st, o)) (ho : ObjectAt env cls d1 c o) (hold : ObjectAt env cls d2 c old) :
    ∃ K, ∀ k, K ≤ k → ∃ r, deserializeDeepTo eq env envQ cls n k c data old = (st, .ok r) ∧ ObjectAt env cls (max d2 d1) c r ∧
      DeepCopy eq env cls (.sub c) (.sub o) (.sub r) := by
  obtain ⟨K, hK⟩ := C123_assign_returns_partial (eq := eq) hsym hm hold ho
  refine ⟨K, fun k hk => ?_⟩
  obtain ⟨r, hr⟩ := hK k hk
  obtain ⟨h1, h2⟩ := C123_assign hsym hold ho hr
  exact ⟨r, by simp [deserializeDeepTo, h, hr], h1, h2⟩

/-! ### Round trip into a used object -/

theorem bounded {P : Nat → Nat → Prop} (hm : ∀ i d d', P i d → d ≤ d' → P i d') : ∀ n, (∀ i, i < n → ∃ d, P i d) → ∃ d, ∀ i, i < n → P i d
  | 0, _ => ⟨0, fun i hi => by omega⟩
  | n + 1, h => by
    obtain ⟨d, hd⟩ := bounded hm n fun i hi => h i (by omega)
    obtain ⟨e, he⟩ := h n (by omega)
    refine ⟨max d e, fun i hi => ?_⟩
    by_cases hin : i = n
    · subst hin; exact hm _ _ _ he (by omega)
    · exact hm _ _ _ (hd i (by omega)) (by omega)

/-- What is received is an object of its class. -/
theorem received_typed (hE : env.fromUtf8 (env.toUtf8 []) = []) {ty : DeepTy} {s s' : Deep} (h : NestedSpec.Received eq env cls ty s s')
    (hc : DeepClean env cls ty s) : ∃ d, TypedAt env cls d ty s' := by
  induction h with
  | plain h => cases hc with
    | plain hc => exact ⟨0, .plain (arrives_same hE h hc).2⟩
  | qt => exact ⟨0, .qt _⟩
  | asNew => exact ⟨0, .qt _⟩
  | unset _ ih => cases hc with
    | unset hc => exact ih hc
  | @sub c o o' hl _ ih =>
    cases hc with
    | sub hlo hc =>
      obtain ⟨d, hd⟩ := bounded (P := fun i d => ∀ f s', (cls.tab c)[i]? = some f → o'[i]? = some s' → TypedAt env cls d f.ty s')
        (fun i d d' h hdd f s' hf hs => (h f s' hf hs).mono hdd) (cls.tab c).length fun i hi => by
          obtain ⟨d, hd⟩ := ih i (cls.tab c)[i] (o[i]'(by omega)) (o'[i]'(by omega)) (by simp) (by simp) (by simp) (hc i _ _ (by simp) (by simp))
          refine ⟨d, fun f s' hf hs => ?_⟩
          have h1 : (cls.tab c)[i] = f := by simpa [hi] using hf
          have h2 : o'[i]'(by omega) = s' := (List.getElem?_eq_some_iff.mp hs).2
          rw [← h1, ← h2]
          exact hd
      exact ⟨d + 1, .sub hl fun i f s hf hs => hd i (List.getElem?_eq_some_iff.mp hf).1 f s hf hs⟩
  | @subs c l os hl _ ih =>
    cases hc with
    | subs hc =>
      have obj : ∀ {l : List Deep} {o : List Deep}, o ∈ NestedSpec.objects l → Deep.sub o ∈ l := by
        intro l
        induction l with
        | nil => intro o h; simp [NestedSpec.objects] at h
        | cons x l ihl =>
          intro o h
          cases x with
          | sub p =>
            rcases List.mem_cons.mp h with rfl | h
            · exact List.mem_cons_self
            · exact List.mem_cons_of_mem _ (ihl h)
          | _ => exact List.mem_cons_of_mem _ (ihl h)
      obtain ⟨d, hd⟩ := bounded (P := fun i d => ∀ o', os[i]? = some o' → TypedAt env cls d (.sub c) (.sub o'))
        (fun i d d' h hdd o' ho => (h o' ho).mono hdd) os.length fun i hi => by
          obtain ⟨d, hd⟩ := ih i ((NestedSpec.objects l)[i]'(by omega)) os[i] (by simp) (by simp) (hc _ (obj (List.getElem_mem _)))
          refine ⟨d, fun o' ho => ?_⟩
          have h1 : os[i] = o' := (List.getElem?_eq_some_iff.mp ho).2
          rw [← h1]
          exact hd
      refine ⟨d, .subs (by simp) fun s hs => ?_⟩
      obtain ⟨o', ho, rfl⟩ := List.mem_map.mp hs
      obtain ⟨i, hi, he⟩ := List.getElem_of_mem ho
      exact hd i hi o' (by simp [hi, he])

/-- C123, `deserialize(serialize())` into an object that has been used before: no exception, and the target is a copy of an object that has at every depth
what was sent, as in C122.
Missing: maps with message values, and as for C122. -/
theorem C123_roundtrip_partial (hsym : ∀ a b, eq a b = eq b a) (w : World env envQ) (hV : NestedSpec.Valid cls) (hm : NoMaps env cls)
    (hE : env.fromUtf8 (env.toUtf8 []) = []) {n d c : Nat} {obj old : List Deep} {bs : Bytes} (hobj : NestedSpec.Sendable env cls (.sub c) (.sub obj))
    (hc : DeepClean env cls (.sub c) (.sub obj)) (hold : ObjectAt env cls d c old) (hs : serializeDeep env envQ cls n c obj = .ok bs)
    (hlen : bs.length < 2 ^ 31) {j : Nat} (hj : bs.length < j) :
    ∃ K, ∀ k, K ≤ k → ∃ o r, deserializeDeepTo eq env envQ cls j k c bs old = (.ok (), .ok r) ∧
      NestedSpec.Received eq env cls (.sub c) (.sub obj) (.sub o) ∧ DeepCopy eq env cls (.sub c) (.sub o) (.sub r) := by
  obtain ⟨o, h1, h2⟩ := C122_roundtrip_partial (eq := eq) w hV hobj hs hlen hj
  obtain ⟨e, he⟩ := received_typed hE h2 hc
  have ho : ObjectAt env cls e c o := TypedAt.mono he (by omega)
  obtain ⟨K, hK⟩ := C123_target_partial hsym hm h1 ho hold
  refine ⟨K, fun k hk => ?_⟩
  obtain ⟨r, e1, _, e3⟩ := hK k hk
  exact ⟨o, r, e1, h2, e3⟩

end

/-! ### Cases -/

open Classical in
/-- Qt's opinion for the cases: bitwise. -/
noncomputable def bitEq (a b : QtVal) : Bool := decide (a = b)

theorem leg_object {env : Env} (d : Nat) (w x : BitVec 32) : ObjectAt env route d 0 (leg w x) := by
  refine .sub rfl fun i f s hf hs => ?_
  match i with
  | 0 => cases hf; cases hs; exact .qt _
  | 1 => cases hf; cases hs; exact .qt _
  | _ + 2 => simp [route] at hf

/-- A route with an unset first leg and two legs in a list. -/
def routeValue : List Deep := [.val (.sc (.w32 7)), .unset, .subs [.sub (leg 3 1), .sub (leg 5 2)], .qt (.rect ⟨1, 2, 3, 4⟩)]

theorem route_object {env : Env} : ObjectAt env route 1 1 routeValue := by
  refine .sub rfl fun i f s hf hs => ?_
  match i with
  | 0 => cases hf; cases hs; exact .plain (.sc rfl)
  | 1 => cases hf; cases hs; exact .unset
  | 2 =>
    cases hf; cases hs
    refine .subs (by simp) fun s hs => ?_
    simp only [List.mem_cons, List.not_mem_nil, or_false] at hs
    rcases hs with rfl | rfl
    · exact leg_object 0 3 1
    · exact leg_object 0 5 2
  | 3 => cases hf; cases hs; exact .qt _
  | _ + 4 => simp [route] at hf

/-- The other hypotheses. -/
example : (∀ a b, bitEq a b = bitEq b a) ∧ (∀ q, bitEq q q = true) ∧
    NoMaps { demoEnv with sch := fun m => if m = 1 then demoSch 1 else [] } route ∧ DeepClean demoEnv route (.sub 0) (.sub (leg 3 1)) ∧
    DeepPlain demoEnv route (.sub 0) (.sub (leg 3 1)) := by
  refine ⟨fun a b => by simp [bitEq, eq_comm], fun q => by simp [bitEq], ⟨fun m => ?_, fun c => ?_⟩, .sub rfl fun i f s hf hs => ?_,
    .sub rfl fun i f s hf hs => ?_⟩
  · by_cases h : m = 1
    · subst h; simp [demoSch]
    · simp [h]
  · by_cases h0 : c = 0
    · subst h0; simp [route]
    · by_cases h1 : c = 1
      · subst h1; simp [route]
      · simp [route, h0, h1]
  · match i with
    | 0 => cases hf; cases hs; exact .qt _
    | 1 => cases hf; cases hs; exact .qt _
    | _ + 2 => simp [route] at hf
  · match i with
    | 0 => cases hf; cases hs; exact .qt _
    | 1 => cases hf; cases hs; exact .qt _
    | _ + 2 => simp [route] at hf

/-- An assignment over a route with a first leg: the target keeps an object there, with the values of a new one. -/
example : assignDeep (fun _ _ => false) demoEnv route 3 1 [.val (.sc (.w32 0)), .sub (leg 9 9), .subs [], .qt (.rect ⟨0, 0, 0, 0⟩)] routeValue =
    .ok [.val (.sc (.w32 7)), .sub [.qt (.size ⟨-1, -1⟩), .qt (.point ⟨0, 0⟩)], .subs [.sub (leg 3 1), .sub (leg 5 2)], .qt (.rect ⟨1, 2, 3, 4⟩)] := by
  with_unfolding_all rfl

/-! ### Where it fails -/

/-- The classes `message In { QtProtobuf.QPointF p = 1; }` and `message Out { In i = 1; }`. -/
def pointIn : Classes where
  tab c := if c = 0 then [⟨1, .qt 8⟩] else if c = 1 then [⟨1, .sub 0⟩] else []
  ord _ := [0]

/-- A copy of a message whose inner message has a point that Qt takes for equal to (0, 0), such as (1e-13, 0), has no inner message: the member is unset in
the copy, although it is set in the original. -/
theorem C123_copy_violated (eq : QtVal → QtVal → Bool) (h : eq (.pointF ⟨0x3d3c25c268497682#64, 0#64⟩) (.pointF ⟨0#64, 0#64⟩) = true) (garbage : Deep) :
    copyDeep eq demoEnv pointIn 3 1 [garbage] [.sub [.qt (.pointF ⟨0x3d3c25c268497682#64, 0#64⟩)]] = .ok [.unset] := by
  have hq : qtDefault 8 = .pointF ⟨0#64, 0#64⟩ := by with_unfolding_all rfl
  have hn : newObject pointIn 0 = [.qt (.pointF ⟨0#64, 0#64⟩)] := by simp [newObject, pointIn, DeepField.default, hq]
  have hst : startDeep ⟨1, .sub 0⟩ garbage = .unset := by cases garbage <;> rfl
  simp [copyDeep, assignDeep, assignDeepFields, assignDeepVal, lazyEqDeep, eqDeep, eqDeepFields, eqDeepVal, hst, hn, h, Res.bind,
    show pointIn.tab 1 = [⟨1, .sub 0⟩] from rfl, show pointIn.tab 0 = [⟨1, .qt 8⟩] from rfl]

end QtPb.Qt
