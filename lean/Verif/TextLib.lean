import Verif.TextObjs
/-
Programs made of generated classes, run, and the models of objects agree. (Helpers for the theorems about generated sources.)
-/
set_option maxRecDepth 100000
namespace QtPb.TextProof
open QtPb.Gen QtPb.Gen.Text QtPb.Gen.Text.Spec QtPb.SpecCpp
open QtPb.Spec (HasTy WellTyped)

/-- Values of fields. -/
def Typed (env : Env) (fs : List QtPb.Field) (o : Obj) : Prop :=
  o.length = fs.length ∧ ∀ (i : Nat) (f : QtPb.Field) (v : Val), fs[i]? = some f → o[i]? = some v → HasTy env f.ty v

section
variable {env : Env}

theorem typed_of {m : Nat} {o : Obj} (h : WellTyped env m o) : Typed env (env.sch m) o := by
  cases h with
  | msg h1 h2 => exact ⟨h1, h2⟩

theorem Typed.tail {f : QtPb.Field} {fs : List QtPb.Field} {v : Val} {o : Obj} (h : Typed env (f :: fs) (v :: o)) :
    HasTy env f.ty v ∧ Typed env fs o :=
  ⟨h.2 0 f v rfl rfl, by simpa using h.1, fun i g w hg hw => h.2 (i + 1) g w (by simpa using hg) (by simpa using hw)⟩

theorem deref_typed {m : Nat} {v : Val} (h : HasTy env (.msg m) v) : WellTyped env m (deref env m v) := by
  cases h with
  | null => exact default_hasTy env m
  | msg h1 h2 => exact HasTy.msg h1 h2

/-! ### Comparison -/

section
variable {c : Ctx} {m : Cur} {fs : List QtPb.Field} {p : ClassText}
variable {rec : Nat → Obj → Obj → Res Bool} {q : Containers} {asg : Nat → Obj → Obj → Res Obj} {mv : Nat → Obj → Obj → Res (Obj × Obj)}

theorem IsClass.typed (h : IsClass c m fs p) {a : Obj} (ha : Typed env fs a) {x : FieldD × QtPb.Field} (hx : x ∈ m.fields.zip fs) :
    HasTy env x.2.ty (membersWith p.names a (mem' x.1.prop)) := by
  obtain ⟨i, hi⟩ := List.mem_iff_getElem?.1 hx
  have h1 : fs[i]? = some x.2 := by
    have := h.snd; rw [← this, List.getElem?_map, hi]; rfl
  refine ha.2 i x.2 _ h1 ?_
  have := h.values ha.1
  conv => lhs; rw [← this]
  rw [List.getElem?_map, hi]; rfl

theorem body_equal (h : IsClass c m fs p) (call : Text → Rt → Objects → Res (Rt × Objects)) {a b : Obj} (ha : Typed env fs a) (hb : Typed env fs b) :
    runBody (libFrom env q rec asg mv) p.cls call (paramName m) (equalBody c m) (.object .other) (p.objects a b) =
      (eqFields env rec fs a b).bind fun r => .ok (.bool r, p.objects a b) := by
  unfold runBody
  rw [(reads_equal c m).stmts]
  simp only [Res.bind_eq]
  have hv1 := h.values ha.1
  have hv2 := h.values hb.1
  have hs := h.snd
  cases hm : m.fields with
  | nil =>
    have hfs : fs = [] := by have := h.len; rw [hm] at this; simpa using this.symm
    subst hfs
    have e1 : a = [] := by simpa using ha.1
    have e2 : b = [] := by simpa using hb.1
    subst e1; subst e2
    have hp : paramName m = [] := by unfold paramName; rw [hm]; rfl
    rw [hp]
    rfl
  | cons f ms =>
    have hp : paramName m = text! "other" := by unfold paramName; rw [hm]; rfl
    have hf := h.fst
    cases hz : m.fields.zip fs with
    | nil => rw [hz, hm] at hf; simp at hf
    | cons x l =>
      have := eval_all (cls := p.cls) (call := call) (env := env) (rec := rec) (q := q) (asg := asg) (mv := mv) (c := c) (p.objects a b) x l
        (fun y hy => by
          have hy' : y ∈ m.fields.zip fs := by rw [hz]; exact hy
          have k := h.field hy'
          exact ⟨k.has, k.noQt, k.fit, h.typed ha hy', h.typed hb hy'⟩)
      rw [hz] at hf hs hv1 hv2
      rw [hm, List.map_cons] at hf
      injection hf with e1 e2
      rw [← e1, ← e2, hp]
      have hv1' : ((x :: l).map fun x => (p.objects a b).this (mem' x.1.prop)) = a := hv1
      have hv2' : ((x :: l).map fun x => (p.objects a b).other (mem' x.1.prop)) = b := hv2
      rw [hv1', hv2', hs] at this
      simp only [execAll, execOne, this, Res.bind_eq]
      cases eqFields env rec fs a b <;> rfl

theorem run_equal (h : IsClass c m fs p) {a b : Obj} (ha : Typed env fs a) (hb : Typed env fs b) :
    p.callBool (libFrom env q rec asg mv) (text! "operator==") a b = eqFields env rec fs a b := by
  unfold ClassText.callBool
  rw [callFn, show p.cls.functions = p.functions from rfl, h.equal]
  simp only [body_equal h _ ha hb]
  cases eqFields env rec fs a b <;> rfl

theorem run_notEqual (h : IsClass c m fs p) {a b : Obj} (ha : Typed env fs a) (hb : Typed env fs b) :
    p.callBool (libFrom env q rec asg mv) (text! "operator!=") a b = (eqFields env rec fs a b).bind fun r => .ok (!r) := by
  unfold ClassText.callBool
  rw [callFn, show p.cls.functions = p.functions from rfl, h.notEqual]
  dsimp only
  unfold runBody
  rw [reads_notEqual.stmts]
  have hc : callFn (libFrom env q rec asg mv) p.cls callDepth (text! "operator==") (.object .other) (p.objects a b) =
      (eqFields env rec fs a b).bind fun r => .ok (.bool r, p.objects a b) := by
    unfold callDepth
    rw [callFn, show p.cls.functions = p.functions from rfl, h.equal]
    exact body_equal h _ ha hb
  have h1 : (equalFn = moveFn) = False := by simp [moveFn, equalFn]
  simp only [execAll, execOne, eval, nameValue, List.lookup, beq_self_eq_true, Res.bind_eq, Res.bind, h1, if_false, if_true, hc]
  cases eqFields env rec fs a b <;> rfl

end

/-! ### Agreement -/

section
variable {rec rec' : Nat → Obj → Obj → Res Bool}

theorem lazyEq_congr (h : ∀ m a b, WellTyped env m a → WellTyped env m b → rec m a b = rec' m a b) {m : Nat} {a b : Val}
    (ha : HasTy env (.msg m) a) (hb : HasTy env (.msg m) b) : lazyEq env rec m a b = lazyEq env rec' m a b := by
  cases ha with
  | null =>
    cases hb with
    | null => rfl
    | msg h1 h2 => exact h m _ _ (HasTy.msg h1 h2) (default_hasTy env m)
  | msg h1 h2 =>
    cases hb with
    | null => exact h m _ _ (HasTy.msg h1 h2) (default_hasTy env m)
    | msg h3 h4 => exact h m _ _ (HasTy.msg h1 h2) (HasTy.msg h3 h4)

theorem listEq_congr (h : ∀ m a b, WellTyped env m a → WellTyped env m b → rec m a b = rec' m a b) {m : Nat} : ∀ {x y : List Val},
    (∀ v ∈ x, HasTy env (.msg m) v) → (∀ v ∈ y, HasTy env (.msg m) v) → listEq rec m x y = listEq rec' m x y
  | [], y, _, _ => by simp [listEq]
  | v :: x, [], _, _ => by cases v <;> simp [listEq]
  | v :: x, w :: y, hx, hy => by
    have ih := listEq_congr h (m := m) (x := x) (y := y) (fun v hv => hx v (by simp [hv])) (fun v hv => hy v (by simp [hv]))
    have hv := hx v (by simp)
    have hw := hy w (by simp)
    cases v <;> cases w <;> first | rfl | (simp only [listEq]; rw [ih]; done) | (simp only [listEq]; rw [h m _ _ hv hw, ih])

theorem mapLookup_typed {kk : Kind} {key : Scalar} {m : Nat} : ∀ {es : List (Scalar × Val)}, (∀ e ∈ es, HasTy env (.msg m) e.2) →
    HasTy env (.msg m) (mapLookup kk key es)
  | [], _ => HasTy.null m
  | (k', v) :: es, h => by
    unfold mapLookup
    split
    · exact h (k', v) (by simp)
    · exact mapLookup_typed fun e he => h e (by simp [he])

theorem mapMsgEq_congr (h : ∀ m a b, WellTyped env m a → WellTyped env m b → rec m a b = rec' m a b) {kk : Kind} {m : Nat}
    {y : List (Scalar × Val)} (hy : ∀ e ∈ y, HasTy env (.msg m) e.2) : ∀ {x : List (Scalar × Val)}, (∀ e ∈ x, HasTy env (.msg m) e.2) →
    mapMsgEq rec kk m y x = mapMsgEq rec' kk m y x
  | [], _ => rfl
  | (key, v) :: es, hx => by
    have ih := mapMsgEq_congr h (kk := kk) hy (x := es) (fun e he => hx e (by simp [he]))
    have hv : HasTy env (.msg m) v := hx (key, v) (by simp)
    have hw := mapLookup_typed (kk := kk) (key := key) hy
    unfold mapMsgEq
    cases hm : mapLookup kk key y <;> cases v <;> first | rfl | exact ih | (rw [hm] at hw; simp only [h m _ _ hw hv, ih])

theorem eqVal_congr (h : ∀ m a b, WellTyped env m a → WellTyped env m b → rec m a b = rec' m a b) {ty : FieldTy} {a b : Val}
    (ha : HasTy env ty a) (hb : HasTy env ty b) : eqVal env rec ty a b = eqVal env rec' ty a b := by
  cases ty with
  | scalar k => cases ha; cases hb; rfl
  | list k => cases ha; cases hb; rfl
  | enum => cases ha; cases hb; rfl
  | enumList => cases ha; cases hb; rfl
  | msg m =>
    show msgFieldEq env rec m a b = msgFieldEq env rec' m a b
    unfold msgFieldEq
    rw [lazyEq_congr h ha hb, h m _ _ (deref_typed ha) (deref_typed hb)]
  | msgList m =>
    cases ha with | msgList h1 => cases hb with | msgList h2 =>
    simp only [eqVal]
    rw [listEq_congr h h1 h2]
  | map kk vt =>
    cases ha with | map _ h1 _ => cases hb with | map _ h2 _ =>
    cases vt with
    | scalar k => rfl
    | enum => rfl
    | msg m =>
      simp only [eqVal]
      rw [mapMsgEq_congr h h2 h1]

theorem eqFields_congr (h : ∀ m a b, WellTyped env m a → WellTyped env m b → rec m a b = rec' m a b) : ∀ {fs : List QtPb.Field} {a b : Obj},
    Typed env fs a → Typed env fs b → eqFields env rec fs a b = eqFields env rec' fs a b
  | [], _, _, _, _ => by simp [eqFields]
  | _ :: _, [], _, ha, _ => by simp [Typed] at ha
  | _ :: _, _ :: _, [], _, hb => by simp [Typed] at hb
  | f :: fs, x :: a, y :: b, ha, hb => by
    rw [eqFields_cons, eqFields_cons, eqVal_congr h ha.tail.1 hb.tail.1, eqFields_congr h ha.tail.2 hb.tail.2]

end

/-- Messages are compared, copied and moved as the models say. -/
structure Agrees (env : Env) (q : Containers) (n : Nat) (rec : Nat → Obj → Obj → Res Bool) (asg : Nat → Obj → Obj → Res Obj)
    (mv : Nat → Obj → Obj → Res (Obj × Obj)) : Prop where
  equal : ∀ m a b, WellTyped env m a → WellTyped env m b → rec m a b = objEq env n m a b
  assign : ∀ m a b, WellTyped env m a → WellTyped env m b → asg m a b = QtPb.assign env n m a b
  move : ∀ m a b, WellTyped env m a → WellTyped env m b → mv m a b =
    (QtPb.moveAssign env q n m a b).bind fun r => .ok (r.map Moved.target, r.map Moved.source)

section
variable {q : Containers} {n : Nat} {rec : Nat → Obj → Obj → Res Bool} {asg : Nat → Obj → Obj → Res Obj} {mv : Nat → Obj → Obj → Res (Obj × Obj)}

theorem write_eq (hq : ∀ a b, q.samePtrs a b = true → a = b) (ty : FieldTy) (a b : Val) (hm : isMsg ty = false) :
    (if wholeEq q ty a b then a else b) = writeVal ty a b := by
  cases ty with
  | msg m => simp [isMsg] at hm
  | msgList m =>
    show (if q.samePtrs a b then a else b) = b
    split
    · exact hq _ _ ‹_›
    · rfl
  | map kk vt =>
    cases vt with
    | msg m =>
      have : writeVal (.map kk (.msg m)) a b = b := by unfold writeVal; split <;> simp_all
      rw [this]
      show (if q.samePtrs a b then a else b) = b
      split
      · exact hq _ _ ‹_›
      · rfl
    | scalar k => cases a <;> cases b <;> rfl
    | enum => cases a <;> cases b <;> rfl
  | scalar k => cases a <;> cases b <;> rfl
  | list k => cases a <;> cases b <;> rfl
  | enum =>
    cases a <;> cases b <;> first | rfl | skip
    rename_i x y
    show (if (x == y) = true then Val.enum x else .enum y) = .enum y
    by_cases e : x = y <;> simp [e]
  | enumList =>
    cases a <;> cases b <;> first | rfl | skip
    rename_i x y
    show (if (x == y) = true then Val.enumList x else .enumList y) = .enumList y
    by_cases e : x = y <;> simp [e]

theorem assignG_eq (hq : ∀ a b, q.samePtrs a b = true → a = b) (h : Agrees env q n rec asg mv) (all : Bool) {ty : FieldTy} {a b : Val}
    (ha : HasTy env ty a) (hb : HasTy env ty b) :
    assignG (libFrom env q rec asg mv) all ty a b =
      (assignVal env (lazyNe env n) (QtPb.assign env n) ty a b).bind fun v => (differs env q (objEq env n) ty a b).bind fun d =>
        .ok ⟨v, b, d && (all || !isMessage ty), false⟩ := by
  have plain : ∀ t, t = ty → isMsg ty = false → Res.ok (setVal (libFrom env q rec asg mv) ty a b) =
      .ok ⟨writeVal ty a b, b, !wholeEq q ty a b, false⟩ := fun t _ hm => by
    rw [← write_eq hq ty a b hm]; rfl
  cases ty with
  | msg m =>
    simp only [assignG, msgVal, assignVal, differs, lazyNe, Res.bind_eq, behind_deref]
    rw [show (libFrom env q rec asg mv).lazy m a b = lazyEq env rec m a b from rfl, lazyEq_congr h.equal ha hb]
    cases lazyEq env (objEq env n) m a b with
    | ok r =>
      cases r
      · simp only [Res.bind, Bool.not_false, if_true, Bool.false_eq_true, if_false]
        rw [show (libFrom env q rec asg mv).assign m (deref env m a) (deref env m b) = asg m (deref env m a) (deref env m b) from rfl,
          h.assign m _ _ (deref_typed ha) (deref_typed hb)]
        cases QtPb.assign env n m (deref env m a) (deref env m b) <;> simp [isMessage]
      · simp
    | _ => rfl
  | _ =>
    simp only [assignG]
    rw [plain _ rfl rfl]
    simp [assignVal, differs, isMessage]

theorem moveG_true (hq : ∀ a b, q.samePtrs a b = true → a = b) (h : Agrees env q n rec asg mv) {ty : FieldTy} {a b : Val}
    (ha : HasTy env ty a) (hb : HasTy env ty b) :
    moveG (libFrom env q rec asg mv) true ty a b = moveVal env q (lazyNe env n) (QtPb.moveAssign env q n) ty a b := by
  cases ty with
  | msg m =>
    simp only [moveG, msgVal, moveVal, lazyNe, Res.bind_eq, behind_deref]
    rw [show (libFrom env q rec asg mv).lazy m a b = lazyEq env rec m a b from rfl, lazyEq_congr h.equal ha hb]
    cases lazyEq env (objEq env n) m a b with
    | ok r =>
      cases r
      · simp only [Res.bind, Bool.not_false, if_true, Bool.false_eq_true, if_false]
        rw [show (libFrom env q rec asg mv).move m (deref env m a) (deref env m b) = mv m (deref env m a) (deref env m b) from rfl,
          h.move m _ _ (deref_typed ha) (deref_typed hb)]
        cases QtPb.moveAssign env q n m (deref env m a) (deref env m b) <;> rfl
      · simp
    | _ => rfl
  | scalar k =>
    have hw := write_eq hq (.scalar k) a b rfl
    simp only [moveG, moveVal]
    rw [← hw]
    have e : wholeEq q (.scalar k) a b = plainEq (.scalar k) a b := rfl
    cases movedWhole (.scalar k) <;> simp [libFrom, e]
    split <;> rfl
  | enum => rfl
  | _ =>
    simp only [moveG, moveVal, movedWhole, if_true, libFrom]
    split <;> simp_all

theorem moveG_false (hq : ∀ a b, q.samePtrs a b = true → a = b) (h : Agrees env q n rec asg mv) {ty : FieldTy} {a b : Val}
    (ha : HasTy env ty a) (hb : HasTy env ty b) :
    moveG (libFrom env q rec asg mv) false ty a b = moveInitVal env q (lazyNe env n) (QtPb.moveAssign env q n) ty a b := by
  cases ty with
  | msg m =>
    simp only [moveG, msgVal, moveInitVal, lazyNe, Res.bind_eq, behind_deref]
    rw [show (libFrom env q rec asg mv).lazy m a b = lazyEq env rec m a b from rfl, lazyEq_congr h.equal ha hb]
    cases lazyEq env (objEq env n) m a b with
    | ok r =>
      cases r
      · simp only [Res.bind, Bool.not_false, if_true, Bool.false_eq_true, if_false]
        rw [show (libFrom env q rec asg mv).move m (deref env m a) (deref env m b) = mv m (deref env m a) (deref env m b) from rfl,
          h.move m _ _ (deref_typed ha) (deref_typed hb)]
        cases QtPb.moveAssign env q n m (deref env m a) (deref env m b) <;> rfl
      · simp
    | _ => rfl
  | scalar k =>
    have hw := write_eq hq (.scalar k) a b rfl
    simp only [moveG, moveInitVal]
    rw [← hw]
    have e : wholeEq q (.scalar k) a b = plainEq (.scalar k) a b := rfl
    cases movedWhole (.scalar k) <;> simp [libFrom, e]
  | enum => rfl
  | _ => simp [moveG, moveInitVal, movedWhole, libFrom]

/-! ### Lists of fields -/

theorem each_move {g : FieldTy → Val → Val → Res Moved} (neq : Nat → Val → Val → Res Bool) (mrec : Nat → Obj → Obj → Res (List Moved)) :
    ∀ {fs : List QtPb.Field} {a b : Obj}, Typed env fs a → Typed env fs b →
    (∀ ty a b, HasTy env ty a → HasTy env ty b → g ty a b = moveVal env q neq mrec ty a b) →
    eachField g (fs.map (·.ty)) a b = moveFields env q neq mrec fs a b
  | [], _, _, _, _, _ => by simp [eachField, moveFields]
  | _ :: _, [], _, ha, _, _ => by simp [Typed] at ha
  | _ :: _, _ :: _, [], _, hb, _ => by simp [Typed] at hb
  | f :: fs, x :: a, y :: b, ha, hb, hg => by
    simp only [List.map_cons, eachField, moveFields]
    rw [hg _ _ _ ha.tail.1 hb.tail.1, each_move neq mrec ha.tail.2 hb.tail.2 hg]

theorem each_init {g : FieldTy → Val → Val → Res Moved} (neq : Nat → Val → Val → Res Bool) (mrec : Nat → Obj → Obj → Res (List Moved)) :
    ∀ {fs : List QtPb.Field} {a b : Obj}, Typed env fs a → Typed env fs b →
    (∀ ty a b, HasTy env ty a → HasTy env ty b → g ty a b = moveInitVal env q neq mrec ty a b) →
    eachField g (fs.map (·.ty)) a b = moveInitFields env q neq mrec fs a b
  | [], _, _, _, _, _ => by simp [eachField, moveInitFields]
  | _ :: _, [], _, ha, _, _ => by simp [Typed] at ha
  | _ :: _, _ :: _, [], _, hb, _ => by simp [Typed] at hb
  | f :: fs, x :: a, y :: b, ha, hb, hg => by
    simp only [List.map_cons, eachField, moveInitFields]
    rw [hg _ _ _ ha.tail.1 hb.tail.1, each_init neq mrec ha.tail.2 hb.tail.2 hg]

/-- The comparison of a field that succeeds in an assignment has succeeded. -/
theorem differs_ok {ty : FieldTy} {a b v : Val} (h : assignVal env (lazyNe env n) (QtPb.assign env n) ty a b = .ok v) :
    ∃ d, differs env q (objEq env n) ty a b = .ok d := by
  cases ty with
  | msg m =>
    simp only [assignVal, lazyNe, Res.bind_eq] at h
    simp only [differs]
    cases hl : lazyEq env (objEq env n) m a b with
    | ok r => exact ⟨!r, rfl⟩
    | _ => rw [hl] at h; simp at h
  | _ => exact ⟨_, rfl⟩

theorem each_assign {g : FieldTy → Val → Val → Res Moved} (all : Bool) : ∀ {fs : List QtPb.Field} {names : List Text} {a b : Obj}, Typed env fs a →
    Typed env fs b → names.length = fs.length →
    (∀ ty a b, HasTy env ty a → HasTy env ty b → g ty a b =
      (assignVal env (lazyNe env n) (QtPb.assign env n) ty a b).bind fun v => (differs env q (objEq env n) ty a b).bind fun d =>
        .ok ⟨v, b, d && (all || !isMessage ty), false⟩) →
    seenOf names (eachField g (fs.map (·.ty)) a b) =
      (assignFields env (lazyNe env n) (QtPb.assign env n) fs a b).bind fun o =>
        (changeSignals env q (objEq env n) all (names.zip (fs.map (·.ty))) a b).bind fun sg => .ok (o, b, sg)
  | [], names, a, b, ha, hb, hn, _ => by
    have e1 : a = [] := by simpa using ha.1
    have e2 : b = [] := by simpa using hb.1
    subst e1; subst e2
    simp [eachField, seenOf, assignFields, changeSignals, moveSignals]
  | _ :: _, _, [], _, ha, _, _, _ => by simp [Typed] at ha
  | _ :: _, _, _ :: _, [], _, hb, _, _ => by simp [Typed] at hb
  | _ :: _, [], _, _, _, _, hn, _ => by simp at hn
  | f :: fs, s :: names, x :: a, y :: b, ha, hb, hn, hg => by
    have ih := each_assign all (names := names) ha.tail.2 hb.tail.2 (by simpa using hn) hg
    simp only [List.map_cons, eachField, assignFields, List.zip_cons_cons, changeSignals, Res.bind_eq]
    rw [hg _ _ _ ha.tail.1 hb.tail.1]
    cases hv : assignVal env (lazyNe env n) (QtPb.assign env n) f.ty x y with
    | ok v =>
      obtain ⟨d, hd⟩ := differs_ok (q := q) hv
      simp only [hd, Res.bind]
      cases he : eachField g (fs.map (·.ty)) a b with
      | ok rs =>
        rw [he] at ih
        simp only [seenOf, Res.bind] at ih ⊢
        cases ho : assignFields env (lazyNe env n) (QtPb.assign env n) fs a b with
        | ok o =>
          rw [ho] at ih
          simp only at ih ⊢
          cases hc : changeSignals env q (objEq env n) all (names.zip (fs.map (·.ty))) a b with
          | ok sg =>
            rw [hc] at ih
            simp only [Res.ok.injEq, Prod.mk.injEq] at ih ⊢
            refine ⟨by simp [ih.1], by simp [ih.2.1], ?_⟩
            rw [← ih.2.2]
            simp [moveSignals]
          | _ => rw [hc] at ih; simp at ih
        | _ => rw [ho] at ih; simp at ih
      | _ =>
        rw [he] at ih
        simp only [seenOf, Res.bind] at ih ⊢
        cases ho : assignFields env (lazyNe env n) (QtPb.assign env n) fs a b with
        | ok o =>
          rw [ho] at ih
          simp only at ih ⊢
          cases hc : changeSignals env q (objEq env n) all (names.zip (fs.map (·.ty))) a b <;> rw [hc] at ih <;> simp at ih <;> simp [ih]
        | _ => rw [ho] at ih <;> simp at ih <;> simp [ih]
    | _ => rfl

/-! ### Programs -/

theorem libAt_from (prog : Nat → ClassText) (n : Nat) : libAt env q prog n =
    libFrom env q (libAt env q prog n).equal (libAt env q prog n).assign (libAt env q prog n).move := by
  cases n <;> rfl

/-- A program made of generated classes. -/
def IsProgram (env : Env) (prog : Nat → ClassText) : Prop := ∀ k, ∃ c m, IsClass c m (env.sch k) (prog k)

/-- The names of the signals of a class. -/
def signalNames (p : ClassText) : List Text := p.names.map fun x => x.drop 2 ++ text! "Changed"

theorem IsClass.signalNames {c : Ctx} {m : Cur} {fs : List QtPb.Field} {p : ClassText} (h : IsClass c m fs p) :
    TextProof.signalNames p = m.fields.map fun f => sig' f.prop := by
  unfold TextProof.signalNames
  rw [h.names, List.map_map]
  exact List.map_congr_left fun f _ => rfl

section
variable {prog : Nat → ClassText}

theorem agrees_run (hq : ∀ a b, q.samePtrs a b = true → a = b) (hp : IsProgram env prog) (h : Agrees env q n rec asg mv) (k : Nat) {a b : Obj}
    (ha : WellTyped env k a) (hb : WellTyped env k b) :
    (prog k).callBool (libFrom env q rec asg mv) (text! "operator==") a b = objEq env (n + 1) k a b ∧
    (prog k).callBool (libFrom env q rec asg mv) (text! "operator!=") a b = objNe env (n + 1) k a b ∧
    (prog k).seen ((prog k).run (libFrom env q rec asg mv) (prog k).assign a b) =
      (QtPb.assign env (n + 1) k a b).bind (fun o => (changeSignals env q (objEq env n) true
        ((signalNames (prog k)).zip ((env.sch k).map (·.ty))) a b).bind fun sg => .ok (o, b, sg)) ∧
    (prog k).seen ((prog k).run (libFrom env q rec asg mv) (prog k).copy a b) =
      (QtPb.assign env (n + 1) k a b).bind (fun o => (changeSignals env q (objEq env n) false
        ((signalNames (prog k)).zip ((env.sch k).map (·.ty))) a b).bind fun sg => .ok (o, b, sg)) ∧
    (prog k).seen ((prog k).run (libFrom env q rec asg mv) (prog k).moveAssign a b) =
      seenOf (signalNames (prog k)) (QtPb.moveAssign env q (n + 1) k a b) ∧
    (prog k).seen ((prog k).run (libFrom env q rec asg mv) (prog k).move a b) =
      seenOf (signalNames (prog k)) (moveInitFields env q (lazyNe env n) (QtPb.moveAssign env q n) (env.sch k) a b) := by
  obtain ⟨c, m, hc⟩ := hp k
  have ta := typed_of ha
  have tb := typed_of hb
  have he : eqFields env rec (env.sch k) a b = objEq env (n + 1) k a b := eqFields_congr h.equal ta tb
  have hl : (m.fields.map fun f => sig' f.prop).length = (env.sch k).length := by rw [List.length_map, hc.len]
  refine ⟨?_, ?_, ?_, ?_, ?_, ?_⟩
  · rw [run_equal hc ta tb, he]
  · rw [run_notEqual hc ta tb, he]; rfl
  · rw [run_assign hc ta.1 tb.1, hc.signalNames, each_assign true ta tb hl fun ty a b ha hb => assignG_eq hq h true ha hb]; rfl
  · rw [run_copy hc ta.1 tb.1, hc.signalNames, each_assign false ta tb hl fun ty a b ha hb => assignG_eq hq h false ha hb]; rfl
  · rw [run_moveAssign hc ta.1 tb.1, hc.signalNames, each_move _ _ ta tb fun ty a b ha hb => moveG_true hq h ha hb]; rfl
  · rw [run_init hc ta.1 tb.1, hc.signalNames, each_init _ _ ta tb fun ty a b ha hb => moveG_false hq h ha hb]

theorem changeSignals_ok {all : Bool} : ∀ {fs : List QtPb.Field} {names : List Text} {a b o : Obj},
    assignFields env (lazyNe env n) (QtPb.assign env n) fs a b = .ok o →
    ∃ sg, changeSignals env q (objEq env n) all (names.zip (fs.map (·.ty))) a b = .ok sg
  | [], _, _, _, _, _ => by simp [changeSignals]
  | _ :: _, [], _, _, _, _ => by simp [changeSignals]
  | _ :: _, _ :: _, [], _, _, _ => by simp [changeSignals]
  | _ :: _, _ :: _, _ :: _, [], _, _ => by simp [changeSignals]
  | f :: fs, s :: names, x :: a, y :: b, o, h => by
    simp only [assignFields, Res.bind_eq] at h
    obtain ⟨v, hv, h⟩ := Res.bind_eq_ok.1 h
    obtain ⟨r, hr, h⟩ := Res.bind_eq_ok.1 h
    obtain ⟨d, hd⟩ := differs_ok (q := q) hv
    obtain ⟨sg, hs⟩ := changeSignals_ok (names := names) hr
    simp only [List.map_cons, List.zip_cons_cons, changeSignals, Res.bind_eq]
    rw [hd, hs]
    exact ⟨_, rfl⟩

theorem libAt_agrees (hq : ∀ a b, q.samePtrs a b = true → a = b) (hp : IsProgram env prog) : ∀ n,
    Agrees env q n (libAt env q prog n).equal (libAt env q prog n).assign (libAt env q prog n).move
  | 0 => ⟨fun _ _ _ _ _ => rfl, fun _ _ _ _ _ => rfl, fun _ _ _ _ _ => rfl⟩
  | n + 1 => by
    have ih := libAt_agrees hq hp n
    have key := fun k a b (ha : WellTyped env k a) (hb : WellTyped env k b) => agrees_run hq hp ih k ha hb
    rw [← libAt_from] at key
    refine ⟨fun k a b ha hb => (key k a b ha hb).1, fun k a b ha hb => ?_, fun k a b ha hb => ?_⟩
    · show (((prog k).seen ((prog k).run (libAt env q prog n) (prog k).assign a b)).bind fun r => .ok r.1) = _
      rw [(key k a b ha hb).2.2.1]
      cases ho : QtPb.assign env (n + 1) k a b with
      | ok o =>
        obtain ⟨sg, hs⟩ := changeSignals_ok (q := q) (all := true) (names := signalNames (prog k)) ho
        simp [Res.bind, hs]
      | _ => rfl
    · show (((prog k).seen ((prog k).run (libAt env q prog n) (prog k).moveAssign a b)).bind fun r => .ok (r.1, r.2.1)) = _
      rw [(key k a b ha hb).2.2.2.2.1]
      cases QtPb.moveAssign env q (n + 1) k a b <;> rfl

end

end

end

end QtPb.TextProof
