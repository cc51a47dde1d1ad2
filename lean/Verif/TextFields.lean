import Verif.TextExec
import Verif.SpecCppObj
import Verif.SpecObj
/-
What the bodies of functions of generated classes do with all fields. (Helpers for the theorems about generated sources.)
-/
set_option maxRecDepth 100000
namespace QtPb.TextProof
open QtPb.Gen QtPb.Gen.Text QtPb.Gen.Text.Spec QtPb.SpecCpp
open QtPb.Spec (HasTy WellTyped)

/-- Field by field. -/
def eachField (g : FieldTy → Val → Val → Res Moved) : List FieldTy → Obj → Obj → Res (List Moved)
  | ty :: ts, a :: as, b :: bs => do
    let v ← g ty a b
    let r ← eachField g ts as bs
    .ok (v :: r)
  | _, _, _ => .ok []

def applyAll : List FieldD → List Moved → Objects → Objects
  | f :: fs, r :: rs, s => applyAll fs rs (apply f r s)
  | _, _, s => s

section
variable {lib : Lib} {cls : Cls} {call : Text → Rt → Objects → Res (Rt × Objects)}

theorem execFields {ss : FieldD → List Stmt} {g : FieldTy → Val → Val → Res Moved} : ∀ (l : List (FieldD × FieldTy)),
    (∀ p ∈ l, Does lib cls call p.1 (ss p.1) (g p.2)) → (l.map fun p => mem' p.1.prop).Nodup → ∀ s rest,
    execAll lib cls call otherLocals (l.flatMap (fun p => ss p.1) ++ rest) s =
      (eachField g (l.map (·.2)) (l.map fun p => s.this (mem' p.1.prop)) (l.map fun p => s.other (mem' p.1.prop))).bind fun rs =>
        execAll lib cls call otherLocals rest (applyAll (l.map (·.1)) rs s)
  | [], _, _, s, rest => by simp [eachField, applyAll]
  | p :: l, hd, hn, s, rest => by
    rw [List.map_cons, List.nodup_cons] at hn
    have ih := execFields l (fun x hx => hd x (by simp [hx])) hn.2
    rw [List.flatMap_cons, List.append_assoc, hd p (by simp)]
    simp only [List.map_cons, eachField, Res.bind_eq]
    cases g p.2 (s.this (mem' p.1.prop)) (s.other (mem' p.1.prop)) with
    | ok r =>
      simp only [Res.bind]
      rw [ih]
      have e1 : (l.map fun p_1 => (apply p.1 r s).this (mem' p_1.1.prop)) = l.map fun p => s.this (mem' p.1.prop) :=
        List.map_congr_left fun x hx => by
          have : mem' x.1.prop ≠ mem' p.1.prop := fun e => hn.1 (e ▸ List.mem_map.2 ⟨x, hx, rfl⟩)
          simp [apply, this]
      have e2 : (l.map fun p_1 => (apply p.1 r s).other (mem' p_1.1.prop)) = l.map fun p => s.other (mem' p.1.prop) :=
        List.map_congr_left fun x hx => by
          have : mem' x.1.prop ≠ mem' p.1.prop := fun e => hn.1 (e ▸ List.mem_map.2 ⟨x, hx, rfl⟩)
          simp [apply, this]
      rw [e1, e2]
      cases eachField g (l.map (·.2)) (l.map fun p => s.this (mem' p.1.prop)) (l.map fun p => s.other (mem' p.1.prop)) <;> rfl
    | _ => rfl

theorem applyAll_keeps : ∀ (fs : List FieldD) (rs : List Moved) (s : Objects) (x : Text), x ∉ fs.map (fun f => mem' f.prop) →
    (applyAll fs rs s).this x = s.this x ∧ (applyAll fs rs s).other x = s.other x
  | [], rs, s, x, _ => by simp [applyAll]
  | f :: fs, [], s, x, _ => by simp [applyAll]
  | f :: fs, r :: rs, s, x, h => by
    simp only [List.map_cons, List.mem_cons, not_or] at h
    have ih := applyAll_keeps fs rs (apply f r s) x h.2
    simp only [applyAll]
    rw [ih.1, ih.2]
    simp [apply, h.1]

theorem applyAll_values : ∀ (fs : List FieldD) (rs : List Moved) (s : Objects), (fs.map fun f => mem' f.prop).Nodup → rs.length = fs.length →
    (fs.map fun f => (applyAll fs rs s).this (mem' f.prop)) = rs.map Moved.target ∧
    (fs.map fun f => (applyAll fs rs s).other (mem' f.prop)) = rs.map Moved.source ∧
    (applyAll fs rs s).log = s.log ++ moveSignals (fs.map fun f => sig' f.prop) rs
  | [], [], s, _, _ => by simp [applyAll, moveSignals]
  | f :: fs, r :: rs, s, hn, hl => by
    rw [List.map_cons, List.nodup_cons] at hn
    have ih := applyAll_values fs rs (apply f r s) hn.2 (by simpa using hl)
    have k := applyAll_keeps fs rs (apply f r s) _ hn.1
    simp only [applyAll, List.map_cons]
    rw [ih.1, ih.2.1, ih.2.2, k.1, k.2]
    refine ⟨by simp [apply], by simp [apply], ?_⟩
    simp [apply, moveSignals]
  | [], _ :: _, _, _, hl => by simp at hl
  | _ :: _, [], _, _, hl => by simp at hl

theorem eachField_length {g : FieldTy → Val → Val → Res Moved} : ∀ {ts : List FieldTy} {as bs : Obj} {rs : List Moved},
    as.length = ts.length → bs.length = ts.length → eachField g ts as bs = .ok rs → rs.length = ts.length
  | [], as, bs, rs, _, _, h => by simp [eachField] at h; subst h; rfl
  | ty :: ts, a :: as, b :: bs, rs, h1, h2, h => by
    simp only [eachField, Res.bind_eq] at h
    obtain ⟨v, _, h⟩ := Res.bind_eq_ok.1 h
    obtain ⟨r, hr, h⟩ := Res.bind_eq_ok.1 h
    simp only [Res.ok.injEq] at h
    subst h
    simp [eachField_length (by simpa using h1) (by simpa using h2) hr]
  | _ :: _, [], _, _, h1, _, _ => by simp at h1
  | _ :: _, _ :: _, [], _, _, h2, _ => by simp at h2

/-! ### Comparison -/

/-- Messages, and no other fields, are lazy pointers. -/
theorem pure_fits {c : Ctx} {f : FieldD} {ty : FieldTy} (hq : isQtType c.package f = false) (hf : fits f ty = true) :
    isPureMessage c.package f = isMsg ty := by
  unfold isPureMessage
  cases ty with
  | scalar k => cases k <;> simp [fits, protoType] at hf <;> simp [isMsg, hf]
  | list k => simp [fits] at hf; simp [isMsg, hf]
  | _ => simp [fits] at hf <;> simp [isMsg, hf, hq]

theorem repeated_fits {f : FieldD} {ty : FieldTy} (hf : fits f ty = true) :
    (f.type == .message && f.repeated) = (match ty with | .msgList _ => true | .map _ _ => true | _ => false) := by
  cases ty with
  | scalar k => cases k <;> simp [fits, protoType] at hf <;> simp [hf]
  | list k => cases k <;> simp [fits, protoType] at hf <;> simp [hf]
  | _ => simp [fits] at hf <;> simp [hf]

theorem eval_repeated {f : FieldD} {ty : FieldTy} (h : HasField cls f ty) (s : Objects) :
    eval lib cls call otherLocals (.call2 repeatedFn (own' f.prop) (oth f.prop)) s =
      (lib.repeated ty (s.this (mem' f.prop)) (s.other (mem' f.prop))).bind fun b => .ok (.bool b, s) := by
  have e : (repeatedFn = exchangeFn) = False := by simp [repeatedFn, exchangeFn]
  rw [eval]
  simp [eval_own_other h, eval_oth h, e, read_member h, Objects.get]

theorem eval_or {locals : List (Text × Rt)} {a b : Expr} {s : Objects} {x y : Res Bool}
    (ha : eval lib cls call locals a s = x.bind fun b => .ok (.bool b, s)) (hb : eval lib cls call locals b s = y.bind fun b => .ok (.bool b, s)) :
    eval lib cls call locals (.or a b) s = (x.bind fun r => if r then .ok true else y).bind fun b => .ok (.bool b, s) := by
  rw [eval, ha]
  cases x with
  | ok r =>
    cases r
    · simp only [Res.bind_eq, Res.bind, hb]; cases y <;> rfl
    · rfl
  | _ => rfl

theorem eval_and {locals : List (Text × Rt)} {a b : Expr} {s : Objects} {x y : Res Bool}
    (ha : eval lib cls call locals a s = x.bind fun b => .ok (.bool b, s)) (hb : eval lib cls call locals b s = y.bind fun b => .ok (.bool b, s)) :
    eval lib cls call locals (.and a b) s = (x.bind fun r => if r then y else .ok false).bind fun b => .ok (.bool b, s) := by
  rw [eval, ha]
  cases x with
  | ok r =>
    cases r
    · rfl
    · simp only [Res.bind_eq, Res.bind, hb]; cases y <;> rfl
  | _ => rfl

section
variable {env : Env} {rec : Nat → Obj → Obj → Res Bool} {q : Containers} {asg : Nat → Obj → Obj → Res Obj} {mv : Nat → Obj → Obj → Res (Obj × Obj)}

theorem behind_deref (m : Nat) (v : Val) : behind (libFrom env q rec asg mv) m v = deref env m v := by
  cases v <;> rfl

theorem eval_equalExpr {c : Ctx} {f : FieldD} {ty : FieldTy} (h : HasField cls f ty) (hq : isQtType c.package f = false) (hf : fits f ty = true)
    (s : Objects) (ha : HasTy env ty (s.this (mem' f.prop))) (hb : HasTy env ty (s.other (mem' f.prop))) :
    eval (libFrom env q rec asg mv) cls call otherLocals (equalExpr c f) s =
      (eqVal env rec ty (s.this (mem' f.prop)) (s.other (mem' f.prop))).bind fun b => .ok (.bool b, s) := by
  have hr := repeated_fits hf
  unfold equalExpr
  rw [pure_fits hq hf, hr]
  have plain : isMsg ty = false → eqVal env rec ty (s.this (mem' f.prop)) (s.other (mem' f.prop)) =
      .ok (wholeEq q ty (s.this (mem' f.prop)) (s.other (mem' f.prop))) →
      eval (libFrom env q rec asg mv) cls call otherLocals (.eq (own' f.prop) (oth f.prop)) s =
      (eqVal env rec ty (s.this (mem' f.prop)) (s.other (mem' f.prop))).bind fun b => .ok (.bool b, s) := fun hm he => by
    rw [he]
    exact eval_eq (eval_own_other h s) (eval_oth h s) (compare_members h hm s)
  cases ty with
  | scalar k =>
    refine plain rfl ?_
    generalize s.this (mem' f.prop) = v at ha
    generalize s.other (mem' f.prop) = w at hb
    cases ha; cases hb; rfl
  | list k =>
    refine plain rfl ?_
    generalize s.this (mem' f.prop) = v at ha
    generalize s.other (mem' f.prop) = w at hb
    cases ha; cases hb; rfl
  | enum =>
    refine plain rfl ?_
    generalize s.this (mem' f.prop) = v at ha
    generalize s.other (mem' f.prop) = w at hb
    cases ha; cases hb; rfl
  | enumList =>
    refine plain rfl ?_
    generalize s.this (mem' f.prop) = v at ha
    generalize s.other (mem' f.prop) = w at hb
    cases ha; cases hb; rfl
  | msg m =>
    have h1 := eval_eq (lib := libFrom env q rec asg mv) (call := call) (eval_own_other h s) (eval_oth h s) (compare_lazy h s)
    have h2 := eval_eq (lib := libFrom env q rec asg mv) (call := call) (eval_deref (eval_own_other h s)) (eval_deref (eval_oth h s)) (compare_contents h s)
    have := eval_or h1 h2
    simp only [isMsg, if_true]
    rw [this]
    rw [behind_deref, behind_deref]
    rfl
  | msgList m => exact eval_repeated h s
  | map kk v => exact eval_repeated h s

theorem eqFields_cons {rec : Nat → Obj → Obj → Res Bool} {f : QtPb.Field} {fs : List QtPb.Field} {a b : Val} {as bs : Obj} :
    eqFields env rec (f :: fs) (a :: as) (b :: bs) = (eqVal env rec f.ty a b).bind fun r => if r then eqFields env rec fs as bs else .ok false := rfl

theorem res_true (x : Res Bool) : (x.bind fun r => if r then Res.ok true else .ok false) = x := by
  cases x with
  | ok b => cases b <;> rfl
  | _ => rfl

theorem eval_all {c : Ctx} (s : Objects) : ∀ (p : FieldD × QtPb.Field) (l : List (FieldD × QtPb.Field)),
    (∀ x ∈ p :: l, HasField cls x.1 x.2.ty ∧ isQtType c.package x.1 = false ∧ fits x.1 x.2.ty = true ∧
      HasTy env x.2.ty (s.this (mem' x.1.prop)) ∧ HasTy env x.2.ty (s.other (mem' x.1.prop))) →
    eval (libFrom env q rec asg mv) cls call otherLocals (allExpr c p.1 (l.map (·.1))) s =
      (eqFields env rec ((p :: l).map (·.2)) ((p :: l).map fun x => s.this (mem' x.1.prop)) ((p :: l).map fun x => s.other (mem' x.1.prop))).bind
        fun b => .ok (.bool b, s)
  | p, [], h => by
    obtain ⟨h1, h2, h3, h4, h5⟩ := h p (by simp)
    have := eval_equalExpr (call := call) (rec := rec) (q := q) (asg := asg) (mv := mv) h1 h2 h3 s h4 h5
    simp only [List.map_nil, allExpr, List.map_cons]
    rw [this, eqFields_cons, show eqFields env rec [] [] [] = .ok true from rfl, res_true]
  | p, x :: l, h => by
    obtain ⟨h1, h2, h3, h4, h5⟩ := h p (by simp)
    have e := eval_equalExpr (call := call) (rec := rec) (q := q) (asg := asg) (mv := mv) h1 h2 h3 s h4 h5
    have ih := eval_all s x l (fun y hy => h y (by simp only [List.mem_cons] at hy ⊢; exact Or.inr hy))
    have := eval_and e ih
    rw [List.map_cons (l := x :: l) (f := (·.2)), List.map_cons (l := x :: l) (f := fun x => s.this (mem' x.1.prop)),
      List.map_cons (l := x :: l) (f := fun x => s.other (mem' x.1.prop)), eqFields_cons]
    exact this

end

end

end QtPb.TextProof
