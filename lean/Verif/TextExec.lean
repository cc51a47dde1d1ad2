import Verif.TextRun
import Verif.Move
/-
What the bodies of functions of generated classes do. (Helpers for the theorems about generated sources.)
-/
set_option maxRecDepth 100000
namespace QtPb.TextProof
open QtPb.Gen QtPb.Gen.Text QtPb.Gen.Text.Spec QtPb.SpecCpp

theorem mem_ne_self (N : Text) : mem' N ≠ N := by
  intro e
  have := congrArg List.length e
  simp only [mem', List.length_append, List.length_cons, List.length_nil] at this
  omega

theorem lookup_other (x : Text) (v : Rt) : List.lookup (mem' x) [(text! "other", v)] = none := by
  simp [List.lookup, mem']

section
variable {lib : Lib} {cls : Cls} {call : Text → Rt → Objects → Res (Rt × Objects)}

/-- A field of the class. -/
structure HasField (cls : Cls) (f : FieldD) (ty : FieldTy) : Prop where
  type : cls.types (mem' f.prop) = some ty
  signal : sig' f.prop ∈ cls.signals

/-- Its setter. -/
def HasSetter (cls : Cls) (f : FieldD) : Prop :=
  cls.functions.find? (·.1 == set' (cap f)) = some (set' (cap f), f.prop, Src.complexSetterBody f.prop)

def isMsg : FieldTy → Bool
  | .msg _ => true
  | _ => false

abbrev otherLocals : List (Text × Rt) := [(text! "other", .object .other)]

theorem eval_own_other {f : FieldD} {ty : FieldTy} (h : HasField cls f ty) (s : Objects) :
    eval lib cls call otherLocals (own' f.prop) s = .ok (.place (.member .this (mem' f.prop)), s) := by
  have e : ∀ w : Text, w.head? ≠ some 'm' → mem' f.prop ≠ w := by
    intro w hw e; rw [← e] at hw; exact hw rfl
  simp [own', eval, nameValue, lookup_other, h.type, e _ (show (text! "true").head? ≠ some 'm' by decide),
    e _ (show (text! "0").head? ≠ some 'm' by decide), e _ (show (text! "this").head? ≠ some 'm' by decide)]

theorem eval_oth {f : FieldD} {ty : FieldTy} (h : HasField cls f ty) (s : Objects) :
    eval lib cls call otherLocals (oth f.prop) s = .ok (.place (.member .other (mem' f.prop)), s) := by
  simp [oth, eval, nameValue, List.lookup, h.type]

theorem eval_own_param {f : FieldD} {ty : FieldTy} (h : HasField cls f ty) (v : Rt) (s : Objects) :
    eval lib cls call [(f.prop, v)] (own' f.prop) s = .ok (.place (.member .this (mem' f.prop)), s) := by
  have e : ∀ w : Text, w.head? ≠ some 'm' → mem' f.prop ≠ w := by
    intro w hw e; rw [← e] at hw; exact hw rfl
  have l : List.lookup (mem' f.prop) [(f.prop, v)] = none := by
    have : (mem' f.prop == f.prop) = false := by simpa using mem_ne_self f.prop
    simp [List.lookup, this]
  simp [own', eval, nameValue, l, h.type, e _ (show (text! "true").head? ≠ some 'm' by decide),
    e _ (show (text! "0").head? ≠ some 'm' by decide), e _ (show (text! "this").head? ≠ some 'm' by decide)]

theorem eval_param (N : Text) (v : Rt) (s : Objects) : eval lib cls call [(N, v)] (.var N) s = .ok (v, s) := by
  simp [eval, nameValue, List.lookup]

theorem exec_emit {f : FieldD} {ty : FieldTy} (h : HasField cls f ty) (locals : List (Text × Rt)) (s : Objects) :
    execOne lib cls call locals (emit f.prop) s = .ok (none, s.emit .this (sig' f.prop)) := by
  have := h.signal
  simp [emit, execOne, eval, this]

theorem exec_emitOther {f : FieldD} {ty : FieldTy} (h : HasField cls f ty) (s : Objects) :
    execOne lib cls call otherLocals (emitOther f.prop) s = .ok (none, s.emit .other (sig' f.prop)) := by
  have := h.signal
  simp [emitOther, execOne, eval, this, nameValue, List.lookup]

theorem eval_ne {locals : List (Text × Rt)} {a b : Expr} {s : Objects} {x y : Rt} {r : Res Bool} (ha : eval lib cls call locals a s = .ok (x, s))
    (hb : eval lib cls call locals b s = .ok (y, s)) (hr : compareValues lib cls s x y = r) :
    eval lib cls call locals (.ne a b) s = r.bind fun r => .ok (.bool (!r), s) := by
  rw [eval]; simp only [ha, hb, hr, Res.bind_eq, Res.bind]

theorem eval_eq {locals : List (Text × Rt)} {a b : Expr} {s : Objects} {x y : Rt} {r : Res Bool} (ha : eval lib cls call locals a s = .ok (x, s))
    (hb : eval lib cls call locals b s = .ok (y, s)) (hr : compareValues lib cls s x y = r) :
    eval lib cls call locals (.eq a b) s = r.bind fun r => .ok (.bool r, s) := by
  rw [eval]; simp only [ha, hb, hr, Res.bind_eq, Res.bind]

theorem eval_deref {locals : List (Text × Rt)} {a : Expr} {s : Objects} {w : Who} {x : Text}
    (ha : eval lib cls call locals a s = .ok (.place (.member w x), s)) :
    eval lib cls call locals (.deref a) s = .ok (.place (.content w x), s) := by
  rw [eval]; simp only [ha, derefValue, Res.bind_eq, Res.bind]

theorem exec_cond {locals : List (Text × Rt)} {e : Expr} {body : List Stmt} {s : Objects} {r : Res Bool}
    (he : eval lib cls call locals e s = r.bind fun r => .ok (.bool r, s)) :
    execOne lib cls call locals (.cond e body) s = r.bind fun r => if r then execAll lib cls call locals body s else .ok (none, s) := by
  rw [execOne, he]
  cases r with
  | ok b => cases b <;> rfl
  | _ => rfl

theorem exec_assign {locals : List (Text × Rt)} {a b : Expr} {s : Objects} {x y : Rt} (ha : eval lib cls call locals a s = .ok (x, s))
    (hb : eval lib cls call locals b s = .ok (y, s)) :
    execOne lib cls call locals (.assign a b) s = (assignValue lib cls s x y).bind fun s => .ok (none, s) := by
  rw [execOne]; simp only [ha, hb, Res.bind_eq, Res.bind]

theorem execAll_nil {locals : List (Text × Rt)} (s : Objects) : execAll lib cls call locals [] s = .ok (none, s) := by rw [execAll]

theorem execAll_cons {locals : List (Text × Rt)} {t : Stmt} {ts : List Stmt} {s s' : Objects}
    (h : execOne lib cls call locals t s = .ok (none, s')) : execAll lib cls call locals (t :: ts) s = execAll lib cls call locals ts s' := by
  rw [execAll, h]; rfl

/-- What a setter does. -/
def putIf (lib : Lib) (f : FieldD) (ty : FieldTy) (x : Val) (s : Objects) : Objects :=
  if lib.same ty (s.this (mem' f.prop)) x then s else (s.set .this (mem' f.prop) x).emit .this (sig' f.prop)

theorem compare_plain {s : Objects} {a b : Rt} {ty : FieldTy} {x y : Val} (hm : isMsg ty = false)
    (ha : readValue lib cls s a = .ok (.inl (ty, x))) (hb : readValue lib cls s b = .ok (.inl (ty, y))) :
    compareValues lib cls s a b = .ok (lib.same ty x y) := by
  have hp : ∀ p, a ≠ .pointer p := by rintro p rfl; simp [readValue] at ha
  unfold compareValues
  split
  · exact absurd rfl (hp _)
  · simp only [ha, hb, Res.bind_eq, Res.bind]
    cases ty <;> simp_all [isMsg]

theorem run_setter {f : FieldD} {ty : FieldTy} (h : HasField cls f ty) (hm : isMsg ty = false) {v : Rt} {s : Objects} {x : Val}
    (hv : readValue lib cls s v = .ok (.inl (ty, x))) (hn : ∀ p, v ≠ .moved p) :
    runBody lib cls call f.prop (Src.complexSetterBody f.prop) v s = .ok (.void, putIf lib f ty x s) := by
  have hown : readValue lib cls s (.place (.member .this (mem' f.prop))) = .ok (.inl (ty, s.this (mem' f.prop))) := by
    simp [readValue, h.type, Objects.get]
  unfold runBody
  rw [(reads_complexSetter f.prop).stmts]
  have hne := eval_ne (call := call) (eval_own_param h v s) (eval_param f.prop v s) (compare_plain hm hown hv)
  have hc := exec_cond (call := call) (body := [.assign (own' f.prop) (.var f.prop), emit f.prop]) (r := .ok (!lib.same ty (s.this (mem' f.prop)) x)) hne
  unfold putIf
  by_cases hs : lib.same ty (s.this (mem' f.prop)) x = true
  · have h0 : execOne lib cls call [(f.prop, v)] (.cond (.ne (own' f.prop) (.var f.prop)) [.assign (own' f.prop) (.var f.prop), emit f.prop]) s =
        .ok (none, s) := by rw [hc]; simp [hs]
    simp [execAll_cons h0, execAll_nil, hs]
  · have ha : assignValue lib cls s (.place (.member .this (mem' f.prop))) v = .ok (s.set .this (mem' f.prop) x) := by
      unfold assignValue
      cases v with
      | moved p => exact absurd rfl (hn p)
      | _ =>
        simp only [hv, Res.bind_eq, Res.bind, h.type]
        cases ty <;> simp_all [isMsg]
    have h1 := exec_assign (lib := lib) (call := call) (eval_own_param h v s) (eval_param f.prop v s)
    rw [ha] at h1
    have h0 : execOne lib cls call [(f.prop, v)] (.cond (.ne (own' f.prop) (.var f.prop)) [.assign (own' f.prop) (.var f.prop), emit f.prop]) s =
        .ok (none, (s.set .this (mem' f.prop) x).emit .this (sig' f.prop)) := by
      rw [hc]
      simp only [hs, Res.bind, Bool.not_false, if_true]
      rw [execAll_cons h1, execAll_cons (exec_emit h _ _), execAll_nil]
    simp [execAll_cons h0, execAll_nil, hs]

theorem exec_copyField {f : FieldD} {ty : FieldTy} (h : HasField cls f ty) (hf : HasSetter cls f) (hm : isMsg ty = false) (n : Nat) (s : Objects) :
    execOne lib cls (callFn lib cls (n + 1)) otherLocals (.expr (.call1 [set' (cap f)] (oth f.prop))) s =
      .ok (none, putIf lib f ty (s.other (mem' f.prop)) s) := by
  have h1 : ([set' (cap f)] = moveFn) = False := by simp [moveFn]
  have h2 : ([set' (cap f)] = equalFn) = False := by simp [equalFn]
  have hv : readValue lib cls s (.place (.member .other (mem' f.prop))) = .ok (.inl (ty, s.other (mem' f.prop))) := by
    simp [readValue, h.type, Objects.get]
  have hc : callFn lib cls (n + 1) (set' (cap f)) (.place (.member .other (mem' f.prop))) s = .ok (.void, putIf lib f ty (s.other (mem' f.prop)) s) := by
    rw [callFn, hf]
    exact run_setter h hm hv (by simp)
  simp [execOne, eval, eval_oth h, h1, h2, hc]

/-! ### What is done with a field -/

/-- The members and signals of a field afterwards. -/
def apply (f : FieldD) (r : Moved) (s : Objects) : Objects :=
  { this := fun y => if y = mem' f.prop then r.target else s.this y
    other := fun y => if y = mem' f.prop then r.source else s.other y
    log := s.log ++ (if r.targetSignal then [(.this, sig' f.prop)] else []) ++ (if r.sourceSignal then [(.other, sig' f.prop)] else []) }

theorem upd_same (g : Text → Val) (x : Text) : (fun y => if y = x then g x else g y) = g := by
  funext y; by_cases h : y = x <;> simp [h]

theorem apply_same (f : FieldD) (s : Objects) : apply f ⟨s.this (mem' f.prop), s.other (mem' f.prop), false, false⟩ s = s := by
  simp [apply, upd_same]

/-- Statements do this with a field. -/
def Does (lib : Lib) (cls : Cls) (call : Text → Rt → Objects → Res (Rt × Objects)) (f : FieldD) (ss : List Stmt) (g : Val → Val → Res Moved) : Prop :=
  ∀ s rest, execAll lib cls call otherLocals (ss ++ rest) s =
    (g (s.this (mem' f.prop)) (s.other (mem' f.prop))).bind fun r => execAll lib cls call otherLocals rest (apply f r s)

theorem does_one {f : FieldD} {t : Stmt} {g : Val → Val → Res Moved} (h : ∀ s, execOne lib cls call otherLocals t s =
    (g (s.this (mem' f.prop)) (s.other (mem' f.prop))).bind fun r => .ok (none, apply f r s)) : Does lib cls call f [t] g := by
  intro s rest
  rw [List.cons_append, List.nil_append, execAll, h]
  cases g (s.this (mem' f.prop)) (s.other (mem' f.prop)) <;> rfl

/-- A copy through the setter. -/
def setVal (lib : Lib) (ty : FieldTy) (a b : Val) : Moved := ⟨if lib.same ty a b then a else b, b, !lib.same ty a b, false⟩

theorem putIf_apply (f : FieldD) (ty : FieldTy) (s : Objects) :
    putIf lib f ty (s.other (mem' f.prop)) s = apply f (setVal lib ty (s.this (mem' f.prop)) (s.other (mem' f.prop))) s := by
  unfold putIf setVal
  by_cases h : lib.same ty (s.this (mem' f.prop)) (s.other (mem' f.prop)) = true
  · simp [h, apply_same]
  · simp [h, apply, upd_same, Objects.set, Objects.emit]

theorem does_copyField {f : FieldD} {ty : FieldTy} (h : HasField cls f ty) (hf : HasSetter cls f) (hm : isMsg ty = false) (n : Nat) :
    Does lib cls (callFn lib cls (n + 1)) f [.expr (.call1 [set' (cap f)] (oth f.prop))] (fun a b => .ok (setVal lib ty a b)) :=
  does_one fun s => by rw [exec_copyField h hf hm, putIf_apply]; rfl

theorem read_member {f : FieldD} {ty : FieldTy} (h : HasField cls f ty) (w : Who) (s : Objects) :
    readValue lib cls s (.place (.member w (mem' f.prop))) = .ok (.inl (ty, s.get w (mem' f.prop))) := by
  simp [readValue, h.type]

theorem read_content {f : FieldD} {m : Nat} (h : HasField cls f (.msg m)) (w : Who) (s : Objects) :
    readValue lib cls s (.place (.content w (mem' f.prop))) = .ok (.inr (m, behind lib m (s.get w (mem' f.prop)))) := by
  simp [readValue, h.type]

theorem compare_members {f : FieldD} {ty : FieldTy} (h : HasField cls f ty) (hm : isMsg ty = false) (s : Objects) :
    compareValues lib cls s (.place (.member .this (mem' f.prop))) (.place (.member .other (mem' f.prop))) =
      .ok (lib.same ty (s.this (mem' f.prop)) (s.other (mem' f.prop))) :=
  compare_plain hm (read_member h .this s) (read_member h .other s)

theorem compare_lazy {f : FieldD} {m : Nat} (h : HasField cls f (.msg m)) (s : Objects) :
    compareValues lib cls s (.place (.member .this (mem' f.prop))) (.place (.member .other (mem' f.prop))) =
      lib.lazy m (s.this (mem' f.prop)) (s.other (mem' f.prop)) := by
  unfold compareValues
  simp [read_member h, Objects.get]

theorem compare_contents {f : FieldD} {m : Nat} (h : HasField cls f (.msg m)) (s : Objects) :
    compareValues lib cls s (.place (.content .this (mem' f.prop))) (.place (.content .other (mem' f.prop))) =
      lib.equal m (behind lib m (s.this (mem' f.prop))) (behind lib m (s.other (mem' f.prop))) := by
  unfold compareValues
  simp [read_content h, Objects.get]

theorem eval_differ {f : FieldD} {ty : FieldTy} (h : HasField cls f ty) (s : Objects) {r : Res Bool}
    (hr : compareValues lib cls s (.place (.member .this (mem' f.prop))) (.place (.member .other (mem' f.prop))) = r) :
    eval lib cls call otherLocals (differ f.prop) s = (r.bind fun r => .ok (!r)).bind fun r => .ok (.bool r, s) := by
  unfold differ
  rw [eval_ne (eval_own_other h s) (eval_oth h s) hr]
  cases r <;> rfl

/-- A message: what happens when the lazy pointers differ. -/
def msgVal (lib : Lib) (m : Nat) (g : Obj → Obj → Res Moved) (a b : Val) : Res Moved := do
  let same ← lib.lazy m a b
  if same then .ok ⟨a, b, false, false⟩ else g (behind lib m a) (behind lib m b)

theorem does_message {f : FieldD} {m : Nat} (h : HasField cls f (.msg m)) {body : List Stmt} {g : Val → Val → Obj → Obj → Res Moved}
    (hb : ∀ s, execAll lib cls call otherLocals body s = (g (s.this (mem' f.prop)) (s.other (mem' f.prop))
      (behind lib m (s.this (mem' f.prop))) (behind lib m (s.other (mem' f.prop)))).bind
      fun r => .ok (none, apply f r s)) : Does lib cls call f [.cond (differ f.prop) body] (fun a b => msgVal lib m (g a b) a b) :=
  does_one fun s => by
    rw [exec_cond (eval_differ h s (compare_lazy h s)), hb]
    unfold msgVal
    simp only [Res.bind_eq]
    cases lib.lazy m (s.this (mem' f.prop)) (s.other (mem' f.prop)) with
    | ok b => cases b <;> simp [apply_same]
    | _ => rfl

theorem does_complex {f : FieldD} {ty : FieldTy} (h : HasField cls f ty) (hm : isMsg ty = false) {body : List Stmt} {g : Val → Val → Moved}
    (hb : ∀ s, execAll lib cls call otherLocals body s = .ok (none, apply f (g (s.this (mem' f.prop)) (s.other (mem' f.prop))) s)) :
    Does lib cls call f [.cond (differ f.prop) body] (fun a b => .ok (if lib.same ty a b then ⟨a, b, false, false⟩ else g a b)) :=
  does_one fun s => by
    rw [exec_cond (eval_differ h s (compare_members h hm s)), hb]
    by_cases hs : lib.same ty (s.this (mem' f.prop)) (s.other (mem' f.prop)) = true
    · simp [hs, apply_same]
    · simp [hs]

theorem exec_assignContent {f : FieldD} {m : Nat} (h : HasField cls f (.msg m)) (s : Objects) :
    execOne lib cls call otherLocals (.assign (.deref (own' f.prop)) (.deref (oth f.prop))) s =
      (lib.assign m (behind lib m (s.this (mem' f.prop))) (behind lib m (s.other (mem' f.prop)))).bind
        fun o => .ok (none, s.set .this (mem' f.prop) (.msg o)) := by
  rw [exec_assign (eval_deref (eval_own_other h s)) (eval_deref (eval_oth h s))]
  unfold assignValue
  simp only [read_content h, Res.bind_eq, Res.bind, h.type, if_true, Objects.get]
  cases lib.assign m (behind lib m (s.this (mem' f.prop))) (behind lib m (s.other (mem' f.prop))) <;> rfl

theorem eval_move {locals : List (Text × Rt)} {a : Expr} {s : Objects} {p : Place} (ha : eval lib cls call locals a s = .ok (.place p, s)) :
    eval lib cls call locals (.call1 moveFn a) s = .ok (.moved p, s) := by
  rw [eval]; simp [ha]

theorem exec_moveContent {f : FieldD} {m : Nat} (h : HasField cls f (.msg m)) (s : Objects) :
    execOne lib cls call otherLocals (.assign (.deref (own' f.prop)) (.call1 moveFn (.deref (oth f.prop)))) s =
      (lib.move m (behind lib m (s.this (mem' f.prop))) (behind lib m (s.other (mem' f.prop)))).bind
        fun r => .ok (none, (s.set .this (mem' f.prop) (.msg r.1)).set .other (mem' f.prop) (.msg r.2)) := by
  rw [exec_assign (eval_deref (eval_own_other h s)) (eval_move (eval_deref (eval_oth h s)))]
  unfold assignValue
  simp only [h.type, Objects.get]
  simp only [Res.bind_eq, true_and, ne_eq, reduceCtorEq, not_false_eq_true, if_true]
  cases lib.move m (behind lib m (s.this (mem' f.prop))) (behind lib m (s.other (mem' f.prop))) <;> rfl

theorem exec_moveMember {f : FieldD} {ty : FieldTy} (h : HasField cls f ty) (hm : isMsg ty = false) (s : Objects) :
    execOne lib cls call otherLocals (.assign (own' f.prop) (.call1 moveFn (oth f.prop))) s =
      .ok (none, (s.set .this (mem' f.prop) (s.other (mem' f.prop))).set .other (mem' f.prop)
        (lib.left ty (s.this (mem' f.prop)) (s.other (mem' f.prop)))) := by
  rw [exec_assign (eval_own_other h s) (eval_move (eval_oth h s))]
  unfold assignValue
  simp only [h.type, Objects.get]
  cases ty <;> first | (simp [isMsg] at hm; done) | simp

theorem does_assignMessage {f : FieldD} {m : Nat} (h : HasField cls f (.msg m)) :
    Does lib cls call f [.cond (differ f.prop) [.assign (.deref (own' f.prop)) (.deref (oth f.prop)), emit f.prop]]
      (fun a b => msgVal lib m (fun x y => (lib.assign m x y).bind fun o => .ok ⟨.msg o, b, true, false⟩) a b) :=
  does_message (g := fun a b x y => (lib.assign m x y).bind fun o => .ok ⟨.msg o, b, true, false⟩) h fun s => by
    rw [execAll, exec_assignContent h]
    cases lib.assign m (behind lib m (s.this (mem' f.prop))) (behind lib m (s.other (mem' f.prop))) with
    | ok o =>
      simp only [Res.bind_eq, Res.bind]
      rw [execAll_cons (exec_emit h _ _), execAll_nil]
      simp [apply, Objects.set, Objects.emit, upd_same]
    | _ => rfl

theorem does_copyMessage {f : FieldD} {m : Nat} (h : HasField cls f (.msg m)) :
    Does lib cls call f [.cond (differ f.prop) [.assign (.deref (own' f.prop)) (.deref (oth f.prop))]]
      (fun a b => msgVal lib m (fun x y => (lib.assign m x y).bind fun o => .ok ⟨.msg o, b, false, false⟩) a b) :=
  does_message (g := fun a b x y => (lib.assign m x y).bind fun o => .ok ⟨.msg o, b, false, false⟩) h fun s => by
    rw [execAll, exec_assignContent h]
    cases lib.assign m (behind lib m (s.this (mem' f.prop))) (behind lib m (s.other (mem' f.prop))) with
    | ok o =>
      simp only [Res.bind_eq, Res.bind]
      rw [execAll_nil]
      simp [apply, Objects.set, upd_same]
    | _ => rfl

theorem does_moveMessage {f : FieldD} {m : Nat} (h : HasField cls f (.msg m)) :
    Does lib cls call f [.cond (differ f.prop) [.assign (.deref (own' f.prop)) (.call1 moveFn (.deref (oth f.prop)))]]
      (fun a b => msgVal lib m (fun x y => (lib.move m x y).bind fun r => .ok ⟨.msg r.1, .msg r.2, false, false⟩) a b) :=
  does_message (g := fun a b x y => (lib.move m x y).bind fun r => .ok ⟨.msg r.1, .msg r.2, false, false⟩) h fun s => by
    rw [execAll, exec_moveContent h]
    cases lib.move m (behind lib m (s.this (mem' f.prop))) (behind lib m (s.other (mem' f.prop))) with
    | ok o =>
      simp only [Res.bind_eq, Res.bind]
      rw [execAll_nil]
      simp [apply, Objects.set]
    | _ => rfl

theorem does_moveAssignMessage {f : FieldD} {m : Nat} (h : HasField cls f (.msg m)) :
    Does lib cls call f [.cond (differ f.prop)
        [.assign (.deref (own' f.prop)) (.call1 moveFn (.deref (oth f.prop))), emit f.prop, emitOther f.prop]]
      (fun a b => msgVal lib m (fun x y => (lib.move m x y).bind fun r => .ok ⟨.msg r.1, .msg r.2, true, true⟩) a b) :=
  does_message (g := fun a b x y => (lib.move m x y).bind fun r => .ok ⟨.msg r.1, .msg r.2, true, true⟩) h fun s => by
    rw [execAll, exec_moveContent h]
    cases lib.move m (behind lib m (s.this (mem' f.prop))) (behind lib m (s.other (mem' f.prop))) with
    | ok o =>
      simp only [Res.bind_eq, Res.bind]
      rw [execAll_cons (exec_emit h _ _), execAll_cons (exec_emitOther h _), execAll_nil]
      simp [apply, Objects.set, Objects.emit]
    | _ => rfl

theorem does_moveComplex {f : FieldD} {ty : FieldTy} (h : HasField cls f ty) (hm : isMsg ty = false) :
    Does lib cls call f [.cond (differ f.prop) [.assign (own' f.prop) (.call1 moveFn (oth f.prop)), emit f.prop, emitOther f.prop]]
      (fun a b => .ok (if lib.same ty a b then ⟨a, b, false, false⟩ else ⟨b, lib.left ty a b, true, true⟩)) :=
  does_complex (g := fun a b => ⟨b, lib.left ty a b, true, true⟩) h hm fun s => by
    rw [execAll_cons (exec_moveMember h hm s), execAll_cons (exec_emit h _ _), execAll_cons (exec_emitOther h _), execAll_nil]
    simp [apply, Objects.set, Objects.emit]

theorem does_moveInit {f : FieldD} {ty : FieldTy} (h : HasField cls f ty) (hm : isMsg ty = false) :
    Does lib cls call f [.assign (own' f.prop) (.call1 moveFn (oth f.prop)), emitOther f.prop]
      (fun a b => .ok ⟨b, lib.left ty a b, false, true⟩) := fun s rest => by
  rw [List.cons_append, execAll_cons (exec_moveMember h hm s), List.cons_append, execAll_cons (exec_emitOther h _)]
  simp [apply, Objects.set, Objects.emit]

theorem does_moveEnum {f : FieldD} {ty : FieldTy} (h : HasField cls f ty) (hm : isMsg ty = false) :
    Does lib cls call f [.assign (own' f.prop) (oth f.prop)] (fun _ b => .ok ⟨b, b, false, false⟩) :=
  does_one fun s => by
    rw [exec_assign (eval_own_other h s) (eval_oth h s)]
    unfold assignValue
    simp only [read_member h, Res.bind_eq, Res.bind, h.type]
    cases ty <;> first | (simp [isMsg] at hm; done) | simp [apply, upd_same, Objects.set, Objects.get]

theorem does_moveField {f : FieldD} {k : Kind} {z : Scalar} (h : HasField cls f (.scalar k)) (hf : HasSetter cls f) (hz : zeroOf k = some z) (n : Nat) :
    Does lib cls (callFn lib cls (n + 1)) f
      [.expr (.call1 [set' (cap f)] (.call2 exchangeFn (oth f.prop) (.var (text! "0")))), emitOther f.prop]
      (fun a b => .ok ⟨if lib.same (.scalar k) a b then a else b, .sc z, !lib.same (.scalar k) a b, true⟩) := fun s rest => by
  have h1 : ([set' (cap f)] = moveFn) = False := by simp [moveFn]
  have h2 : ([set' (cap f)] = equalFn) = False := by simp [equalFn]
  have hz0 : eval lib cls (callFn lib cls (n + 1)) otherLocals (.var (text! "0")) s = .ok (.zero, s) := by
    simp [eval, nameValue, List.lookup]
  have hx : eval lib cls (callFn lib cls (n + 1)) otherLocals (.call2 exchangeFn (oth f.prop) (.var (text! "0"))) s =
      .ok (.data (.scalar k) (s.other (mem' f.prop)), s.set .other (mem' f.prop) (.sc z)) := by
    rw [eval]
    simp [eval_oth h, hz0, h.type, hz, Objects.get]
  have hv : readValue lib cls (s.set .other (mem' f.prop) (.sc z)) (.data (.scalar k) (s.other (mem' f.prop))) =
      .ok (.inl (.scalar k, s.other (mem' f.prop))) := rfl
  have hc : callFn lib cls (n + 1) (set' (cap f)) (.data (.scalar k) (s.other (mem' f.prop))) (s.set .other (mem' f.prop) (.sc z)) =
      .ok (.void, putIf lib f (.scalar k) (s.other (mem' f.prop)) (s.set .other (mem' f.prop) (.sc z))) := by
    rw [callFn, hf]
    exact run_setter h rfl hv (by simp)
  have he : execOne lib cls (callFn lib cls (n + 1)) otherLocals
      (.expr (.call1 [set' (cap f)] (.call2 exchangeFn (oth f.prop) (.var (text! "0"))))) s =
      .ok (none, putIf lib f (.scalar k) (s.other (mem' f.prop)) (s.set .other (mem' f.prop) (.sc z))) := by
    rw [execOne, eval]
    simp [hx, h1, h2, hc]
  rw [List.cons_append, execAll_cons he, List.cons_append, execAll_cons (exec_emitOther h _)]
  simp only [List.nil_append, Res.bind]
  congr 1
  unfold putIf
  by_cases hs : lib.same (.scalar k) (s.this (mem' f.prop)) (s.other (mem' f.prop)) = true
  · simp [hs, Objects.set, apply, Objects.emit, upd_same]
  · simp [hs, Objects.set, apply, Objects.emit]

end

end QtPb.TextProof
