import Verif.TextFields
import Verif.EncodeLemmas
/-
The functions of generated classes, run, and the models of objects agree. (Helpers for the theorems about generated sources.)
-/
set_option maxRecDepth 100000
namespace QtPb.TextProof
open QtPb.Gen QtPb.Gen.Text QtPb.Gen.Text.Spec QtPb.SpecCpp
open QtPb.Spec (HasTy WellTyped)

/-! ### The statements of a field -/

section
variable (c : Ctx)

def copyStmts (f : FieldD) : List Stmt :=
  if isPureMessage c.package f then [.cond (differ f.prop) [.assign (.deref (own' f.prop)) (.deref (oth f.prop))]]
  else [.expr (.call1 [set' (cap f)] (oth f.prop))]

def assignStmts (f : FieldD) : List Stmt :=
  if isPureMessage c.package f then [.cond (differ f.prop) [.assign (.deref (own' f.prop)) (.deref (oth f.prop)), emit f.prop]]
  else [.expr (.call1 [set' (cap f)] (oth f.prop))]

def moveStmts (pure other : List Stmt) (f : FieldD) : List Stmt :=
  if f.type == .message || f.type == .string || f.type == .bytes || f.repeated then
    (if isPureMessage c.package f then pure else other)
  else if f.type != .enum then [.expr (.call1 [set' (cap f)] (.call2 exchangeFn (oth f.prop) (.var (text! "0")))), emitOther f.prop]
  else [.assign (own' f.prop) (oth f.prop)]

def initStmts (f : FieldD) : List Stmt :=
  moveStmts c [.cond (differ f.prop) [.assign (.deref (own' f.prop)) (.call1 moveFn (.deref (oth f.prop)))]]
    [.assign (own' f.prop) (.call1 moveFn (oth f.prop)), emitOther f.prop] f

def moveAssignStmts (f : FieldD) : List Stmt :=
  moveStmts c [.cond (differ f.prop) [.assign (.deref (own' f.prop)) (.call1 moveFn (.deref (oth f.prop))), emit f.prop, emitOther f.prop]]
    [.cond (differ f.prop) [.assign (own' f.prop) (.call1 moveFn (oth f.prop)), emit f.prop, emitOther f.prop]] f

def retThis : Stmt := .ret (.deref (.var (text! "this")))

theorem reads_copy (m : Cur) : Reads (copyBody c m) (m.fields.flatMap (copyStmts c)) :=
  Reads.flatMap fun f _ => by
    unfold copyStmts
    split
    · exact reads_copyMessage _
    · exact reads_copyField _ _

theorem reads_assign (m : Cur) : Reads (assignBody c m) (m.fields.flatMap (assignStmts c) ++ [retThis]) :=
  (Reads.flatMap fun f _ => by
    unfold assignStmts
    split
    · exact reads_assignMessage _
    · exact reads_copyField _ _).append reads_return

theorem reads_moveOf {pure other : Text → List Lexeme} {p q : List Stmt} (f : FieldD) (hp : Reads (pure f.prop) p) (hq : Reads (other f.prop) q) :
    Reads (moveOf c pure other f) (moveStmts c p q f) := by
  unfold moveOf moveStmts
  split
  · split
    · exact hp
    · exact hq
  · split
    · exact reads_moveField _ _
    · exact reads_moveEnum _

theorem reads_move (m : Cur) : Reads (moveBody c m) (m.fields.flatMap (initStmts c)) :=
  Reads.flatMap fun f _ => reads_moveOf c f (reads_moveMessage _) (reads_moveInit _)

theorem reads_moveAssign (m : Cur) : Reads (moveAssignBody c m) (m.fields.flatMap (moveAssignStmts c) ++ [retThis]) :=
  (Reads.flatMap fun f _ => reads_moveOf c f (reads_moveAssignMessage _) (reads_moveComplex _)).append reads_return

end

/-! ### What they do -/

section
variable {lib : Lib} {cls : Cls} {c : Ctx}

/-- A field that is read and has a setter. -/
structure FieldOk (c : Ctx) (cls : Cls) (f : FieldD) (ty : FieldTy) : Prop where
  has : HasField cls f ty
  setter : isMsg ty = false → HasSetter cls f
  noQt : isQtType c.package f = false
  fit : fits f ty = true

/-- Assignment of a field; `all`: messages emit signals. -/
def assignG (lib : Lib) (all : Bool) (ty : FieldTy) (a b : Val) : Res Moved :=
  match ty with
  | .msg m => msgVal lib m (fun x y => (lib.assign m x y).bind fun o => .ok ⟨.msg o, b, all, false⟩) a b
  | ty => .ok (setVal lib ty a b)

/-- Move of a field; `all`: with comparison and signals. -/
def moveG (lib : Lib) (all : Bool) (ty : FieldTy) (a b : Val) : Res Moved :=
  match ty with
  | .msg m => msgVal lib m (fun x y => (lib.move m x y).bind fun r => .ok ⟨.msg r.1, .msg r.2, all, all⟩) a b
  | .enum => .ok ⟨b, b, false, false⟩
  | ty =>
    if movedWhole ty then
      .ok (if all then (if lib.same ty a b then ⟨a, b, false, false⟩ else ⟨b, lib.left ty a b, true, true⟩) else ⟨b, lib.left ty a b, false, true⟩)
    else .ok ⟨if lib.same ty a b then a else b, defaultVal ty, !lib.same ty a b, true⟩

theorem does_copy {f : FieldD} {ty : FieldTy} (h : FieldOk c cls f ty) (n : Nat) :
    Does lib cls (callFn lib cls (n + 1)) f (copyStmts c f) (assignG lib false ty) := by
  unfold copyStmts
  rw [pure_fits h.noQt h.fit]
  cases ty with
  | msg m => exact does_copyMessage h.has
  | _ => exact does_copyField h.has (h.setter rfl) rfl n

theorem does_assign {f : FieldD} {ty : FieldTy} (h : FieldOk c cls f ty) (n : Nat) :
    Does lib cls (callFn lib cls (n + 1)) f (assignStmts c f) (assignG lib true ty) := by
  unfold assignStmts
  rw [pure_fits h.noQt h.fit]
  cases ty with
  | msg m => exact does_assignMessage h.has
  | _ => exact does_copyField h.has (h.setter rfl) rfl n

theorem whole_fits {f : FieldD} {ty : FieldTy} (hf : fits f ty = true) :
    (f.type == .message || f.type == .string || f.type == .bytes || f.repeated) = (isMsg ty || movedWhole ty) := by
  cases ty with
  | scalar k => cases k <;> simp [fits, protoType] at hf <;> simp [hf, isMsg, movedWhole]
  | list k => cases k <;> simp [fits, protoType] at hf <;> simp [hf, isMsg, movedWhole]
  | _ => simp [fits] at hf <;> simp [hf, isMsg, movedWhole]

theorem does_moves {f : FieldD} {ty : FieldTy} (h : FieldOk c cls f ty) (n : Nat) (all : Bool) {p q : List Stmt}
    (hp : ∀ m, ty = .msg m → Does lib cls (callFn lib cls (n + 1)) f p (moveG lib all ty))
    (hq : isMsg ty = false → movedWhole ty = true → Does lib cls (callFn lib cls (n + 1)) f q (moveG lib all ty)) :
    Does lib cls (callFn lib cls (n + 1)) f (moveStmts c p q f) (moveG lib all ty) := by
  unfold moveStmts
  rw [pure_fits h.noQt h.fit, whole_fits h.fit]
  cases ty with
  | msg m => exact hp m rfl
  | list k => exact hq rfl rfl
  | enumList => exact hq rfl rfl
  | msgList m => exact hq rfl rfl
  | map a b => exact hq rfl rfl
  | enum =>
    have : f.type = .enum := by have := h.fit; simp [fits] at this; exact this.2
    simp only [isMsg, movedWhole, Bool.or_self, Bool.false_eq_true, if_false, this, bne_self_eq_false]
    exact does_moveEnum h.has rfl
  | scalar k =>
    have hk : f.type = protoType k := by have := h.fit; simp [fits] at this; exact this.2
    have hs := h.setter rfl
    by_cases hw : movedWhole (.scalar k) = true
    · simp only [isMsg, hw, Bool.or_true, if_true, Bool.false_eq_true, if_false]; exact hq rfl hw
    · have hz : zeroOf k = some (defaultScalar k) ∧ (f.type != .enum) = true := by
        rw [hk]; cases k <;> simp_all [movedWhole, zeroOf, defaultScalar, protoType]
      simp only [isMsg, hw, Bool.or_self, Bool.false_eq_true, if_false, hz.2, if_true]
      have := does_moveField (lib := lib) h.has hs hz.1 n
      have e : moveG lib all (.scalar k) = fun a b =>
          .ok ⟨if lib.same (.scalar k) a b then a else b, .sc (defaultScalar k), !lib.same (.scalar k) a b, true⟩ := by
        funext a b; simp only [moveG, hw]; rfl
      rw [e]; exact this

theorem does_init {f : FieldD} {ty : FieldTy} (h : FieldOk c cls f ty) (n : Nat) :
    Does lib cls (callFn lib cls (n + 1)) f (initStmts c f) (moveG lib false ty) :=
  does_moves h n false (fun m e => by subst e; exact does_moveMessage h.has) fun hm hw => by
    have := does_moveInit (lib := lib) (call := callFn lib cls (n + 1)) h.has hm
    have e : moveG lib false ty = fun a b => .ok ⟨b, lib.left ty a b, false, true⟩ := by
      funext a b; cases ty <;> simp_all [moveG, movedWhole, isMsg]
    rw [e]; exact this

theorem does_moveAssign {f : FieldD} {ty : FieldTy} (h : FieldOk c cls f ty) (n : Nat) :
    Does lib cls (callFn lib cls (n + 1)) f (moveAssignStmts c f) (moveG lib true ty) :=
  does_moves h n true (fun m e => by subst e; exact does_moveAssignMessage h.has) fun hm hw => by
    have := does_moveComplex (lib := lib) (call := callFn lib cls (n + 1)) h.has hm
    have e : moveG lib true ty = fun a b => .ok (if lib.same ty a b then ⟨a, b, false, false⟩ else ⟨b, lib.left ty a b, true, true⟩) := by
      funext a b; cases ty <;> simp_all [moveG, movedWhole, isMsg]
    rw [e]; exact this

/-! ### Bodies -/

theorem eval_this {param : Text} {v : Rt} (hp : param ≠ text! "this") {call : Text → Rt → Objects → Res (Rt × Objects)} (s : Objects) :
    execAll lib cls call [(param, v)] [retThis] s = .ok (some (.object .this), s) := by
  have l : List.lookup (text! "this") [(param, v)] = none := by
    have : ((text! "this") == param) = false := by simpa using fun e => hp e.symm
    simp only [List.lookup, this]
  simp only [retThis]
  rw [execAll, execOne, eval, eval, nameValue, l]
  rfl

/-- What is seen after a body that treats field by field. -/
def seenOf (names : List Text) (r : Res (List Moved)) : Res (Obj × Obj × List (Who × Text)) :=
  r.bind fun rs => .ok (rs.map Moved.target, rs.map Moved.source, moveSignals names rs)

theorem lookup_zip_map {names : List Text} : ∀ {o : Obj}, names.Nodup → o.length = names.length → names.map (membersWith names o) = o := by
  intro o hn hl
  induction names generalizing o with
  | nil => cases o <;> simp_all
  | cons x names ih =>
    cases o with
    | nil => simp at hl
    | cons v o =>
      rw [List.nodup_cons] at hn
      have h1 : membersWith (x :: names) (v :: o) x = v := by simp [membersWith, List.lookup]
      have h2 : names.map (membersWith (x :: names) (v :: o)) = names.map (membersWith names o) := List.map_congr_left fun y hy => by
        have : (y == x) = false := by simpa using fun (e : y = x) => hn.1 (e ▸ hy)
        simp only [membersWith, List.zip_cons_cons, List.lookup, this]
      rw [List.map_cons, h1, h2, ih hn.2 (by simpa using hl)]

/-- The name of the parameter of functions that copy. -/
def paramName (m : Cur) : Text := if m.fields.isEmpty then [] else text! "other"

/-- A class that was read from the text generated for a message. -/
structure IsClass (c : Ctx) (m : Cur) (fs : List QtPb.Field) (p : ClassText) : Prop where
  len : m.fields.length = fs.length
  members : p.members = (m.fields.zip fs).map fun x => (mem' x.1.prop, x.2.ty)
  fit : ∀ x ∈ m.fields.zip fs, fits x.1 x.2.ty = true
  noQt : ∀ f ∈ m.fields, isQtType c.package f = false
  nodup : (m.fields.map fun f => mem' f.prop).Nodup
  signals : ∀ f ∈ m.fields, sig' f.prop ∈ p.signals
  setters : ∀ x ∈ m.fields.zip fs, isMsg x.2.ty = false → HasSetter p.cls x.1
  equal : p.functions.find? (·.1 == text! "operator==") = some (text! "operator==", paramName m, equalBody c m)
  notEqual : p.functions.find? (·.1 == text! "operator!=") = some (text! "operator!=", text! "other", Src.notEqualBody)
  assign : p.assign = (paramName m, assignBody c m)
  moveAssign : p.moveAssign = (paramName m, moveAssignBody c m)
  copy : p.copy = (paramName m, copyBody c m)
  move : p.move = (paramName m, moveBody c m)

theorem lookup_nodup {α : Type} {β : Type} [BEq β] [LawfulBEq β] {l : List (β × α)} (hn : (l.map (·.1)).Nodup) {x : β × α} (hx : x ∈ l) : l.lookup x.1 = some x.2 := by
  induction l with
  | nil => cases hx
  | cons y l ih =>
    rw [List.map_cons, List.nodup_cons] at hn
    rcases List.mem_cons.1 hx with rfl | hx
    · simp [List.lookup]
    · have : (x.1 == y.1) = false := by simpa using fun (e : x.1 = y.1) => hn.1 (e ▸ List.mem_map.2 ⟨x, hx, rfl⟩)
      simp only [List.lookup, this]
      exact ih hn.2 hx

section
variable {m : Cur} {fs : List QtPb.Field} {p : ClassText}

theorem IsClass.fst (h : IsClass c m fs p) : (m.fields.zip fs).map (·.1) = m.fields :=
  List.map_fst_zip (by rw [h.len]; exact Nat.le_refl _)

theorem IsClass.snd (h : IsClass c m fs p) : (m.fields.zip fs).map (·.2) = fs :=
  List.map_snd_zip (by rw [h.len]; exact Nat.le_refl _)

theorem IsClass.names (h : IsClass c m fs p) : p.names = m.fields.map fun f => mem' f.prop := by
  unfold ClassText.names
  rw [h.members, List.map_map]
  conv => rhs; rw [← h.fst, List.map_map]
  rfl

theorem IsClass.field (h : IsClass c m fs p) {x : FieldD × QtPb.Field} (hx : x ∈ m.fields.zip fs) : FieldOk c p.cls x.1 x.2.ty := by
  have hf : x.1 ∈ m.fields := by rw [← h.fst]; exact List.mem_map.2 ⟨x, hx, rfl⟩
  refine ⟨⟨?_, h.signals _ hf⟩, h.setters _ hx, h.noQt _ hf, h.fit _ hx⟩
  have hn := h.nodup
  rw [← h.names] at hn
  exact lookup_nodup (x := (mem' x.1.prop, x.2.ty)) hn (by rw [h.members]; exact List.mem_map.2 ⟨x, hx, rfl⟩)

theorem IsClass.values (h : IsClass c m fs p) {a : Obj} (ha : a.length = fs.length) :
    ((m.fields.zip fs).map fun x => membersWith p.names a (mem' x.1.prop)) = a := by
  have := lookup_zip_map (names := p.names) (o := a) (by rw [h.names]; exact h.nodup) (by rw [h.names]; simp [ha, h.len])
  conv at this => lhs; rw [show p.names.map (membersWith p.names a) = (m.fields.map fun f => mem' f.prop).map (membersWith p.names a) by rw [← h.names],
    ← h.fst, List.map_map, List.map_map]
  exact this

theorem run_fields (h : IsClass c m fs p) {body : List Lexeme} {ss : FieldD → List Stmt} {tail : List Stmt} (ht : tail = [] ∨ tail = [retThis])
    (hr : Reads body (m.fields.flatMap ss ++ tail)) {g : FieldTy → Val → Val → Res Moved}
    (hd : ∀ x ∈ m.fields.zip fs, Does lib p.cls (callFn lib p.cls callDepth) x.1 (ss x.1) (g x.2.ty)) {a b : Obj} (ha : a.length = fs.length)
    (hb : b.length = fs.length) :
    p.seen (p.run lib (paramName m, body) a b) = seenOf (m.fields.map fun f => sig' f.prop) (eachField g (fs.map (·.ty)) a b) := by
  have htail : ∀ (param : Text) (s : Objects), param ≠ text! "this" →
      (execAll lib p.cls (callFn lib p.cls callDepth) [(param, .object .other)] tail s).bind (fun r => .ok (r.1.getD .void, r.2)) =
        .ok (if tail = [] then .void else .object .this, s) := by
    intro param s hp
    rcases ht with rfl | rfl
    · rw [execAll]; rfl
    · rw [eval_this hp]; rfl
  unfold ClassText.run runBody
  rw [hr.stmts]
  simp only [Res.bind_eq]
  by_cases he : m.fields = []
  · have hfs : fs = [] := by have := h.len; rw [he] at this; simpa using this.symm
    subst hfs
    have e1 : a = [] := by simpa using ha
    have e2 : b = [] := by simpa using hb
    subst e1; subst e2
    rw [he, List.flatMap_nil, List.nil_append, htail _ _ (by unfold paramName; rw [he]; decide)]
    simp [ClassText.seen, Res.bind, h.names, he, valuesOf, seenOf, eachField, moveSignals, ClassText.objects]
  · have hp : paramName m = text! "other" := by
      unfold paramName; cases hm : m.fields with
      | nil => exact absurd hm he
      | cons x l => rfl
    rw [hp]
    have hfm : m.fields.flatMap ss = ((m.fields.zip fs).map fun x => (x.1, x.2.ty)).flatMap fun x => ss x.1 := by
      conv => lhs; rw [← h.fst]
      rw [List.flatMap_map, List.flatMap_map]
    have key := execFields (lib := lib) (cls := p.cls) (call := callFn lib p.cls callDepth) (ss := ss) (g := g)
      ((m.fields.zip fs).map fun x => (x.1, x.2.ty))
      (by intro x hx; obtain ⟨y, hy, rfl⟩ := List.mem_map.1 hx; exact hd y hy)
      (by rw [List.map_map]; have := h.nodup; rw [← h.fst, List.map_map] at this; exact this)
      (p.objects a b) tail
    rw [hfm, key]
    simp only [List.map_map]
    have v1 : List.map ((fun p_1 => (p.objects a b).this (mem' p_1.1.prop)) ∘ fun (x : FieldD × QtPb.Field) => (x.1, x.2.ty)) (m.fields.zip fs) = a :=
      h.values ha
    have v2 : List.map ((fun p_1 => (p.objects a b).other (mem' p_1.1.prop)) ∘ fun (x : FieldD × QtPb.Field) => (x.1, x.2.ty)) (m.fields.zip fs) = b :=
      h.values hb
    have v3 : List.map ((·.2) ∘ fun (x : FieldD × QtPb.Field) => (x.1, x.2.ty)) (m.fields.zip fs) = fs.map (·.ty) := by
      conv => rhs; rw [← h.snd, List.map_map]
      rfl
    have v4 : List.map ((·.1) ∘ fun (x : FieldD × QtPb.Field) => (x.1, x.2.ty)) (m.fields.zip fs) = m.fields := h.fst
    rw [v1, v2, v3, v4]
    cases hg : eachField g (fs.map (·.ty)) a b with
    | ok rs =>
      simp only [Res.bind]
      have := htail (text! "other") (applyAll m.fields rs (p.objects a b)) (by decide)
      simp only [Res.bind] at this
      rw [this]
      have hl := eachField_length (by simp [ha]) (by simp [hb]) hg
      have av := applyAll_values m.fields rs (p.objects a b) h.nodup (by rw [hl, List.length_map, h.len])
      simp only [ClassText.seen, Res.bind, h.names, valuesOf, List.map_map, seenOf, Res.ok.injEq, Prod.mk.injEq]
      exact ⟨av.1, av.2.1, by rw [av.2.2]; rfl⟩
    | _ => rfl

theorem run_copy (h : IsClass c m fs p) {a b : Obj} (ha : a.length = fs.length) (hb : b.length = fs.length) :
    p.seen (p.run lib p.copy a b) = seenOf (m.fields.map fun f => sig' f.prop) (eachField (assignG lib false) (fs.map (·.ty)) a b) := by
  rw [h.copy]
  exact run_fields h (Or.inl rfl) (by rw [List.append_nil]; exact reads_copy c m) (fun x hx => does_copy (h.field hx) 1) ha hb

theorem run_assign (h : IsClass c m fs p) {a b : Obj} (ha : a.length = fs.length) (hb : b.length = fs.length) :
    p.seen (p.run lib p.assign a b) = seenOf (m.fields.map fun f => sig' f.prop) (eachField (assignG lib true) (fs.map (·.ty)) a b) := by
  rw [h.assign]
  exact run_fields h (Or.inr rfl) (reads_assign c m) (fun x hx => does_assign (h.field hx) 1) ha hb

theorem run_init (h : IsClass c m fs p) {a b : Obj} (ha : a.length = fs.length) (hb : b.length = fs.length) :
    p.seen (p.run lib p.move a b) = seenOf (m.fields.map fun f => sig' f.prop) (eachField (moveG lib false) (fs.map (·.ty)) a b) := by
  rw [h.move]
  exact run_fields h (Or.inl rfl) (by rw [List.append_nil]; exact reads_move c m) (fun x hx => does_init (h.field hx) 1) ha hb

theorem run_moveAssign (h : IsClass c m fs p) {a b : Obj} (ha : a.length = fs.length) (hb : b.length = fs.length) :
    p.seen (p.run lib p.moveAssign a b) = seenOf (m.fields.map fun f => sig' f.prop) (eachField (moveG lib true) (fs.map (·.ty)) a b) := by
  rw [h.moveAssign]
  exact run_fields h (Or.inr rfl) (reads_moveAssign c m) (fun x hx => does_moveAssign (h.field hx) 1) ha hb

end

end

end QtPb.TextProof
