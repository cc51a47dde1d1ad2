import Verif.TextSetters
import Verif.PropsEq
import Verif.PropsMove
/-
C96: what the functions of generated classes do, run from the text of generated headers and sources.

`SpecCpp.classOf` reads the members, signals and functions of a class from the text of a header and of a source; `ClassText.run`,
`callBool` and `callSetter` read the statements of a function and run them on objects. Neither knows the generator. What is expected of the
results (`Same`, `Mirrors`) is stated in SpecEq.lean.
-/
set_option maxRecDepth 100000

namespace QtPb.Gen.Text
open QtPb.SpecCpp QtPb.Gen.Text.Spec QtPb.TextProof
open QtPb.Spec (HasTy WellTyped Safe Plain Same Mirrors NoMessageMaps ComparableSubs targets sources)

/-- Lists of pointers that compare equal hold the same pointers. -/
def Spec.Pointers (q : Containers) : Prop := ∀ a b, q.samePtrs a b = true → a = b

/-! ### Classes -/

/-- C96: for every message of a file with plain names the header and the source are printed, and its class is found in them: a member for
every field, in their order, and its signal. Missing: names that are not plain. -/
theorem C96_class_partial {u : Sources} (hu : u.Plain) {b : Printed × List FieldD} (hb : b ∈ u.bodies) {fs : List QtPb.Field} (hr : Represents u.c b.2 fs) :
    ∃ header source p, u.headerText = some header ∧ u.sourceText = some source ∧ SpecCpp.classOf header source b.1.cpp (fs.map (·.ty)) = some p ∧
      p.members = (b.2.zip fs).map (fun x => (SpecCpp.memberName x.1, x.2.ty)) ∧ p.changed = b.2.map signalName ∧
      ∀ f ∈ b.2, signalName f ∈ p.signals := by
  obtain ⟨header, source, p, h1, h2, h3, h4, -⟩ := class_of hu hb hr
  exact ⟨header, source, p, h1, h2, h3, h4.members, h4.signalNames, h4.signals⟩

/-- C96: messages that are in files with plain names make a program. -/
theorem C96_program_partial {env : Env} (h : ∀ k, ∃ (u : Sources) (b : Printed × List FieldD), u.Plain ∧ b ∈ u.bodies ∧ Represents u.c b.2 (env.sch k)) :
    ∃ prog, Generated env prog := by
  have : ∀ k, ∃ p : ClassText, ∃ (u : Sources) (b : Printed × List FieldD) (header source : Text), u.Plain ∧ b ∈ u.bodies ∧
      Represents u.c b.2 (env.sch k) ∧ u.headerText = some header ∧ u.sourceText = some source ∧
      SpecCpp.classOf header source b.1.cpp ((env.sch k).map (·.ty)) = some p := fun k => by
    obtain ⟨u, b, hu, hb, hr⟩ := h k
    obtain ⟨header, source, p, h1, h2, h3, -⟩ := class_of hu hb hr
    exact ⟨p, u, b, header, source, hu, hb, hr, h1, h2, h3⟩
  exact ⟨fun k => Classical.choose (this k), fun k => Classical.choose_spec (this k)⟩

section
variable {env : Env} {q : Containers} {prog : Nat → ClassText}

/-- The functions that are run and the models of objects agree. -/
theorem runs (hq : Spec.Pointers q) (hp : Generated env prog) (n k : Nat) {a b : Obj} (ha : WellTyped env k a) (hb : WellTyped env k b) :
    (prog k).callBool (libAt env q prog n) (text! "operator==") a b = objEq env (n + 1) k a b ∧
    (prog k).callBool (libAt env q prog n) (text! "operator!=") a b = objNe env (n + 1) k a b ∧
    (prog k).seen ((prog k).run (libAt env q prog n) (prog k).assign a b) =
      (QtPb.assign env (n + 1) k a b).bind (fun o => (changeSignals env q (objEq env n) true
        ((prog k).changed.zip ((env.sch k).map (·.ty))) a b).bind fun sg => .ok (o, b, sg)) ∧
    (prog k).seen ((prog k).run (libAt env q prog n) (prog k).copy a b) =
      (QtPb.assign env (n + 1) k a b).bind (fun o => (changeSignals env q (objEq env n) false
        ((prog k).changed.zip ((env.sch k).map (·.ty))) a b).bind fun sg => .ok (o, b, sg)) ∧
    (prog k).seen ((prog k).run (libAt env q prog n) (prog k).moveAssign a b) =
      seenOf (prog k).changed (QtPb.moveAssign env q (n + 1) k a b) ∧
    (prog k).seen ((prog k).run (libAt env q prog n) (prog k).move a b) =
      seenOf (prog k).changed (moveInitFields env q (lazyNe env n) (QtPb.moveAssign env q n) (env.sch k) a b) := by
  have h := agrees_run hq (isProgram hp) (libAt_agrees hq (isProgram hp) n) k ha hb
  rw [← libAt_from] at h
  exact h

theorem typed {k : Nat} {a : Obj} (h : Safe env (.msg k) (.msg a)) : WellTyped env k a := h.hasTy

/-! ### Comparison -/

/-- C96: every answer of the generated `==` and `!=` is right: `==` is true exactly for messages that are the same field by field, element by
element and entry by entry. -/
theorem C96_answer_right (hq : Spec.Pointers q) (hp : Generated env prog) {n k : Nat} {a b : Obj} (ha : Safe env (.msg k) (.msg a))
    (hb : Safe env (.msg k) (.msg b)) {r : Bool} :
    ((prog k).callBool (libAt env q prog n) (text! "operator==") a b = .ok r → (r = true ↔ Same env (.msg k) (.msg a) (.msg b))) ∧
    ((prog k).callBool (libAt env q prog n) (text! "operator!=") a b = .ok r → (r = true ↔ ¬ Same env (.msg k) (.msg a) (.msg b))) := by
  have h := runs hq hp n k (typed ha) (typed hb)
  rw [h.1, h.2.1]
  refine ⟨C24_answer_right ha hb, fun hr => ?_⟩
  have := C24_answer_right ha hb (C24_not_equal.1 hr)
  rw [← this]
  cases r <;> simp

/-- C96, comparison: without maps of messages the generated `==` and `!=` return, and their answers are right. Missing: maps of messages, see
`C96_message_map_violated`. -/
theorem C96_compare_partial (hq : Spec.Pointers q) (hp : Generated env prog) (hm : NoMessageMaps env) {k : Nat} {a b : Obj}
    (ha : Safe env (.msg k) (.msg a)) (hb : Safe env (.msg k) (.msg b)) :
    ∃ N r, (∀ n, N ≤ n → (prog k).callBool (libAt env q prog n) (text! "operator==") a b = .ok r ∧
        (prog k).callBool (libAt env q prog n) (text! "operator!=") a b = .ok (!r)) ∧
      (r = true ↔ Same env (.msg k) (.msg a) (.msg b)) := by
  obtain ⟨N, r, hN, hr⟩ := C24_decides_partial hm ha hb
  refine ⟨N, r, fun n hn => ?_, hr⟩
  have h := runs hq hp n k (typed ha) (typed hb)
  rw [h.1, h.2.1, C24_not_equal, Bool.not_not]
  exact ⟨hN _ (by omega), hN _ (by omega)⟩

/-! ### Signals of assignments -/

theorem signal_flags {n : Nat} {all : Bool} : ∀ {tys : List FieldTy} {names : List Text} {a b : Obj} {sg : List (Who × Text)}, names.length = tys.length →
    a.length = tys.length → b.length = tys.length → changeSignals env q (objEq env n) all (names.zip tys) a b = .ok sg →
    ∃ flags : List Bool, sg = emitted names flags ∧ flags.length = tys.length ∧ ∀ (i : Nat) (ty : FieldTy) (x y : Val) (d : Bool), tys[i]? = some ty →
      a[i]? = some x → b[i]? = some y → flags[i]? = some d →
      ∃ e, differs env q (objEq env n) ty x y = .ok e ∧ d = (e && (all || !SpecCpp.isMessage ty))
  | [], names, a, b, sg, h1, h2, h3, h => by
    have : names = [] := by simpa using h1
    subst this
    simp only [List.zip_nil_left, changeSignals, Res.ok.injEq] at h
    exact ⟨[], by rw [← h]; rfl, rfl, by simp⟩
  | ty :: tys, [], _, _, _, h1, _, _, _ => by simp at h1
  | ty :: tys, _ :: _, [], _, _, _, h2, _, _ => by simp at h2
  | ty :: tys, _ :: _, _ :: _, [], _, _, _, h3, _ => by simp at h3
  | ty :: tys, s :: names, x :: a, y :: b, sg, h1, h2, h3, h => by
    simp only [List.zip_cons_cons, changeSignals, Res.bind_eq] at h
    obtain ⟨e, he, h⟩ := Res.bind_eq_ok.1 h
    obtain ⟨r, hr, h⟩ := Res.bind_eq_ok.1 h
    obtain ⟨flags, f1, f2, f3⟩ := signal_flags (by simpa using h1) (by simpa using h2) (by simpa using h3) hr
    refine ⟨(e && (all || !SpecCpp.isMessage ty)) :: flags, ?_, by simp [f2], fun i ty' x' y' d ht hx hy hd => ?_⟩
    · rw [← Res.ok.inj h, f1]
      simp only [emitted, List.zip_cons_cons, List.flatMap_cons]
    · cases i with
      | zero =>
        simp only [List.getElem?_cons_zero, Option.some.injEq] at ht hx hy hd
        subst ht hx hy hd
        exact ⟨e, he, rfl⟩
      | succ i => exact f3 i ty' x' y' d (by simpa using ht) (by simpa using hx) (by simpa using hy) (by simpa using hd)

theorem assigned_field {neq : Nat → Val → Val → Res Bool} {rec : Nat → Obj → Obj → Res Obj} :
    ∀ {fs : List QtPb.Field} {c s r : Obj}, assignFields env neq rec fs c s = .ok r → ∀ (i : Nat) (f : QtPb.Field) (x y z : Val), fs[i]? = some f →
      c[i]? = some x → s[i]? = some y → r[i]? = some z → assignVal env neq rec f.ty x y = .ok z
  | [], _, _, _, _, i, f, x, y, z, hf, _, _, _ => by simp at hf
  | _ :: _, [], _, _, _, i, f, x, y, z, _, hx, _, _ => by simp at hx
  | _ :: _, _ :: _, [], _, _, i, f, x, y, z, _, _, hy, _ => by simp at hy
  | g :: fs, a :: c, b :: s, r, h, i, f, x, y, z, hf, hx, hy, hz => by
    simp only [assignFields, Res.bind_eq] at h
    obtain ⟨v, hv, h⟩ := Res.bind_eq_ok.1 h
    obtain ⟨r', hr, h⟩ := Res.bind_eq_ok.1 h
    cases h
    cases i with
    | zero =>
      simp only [List.getElem?_cons_zero, Option.some.injEq] at hf hx hy hz
      subst hf hx hy hz
      exact hv
    | succ i => exact assigned_field hr i f x y z (by simpa using hf) (by simpa using hx) (by simpa using hy) (by simpa using hz)

/-- A field that is assigned: whether its members differ. -/
theorem flag_right (hq : Spec.Pointers q) {n : Nat} {ty : FieldTy} {x y z : Val} {e : Bool} (hx : Safe env ty x) (hy : Safe env ty y)
    (hz : assignVal env (lazyNe env n) (QtPb.assign env n) ty x y = .ok z) (he : differs env q (objEq env n) ty x y = .ok e) :
    (e = false → z = x) ∧ (e = true → (∀ m, ty ≠ .msgList m) → (∀ kk m, ty ≠ .map kk (.msg m)) → ¬ Same env ty x y) := by
  have other : (∀ m, ty ≠ .msg m) → isMsg ty = false → writeVal ty x y = z → (!wholeEq q ty x y) = e →
      (e = false → z = x) ∧ (e = true → (∀ m, ty ≠ .msgList m) → (∀ kk m, ty ≠ .map kk (.msg m)) → ¬ Same env ty x y) := by
    intro hm hm' hz he
    have hw := write_eq hq ty x y hm'
    rw [hz] at hw
    refine ⟨fun h => ?_, fun h hl hmm hs => ?_⟩
    · rw [h, Bool.not_eq_false'] at he
      rw [he] at hw
      exact hw.symm
    · have hp := (plainEq_same hm hl hmm hx.hasTy hy.hasTy).2 hs
      have : wholeEq q ty x y = true := by
        unfold wholeEq
        split
        · exact absurd rfl (hl _)
        · exact absurd rfl (hmm _ _)
        · exact hp
      rw [this] at he
      rw [← he] at h
      simp at h
  cases ty with
  | msg m =>
    simp only [assignVal, lazyNe, Res.bind_eq] at hz
    simp only [differs] at he
    obtain ⟨r, hr, he⟩ := Res.bind_eq_ok.1 he
    rw [hr] at hz
    cases he
    have hsound := (lazyEq_dec hx hy).sound n r hr
    refine ⟨fun h => ?_, fun h _ _ hs => ?_⟩
    · have h : r = true := by simpa using h
      subst h
      simp [Res.bind] at hz
      exact hz.symm
    · rw [hsound.2 hs] at h
      simp at h
  | _ => exact other (by simp) rfl (by simpa [assignVal] using hz) (by simpa [differs] using he)

theorem safe_field {k : Nat} {a : Obj} (h : Safe env (.msg k) (.msg a)) {i : Nat} {f : QtPb.Field} {x : Val} (hf : (env.sch k)[i]? = some f)
    (hx : a[i]? = some x) : Safe env f.ty x := by
  cases h with
  | msg hl hi => exact hi i f x hf hx

/-- What an assignment that returns has done. -/
theorem assigned (hq : Spec.Pointers q) {n k : Nat} {all : Bool} {names : List Text} (hn : names.length = (env.sch k).length) {cur src r : Obj} (hc : Safe env (.msg k) (.msg cur))
    (hs : Safe env (.msg k) (.msg src)) (h : QtPb.assign env (n + 1) k cur src = .ok r) :
    ∃ flags : List Bool, (changeSignals env q (objEq env n) all (names.zip ((env.sch k).map (·.ty))) cur src).bind (fun sg => .ok (r, src, sg)) =
        .ok (r, src, emitted names flags) ∧ flags.length = names.length ∧
      ∀ (i : Nat) (f : QtPb.Field) (x y z : Val) (d : Bool), (env.sch k)[i]? = some f → cur[i]? = some x → src[i]? = some y → r[i]? = some z →
        flags[i]? = some d → (d = false → (all = true ∨ ∀ m, f.ty ≠ .msg m) → z = x) ∧
          (d = true → (∀ m, f.ty ≠ .msgList m) → (∀ kk m, f.ty ≠ .map kk (.msg m)) → ¬ Same env f.ty x y) := by
  obtain ⟨sg, hsg⟩ := changeSignals_ok (q := q) (all := all) (names := names) (n := n) h
  have l1 : cur.length = (env.sch k).length := (typed_of (typed hc)).1
  have l2 : src.length = (env.sch k).length := (typed_of (typed hs)).1
  obtain ⟨flags, f1, f2, f3⟩ := signal_flags (by simp [hn]) (by simp [l1]) (by simp [l2]) hsg
  refine ⟨flags, by rw [hsg, f1]; rfl, by simp [f2, hn], fun i f x y z d hf hx hy hz hd => ?_⟩
  obtain ⟨e, he, hde⟩ := f3 i f.ty x y d (by simp [hf]) hx hy hd
  have hv := assigned_field h i f x y z hf hx hy hz
  obtain ⟨r1, r2⟩ := flag_right hq (safe_field hc hf hx) (safe_field hs hf hy) hv he
  refine ⟨fun h0 hall => r1 ?_, fun h1 => r2 ?_⟩
  · rw [h0] at hde
    have hm : (all || !SpecCpp.isMessage f.ty) = true := by
      rcases hall with rfl | hall
      · rfl
      · have : SpecCpp.isMessage f.ty = false := by
          unfold SpecCpp.isMessage
          split
          · exact absurd ‹_› (hall _)
          · rfl
        simp [this]
    rw [hm, Bool.and_true] at hde
    exact hde.symm
  · rw [h1] at hde
    cases e
    · simp at hde
    · rfl

theorem changed_length (hp : Generated env prog) (k : Nat) : (prog k).changed.length = (env.sch k).length := by
  obtain ⟨c, m, h⟩ := isProgram hp k
  rw [show (prog k).changed = _ from h.signalNames, List.length_map, h.len]

/-- C96, assignment: without maps of messages the generated assignment returns; the target has the contents of the source, the source is
unchanged. A property whose signal is not emitted has kept its value, and a signal is emitted only if the values differ (lists of messages
are compared by address). Missing: maps of messages. -/
theorem C96_assign_partial (hq : Spec.Pointers q) (hp : Generated env prog) (hm : NoMessageMaps env) {k : Nat} {cur src : Obj}
    (hc : Safe env (.msg k) (.msg cur)) (hs : Safe env (.msg k) (.msg src)) :
    ∃ N, ∀ n, N ≤ n → ∃ r flags, (prog k).seen ((prog k).run (libAt env q prog n) (prog k).assign cur src) =
        .ok (r, src, emitted (prog k).changed flags) ∧ Mirrors env (.msg k) (.msg r) (.msg src) ∧ flags.length = (prog k).changed.length ∧
      ∀ (i : Nat) (f : QtPb.Field) (x y z : Val) (d : Bool), (env.sch k)[i]? = some f → cur[i]? = some x → src[i]? = some y → r[i]? = some z →
        flags[i]? = some d → (d = false → z = x) ∧ (d = true → (∀ m, f.ty ≠ .msgList m) → ¬ Same env f.ty x y) := by
  obtain ⟨N, hN⟩ := C25_assign_partial hm hc hs
  refine ⟨N, fun n hn => ?_⟩
  obtain ⟨r, hr, hmir, -⟩ := hN (n + 1) (by omega)
  obtain ⟨flags, h1, h2, h3⟩ := assigned (all := true) hq (changed_length hp k) hc hs hr
  refine ⟨r, flags, ?_, hmir, h2, fun i f x y z d hf hx hy hz hd => ?_⟩
  · rw [(runs hq hp n k (typed hc) (typed hs)).2.2.1, hr]
    exact h1
  · have := h3 i f x y z d hf hx hy hz hd
    exact ⟨fun h => this.1 h (Or.inl rfl), fun h hl => this.2 h hl (hm k f (List.mem_of_getElem? hf))⟩

/-- C96, assignment: also with maps of messages, what an assignment leaves when it returns is right. -/
theorem C96_assign_sound (hq : Spec.Pointers q) (hp : Generated env prog) {n k : Nat} {cur src : Obj}
    (hc : Safe env (.msg k) (.msg cur)) (hs : Safe env (.msg k) (.msg src)) {r s : Obj} {log : List (Who × Text)}
    (h : (prog k).seen ((prog k).run (libAt env q prog n) (prog k).assign cur src) = .ok (r, s, log)) :
    s = src ∧ Mirrors env (.msg k) (.msg r) (.msg src) := by
  rw [(runs hq hp n k (typed hc) (typed hs)).2.2.1] at h
  obtain ⟨o, ho, h⟩ := Res.bind_eq_ok.1 h
  obtain ⟨sg, -, h⟩ := Res.bind_eq_ok.1 h
  cases h
  exact ⟨rfl, (C25_assign_sound hc hs ho).1⟩

/-! ### Copies -/

/-- C96, copy constructor: whatever the memory of the new object held, the generated constructor returns, the new object has the contents of
the source and the source is unchanged. -/
theorem C96_copy (hq : Spec.Pointers q) (hp : Generated env prog) {k : Nat} {src : Obj} (hs : Safe env (.msg k) (.msg src)) (memory : Obj) :
    ∃ N, ∀ n, N ≤ n → ∃ r log, (prog k).seen ((prog k).run (libAt env q prog n) (prog k).copy (copyStart (env.sch k) memory) src) =
        .ok (r, src, log) ∧ Mirrors env (.msg k) (.msg r) (.msg src) := by
  obtain ⟨N, hN⟩ := C25_copy hs memory
  refine ⟨N, fun n hn => ?_⟩
  obtain ⟨r, hr, hmir, -⟩ := hN (n + 1) (by omega)
  obtain ⟨flags, h1, -, -⟩ := assigned (all := false) hq (changed_length hp k) (copyStart_holds k memory) hs hr
  refine ⟨r, emitted (prog k).changed flags, ?_, hmir⟩
  rw [(runs hq hp n k (typed (copyStart_holds k memory)) (typed hs)).2.2.2.1]
  unfold copyConstruct at hr
  rw [hr]
  exact h1

/-! ### Moves -/

theorem sound_of (hq : Spec.Pointers q) (hl : ∀ ty a b, HasTy env ty a → HasTy env ty b → HasTy env ty (q.left ty a b)) :
    QtPb.Spec.Containers.Sound env q := ⟨hl, fun ty a b _ _ h => hq a b h ▸ .refl ty a⟩

/-- C96, move assignment: it returns when sub-messages are comparable; the target has the contents the source had, and the source is left with
values of the types of its members. A property whose signal is not emitted has kept its value in the target and in the source, unless it is
an enumeration. Missing: sub-messages with maps of messages, signals of enumerations (`C96_enum_signal_violated`). -/
theorem C96_move_assign_partial (hq : Spec.Pointers q) (hl : ∀ ty a b, HasTy env ty a → HasTy env ty b → HasTy env ty (q.left ty a b))
    (hp : Generated env prog) {k : Nat} {cur src : Obj} (h : ComparableSubs env k cur src) (hc : WellTyped env k cur) (hs : WellTyped env k src) :
    ∃ N, ∀ n, N ≤ n → ∃ rs : List Moved, (prog k).seen ((prog k).run (libAt env q prog n) (prog k).moveAssign cur src) =
        .ok (targets rs, sources rs, moveSignals (prog k).changed rs) ∧
      Mirrors env (.msg k) (.msg (targets rs)) (.msg src) ∧ WellTyped env k (targets rs) ∧ WellTyped env k (sources rs) ∧
      ∀ (i : Nat) (f : QtPb.Field) (x y : Val) (v : Moved), (env.sch k)[i]? = some f → f.ty ≠ .enum → cur[i]? = some x → src[i]? = some y →
        rs[i]? = some v → (v.targetSignal = false → v.target = x) ∧ (v.sourceSignal = false → v.source = y) := by
  obtain ⟨N, hN⟩ := C56_assign_partial (sound_of hq hl) h hc hs
  refine ⟨N, fun n hn => ?_⟩
  obtain ⟨rs, hr, h1, h2, h3⟩ := hN (n + 1) (by omega)
  refine ⟨rs, ?_, h2, h1, h3, fun i f x y v hf hne hx hy hv => C56_signal_partial hr hf hne hx hy hv hc hs⟩
  rw [(runs hq hp n k hc hs).2.2.2.2.1, hr]
  rfl

/-- C96, move constructor: whatever the memory of the new object held, it returns, the new object has the contents the source had, and the
source is left with values of the types of its members. -/
theorem C96_move_construct (hq : Spec.Pointers q) (hl : ∀ ty a b, HasTy env ty a → HasTy env ty b → HasTy env ty (q.left ty a b))
    (hp : Generated env prog) {k : Nat} {src : Obj} (hs : WellTyped env k src) (memory : Obj) :
    ∃ N, ∀ n, N ≤ n → ∃ r s log, (prog k).seen ((prog k).run (libAt env q prog n) (prog k).move (copyStart (env.sch k) memory) src) =
        .ok (r, s, log) ∧ Mirrors env (.msg k) (.msg r) (.msg src) ∧ WellTyped env k r ∧ WellTyped env k s := by
  obtain ⟨N, hN⟩ := C56_construct (sound_of hq hl) memory hs
  refine ⟨N, fun n hn => ?_⟩
  obtain ⟨rs, hr, h1, h2, h3⟩ := hN n hn
  refine ⟨targets rs, sources rs, moveSignals (prog k).changed rs, ?_, h2, h1, h3⟩
  rw [(runs hq hp n k (typed (copyStart_holds k memory)) hs).2.2.2.2.2]
  unfold moveConstruct at hr
  rw [hr]
  rfl

/-! ### Setters -/

/-- C96, setters: the generated setter of a property that is not a message compares its argument with the member; if they compare equal nothing
happens, otherwise the member gets the argument, no other member changes, and the signal of the property is emitted once. -/
theorem C96_setter {u : Sources} (hu : u.Plain) {b : Printed × List FieldD} (hb : b ∈ u.bodies) {fs : List QtPb.Field} (hr : Represents u.c b.2 fs)
    {header source : Text} {p : ClassText} (h1 : u.headerText = some header) (h2 : u.sourceText = some source)
    (h3 : SpecCpp.classOf header source b.1.cpp (fs.map (·.ty)) = some p) {lib : Lib} {i : Nat} {f : FieldD} {g : QtPb.Field} (hf : b.2[i]? = some f)
    (hg : fs[i]? = some g) (hm : ∀ m, g.ty ≠ .msg m) {a : Obj} (ha : a.length = fs.length) {x v : Val} (hx : a[i]? = some x) :
    p.callSetter lib f.setter (.data g.ty v) a = .ok (if lib.same g.ty x v then (a, []) else (a.set i v, [(.this, signalName f)])) := by
  obtain ⟨header', source', p', h1', h2', h3', h4, h5⟩ := class_of hu hb hr
  cases h1.symm.trans h1'
  cases h2.symm.trans h2'
  cases h3.symm.trans h3'
  refine call_setter h4 (h5 f (List.mem_of_getElem? hf)) hf hg ?_ ha hx
  unfold isMsg
  split
  · exact absurd ‹_› (hm _)
  · rfl

/-- C96, setters: the signal is emitted exactly if the new value differs from the old one, and exactly then the value is replaced. Missing:
lists and maps of messages, which are compared by address. -/
theorem C96_setter_change_partial {u : Sources} (hu : u.Plain) {b : Printed × List FieldD} (hb : b ∈ u.bodies) {k : Nat}
    (hr : Represents u.c b.2 (env.sch k)) {header source : Text} {p : ClassText} (h1 : u.headerText = some header) (h2 : u.sourceText = some source)
    (h3 : SpecCpp.classOf header source b.1.cpp ((env.sch k).map (·.ty)) = some p) {n : Nat} {i : Nat} {f : FieldD} {g : QtPb.Field}
    (hf : b.2[i]? = some f) (hg : (env.sch k)[i]? = some g) (hm : ∀ m, g.ty ≠ .msg m) (hl : ∀ m, g.ty ≠ .msgList m) (hmm : ∀ kk m, g.ty ≠ .map kk (.msg m))
    {a : Obj} (ha : a.length = (env.sch k).length) {x v : Val} (hx : a[i]? = some x) (tx : HasTy env g.ty x) (tv : HasTy env g.ty v) :
    (Same env g.ty x v → p.callSetter (libAt env q prog n) f.setter (.data g.ty v) a = .ok (a, [])) ∧
    (¬ Same env g.ty x v → p.callSetter (libAt env q prog n) f.setter (.data g.ty v) a = .ok (a.set i v, [(.this, signalName f)])) := by
  rw [C96_setter hu hb hr h1 h2 h3 hf hg hm ha hx]
  have hw : (libAt env q prog n).same g.ty x v = plainEq g.ty x v := by
    rw [libAt_from]
    show wholeEq q g.ty x v = _
    unfold wholeEq
    split
    · exact absurd ‹_› (hl _)
    · exact absurd ‹_› (hmm _ _)
    · rfl
  have := plainEq_same hm hl hmm tx tv
  rw [hw, ← this]
  exact ⟨fun h => by rw [if_pos h], fun h => by rw [if_neg h]⟩

/-- C96, setters of messages: nothing happens if the message in the object is the same as the argument; otherwise it gets the contents of the
argument, no other member changes, and the signal of the property is emitted once. Missing: maps of messages. -/
theorem C96_message_setter_partial (hq : Spec.Pointers q) (hp : Generated env prog) (hnm : NoMessageMaps env) {u : Sources} (hu : u.Plain)
    {b : Printed × List FieldD} (hb : b ∈ u.bodies) {k : Nat} (hr : Represents u.c b.2 (env.sch k)) {header source : Text} {p : ClassText}
    (h1 : u.headerText = some header) (h2 : u.sourceText = some source)
    (h3 : SpecCpp.classOf header source b.1.cpp ((env.sch k).map (·.ty)) = some p) {i : Nat} {f : FieldD} {g : QtPb.Field} {m : Nat}
    (hf : b.2[i]? = some f) (hg : (env.sch k)[i]? = some g) (hm : g.ty = .msg m) {a : Obj} (ha : Safe env (.msg k) (.msg a)) {x : Val} {o : Obj}
    (hx : a[i]? = some x) (ho : Safe env (.msg m) (.msg o)) :
    ∃ N, ∀ n, N ≤ n →
      (Same env (.msg m) x (.msg o) → p.callSetter (libAt env q prog n) f.setter (.message m o) a = .ok (a, [])) ∧
      (¬ Same env (.msg m) x (.msg o) → ∃ r, p.callSetter (libAt env q prog n) f.setter (.message m o) a =
          .ok (a.set i (.msg r), [(.this, signalName f)]) ∧ Mirrors env (.msg m) (.msg r) (.msg o)) := by
  have hsx : Safe env (.msg m) x := hm ▸ safe_field ha hg hx
  have hsc : Safe env (.msg m) (.msg (QtPb.Spec.contents env m x)) := by
    cases hsx with
    | null => exact default_safe m
    | msg hl hi => exact .msg hl hi
  have hsame : Same env (.msg m) x (.msg o) ↔ Same env (.msg m) (.msg (QtPb.Spec.contents env m x)) (.msg o) := by
    rw [same_msg_iff, same_msg_iff (a := .msg (QtPb.Spec.contents env m x))]
    rfl
  obtain ⟨N1, e, hN1, he⟩ := C24_decides_partial hnm hsc ho
  obtain ⟨N2, hN2⟩ := C25_assign_partial hnm hsc ho
  refine ⟨max N1 N2, fun n hn => ?_⟩
  obtain ⟨header', source', p', h1', h2', h3', h4, h5⟩ := class_of hu hb hr
  cases h1.symm.trans h1'
  cases h2.symm.trans h2'
  cases h3.symm.trans h3'
  have agree := libAt_agrees hq (isProgram hp) n
  have hbe : behind (libAt env q prog n) m x = QtPb.Spec.contents env m x := by
    rw [libAt_from]
    cases x <;> rfl
  rw [call_messageSetter h4 (h5 f (List.mem_of_getElem? hf)) hf hg hm (typed_of (typed ha)).1 hx, hbe, agree.equal m _ _ (typed hsc) (typed ho),
    agree.assign m _ _ (typed hsc) (typed ho), hN1 n (by omega), hsame, ← he]
  obtain ⟨r, hr', hmir, -⟩ := hN2 n (by omega)
  rw [hr']
  refine ⟨fun h => by rw [h]; rfl, fun h => ⟨r, ?_, hmir⟩⟩
  have h : e = false := by simpa using h
  rw [h]
  rfl

end

/-! ### Concrete cases -/

namespace Sample

def enumField : FieldD := { camel := text! "e", json := text! "e", number := 1, type := .enum, enumType := some (sub ++ [text! "Outer", text! "E"]) }

/-- `message Holder { Maps maps = 1; }  message Maps { map<int32, Nothing> m = 1; }  message Nothing { }  message Pair { Outer.E e = 1; int32 n = 2; }` -/
def holder : Msg := .mk (text! "Holder")
  [{ camel := text! "maps", json := text! "maps", number := 1, type := .message, msgType := some (sub ++ [text! "Maps"]) }] [] false
def maps : Msg := .mk (text! "Maps")
  [{ camel := text! "m", json := text! "m", number := 1, type := .message, repeated := true, isMap := true,
     msgType := some (sub ++ [text! "Maps", text! "MEntry"]) }] [] false
def nothing : Msg := .mk (text! "Nothing") [] [] false
def pair : Msg := .mk (text! "Pair") [enumField, { camel := text! "n", json := text! "n", number := 2, type := .int32 }] [] false

def file : Sources := ⟨opts, ctx, [text! "QString"], [text! "other.qpb.h"], text! "sample.qpb.h", [global], [outer, holder, maps, nothing, pair]⟩

theorem filePlain : file.Plain where
  file := plainFile
  external := includes.1
  internal := includes.2
  header := by intro x hx; revert x; decide
  enums := plainEnums
  msgs := by
    refine ⟨plainMsgs.1, ?_, ?_, ?_, ?_, trivial⟩
    all_goals
      first | rw [holder] | rw [maps] | rw [nothing] | rw [pair]
      rw [PlainMsg, PlainMsgs]
      exact ⟨named_of (by decide), fields_of (by decide), trivial⟩
  distinct := by decide +kernel

/-- The messages of the file, by number: Outer.Inner, Outer, Holder, Maps, Nothing, Pair. -/
theorem member (i : Nat) (h : i < 6) : file.bodies[i]'(by rw [show file.bodies.length = 6 from rfl]; exact h) ∈ file.bodies := List.getElem_mem _

def representsB (c : Ctx) (fields : List FieldD) (fs : List QtPb.Field) : Bool :=
  fields.length == fs.length && (fields.zip fs).all (fun x => fits x.1 x.2.ty) && fields.all (fun f => !isQtType c.package f) &&
    decide (fields.flatMap fun f => [f.setter, f.setter ++ text! "_p"]).Nodup

theorem represents_of {c : Ctx} {fields : List FieldD} {fs : List QtPb.Field} (h : representsB c fields fs = true) : Represents c fields fs := by
  simp only [representsB, Bool.and_eq_true, beq_iff_eq, List.all_eq_true, decide_eq_true_eq, Bool.not_eq_true'] at h
  exact ⟨h.1.1.1, h.1.1.2, h.1.2, h.2⟩

/-- A schema with numbers, a sub-message, lists, enumerations and maps. -/
def outerEnv : Env := { demoEnv with sch := fun k => match k with
  | 0 => [⟨1, .scalar .int32⟩, ⟨3, .msg 1⟩, ⟨4, .msgList 1⟩, ⟨5, .enum⟩, ⟨6, .map .int32 (.scalar .string)⟩]
  | 1 => [⟨1, .scalar .int32⟩]
  | _ => [] }

theorem outerFiles (k : Nat) : ∃ b ∈ file.bodies, Represents file.c b.2 (outerEnv.sch k) := by
  match k with
  | 0 => exact ⟨_, member 1 (by decide), represents_of (by decide +kernel)⟩
  | 1 => exact ⟨_, member 0 (by decide), represents_of (by decide +kernel)⟩
  | k + 2 => exact ⟨_, member 4 (by decide), represents_of (by show representsB _ _ [] = true; decide +kernel)⟩

theorem mapFiles (k : Nat) : ∃ b ∈ file.bodies, Represents file.c b.2 (demoMapEnv.sch k) := by
  match k with
  | 0 => exact ⟨_, member 2 (by decide), represents_of (by decide +kernel)⟩
  | 1 => exact ⟨_, member 3 (by decide), represents_of (by decide +kernel)⟩
  | k + 2 => exact ⟨_, member 4 (by decide), represents_of (by show representsB _ _ [] = true; decide +kernel)⟩

theorem pairFiles (k : Nat) : ∃ b ∈ file.bodies, Represents file.c b.2 (moveEnv.sch k) :=
  ⟨_, member 5 (by decide), represents_of (by show representsB _ _ [⟨1, .enum⟩, ⟨2, .scalar .int32⟩] = true; decide +kernel)⟩

theorem program {env : Env} (h : ∀ k, ∃ b ∈ file.bodies, Represents file.c b.2 (env.sch k)) : ∃ prog, Generated env prog :=
  C96_program_partial fun k => by
    obtain ⟨b, hb, hr⟩ := h k
    exact ⟨file, b, filePlain, hb, hr⟩

theorem safe_one {env : Env} {k : Nat} {f : QtPb.Field} {v : Val} (hs : env.sch k = [f]) (h : Safe env f.ty v) : Safe env (.msg k) (.msg [v]) := by
  refine .msg (by rw [hs]; rfl) fun i g x hg hx => ?_
  rw [hs] at hg
  cases i with
  | zero =>
    simp only [List.getElem?_cons_zero, Option.some.injEq] at hg hx
    subst hg hx
    exact h
  | succ i => simp at hx

theorem safe_map (b : BitVec 32) : Safe demoMapEnv (.msg 1) (.msg [.map [(.w32 b, .msg [])]]) := by
  refine safe_one (f := ⟨1, .map .int32 (.msg 2)⟩) rfl (.map ?_ ?_ ?_ (by simp))
  · intro e he
    rw [List.mem_singleton.1 he]
    trivial
  · intro e he
    rw [List.mem_singleton.1 he]
    simp
  · intro e he
    rw [List.mem_singleton.1 he]
    exact .msg rfl fun i g x _ hx => by simp at hx

/-- `id: n; inner { x: 7 } e: 1 m { 3: null }`, the list empty. -/
def outerObj (n : BitVec 32) (inner : Val) : Obj := [.sc (.w32 n), inner, .msgList [], .enum 1#32, .map [(.w32 3#32, .sc (.str none))]]

theorem safe_outer (n : BitVec 32) {inner : Val} (h : Safe outerEnv (.msg 1) inner) : Safe outerEnv (.msg 0) (.msg (outerObj n inner)) := by
  refine .msg rfl fun i g x hg hx => ?_
  match i with
  | 0 => cases hg; cases hx; exact .sc rfl
  | 1 => cases hg; cases hx; exact h
  | 2 => cases hg; cases hx; exact .msgList (by simp) (by simp)
  | 3 => cases hg; cases hx; exact .enum _
  | 4 =>
    cases hg; cases hx
    refine .map ?_ ?_ ?_ (by simp) <;> intro e he <;> rw [List.mem_singleton.1 he]
    · rfl
    · simp
    · exact .sc rfl
  | i + 5 => cases hg

theorem noMaps : NoMessageMaps outerEnv := by
  intro m f hf kk m' e
  match m with
  | 0 => simp [outerEnv] at hf; rcases hf with rfl | rfl | rfl | rfl | rfl <;> simp at e
  | 1 => simp [outerEnv] at hf; subst hf; simp at e
  | m + 2 => simp [outerEnv] at hf

theorem safe_inner : Safe outerEnv (.msg 1) (.msg [.sc (.w32 7#32)]) := safe_one (f := ⟨1, .scalar .int32⟩) rfl (.sc rfl)

end Sample

open Sample

/-- Negation of C96 for maps of messages: the generated `==` of `message Maps { map<int32, Nothing> m = 1; }` dereferences a null pointer for the
messages `{1: {}}` and `{2: {}}`. -/
theorem C96_message_map_violated : (∃ prog, Generated demoMapEnv prog) ∧ ∀ prog, Generated demoMapEnv prog → ∀ q, Spec.Pointers q → ∀ n,
    (prog 1).callBool (libAt demoMapEnv q prog n) (text! "operator==") [.map [(.w32 1#32, .msg [])]] [.map [(.w32 2#32, .msg [])]] = .ub :=
  ⟨program mapFiles, fun prog hp q hq n => (runs hq hp n 1 (typed (safe_map _)) (typed (safe_map _))).1⟩

/-- Negation of "a property that changes emits its signal" for moves: the generated move assignment of `message Pair { Outer.E e = 1; int32 n = 2; }`
gives the target another enumeration, and the target emits no signal at all. -/
theorem C96_enum_signal_violated : (∃ prog, Generated moveEnv prog) ∧ ∀ prog, Generated moveEnv prog → ∀ q, Spec.Pointers q → ∀ n,
    ∃ log, (prog 0).seen ((prog 0).run (libAt moveEnv q prog n) (prog 0).moveAssign [.enum 1#32, .sc (.w32 7#32)] [.enum 2#32, .sc (.w32 7#32)]) =
      .ok ([.enum 2#32, .sc (.w32 7#32)], [.enum 2#32, .sc (.w32 0#32)], log) ∧ ∀ s, (Who.this, s) ∉ log := by
  have ty : ∀ e : BitVec 32, WellTyped moveEnv 0 [.enum e, .sc (.w32 7#32)] := fun e => by
    refine .msg rfl fun i g x hg hx => ?_
    match i with
    | 0 => cases hg; cases hx; exact .enum _
    | 1 => cases hg; cases hx; exact .sc rfl
    | i + 2 => cases hg
  refine ⟨program pairFiles, fun prog hp q hq n => ⟨moveSignals (prog 0).changed
    [⟨.enum 2#32, .enum 2#32, false, false⟩, ⟨.sc (.w32 7#32), .sc (.w32 0#32), false, true⟩], (runs hq hp n 0 (ty _) (ty _)).2.2.2.2.1.trans ?_, ?_⟩⟩
  · rw [C56_enum_signal_violated q (n + 1) (by omega)]
    rfl
  · intro s hs
    simp only [moveSignals, List.mem_flatMap] at hs
    obtain ⟨x, hx, hs⟩ := hs
    have := (List.of_mem_zip hx).2
    simp only [List.mem_cons, List.not_mem_nil, or_false] at this
    rcases this with h | h <;> simp [h] at hs

/-- The hypotheses of the theorems on comparison, copies, assignment: a schema with numbers, sub-messages, lists, enumerations and maps, generated
files for it, and two messages that differ. -/
example : (∃ prog, Generated outerEnv prog) ∧ Spec.Pointers swapping ∧ NoMessageMaps outerEnv ∧ Safe outerEnv (.msg 0) (.msg (outerObj 1#32 .msgNull)) ∧
    Safe outerEnv (.msg 0) (.msg (outerObj 1#32 (.msg [.sc (.w32 7#32)]))) :=
  ⟨program outerFiles, fun _ _ h => by simp [swapping] at h, noMaps, safe_outer _ (.null 1), safe_outer _ safe_inner⟩

/-- The generated `==` tells them apart. -/
example : ∃ prog, Generated outerEnv prog ∧ (∀ n, 1 ≤ n → (prog 0).callBool (libAt outerEnv swapping prog n) (text! "operator==")
      (outerObj 1#32 .msgNull) (outerObj 1#32 (.msg [.sc (.w32 7#32)])) = .ok false) := by
  obtain ⟨prog, hp⟩ := program outerFiles
  refine ⟨prog, hp, fun n hn => ?_⟩
  obtain ⟨k, rfl⟩ : ∃ k, n = k + 1 := ⟨n - 1, by omega⟩
  exact (runs (fun _ _ h => by simp [swapping] at h) hp (k + 1) 0 (typed (safe_outer _ (.null 1))) (typed (safe_outer _ safe_inner))).1

/-- The class found for `Outer`, and its setter of `id` run with 5 on an object where it is 1. -/
example : ∃ header source p, file.headerText = some header ∧ file.sourceText = some source ∧
    SpecCpp.classOf header source [text! "pkg", text! "sub", text! "Outer"] ((outerEnv.sch 0).map (·.ty)) = some p ∧
    p.changed = [text! "id_protoChanged", text! "innerChanged", text! "innersChanged", text! "eChanged", text! "mChanged"] ∧
    p.callSetter (libAt outerEnv swapping (fun _ => p) 0) (text! "setId_proto") (.data (.scalar .int32) (.sc (.w32 5#32))) (outerObj 1#32 .msgNull) =
      .ok (outerObj 5#32 .msgNull, [(.this, text! "id_protoChanged")]) := by
  have hr : Represents file.c (file.bodies[1]).2 (outerEnv.sch 0) := represents_of (by decide +kernel)
  obtain ⟨header, source, p, h1, h2, h3, h4, h5, h6⟩ := C96_class_partial filePlain (member 1 (by decide)) hr
  refine ⟨header, source, p, h1, h2, h3, h5.trans (by decide +kernel), ?_⟩
  have := C96_setter filePlain (member 1 (by decide)) hr h1 h2 h3 (lib := libAt outerEnv swapping (fun _ => p) 0) (i := 0)
    (f := { camel := text! "id", json := text! "id", number := 1, type := .int32 }) rfl (g := ⟨1, .scalar .int32⟩) rfl (by simp)
    (a := outerObj 1#32 .msgNull) rfl (v := .sc (.w32 5#32)) rfl
  exact this

end QtPb.Gen.Text
