import Verif.TextProgram
/-
Setters of generated classes, run. (Helpers for the theorems about generated sources.)
-/
set_option maxRecDepth 100000
namespace QtPb.TextProof
open QtPb.Gen QtPb.Gen.Text QtPb.Gen.Text.Spec QtPb.SpecCpp

theorem set_values {names : List Text} {o : Obj} (hn : names.Nodup) (hl : o.length = names.length) {i : Nat} {x : Text} (hi : names[i]? = some x) (v : Val) :
    (names.map fun y => if y = x then v else membersWith names o y) = o.set i v := by
  apply List.ext_getElem?
  intro j
  have hmap := congrArg (fun l => l[j]?) (lookup_zip_map hn hl)
  simp only [List.getElem?_map] at hmap
  rw [List.getElem?_map, List.getElem?_set]
  obtain ⟨hi1, hi2⟩ := List.getElem?_eq_some_iff.1 hi
  by_cases hij : i = j
  · subst hij
    rw [hi]
    simp [hl, hi1]
  · rw [if_neg hij, ← hmap]
    cases hj : names[j]? with
    | none => rfl
    | some y =>
      obtain ⟨hj1, hj2⟩ := List.getElem?_eq_some_iff.1 hj
      have : y ≠ x := by
        intro e
        have hp := List.pairwise_iff_getElem.1 hn
        rcases Nat.lt_or_gt_of_ne hij with hlt | hgt
        · exact hp i j hi1 hj1 hlt (hi2.trans (e.symm.trans hj2.symm))
        · exact hp j i hj1 hi1 hgt (hj2.trans (e.trans hi2.symm))
      simp [this]

section
variable {lib : Lib} {c : Ctx} {m : Cur} {fs : List QtPb.Field} {p : ClassText}

theorem this_value (h : IsClass c m fs p) {a : Obj} (ha : a.length = fs.length) {i : Nat} {f : FieldD} (hi : m.fields[i]? = some f) :
    some (membersWith p.names a (mem' f.prop)) = a[i]? := by
  have hn : p.names.Nodup := by rw [h.names]; exact h.nodup
  have := congrArg (fun l => l[i]?) (lookup_zip_map hn (o := a) (by rw [h.names]; simp [ha, h.len]))
  simp only [List.getElem?_map] at this
  rw [← this, h.names]
  simp [hi]

theorem name_at (h : IsClass c m fs p) {i : Nat} {f : FieldD} (hi : m.fields[i]? = some f) : p.names[i]? = some (mem' f.prop) := by
  rw [h.names]; simp [hi]

theorem zip_at {i : Nat} {f : FieldD} {g : QtPb.Field} (hi : m.fields[i]? = some f) (hg : fs[i]? = some g) : (f, g) ∈ m.fields.zip fs :=
  List.mem_of_getElem? (i := i) (by rw [List.getElem?_zip_eq_some]; exact ⟨hi, hg⟩)

theorem call_setter (h : IsClass c m fs p) {f : FieldD} (hs : p.functions.find? (·.1 == f.setter) = some (mainSetter c f)) {i : Nat} {g : QtPb.Field}
    (hi : m.fields[i]? = some f) (hg : fs[i]? = some g) (hm : isMsg g.ty = false) {a : Obj} (ha : a.length = fs.length) {x v : Val} (hx : a[i]? = some x) :
    p.callSetter lib f.setter (.data g.ty v) a =
      .ok (if lib.same g.ty x v then (a, []) else (a.set i v, [(.this, signalName f)])) := by
  have ok := h.field (zip_at hi hg)
  have hn : p.names.Nodup := by rw [h.names]; exact h.nodup
  have hl : a.length = p.names.length := by rw [h.names]; simp [ha, h.len]
  have hmain : (mainSetter c f).2 = (f.prop, Src.complexSetterBody f.prop) := by
    unfold mainSetter; rw [if_neg (by rw [pure_fits ok.noQt ok.fit, hm]; simp)]
  have hv : (p.objects a []).this (mem' f.prop) = x := by
    have := this_value h ha hi
    rw [hx] at this
    exact Option.some.inj this
  unfold ClassText.callSetter
  rw [callFn]
  have hs' : p.cls.functions.find? (·.1 == f.setter) = some (mainSetter c f) := hs
  rw [hs']
  have e : mainSetter c f = ((mainSetter c f).1, f.prop, Src.complexSetterBody f.prop) := by rw [← hmain]
  rw [e]
  dsimp only
  rw [run_setter ok.has hm (x := v) rfl (by simp)]
  unfold putIf
  rw [hv]
  by_cases hc : lib.same g.ty x v = true
  · simp only [hc, if_true, Res.bind]
    rw [show valuesOf (p.objects a []).this p.names = a from lookup_zip_map hn hl]
    rfl
  · simp only [hc, if_false, Res.bind, Bool.false_eq_true]
    rw [show valuesOf (((p.objects a []).set .this (mem' f.prop) v).emit .this (sig' f.prop)).this p.names = a.set i v from
      set_values hn hl (name_at h hi) v]
    rfl

theorem call_messageSetter (h : IsClass c m fs p) {f : FieldD} (hs : p.functions.find? (·.1 == f.setter) = some (mainSetter c f)) {i : Nat} {g : QtPb.Field}
    (hi : m.fields[i]? = some f) (hg : fs[i]? = some g) {k : Nat} (hm : g.ty = .msg k) {a : Obj} (ha : a.length = fs.length) {x : Val} {o : Obj}
    (hx : a[i]? = some x) :
    p.callSetter lib f.setter (.message k o) a = (lib.equal k (behind lib k x) o).bind fun same =>
      if same then .ok (a, []) else (lib.assign k (behind lib k x) o).bind fun r => .ok (a.set i (.msg r), [(.this, signalName f)]) := by
  have ok := h.field (zip_at hi hg)
  have hn : p.names.Nodup := by rw [h.names]; exact h.nodup
  have hl : a.length = p.names.length := by rw [h.names]; simp [ha, h.len]
  have hmain : (mainSetter c f).2 = (f.prop, Src.messageSetterBody f.prop) := by
    unfold mainSetter; rw [if_pos (by rw [pure_fits ok.noQt ok.fit, hm]; rfl)]
  have hv : (p.objects a []).this (mem' f.prop) = x := by
    have := this_value h ha hi
    rw [hx] at this
    exact Option.some.inj this
  have hf : HasField p.cls f (.msg k) := hm ▸ ok.has
  unfold ClassText.callSetter
  rw [callFn]
  have hs' : p.cls.functions.find? (·.1 == f.setter) = some (mainSetter c f) := hs
  rw [hs']
  have e : mainSetter c f = ((mainSetter c f).1, f.prop, Src.messageSetterBody f.prop) := by rw [← hmain]
  rw [e]
  dsimp only
  unfold runBody
  rw [(reads_messageSetter f.prop).stmts]
  dsimp only
  generalize hS : p.objects a [] = s at hv ⊢
  have hcmp : compareValues lib p.cls s (.place (.content .this (mem' f.prop))) (.message k o) = lib.equal k (behind lib k x) o := by
    unfold compareValues
    dsimp only
    rw [read_content hf]
    simp [Objects.get, hv, readValue]
  have hd := eval_deref (lib := lib) (call := callFn lib p.cls callDepth) (eval_own_param hf (.message k o) s)
  have hne := eval_ne hd (eval_param f.prop _ s) hcmp
  have hc := exec_cond (body := [.assign (.deref (own' f.prop)) (.var f.prop), emit f.prop])
    (r := (lib.equal k (behind lib k x) o).bind fun r => .ok (!r)) (hne.trans (by cases lib.equal k (behind lib k x) o <;> rfl))
  have has : assignValue lib p.cls s (.place (.content .this (mem' f.prop))) (.message k o) =
      (lib.assign k (behind lib k x) o).bind fun r => .ok (s.set .this (mem' f.prop) (.msg r)) := by
    unfold assignValue
    simp only [readValue, hf.type, Objects.get, hv, Res.bind_eq, Res.bind, if_true]
  have h1 := exec_assign hd (eval_param f.prop _ s)
  rw [has] at h1
  rw [execAll, hc]
  cases lib.equal k (behind lib k x) o with
  | ok b =>
    cases b with
    | true =>
      simp only [Res.bind, Bool.not_true, Bool.false_eq_true, if_false, if_true, Res.bind_eq, execAll_nil]
      rw [← hS, show valuesOf (p.objects a []).this p.names = a from lookup_zip_map hn hl]
      rfl
    | false =>
      simp only [Res.bind, Bool.not_false, Bool.false_eq_true, if_false, if_true, Res.bind_eq]
      rw [execAll, h1]
      cases lib.assign k (behind lib k x) o with
      | ok r =>
        simp only [Res.bind, Res.bind_eq]
        rw [execAll_cons (exec_emit hf _ _), execAll_nil]
        simp only [execAll_nil]
        rw [← hS, show valuesOf (((p.objects a []).set .this (mem' f.prop) (.msg r)).emit .this (sig' f.prop)).this p.names = a.set i (.msg r) from
          set_values hn hl (name_at h hi) _]
        rfl
      | _ => rfl
  | _ => rfl

end

end QtPb.TextProof
