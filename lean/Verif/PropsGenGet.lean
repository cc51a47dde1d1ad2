import Verif.PropsGenRun
import Verif.TextGetters
/-
C96: the getters of generated classes, and the functions that take and return pointers or that are made for QML, run from the text of
generated headers and sources.
-/
set_option maxRecDepth 100000

namespace QtPb.Gen.Text
open QtPb.SpecCpp QtPb.Gen.Text.Spec QtPb.TextProof
open QtPb.Spec (Safe Same)

section
variable {u : Sources} {b : Printed × List FieldD} {fs : List QtPb.Field} {header source : Text} {p : ClassText}

theorem the_class (hu : u.Plain) (hb : b ∈ u.bodies) (hr : Represents u.c b.2 fs) (h1 : u.headerText = some header) (h2 : u.sourceText = some source)
    (h3 : SpecCpp.classOf header source b.1.cpp (fs.map (·.ty)) = some p) : IsClass u.c ⟨b.1.msg, b.2⟩ fs p := by
  obtain ⟨header', source', p', h1', h2', h3', h4, -⟩ := class_of hu hb hr
  cases h1.symm.trans h1'
  cases h2.symm.trans h2'
  cases h3.symm.trans h3'
  exact h4

/-- The functions without parameters with a name, when all of them have one body and one is there. -/
theorem bodies_of (hu : u.Plain) (hb : b ∈ u.bodies) (h1 : u.headerText = some header) (h2 : u.sourceText = some source) {name : Text} {body : List Lexeme}
    (hm : (⟨name, [], body⟩ : Function) ∈ classFunctions u.o u.c ⟨b.1.msg, b.2⟩ b.1.cpp)
    (hall : ∀ x ∈ classFunctions u.o u.c ⟨b.1.msg, b.2⟩ b.1.cpp, x.params = [] → x.name = name → x.body = body) :
    ∃ bodies, nullaryOf header source b.1.cpp name = some bodies ∧ bodies ≠ [] ∧ ∀ x ∈ bodies, x = body := by
  refine ⟨_, (class_more hu hb h1 h2).1 name, fun e => ?_, fun x hx => ?_⟩
  · have : body ∈ ((classFunctions u.o u.c ⟨b.1.msg, b.2⟩ b.1.cpp).filter fun f => f.name == name && f.params.isEmpty).map (·.body) :=
      List.mem_map.2 ⟨_, List.mem_filter.2 ⟨hm, by simp⟩, rfl⟩
    rw [e] at this
    cases this
  · obtain ⟨y, hy, rfl⟩ := List.mem_map.1 hx
    obtain ⟨hy, hc⟩ := List.mem_filter.1 hy
    simp only [Bool.and_eq_true, beq_iff_eq, List.isEmpty_iff] at hc
    exact hall y hy hc.2 hc.1

/-- C96, getters: the generated class has a getter for every property that is not a message (a second one for objects that are not `const`, if
the property is a list or a map); all of them return the value of the property, change nothing and emit nothing. -/
theorem C96_getter (hu : u.Plain) (hb : b ∈ u.bodies) (hr : Represents u.c b.2 fs) (hg : Getters b.2) (h1 : u.headerText = some header)
    (h2 : u.sourceText = some source) (h3 : SpecCpp.classOf header source b.1.cpp (fs.map (·.ty)) = some p) {lib : Lib} {i : Nat} {f : FieldD}
    {g : QtPb.Field} (hf : b.2[i]? = some f) (hi : fs[i]? = some g) (hm : ∀ m, g.ty ≠ .msg m) :
    ∃ bodies, nullaryOf header source b.1.cpp f.prop = some bodies ∧ bodies ≠ [] ∧ ∀ body ∈ bodies, ∀ (a : Obj) (x : Val), a.length = fs.length →
      a[i]? = some x → p.callGetter lib body a = .ok (.inl (g.ty, x), a, []) := by
  have hc := the_class hu hb hr h1 h2 h3
  have ok := hc.field (zip_at (m := ⟨b.1.msg, b.2⟩) hf hi)
  have hfm : f ∈ b.2 := List.mem_of_getElem? hf
  have hnp : ¬ isPureMessage u.c.package f = true := by
    rw [pure_fits ok.noQt ok.fit]
    unfold isMsg
    split
    · exact absurd ‹_› (hm _)
    · simp
  have hmem := getter_mem (o := u.o) (c := u.c) (m := ⟨b.1.msg, b.2⟩) hfm b.1.cpp
  rw [if_neg hnp] at hmem
  obtain ⟨bodies, e1, e2, e3⟩ := bodies_of hu hb h1 h2 hmem fun x hx hp hn => by
    rw [named_getter (m := ⟨b.1.msg, b.2⟩) hr.setters hg (class_more hu hb h1 h2).2.2 hfm hx hp hn, if_neg hnp]
  refine ⟨bodies, e1, e2, fun body hbody a x ha hx => ?_⟩
  rw [e3 body hbody]
  exact call_return hc hf hi ha hx

/-- C96, getters of messages: the generated getter returns the message the property holds, and a new one if it holds none. -/
theorem C96_message_getter (hu : u.Plain) (hb : b ∈ u.bodies) (hr : Represents u.c b.2 fs) (hg : Getters b.2) (h1 : u.headerText = some header)
    (h2 : u.sourceText = some source) (h3 : SpecCpp.classOf header source b.1.cpp (fs.map (·.ty)) = some p) {env : Env} {q : Containers}
    {prog : Nat → ClassText} {n : Nat} {i : Nat} {f : FieldD} {g : QtPb.Field} {k : Nat} (hf : b.2[i]? = some f) (hi : fs[i]? = some g) (hk : g.ty = .msg k) :
    ∃ bodies, nullaryOf header source b.1.cpp f.prop = some bodies ∧ bodies ≠ [] ∧ ∀ body ∈ bodies, ∀ (a : Obj) (x : Val), a.length = fs.length →
      a[i]? = some x → p.callGetter (libAt env q prog n) body a = .ok (.inr (k, QtPb.Spec.contents env k x), a, []) := by
  have hc := the_class hu hb hr h1 h2 h3
  have ok := hc.field (zip_at (m := ⟨b.1.msg, b.2⟩) hf hi)
  have hfm : f ∈ b.2 := List.mem_of_getElem? hf
  have hp : isPureMessage u.c.package f = true := by rw [pure_fits ok.noQt ok.fit, hk]; rfl
  have hmem := getter_mem (o := u.o) (c := u.c) (m := ⟨b.1.msg, b.2⟩) hfm b.1.cpp
  rw [if_pos hp] at hmem
  obtain ⟨bodies, e1, e2, e3⟩ := bodies_of hu hb h1 h2 hmem fun x hx hpp hn => by
    rw [named_getter (m := ⟨b.1.msg, b.2⟩) hr.setters hg (class_more hu hb h1 h2).2.2 hfm hx hpp hn, if_pos hp]
  refine ⟨bodies, e1, e2, fun body hbody a x ha hx => ?_⟩
  have hbe : behind (libAt env q prog n) k x = QtPb.Spec.contents env k x := by
    rw [libAt_from]
    cases x <;> rfl
  rw [e3 body hbody, call_deref hc hf hi hk ha hx, hbe]

/-- C96, getters and setters: after the setter of a property was called the getters return the value that was given, or the old one if the two
compare equal; and the getters of the other properties return what they returned before. -/
theorem C96_set_get (hu : u.Plain) (hb : b ∈ u.bodies) (hr : Represents u.c b.2 fs) (hg : Getters b.2) (h1 : u.headerText = some header)
    (h2 : u.sourceText = some source) (h3 : SpecCpp.classOf header source b.1.cpp (fs.map (·.ty)) = some p) {lib : Lib} {i j : Nat} {f f' : FieldD}
    {g g' : QtPb.Field} (hf : b.2[i]? = some f) (hi : fs[i]? = some g) (hm : ∀ m, g.ty ≠ .msg m) (hf' : b.2[j]? = some f') (hj : fs[j]? = some g')
    (hm' : ∀ m, g'.ty ≠ .msg m) {a : Obj} (ha : a.length = fs.length) {x y v : Val} (hx : a[i]? = some x) (hy : a[j]? = some y) :
    ∃ a' log bodies z, p.callSetter lib f.setter (.data g.ty v) a = .ok (a', log) ∧ nullaryOf header source b.1.cpp f'.prop = some bodies ∧ bodies ≠ [] ∧
      (∀ body ∈ bodies, p.callGetter lib body a' = .ok (.inl (g'.ty, z), a', [])) ∧
      (i = j → z = v ∨ z = x ∧ lib.same g.ty x v = true) ∧ (i ≠ j → z = y) := by
  obtain ⟨bodies, e1, e2, e3⟩ := C96_getter hu hb hr hg h1 h2 h3 (lib := lib) hf' hj hm'
  rw [C96_setter hu hb hr h1 h2 h3 hf hi hm ha hx]
  by_cases hs : lib.same g.ty x v = true
  · rw [if_pos hs]
    refine ⟨a, [], bodies, y, rfl, e1, e2, fun body hbody => e3 body hbody a y ha hy, ?_, fun _ => rfl⟩
    rintro rfl
    rw [hx] at hy
    exact Or.inr ⟨(Option.some.inj hy).symm, hs⟩
  · rw [if_neg hs]
    have hlt : i < a.length := (List.getElem?_eq_some_iff.1 hx).1
    by_cases hij : i = j
    · subst hij
      exact ⟨_, _, bodies, v, rfl, e1, e2, fun body hbody => e3 body hbody _ v (by simp [ha]) (by simp [hlt]), fun _ => Or.inl rfl, fun h => absurd rfl h⟩
    · exact ⟨_, _, bodies, y, rfl, e1, e2, fun body hbody => e3 body hbody _ y (by simp [ha]) (by rw [List.getElem?_set, if_neg hij]; exact hy),
        fun h => absurd h hij, fun _ => rfl⟩

/-! ### Pointers -/

/-- C96, pointers: the function `x_p` of a property that is a message returns the pointer to the message the object holds. -/
theorem C96_pointer_getter (hu : u.Plain) (hb : b ∈ u.bodies) (hr : Represents u.c b.2 fs) (h1 : u.headerText = some header)
    (h2 : u.sourceText = some source) (h3 : SpecCpp.classOf header source b.1.cpp (fs.map (·.ty)) = some p) {lib : Lib} {i : Nat} {f : FieldD}
    {g : QtPb.Field} {k : Nat} (hf : b.2[i]? = some f) (hi : fs[i]? = some g) (hk : g.ty = .msg k) :
    ∃ bodies, nullaryOf header source b.1.cpp (f.prop ++ text! "_p") = some bodies ∧ bodies ≠ [] ∧ ∀ body ∈ bodies, ∀ a : Obj, a.length = fs.length →
      p.callPointer lib body a = .ok (.own .this (SpecCpp.memberName f), a, []) := by
  have hc := the_class hu hb hr h1 h2 h3
  have ok := hc.field (zip_at (m := ⟨b.1.msg, b.2⟩) hf hi)
  have hfm : f ∈ b.2 := List.mem_of_getElem? hf
  have hp : isPureMessage u.c.package f = true := by rw [pure_fits ok.noQt ok.fit, hk]; rfl
  obtain ⟨bodies, e1, e2, e3⟩ := bodies_of hu hb h1 h2 (pGetter_mem (o := u.o) (c := u.c) (m := ⟨b.1.msg, b.2⟩) hfm hp b.1.cpp) fun x hx hpp hn => by
    rw [named_pGetter (m := ⟨b.1.msg, b.2⟩) hr.setters (class_more hu hb h1 h2).2.2 hfm hx hpp hn, if_pos hp]
  refine ⟨bodies, e1, e2, fun body hbody a ha => ?_⟩
  rw [e3 body hbody]
  exact call_get hc hf hi hk ha

/-- C96, pointers: the setter `setX_p` of a property that is a message makes the object hold the message it is given (none, if the pointer is
null), whether or not it equals the one it held; no other property changes, and the signal is emitted once. Given the pointer to the message the
object holds, it does nothing. -/
theorem C96_pointer_setter (hu : u.Plain) (hb : b ∈ u.bodies) (hr : Represents u.c b.2 fs) (h1 : u.headerText = some header)
    (h2 : u.sourceText = some source) (h3 : SpecCpp.classOf header source b.1.cpp (fs.map (·.ty)) = some p) {lib : Lib} {i : Nat} {f : FieldD}
    {g : QtPb.Field} {k : Nat} (hf : b.2[i]? = some f) (hi : fs[i]? = some g) (hk : g.ty = .msg k) {a : Obj} (ha : a.length = fs.length) :
    (∀ o, p.callSetter lib (f.setter ++ text! "_p") (.pointer (.given k o)) a = .ok (a.set i (.msg o), [(.this, signalName f)])) ∧
    p.callSetter lib (f.setter ++ text! "_p") (.pointer .null) a = .ok (a.set i .msgNull, [(.this, signalName f)]) ∧
    p.callSetter lib (f.setter ++ text! "_p") (.pointer (.own .this (SpecCpp.memberName f))) a = .ok (a, []) := by
  have hc := the_class hu hb hr h1 h2 h3
  have ok := hc.field (zip_at (m := ⟨b.1.msg, b.2⟩) hf hi)
  have hp : isPureMessage u.c.package f = true := by rw [pure_fits ok.noQt ok.fit, hk]; rfl
  have hs := find_pSetter (o := u.o) (c := u.c) (m := ⟨b.1.msg, b.2⟩) hr.setters (List.mem_of_getElem? hf) b.1.cpp (Or.inl hp)
  rw [if_pos hp, ← (class_more hu hb h1 h2).2.1 h3] at hs
  exact call_pSetter hc hs hf hi hk ha

/-! ### Numbers for QML -/

/-- C96, numbers QML has no type for: for `int32`, `fixed32` and `sfixed32` a class made for QML has a second getter, `x_p`, that returns the value of
the property, and a second setter, `setX_p`, that does what the setter does. (The conversions between the types of C++ are not modelled.) -/
theorem C96_alias (hu : u.Plain) (hb : b ∈ u.bodies) (hr : Represents u.c b.2 fs) (h1 : u.headerText = some header)
    (h2 : u.sourceText = some source) (h3 : SpecCpp.classOf header source b.1.cpp (fs.map (·.ty)) = some p) {lib : Lib} {i : Nat} {f : FieldD}
    {g : QtPb.Field} (hf : b.2[i]? = some f) (hi : fs[i]? = some g) (hqml : u.o.qml = true) (hone : f.isMap = false ∧ f.repeated = false)
    (hty : f.type = .int32 ∨ f.type = .sfixed32 ∨ f.type = .fixed32) :
    (∃ bodies, nullaryOf header source b.1.cpp (f.prop ++ text! "_p") = some bodies ∧ bodies ≠ [] ∧ ∀ body ∈ bodies, ∀ (a : Obj) (x : Val),
      a.length = fs.length → a[i]? = some x → p.callGetter lib body a = .ok (.inl (g.ty, x), a, [])) ∧
    ∀ (a : Obj) (v : Val), a.length = fs.length →
      p.callSetter lib (f.setter ++ text! "_p") (.data g.ty v) a = p.callSetter lib f.setter (.data g.ty v) a := by
  have hc := the_class hu hb hr h1 h2 h3
  have ok := hc.field (zip_at (m := ⟨b.1.msg, b.2⟩) hf hi)
  have hfm : f ∈ b.2 := List.mem_of_getElem? hf
  have hal : hasQmlAlias u.o.qml f = true := by
    unfold hasQmlAlias
    rw [hone.1, hone.2, hqml]
    rcases hty with e | e | e <;> rw [e] <;> rfl
  have hnp : ¬ isPureMessage u.c.package f = true := by rw [alias_not_pure hal]; simp
  have hm : isMsg g.ty = false := by rw [← pure_fits ok.noQt ok.fit]; simpa using hnp
  constructor
  · obtain ⟨bodies, e1, e2, e3⟩ := bodies_of hu hb h1 h2 (aliasGetter_mem (o := u.o) (c := u.c) (m := ⟨b.1.msg, b.2⟩) hfm hal b.1.cpp)
      fun x hx hpp hn => by
        rw [named_pGetter (m := ⟨b.1.msg, b.2⟩) hr.setters (class_more hu hb h1 h2).2.2 hfm hx hpp hn, if_neg hnp]
    refine ⟨bodies, e1, e2, fun body hbody a x ha hx => ?_⟩
    rw [e3 body hbody]
    exact call_return hc hf hi ha hx
  · intro a v ha
    have hlt : i < a.length := by rw [ha]; exact (List.getElem?_eq_some_iff.1 hi).1
    have hs := find_pSetter (o := u.o) (c := u.c) (m := ⟨b.1.msg, b.2⟩) hr.setters hfm b.1.cpp (Or.inr hal)
    rw [if_neg hnp, ← (class_more hu hb h1 h2).2.1 h3] at hs
    rw [call_aliasSetter hc hs hf hi hm ha (List.getElem?_eq_getElem hlt), C96_setter hu hb hr h1 h2 h3 hf hi
      (fun m e => by rw [e] at hm; cases hm) ha (List.getElem?_eq_getElem hlt)]

end

/-! ### Concrete cases -/

open Sample

theorem Sample.outerGetters : Getters (file.bodies[1]).2 where
  fixed := by decide +kernel
  lists := by decide +kernel

/-- The class of `Outer`, with a number, a sub-message, a list, an enumeration and a map: the list has two getters, the message a getter and a
function for pointers; a message that is given through a pointer is held. -/
example : ∃ header source p, file.headerText = some header ∧ file.sourceText = some source ∧
    SpecCpp.classOf header source [text! "pkg", text! "sub", text! "Outer"] ((outerEnv.sch 0).map (·.ty)) = some p ∧
    nullaryOf header source [text! "pkg", text! "sub", text! "Outer"] (text! "inners") =
      some [cpp! "return m_inners;", cpp! "return m_inners;"] ∧
    nullaryOf header source [text! "pkg", text! "sub", text! "Outer"] (text! "inner_p") = some [cpp! "return m_inner.get();"] ∧
    p.callSetter (libAt outerEnv swapping (fun _ => p) 0) (text! "setInner_p") (.pointer (.given 1 [.sc (.w32 7#32)])) (outerObj 1#32 .msgNull) =
      .ok (outerObj 1#32 (.msg [.sc (.w32 7#32)]), [(.this, text! "innerChanged")]) := by
  have hr : Represents file.c (file.bodies[1]).2 (outerEnv.sch 0) := represents_of (by decide +kernel)
  obtain ⟨header, source, p, h1, h2, h3, h4, h5, h6⟩ := C96_class_partial filePlain (member 1 (by decide)) hr
  refine ⟨header, source, p, h1, h2, h3, ?_, ?_, ?_⟩
  · exact ((class_more filePlain (member 1 (by decide)) h1 h2).1 _).trans (by decide +kernel)
  · exact ((class_more filePlain (member 1 (by decide)) h1 h2).1 _).trans (by decide +kernel)
  · exact (C96_pointer_setter filePlain (member 1 (by decide)) hr h1 h2 h3 (lib := libAt outerEnv swapping (fun _ => p) 0) (i := 1)
      (f := (file.bodies[1]).2[1]) rfl (g := ⟨3, .msg 1⟩) rfl rfl (a := outerObj 1#32 .msgNull) rfl).1 [.sc (.w32 7#32)]

/-- The hypotheses of the theorems on getters, and what the getter of the message returns. -/
example : ∃ header source p bodies, file.headerText = some header ∧ file.sourceText = some source ∧
    SpecCpp.classOf header source [text! "pkg", text! "sub", text! "Outer"] ((outerEnv.sch 0).map (·.ty)) = some p ∧
    nullaryOf header source [text! "pkg", text! "sub", text! "Outer"] (text! "inner") = some bodies ∧ bodies ≠ [] ∧
    ∀ body ∈ bodies, p.callGetter (libAt outerEnv swapping (fun _ => p) 0) body (outerObj 1#32 (.msg [.sc (.w32 7#32)])) =
      .ok (.inr (1, [.sc (.w32 7#32)]), outerObj 1#32 (.msg [.sc (.w32 7#32)]), []) := by
  have hr : Represents file.c (file.bodies[1]).2 (outerEnv.sch 0) := represents_of (by decide +kernel)
  obtain ⟨header, source, p, h1, h2, h3, h4, h5, h6⟩ := C96_class_partial filePlain (member 1 (by decide)) hr
  obtain ⟨bodies, e1, e2, e3⟩ := C96_message_getter filePlain (member 1 (by decide)) hr outerGetters h1 h2 h3 (env := outerEnv) (q := swapping)
    (prog := fun _ => p) (n := 0) (i := 1) (f := (file.bodies[1]).2[1]) rfl (g := ⟨3, .msg 1⟩) rfl rfl
  exact ⟨header, source, p, bodies, h1, h2, h3, e1, e2, fun body hb => e3 body hb _ (.msg [.sc (.w32 7#32)]) rfl rfl⟩

/-- The sample is made for QML and `id` is an `int32`. -/
example : file.o.qml = true ∧ ((file.bodies[1]).2[0]).type = .int32 ∧ ((file.bodies[1]).2[0]).repeated = false := ⟨rfl, rfl, rfl⟩

end QtPb.Gen.Text
