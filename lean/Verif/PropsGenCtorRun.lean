import Verif.PropsGenGet
import Verif.TextCtor
/-
C96: the constructors of generated classes, run from the text of generated headers and sources: the lists of initialisers and the statements.
-/
set_option maxRecDepth 100000

namespace QtPb.Gen.Text
open QtPb.SpecCpp QtPb.Gen.Text.Spec QtPb.TextProof
open QtPb.Spec (HasTy WellTyped Safe Mirrors)

section
variable {u : Sources} {b : Printed × List FieldD} {fs : List QtPb.Field} {header source : Text} {p : ClassText}

/-- C96, constructors: for every number of leading fields the source has a constructor with parameters for them. When it is given values for
them, whatever the memory of the new object held, it returns, these fields hold copies of the values and all others hold the default values of
protobuf. `copy` is the copy constructor of sub-messages. Missing: fields called "parent", for which the parameters have not different names,
see `C61_parent_violated`. -/
theorem C96_construct_partial (hu : u.Plain) (hb : b ∈ u.bodies) (hr : Represents u.c b.2 fs) (h1 : u.headerText = some header)
    (h2 : u.sourceText = some source) (h3 : SpecCpp.classOf header source b.1.cpp (fs.map (·.ty)) = some p)
    {constants : List Lexeme → Option (BitVec 32)} (hz : FirstZero u.o u.c b constants) {copy : Nat → Obj → Res Obj} {given : List Rt}
    (hn : given.length ≤ fs.length) (hpar : Parameters (b.2.take given.length)) :
    ∃ f, ctorOf source b.1.cpp (paramTypes u.o u.c b given.length) = some f ∧ ∀ vals memory : Obj, vals.length = given.length →
      (∀ (i : Nat) (g : QtPb.Field) (r : Rt) (v : Val), fs[i]? = some g → given[i]? = some r → vals[i]? = some v → Given copy g.ty r v) →
      memory.length = fs.length → p.construct constants copy f given memory = .ok (vals ++ (fs.drop given.length).map fun g => defaultVal g.ty) := by
  obtain ⟨ok, hlast, -⟩ := allBodies_ok hu.file hu.msgs (show b ∈ allBodies u.o u.c u.msgs from hb)
  have hc := the_class hu hb hr h1 h2 h3
  have hle : given.length ≤ b.2.length := by rw [hr.length]; exact hn
  refine ⟨_, ctor_found hu hb h2 (find_ctor (m := ⟨b.1.msg, b.2⟩) hlast hle), fun vals memory hv hg hm => ?_⟩
  exact construct_ok (m := ⟨b.1.msg, b.2⟩) ok hc b.1.cpp hz hpar hn hv hg hm

/-- C96, a new object without arguments: all its fields hold the default values of protobuf, whatever its memory held. -/
theorem C96_default {env : Env} {k : Nat} (hu : u.Plain) (hb : b ∈ u.bodies) (hr : Represents u.c b.2 (env.sch k)) (h1 : u.headerText = some header)
    (h2 : u.sourceText = some source) (h3 : SpecCpp.classOf header source b.1.cpp ((env.sch k).map (·.ty)) = some p)
    {constants : List Lexeme → Option (BitVec 32)} (hz : FirstZero u.o u.c b constants) {copy : Nat → Obj → Res Obj} :
    ∃ f, ctorOf source b.1.cpp [cpp! "QObject *"] = some f ∧ ∀ memory : Obj, memory.length = (env.sch k).length →
      p.construct constants copy f [] memory = .ok (defaultObj env k) := by
  obtain ⟨f, h4, h5⟩ := C96_construct_partial hu hb hr h1 h2 h3 hz (copy := copy) (given := []) (by simp) (by simp [Parameters])
  refine ⟨f, h4, fun memory hm => ?_⟩
  exact h5 [] memory rfl (fun i g r v _ h => by simp at h) hm

theorem source_name (b : Printed × List FieldD) : paramName ⟨b.1.msg, b.2⟩ = sourceName b.2 := by
  cases h : b.2 <;> simp [paramName, sourceName]

section
variable {env : Env} {q : Containers} {prog : Nat → ClassText} {k : Nat}

/-- C96, copy constructor with its initialisers: whatever the memory of the new object held, it returns, the new object has the contents of the
source, and the source is unchanged. -/
theorem C96_copy_constructor (hq : Spec.Pointers q) (hp : Generated env prog) (hu : u.Plain) (hb : b ∈ u.bodies) (hr : Represents u.c b.2 (env.sch k))
    (h1 : u.headerText = some header) (h2 : u.sourceText = some source)
    (h3 : SpecCpp.classOf header source b.1.cpp ((env.sch k).map (·.ty)) = some (prog k)) :
    ∃ f, (let K := b.1.cpp.getLastD []; ctorOf source b.1.cpp [cpp! "const $K$ &"]) = some f ∧
      ∀ src memory : Obj, Safe env (.msg k) (.msg src) → WellTyped env k memory →
        ∃ N, ∀ n, N ≤ n → ∃ r log, (prog k).constructFrom (libAt env q prog n) f memory src = .ok (r, src, log) ∧ Mirrors env (.msg k) (.msg r) (.msg src) := by
  obtain ⟨ok, hlast, -⟩ := allBodies_ok hu.file hu.msgs (show b ∈ allBodies u.o u.c u.msgs from hb)
  have hc := the_class hu hb hr h1 h2 h3
  refine ⟨copyFn u.c ⟨b.1.msg, b.2⟩ b.1.cpp, ?_, fun src memory hs hm => ?_⟩
  · dsimp only
    rw [hlast]
    exact ctor_found hu hb h2 (find_copy (o := u.o) (m := ⟨b.1.msg, b.2⟩) hlast)
  · obtain ⟨N, hN⟩ := C96_copy hq hp hs memory
    refine ⟨N, fun n hn => ?_⟩
    obtain ⟨r, log, h4, h5⟩ := hN n hn
    refine ⟨r, log, ?_, h5⟩
    have ht := typed_of hm
    unfold ClassText.constructFrom
    simp only [copyFn]
    rw [start_nulls hc rfl (by simp) ht.1 ht.2]
    rw [hc.copy, source_name] at h4
    exact h4

/-- C96, move constructor with its initialisers. -/
theorem C96_move_constructor (hq : Spec.Pointers q) (hl : ∀ ty a b, HasTy env ty a → HasTy env ty b → HasTy env ty (q.left ty a b))
    (hp : Generated env prog) (hu : u.Plain) (hb : b ∈ u.bodies) (hr : Represents u.c b.2 (env.sch k))
    (h1 : u.headerText = some header) (h2 : u.sourceText = some source)
    (h3 : SpecCpp.classOf header source b.1.cpp ((env.sch k).map (·.ty)) = some (prog k)) :
    ∃ f, (let K := b.1.cpp.getLastD []; ctorOf source b.1.cpp [cpp! "$K$ &&"]) = some f ∧
      ∀ src memory : Obj, WellTyped env k src → WellTyped env k memory →
        ∃ N, ∀ n, N ≤ n → ∃ r s log, (prog k).constructFrom (libAt env q prog n) f memory src = .ok (r, s, log) ∧
          Mirrors env (.msg k) (.msg r) (.msg src) ∧ WellTyped env k r ∧ WellTyped env k s := by
  obtain ⟨ok, hlast, -⟩ := allBodies_ok hu.file hu.msgs (show b ∈ allBodies u.o u.c u.msgs from hb)
  have hc := the_class hu hb hr h1 h2 h3
  refine ⟨moveFn' u.c ⟨b.1.msg, b.2⟩ b.1.cpp, ?_, fun src memory hs hm => ?_⟩
  · dsimp only
    rw [hlast]
    exact ctor_found hu hb h2 (find_move (o := u.o) (m := ⟨b.1.msg, b.2⟩) hlast)
  · obtain ⟨N, hN⟩ := C96_move_construct hq hl hp hs memory
    refine ⟨N, fun n hn => ?_⟩
    obtain ⟨r, s, log, h4, h5⟩ := hN n hn
    refine ⟨r, s, log, ?_, h5⟩
    have ht := typed_of hm
    unfold ClassText.constructFrom
    simp only [moveFn']
    rw [start_nulls hc rfl (by simp) ht.1 ht.2]
    rw [hc.move, source_name] at h4
    exact h4

/-! ### Constructors and the copies they make -/

theorem generated_of {copies : Nat → Fn} (h : GeneratedCopy env prog copies) : Generated env prog := fun k => by
  obtain ⟨u, b, header, source, h1, h2, h3, h4, h5, h6, -⟩ := h k
  exact ⟨u, b, header, source, h1, h2, h3, h4, h5, h6⟩

/-- Copies of everything that was given. -/
theorem given_copies {copies : Nat → Fn} (hq : Spec.Pointers q) (hp : GeneratedCopy env prog copies) {memories : Nat → Obj} (hm : ∀ m, WellTyped env m (memories m)) :
    ∀ {fs : List QtPb.Field} {given : List Rt}, given.length ≤ fs.length →
      (∀ (i : Nat) (g : QtPb.Field) (r : Rt), fs[i]? = some g → given[i]? = some r → Fits env g.ty r) →
      ∃ N, ∀ n, N ≤ n → ∃ vals : Obj, vals.length = given.length ∧
        ∀ (i : Nat) (g : QtPb.Field) (r : Rt) (v : Val), fs[i]? = some g → given[i]? = some r → vals[i]? = some v →
          Given (copyBy prog copies (libAt env q prog n) memories) g.ty r v ∧ Begins env g.ty (some r) v
  | _, [], _, _ => ⟨0, fun n _ => ⟨[], rfl, fun i g r v _ h => by simp at h⟩⟩
  | [], _ :: _, h, _ => by simp at h
  | g :: fs, r :: given, h, hf => by
    obtain ⟨N, hN⟩ := given_copies hq hp hm (fs := fs) (given := given) (by simpa using h) fun i g r a b => hf (i + 1) g r (by simpa using a) (by simpa using b)
    have h0 := hf 0 g r rfl rfl
    have one : ∃ N', ∀ n, N' ≤ n → ∃ v, Given (copyBy prog copies (libAt env q prog n) memories) g.ty r v ∧ Begins env g.ty (some r) v := by
      generalize hty : g.ty = ty at h0
      cases h0 with
      | data hd => exact ⟨0, fun n _ => ⟨_, .data hd, rfl, rfl⟩⟩
      | message hs =>
        rename_i m a
        obtain ⟨u, b, header, source, hu, hb, hr, h1, h2, h3, h4⟩ := hp m
        obtain ⟨f, h5, h6⟩ := C96_copy_constructor hq (generated_of hp) hu hb hr h1 h2 h3
        have : f = copies m := Option.some.inj (h5.symm.trans h4)
        subst this
        obtain ⟨N', hN'⟩ := h6 a (memories m) hs (hm m)
        refine ⟨N', fun n hn => ?_⟩
        obtain ⟨o', log, h7, h8⟩ := hN' n hn
        exact ⟨.msg o', .message (by unfold copyBy; rw [h7]; rfl), rfl, o', rfl, h8⟩
    obtain ⟨N', hN'⟩ := one
    refine ⟨max N N', fun n hn => ?_⟩
    obtain ⟨vals, h1, h2⟩ := hN n (by omega)
    obtain ⟨v, hv⟩ := hN' n (by omega)
    refine ⟨v :: vals, by simp [h1], fun i => ?_⟩
    cases i with
    | zero =>
      intro g' r' v' a b c
      simp only [List.getElem?_cons_zero, Option.some.injEq] at a b c
      subst a b c
      exact hv
    | succ i => exact fun g' r' v' a b c => h2 i g' r' v' (by simpa using a) (by simpa using b) (by simpa using c)

/-- C96, constructors of a program: given values and messages for the leading fields, the constructor returns; every field that was given
something holds a copy of it, a message with the contents of the one that was given; all others hold the default values. Missing: fields
called "parent". -/
theorem C96_construct_copies_partial {copies : Nat → Fn} (hq : Spec.Pointers q) (hp : GeneratedCopy env prog copies) (hu : u.Plain) (hb : b ∈ u.bodies)
    (hr : Represents u.c b.2 (env.sch k)) (h1 : u.headerText = some header) (h2 : u.sourceText = some source)
    (h3 : SpecCpp.classOf header source b.1.cpp ((env.sch k).map (·.ty)) = some p)
    {constants : List Lexeme → Option (BitVec 32)} (hz : FirstZero u.o u.c b constants) {given : List Rt}
    (hn : given.length ≤ (env.sch k).length) (hpar : Parameters (b.2.take given.length))
    (hf : ∀ (i : Nat) (g : QtPb.Field) (r : Rt), (env.sch k)[i]? = some g → given[i]? = some r → Fits env g.ty r)
    {memories : Nat → Obj} (hm : ∀ m, WellTyped env m (memories m)) :
    ∃ f, ctorOf source b.1.cpp (paramTypes u.o u.c b given.length) = some f ∧ ∃ N, ∀ n, N ≤ n → ∃ r,
      p.construct constants (copyBy prog copies (libAt env q prog n) memories) f given (memories k) = .ok r ∧ r.length = (env.sch k).length ∧
      ∀ (i : Nat) (g : QtPb.Field) (v : Val), (env.sch k)[i]? = some g → r[i]? = some v → Begins env g.ty given[i]? v := by
  obtain ⟨N, hN⟩ := given_copies hq hp hm hn hf
  obtain ⟨f, h4, -⟩ := C96_construct_partial hu hb hr h1 h2 h3 hz (copy := fun _ _ => .ub) hn hpar
  refine ⟨f, h4, N, fun n hN' => ?_⟩
  obtain ⟨vals, hv, hg⟩ := hN n hN'
  obtain ⟨f', h4', h5⟩ := C96_construct_partial hu hb hr h1 h2 h3 hz (copy := copyBy prog copies (libAt env q prog n) memories) hn hpar
  have : f' = f := Option.some.inj (h4'.symm.trans h4)
  subst this
  refine ⟨_, h5 vals (memories k) hv (fun i g r v a b c => (hg i g r v a b c).1) (typed_of (hm k)).1, by simp [hv]; omega, fun i g v hi hr => ?_⟩
  by_cases h : i < given.length
  · rw [List.getElem?_append_left (by omega)] at hr
    rw [List.getElem?_eq_getElem h]
    exact (hg i g _ v hi (List.getElem?_eq_getElem h) hr).2
  · rw [List.getElem?_append_right (by omega), List.getElem?_map, List.getElem?_drop, hv, show given.length + (i - given.length) = i by omega, hi] at hr
    cases hr
    rw [List.getElem?_eq_none (by omega)]
    rfl

end

end

/-- C96: programs whose messages have plain names and no fields of Qt's types, read with their copy constructors from generated files. -/
theorem C96_program_copies_partial {env : Env}
    (h : ∀ k, ∃ (u : Sources) (b : Printed × List FieldD), u.Plain ∧ b ∈ u.bodies ∧ Represents u.c b.2 (env.sch k)) :
    ∃ prog copies, GeneratedCopy env prog copies := by
  have : ∀ k, ∃ (p : ClassText) (f : Fn) (u : Sources) (b : Printed × List FieldD) (header source : Text), u.Plain ∧ b ∈ u.bodies ∧
      Represents u.c b.2 (env.sch k) ∧ u.headerText = some header ∧ u.sourceText = some source ∧
      SpecCpp.classOf header source b.1.cpp ((env.sch k).map (·.ty)) = some p ∧
      let K := b.1.cpp.getLastD []
      ctorOf source b.1.cpp [cpp! "const $K$ &"] = some f := fun k => by
    obtain ⟨u, b, hu, hb, hr⟩ := h k
    obtain ⟨header, source, p, h1, h2, h3, -⟩ := C96_class_partial hu hb hr
    obtain ⟨-, hlast, -⟩ := allBodies_ok hu.file hu.msgs (show b ∈ allBodies u.o u.c u.msgs from hb)
    refine ⟨p, copyFn u.c ⟨b.1.msg, b.2⟩ b.1.cpp, u, b, header, source, hu, hb, hr, h1, h2, h3, ?_⟩
    dsimp only
    rw [hlast]
    exact ctor_found hu hb h2 (find_copy (o := u.o) (m := ⟨b.1.msg, b.2⟩) hlast)
  exact ⟨fun k => Classical.choose (this k), fun k => Classical.choose (Classical.choose_spec (this k)),
    fun k => Classical.choose_spec (Classical.choose_spec (this k))⟩

/-! ### Concrete cases -/

open Sample

/-- The constants of the sample: `E` begins with `A = 0`. -/
def Sample.constants (e : List Lexeme) : Option (BitVec 32) :=
  if (file.bodies[1]).2.any (fun f => f.type == .enum &&
    (let T := valueType file.o file.c (file.bodies[1]).1.msg f false; let v := file.c.firstValue (f.enumType.getD []); e == cpp! "@T@::$v$")) then some 0 else none

theorem Sample.first : FirstZero file.o file.c (file.bodies[1]) Sample.constants := by
  intro f hf he
  have h : (file.bodies[1]).2.any (fun g => g.type == .enum &&
    (let T := valueType file.o file.c (file.bodies[1]).1.msg g false; let v := file.c.firstValue (g.enumType.getD [])
     (let T := valueType file.o file.c (file.bodies[1]).1.msg f false; let v := file.c.firstValue (f.enumType.getD []); cpp! "@T@::$v$") == cpp! "@T@::$v$")) = true := by
    rw [List.any_eq_true]
    exact ⟨f, hf, by rw [he]; simp⟩
  dsimp only
  unfold Sample.constants
  exact if_pos h

/-- `message Node { int32 parent = 1; }` -/
def Sample.node : Msg := .mk (text! "Node") [{ camel := text! "parent", json := text! "parent", number := 1, type := .int32 }] [] false

def Sample.nodes : Sources := ⟨opts, ctx, [text! "QString"], [text! "other.qpb.h"], text! "sample.qpb.h", [global], [node]⟩

theorem Sample.nodesPlain : nodes.Plain where
  file := plainFile
  external := includes.1
  internal := includes.2
  header := by intro x hx; revert x; decide
  enums := plainEnums
  msgs := by
    refine ⟨?_, trivial⟩
    rw [node]
    rw [PlainMsg, PlainMsgs]
    exact ⟨named_of (by decide), fields_of (by decide), trivial⟩
  distinct := by decide +kernel

/-- Negation of C96 for fields called "parent": the constructor generated for `message Node { int32 parent = 1; }` that takes the field has two
parameters of one name, which is no C++. -/
theorem C96_parent_violated : ∃ (b : Printed × List FieldD) (header source : Text) (p : ClassText) (f : Fn), b ∈ Sample.nodes.bodies ∧
    Represents Sample.nodes.c b.2 [⟨1, .scalar .int32⟩] ∧ Sample.nodes.headerText = some header ∧ Sample.nodes.sourceText = some source ∧
    SpecCpp.classOf header source b.1.cpp [.scalar .int32] = some p ∧
    ctorOf source b.1.cpp [cpp! "QtProtobuf::int32", cpp! "QObject *"] = some f ∧ f.params.map (·.2) = [text! "parent", text! "parent"] ∧
    ∀ constants copy (v : Val) (memory : Obj), p.construct constants copy f [.data (.scalar .int32) v] memory = .ub := by
  have hb : nodes.bodies[0]'(by decide) ∈ nodes.bodies := List.getElem_mem _
  have hr : Represents nodes.c (nodes.bodies[0]'(by decide)).2 [⟨1, .scalar .int32⟩] := represents_of (by decide +kernel)
  obtain ⟨header, source, p, h1, h2, h3, -⟩ := C96_class_partial nodesPlain hb hr
  obtain ⟨ok, hlast, -⟩ := allBodies_ok nodesPlain.file nodesPlain.msgs (show _ ∈ allBodies nodes.o nodes.c nodes.msgs from hb)
  refine ⟨_, header, source, p, _, hb, hr, h1, h2, h3, ctor_found nodesPlain hb h2 (find_ctor (m := ⟨_, _⟩) (n := 1) hlast (by decide)), rfl, ?_⟩
  intro constants copy v memory
  unfold ClassText.construct
  split
  · unfold ClassText.start
    split
    · rw [if_neg fun h => absurd h.2.2.2 (by rw [show ((ctorFn nodes.o nodes.c _ _ 1).params.map (·.2)) = [text! "parent", text! "parent"] from rfl]; decide)]
    · rfl
  · rfl

/-- The program of the sample with its copy constructors; a memory for the new object. -/
example : (∃ prog copies, GeneratedCopy outerEnv prog copies) ∧ WellTyped outerEnv 0 (outerObj 77#32 .msgNull) ∧
    Parameters ((file.bodies[1]).2.take 2) ∧ Fits outerEnv (.scalar .int32) (.data (.scalar .int32) (.sc (.w32 5#32))) ∧
    Fits outerEnv (.msg 1) (.message 1 [.sc (.w32 7#32)]) :=
  ⟨C96_program_copies_partial fun k => by
      obtain ⟨b, hb, hr⟩ := outerFiles k
      exact ⟨file, b, filePlain, hb, hr⟩,
    typed (safe_outer _ (.null 1)), by unfold Parameters; decide +kernel, .data (by simp), .message safe_inner⟩

/-- `Outer(5, …)` and `Outer()` of the sample, in memory that holds something else. -/
example : ∃ header source p f f0, file.headerText = some header ∧ file.sourceText = some source ∧
    SpecCpp.classOf header source [text! "pkg", text! "sub", text! "Outer"] ((outerEnv.sch 0).map (·.ty)) = some p ∧
    ctorOf source [text! "pkg", text! "sub", text! "Outer"] [cpp! "QtProtobuf::int32", cpp! "QObject *"] = some f ∧
    ctorOf source [text! "pkg", text! "sub", text! "Outer"] [cpp! "QObject *"] = some f0 ∧
    p.construct Sample.constants (fun _ _ => .ub) f [.data (.scalar .int32) (.sc (.w32 5#32))] (outerObj 77#32 .msgNull) =
      .ok [.sc (.w32 5#32), .msgNull, .msgList [], .enum 0#32, .map []] ∧
    p.construct Sample.constants (fun _ _ => .ub) f0 [] (outerObj 77#32 .msgNull) = .ok (defaultObj outerEnv 0) := by
  have hr : Represents file.c (file.bodies[1]).2 (outerEnv.sch 0) := represents_of (by decide +kernel)
  obtain ⟨header, source, p, h1, h2, h3, h4, h5, h6⟩ := C96_class_partial filePlain (member 1 (by decide)) hr
  obtain ⟨f, e1, e2⟩ := C96_construct_partial filePlain (member 1 (by decide)) hr h1 h2 h3 first (copy := fun _ _ => .ub)
    (given := [.data (.scalar .int32) (.sc (.w32 5#32))]) (by decide) (by unfold Parameters; decide +kernel)
  obtain ⟨f0, g1, g2⟩ := C96_default (env := outerEnv) (k := 0) filePlain (member 1 (by decide)) hr h1 h2 h3 first (copy := fun _ _ => .ub)
  refine ⟨header, source, p, f, f0, h1, h2, h3, e1, g1, ?_, g2 _ rfl⟩
  refine (e2 [.sc (.w32 5#32)] (outerObj 77#32 .msgNull) rfl (fun i g r v a b c => ?_) rfl).trans rfl
  cases i with
  | zero =>
    cases a; cases b; cases c
    exact .data (by simp)
  | succ i => simp at b

end QtPb.Gen.Text
