import Verif.GenLemmas
/-
C44: every message of a file gets exactly one generated class.
-/
namespace QtPb.Gen
open Spec

/-! ### Lemmas -/

theorem mem_classes {extra : Str} {f : File} {q : Path} :
    q ∈ (f.classes extra).map Printed.msg ↔ ∃ m ∈ f.messages, ∃ x, Reached f.package m q x := by
  rw [File.classes, List.map_flatMap, List.mem_flatMap]
  simp only [mem_declare]

theorem reached_not_entry {pre : List Str} {m x : Msg} {q : Path} (h : Reached pre m q x)
    (hv : ∀ q x, Contains pre m q x → Valid q x) (he : m.entry = false) : x.entry = false := by
  induction h with
  | self => exact he
  | @nested pre m n x q hn hu _ ih =>
    refine ih (fun q x h => hv q x (.nested hn h)) ?_
    have v := hv _ _ (.self (m := m))
    cases hne : n.entry with
    | false => rfl
    | true =>
      rcases hu with hu | hu
      · obtain ⟨fd, hfd, _⟩ := v.entry_used n hn hne
        rw [hu] at hfd
        simp at hfd
      · exact absurd hu (v.entry_only n hn hne)

theorem reached_of_contains {pre : List Str} {m x : Msg} {q : Path} (h : Contains pre m q x)
    (hv : ∀ q x, Contains pre m q x → Valid q x)
    (hu : ∀ q x, Contains pre m q x → ∀ n ∈ x.nested, n.entry = false → x.fields = [] ∨ UsesAsField x (q ++ [n.name]))
    (hx : x.entry = false) : Reached pre m q x := by
  induction h with
  | self => exact .self
  | @nested pre m n x q hn hc ih =>
    refine .nested hn ?_ (ih (fun q x h => hv q x (.nested hn h)) (fun q x h => hu q x (.nested hn h)) hx)
    refine hu _ _ .self n hn ?_
    cases hne : n.entry with
    | false => rfl
    | true =>
      have v := hv _ _ (.nested hn .self)
      cases hc with
      | self => rw [hx] at hne; simp at hne
      | nested hk _ => rw [v.entry_leaf hne] at hk; simp at hk

theorem reached_through {pre : List Str} {m x : Msg} {q : Path} (h : Contains pre m q x) :
    (∀ q x, Contains pre m q x → Valid q x) → ∀ {a : Str} {r : List Str} {y : Msg}, Reached pre m (q ++ a :: r) y →
      ∃ n ∈ x.nested, n.name = a ∧ (x.fields = [] ∨ UsesAsField x (q ++ [a])) := by
  induction h with
  | @self pre m =>
    intro hv a r y hr
    generalize hq : pre ++ [m.name] ++ a :: r = q at hr
    cases hr with
    | self =>
      have := congrArg List.length hq
      simp at this
    | @nested _ _ n _ _ hn hu hx =>
      obtain ⟨s, rfl⟩ := reached_prefix hx
      have : n.name = a := by
        simp only [List.append_assoc, List.cons_append, List.nil_append, List.append_cancel_left_eq, List.cons.injEq, true_and] at hq
        exact hq.1.symm
      subst this
      exact ⟨n, hn, rfl, hu⟩
  | @nested pre m n x q hn hc ih =>
    intro hv a r y hr
    obtain ⟨t, rfl⟩ := contains_prefix hc
    generalize hq : pre ++ [m.name] ++ [n.name] ++ t ++ a :: r = q at hr
    cases hr with
    | self =>
      have := congrArg List.length hq
      simp at this
    | @nested _ _ k _ _ hk hu hx =>
      obtain ⟨s, rfl⟩ := reached_prefix hx
      have e : n.name = k.name := by
        simp only [List.append_assoc, List.cons_append, List.nil_append, List.append_cancel_left_eq, List.cons.injEq, true_and] at hq
        exact hq.1
      have := same_name (hv _ _ .self).names hn hk e
      subst this
      rw [← hq] at hx
      exact ih (fun q x h => hv q x (.nested hn h)) hx

theorem contains_step {pre : List Str} {m x : Msg} {a : Str} {r : List Str} (h : Contains pre m (pre ++ m.name :: a :: r) x) :
    ∃ n ∈ m.nested, n.name = a ∧ Contains (pre ++ [m.name]) n (pre ++ [m.name] ++ a :: r) x := by
  generalize hq : pre ++ m.name :: a :: r = q at h
  cases h with
  | self =>
    have := congrArg List.length hq
    simp at this
  | @nested _ _ n _ _ hn hx =>
    obtain ⟨s, rfl⟩ := contains_prefix hx
    have e : n.name = a := by
      simp only [List.append_assoc, List.cons_append, List.nil_append, List.append_cancel_left_eq, List.cons.injEq, true_and] at hq
      exact hq.1.symm
    refine ⟨n, hn, e, ?_⟩
    rw [← hq] at hx
    simpa using hx

theorem relName_inj : ∀ (r r' : List Str) (pre : List Str) (l : List Msg) (m m' x x' : Msg),
    (∀ a ∈ l, ∀ b ∈ l, upperCaseName a.name = upperCaseName b.name → a = b) →
    (∀ n ∈ l, ∀ q x, Contains pre n q x → ∀ a ∈ x.nested, ∀ b ∈ x.nested, upperCaseName a.name = upperCaseName b.name → a = b) →
    m ∈ l → m' ∈ l → Contains pre m (pre ++ m.name :: r) x → Contains pre m' (pre ++ m'.name :: r') x' →
    relName (m.name :: r) = relName (m'.name :: r') → m.name :: r = m'.name :: r'
  | [], [], pre, l, m, m', x, x', hd, hn, hm, hm', hx, hx', e => by
    simp only [relName, List.cons.injEq, and_true] at e
    rw [hd m hm m' hm' e]
  | [], b :: r', _, _, m, m', _, _, _, _, _, _, _, _, e => by
    have := congrArg List.length e
    cases r' <;> simp [relName] at this
  | b :: r, [], _, _, m, m', _, _, _, _, _, _, _, _, e => by
    have := congrArg List.length e
    cases r <;> simp [relName] at this
  | b :: r, b' :: r', pre, l, m, m', x, x', hd, hn, hm, hm', hx, hx', e => by
    simp only [relName, List.cons.injEq] at e
    have : m = m' := hd m hm m' hm' (by simpa [nestedNs] using e.1)
    subst this
    obtain ⟨n, h1, h2, h3⟩ := contains_step hx
    obtain ⟨n', h1', h2', h3'⟩ := contains_step hx'
    subst h2 h2'
    rw [relName_inj r r' (pre ++ [m.name]) m.nested n n' x x' (hn m hm _ _ .self) (fun k hk q x h => hn m hm q x (.nested hk h)) h1 h1' h3 h3' e.2]

/-! ### Properties -/

/-- Forward declarations, class declarations and class definitions are printed for the same messages, in the same namespaces
and the same order; meta types are declared for the same messages. -/
theorem C44_passes_agree (extra : Str) (f : File) :
    f.forwards extra = f.classes extra ∧ f.definitions extra = f.classes extra ∧ f.metas.Perm ((f.classes extra).map Printed.msg) := by
  refine ⟨?_, ?_, ?_⟩
  · simp only [File.forwards, File.classes, funext (fun m => forward_eq m (fileNs extra f.package) f.package)]
  · simp only [File.definitions, File.classes, funext (fun m => define_eq m (fileNs extra f.package) f.package)]
  · rw [File.metas, File.classes, List.map_flatMap]
    generalize f.messages = l
    induction l with
    | nil => exact .nil
    | cons m l ih => exact (metaTypes_perm m _ _).append ih

/-- No message gets two classes, and no map entry gets one. -/
theorem C44_never_twice {extra : Str} {f : File} (hf : ValidFile f) :
    ((f.classes extra).map Printed.msg).Nodup ∧
      ∀ q ∈ (f.classes extra).map Printed.msg, ∃ x, Has f q x ∧ x.entry = false := by
  constructor
  · have := declareList_nodup f.messages (fileNs extra f.package) f.package (.mk [] [] [] false) hf.names
      (fun m hm q x h => hf.valid q x ⟨m, hm, h⟩)
    have e : ∀ l : List Msg, declareList (fileNs extra f.package) f.package [] l = l.flatMap (declare (fileNs extra f.package) f.package) := by
      intro l
      induction l with
      | nil => rfl
      | cons m l ih => rw [declareList, ih]; rfl
    simp only [Msg.fields, e] at this
    exact this
  · intro q hq
    obtain ⟨m, hm, x, hx⟩ := mem_classes.mp hq
    exact ⟨x, ⟨m, hm, contains_of_reached hx⟩, reached_not_entry hx (fun q x h => hf.valid q x ⟨m, hm, h⟩) (hf.top m hm)⟩

/-- The messages that get a class are exactly those the generator reaches by going from messages to nested messages that they
use as the type of a field, or to all nested messages if they have no fields. -/
theorem C44_exact (extra : Str) (f : File) (q : Path) :
    q ∈ (f.classes extra).map Printed.msg ↔ ∃ m ∈ f.messages, ∃ x, Reached f.package m q x := mem_classes

/-- If every nested message is used by the message it is in (or that has no fields), every message of the file, at any depth,
gets exactly one class, and nothing else does. -/
theorem C44_once_partial {extra : Str} {f : File} (hf : ValidFile f) (hu : AllUsed f) :
    ((f.classes extra).map Printed.msg).Nodup ∧
      ∀ q, q ∈ (f.classes extra).map Printed.msg ↔ ∃ x, Has f q x ∧ x.entry = false := by
  refine ⟨(C44_never_twice hf).1, fun q => ⟨(C44_never_twice hf).2 q, ?_⟩⟩
  rintro ⟨x, ⟨m, hm, hx⟩, he⟩
  exact mem_classes.mpr ⟨m, hm, x, reached_of_contains hx (fun q x h => hf.valid q x ⟨m, hm, h⟩)
    (fun q x h => hu q x ⟨m, hm, h⟩) he⟩

/-- A nested message that no field of the message it is in uses gets no class, and neither does anything nested in it, if the
message it is in has fields. -/
theorem C44_unused_violated {extra : Str} {f : File} (hf : ValidFile f) {q : Path} {x n : Msg} (hx : Has f q x) (hfields : x.fields ≠ [])
    (hn : n ∈ x.nested) (hu : ¬ UsesAsField x (q ++ [n.name])) (r : List Str) :
    q ++ n.name :: r ∉ (f.classes extra).map Printed.msg := by
  intro h
  obtain ⟨m', hm', y, hy⟩ := mem_classes.mp h
  obtain ⟨m, hm, hc⟩ := hx
  have : m = m' := by
    obtain ⟨s, hs⟩ := contains_prefix hc
    obtain ⟨t, ht⟩ := reached_prefix hy
    rw [hs] at ht
    refine same_name hf.names hm hm' ?_
    simp only [List.append_assoc, List.cons_append, List.nil_append, List.append_cancel_left_eq, List.cons.injEq] at ht
    exact ht.1
  subst this
  obtain ⟨n', _, he, h1 | h1⟩ := reached_through hc (fun q x h => hf.valid q x ⟨m, hm, h⟩) hy
  · exact hfields h1
  · exact hu h1

/-- A class is printed in the namespaces of the package, preceded by the extra namespace, and one for each message its message
is nested in. -/
theorem C44_cpp_name {extra : Str} {f : File} : ∀ p ∈ f.classes extra, ∃ inside name,
    p.msg = f.package ++ inside ++ [name] ∧ p.cpp = cppName extra f.package inside name := by
  intro p hp
  simp only [File.classes, List.mem_flatMap] at hp
  obtain ⟨m, _, hp⟩ := hp
  obtain ⟨r, h1, h2⟩ := declare_cpp m _ _ p hp
  have hne : m.name :: r ≠ [] := by simp
  refine ⟨(m.name :: r).dropLast, (m.name :: r).getLast hne, ?_, ?_⟩
  · rw [h1, List.append_assoc, List.dropLast_concat_getLast hne]
  · rw [h2, cppName, List.append_assoc _ _ [_], ← relName_eq, List.dropLast_concat_getLast hne]
    rfl

/-- If names that stand side by side are distinct even when capitalised, no two classes have the same C++ name. -/
theorem C44_cpp_distinct {extra : Str} {f : File} (hf : ValidFile f)
    (htop : ∀ a ∈ f.messages, ∀ b ∈ f.messages, upperCaseName a.name = upperCaseName b.name → a = b)
    (hnest : ∀ q x, Has f q x → ∀ a ∈ x.nested, ∀ b ∈ x.nested, upperCaseName a.name = upperCaseName b.name → a = b) :
    ((f.classes extra).map Printed.cpp).Nodup := by
  have hnd := (C44_never_twice (extra := extra) hf).1
  have inj : ∀ p ∈ f.classes extra, ∀ p' ∈ f.classes extra, p.cpp = p'.cpp → p.msg = p'.msg := by
    intro p hp p' hp' e
    have hq : p.msg ∈ (f.classes extra).map Printed.msg := List.mem_map_of_mem hp
    have hq' : p'.msg ∈ (f.classes extra).map Printed.msg := List.mem_map_of_mem hp'
    simp only [File.classes, List.mem_flatMap] at hp hp'
    obtain ⟨m, hm, hp⟩ := hp
    obtain ⟨m', hm', hp'⟩ := hp'
    obtain ⟨x, hx⟩ := (mem_declare m _ _ _).mp (List.mem_map_of_mem (f := Printed.msg) hp)
    obtain ⟨x', hx'⟩ := (mem_declare m' _ _ _).mp (List.mem_map_of_mem (f := Printed.msg) hp')
    obtain ⟨r, h1, h2⟩ := declare_cpp m _ _ p hp
    obtain ⟨r', h1', h2'⟩ := declare_cpp m' _ _ p' hp'
    rw [h2, h2', List.append_cancel_left_eq] at e
    rw [h1] at hx
    rw [h1'] at hx'
    rw [h1, h1', relName_inj r r' f.package f.messages m m' x x' htop (fun n hn q x h => hnest q x ⟨n, hn, h⟩) hm hm'
      (contains_of_reached hx) (contains_of_reached hx') e]
  revert hnd inj
  generalize f.classes extra = l
  intro hnd inj
  induction l with
  | nil => simp
  | cons p l ih =>
    simp only [List.map_cons, List.nodup_cons, List.mem_map, not_exists, not_and] at hnd ⊢
    refine ⟨fun p' hp' e => hnd.1 p' hp' (inj p' (by simp [hp']) p (by simp) e), ih hnd.2 ?_⟩
    exact fun a ha b hb => inj a (by simp [ha]) b (by simp [hb])

/-! ### Examples -/

/-- message A { message B { message C {} C c = 1; } message D {} B b = 1; D d = 2; map<int32, int32> m = 3; }, in package p. -/
def demoFile : File :=
  ⟨[['p']], [.mk ['A'] [⟨['b'], ['b'], 1, .message, false, false, some [['p'], ['A'], ['B']], none⟩,
    ⟨['d'], ['d'], 2, .message, false, false, some [['p'], ['A'], ['D']], none⟩,
    ⟨['m'], ['m'], 3, .message, true, true, some [['p'], ['A'], ['M']], none⟩]
    [.mk ['B'] [⟨['c'], ['c'], 1, .message, false, false, some [['p'], ['A'], ['B'], ['C']], none⟩] [.mk ['C'] [] [] false] false,
     .mk ['D'] [] [] false, .mk ['M'] [⟨['k'], ['k'], 1, .int32, false, false, none, none⟩, ⟨['v'], ['v'], 2, .int32, false, false, none, none⟩] [] true]
    false]⟩

/-- The messages of `demoFile`. -/
theorem demoFile_has {q : Path} {x : Msg} (h : Has demoFile q x) :
    (q, x) ∈ (let a := demoFile.messages[0]; let b := a.nested[0]'(by decide);
      [([['p'], ['A']], a), ([['p'], ['A'], ['B']], b), ([['p'], ['A'], ['D']], a.nested[1]'(by decide)),
       ([['p'], ['A'], ['M']], a.nested[2]'(by decide)), ([['p'], ['A'], ['B'], ['C']], b.nested[0]'(by decide))]) := by
  obtain ⟨m, hm, hc⟩ := h
  simp only [demoFile, List.mem_singleton] at hm
  subst hm
  cases hc with
  | self => simp [demoFile, Msg.name]
  | nested hn hc =>
    simp only [Msg.nested, List.mem_cons, List.not_mem_nil, or_false] at hn
    rcases hn with rfl | rfl | rfl
    · cases hc with
      | self => simp [demoFile, Msg.name, Msg.nested]
      | nested hn hc =>
        simp only [Msg.nested, List.mem_cons, List.not_mem_nil, or_false] at hn
        subst hn
        cases hc with
        | self => simp [demoFile, Msg.name, Msg.nested]
        | nested hn _ => simp [Msg.nested] at hn
    · cases hc with
      | self => simp [demoFile, Msg.name, Msg.nested]
      | nested hn _ => simp [Msg.nested] at hn
    · cases hc with
      | self => simp [demoFile, Msg.name, Msg.nested]
      | nested hn _ => simp [Msg.nested] at hn

theorem demoFile_valid : ValidFile demoFile where
  names := by decide
  top := by simp [demoFile, Msg.entry]
  valid := by
    intro q x h
    have := demoFile_has h
    simp only [List.mem_cons, Prod.mk.injEq, List.not_mem_nil, or_false] at this
    rcases this with ⟨rfl, rfl⟩ | ⟨rfl, rfl⟩ | ⟨rfl, rfl⟩ | ⟨rfl, rfl⟩ | ⟨rfl, rfl⟩ <;>
      constructor <;> simp [demoFile, Msg.nested, Msg.name, Msg.entry, Msg.fields, UsesAsField]

theorem demoFile_used : AllUsed demoFile := by
  intro q x h
  have := demoFile_has h
  simp only [List.mem_cons, Prod.mk.injEq, List.not_mem_nil, or_false] at this
  rcases this with ⟨rfl, rfl⟩ | ⟨rfl, rfl⟩ | ⟨rfl, rfl⟩ | ⟨rfl, rfl⟩ | ⟨rfl, rfl⟩ <;>
    simp [demoFile, Msg.nested, Msg.name, Msg.entry, Msg.fields, UsesAsField]

example : ((demoFile.classes []).map Printed.msg).Nodup := (C44_once_partial demoFile_valid demoFile_used).1
example : (demoFile.classes []).map Printed.msg = [[['p'], ['A'], ['B'], ['C']], [['p'], ['A'], ['B']], [['p'], ['A'], ['D']], [['p'], ['A']]] := by
  decide
/-- The hypotheses of `C44_unused_violated`: A with the fields of B only. -/
example : (File.classes [] ⟨[], [.mk ['A'] [⟨['x'], ['x'], 1, .int32, false, false, none, none⟩] [.mk ['B'] [] [] false] false]⟩).map Printed.msg =
    [[['A']]] := by decide

/-- Two messages whose names differ in the case of the first letter get classes with the same name. -/
theorem C44_capital_violated : ∃ f : File, ValidFile f ∧ AllUsed f ∧ ¬ ((f.classes []).map Printed.cpp).Nodup := by
  refine ⟨⟨[], [.mk ['a'] [] [] false, .mk ['A'] [] [] false]⟩, ⟨by decide, by simp [Msg.entry], ?_⟩, ?_, by decide⟩
  · rintro q x ⟨m, hm, hc⟩
    have : x.nested = [] := by
      simp only [List.mem_cons, List.not_mem_nil, or_false] at hm
      rcases hm with rfl | rfl <;> cases hc with
      | self => rfl
      | nested hn _ => simp [Msg.nested] at hn
    constructor <;> simp [this]
  · rintro q x ⟨m, hm, hc⟩
    have : x.nested = [] := by
      simp only [List.mem_cons, List.not_mem_nil, or_false] at hm
      rcases hm with rfl | rfl <;> cases hc with
      | self => rfl
      | nested hn _ => simp [Msg.nested] at hn
    simp [this]

end QtPb.Gen
