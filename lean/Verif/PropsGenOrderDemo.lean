import Verif.PropsGenOrderWrong
/-
C99: cases that meet the conditions of the theorems, and further headers that cannot be compiled.
-/
namespace QtPb.Gen
open Spec

/-! ### Tools for cases -/

mutual
/-- The messages in a message, with their names. -/
def listed (pre : Path) : Msg → List (Path × Msg)
  | .mk name fields nested entry => (pre ++ [name], .mk name fields nested entry) :: listedAll (pre ++ [name]) nested
def listedAll (pre : Path) : List Msg → List (Path × Msg)
  | [] => []
  | n :: rest => listed pre n ++ listedAll pre rest
end

theorem listed_self (pre : Path) (m : Msg) : (pre ++ [m.name], m) ∈ listed pre m := by
  cases m
  exact List.mem_cons_self ..

theorem mem_listedAll {pre : Path} {p : Path × Msg} : ∀ {l : List Msg} {n : Msg}, n ∈ l → p ∈ listed pre n → p ∈ listedAll pre l
  | k :: l, n, hn, hp => by
    rw [listedAll]
    rcases List.mem_cons.mp hn with rfl | hn
    · exact List.mem_append_left _ hp
    · exact List.mem_append_right _ (mem_listedAll hn hp)

theorem contains_listed {pre : List Str} {m x : Msg} {q : Path} (h : Contains pre m q x) : (q, x) ∈ listed pre m := by
  induction h with
  | self => exact listed_self _ _
  | @nested pre m n x q hn _ ih =>
    cases m
    exact List.mem_cons_of_mem _ (mem_listedAll hn ih)

/-- Files of the package `p` without maps. -/
theorem plainFiles {files : List ProtoFile} (hn : (files.map ProtoFile.name).Nodup)
    (hi : ∃ rank : Str → Nat, ∀ f ∈ files, ∀ d ∈ f.deps, rank d < rank f.name)
    (hp : ∀ f ∈ files, f.package = [['p']] ∧ (f.messages.map Msg.name).Nodup ∧
      ∀ m ∈ f.messages, ∀ p ∈ listed f.package m, p.2.entry = false ∧ (p.2.nested.map Msg.name).Nodup ∧ (∀ fd ∈ p.2.fields, fd.isMap = false) ∧
        ∀ n ∈ p.2.nested, n.entry = false) : ValidFiles (fun _ => [['p']]) files where
  names := hn
  imports := hi
  valid f hf := ⟨(hp f hf).2.1, fun m hm => ((hp f hf).2.2 m hm _ (listed_self _ _)).1, by
    rintro q x ⟨m, hm, h⟩
    obtain ⟨h1, h2, h3, h4⟩ := (hp f hf).2.2 m hm _ (contains_listed h)
    refine ⟨h2, fun n hn he => ?_, fun n hn he => ?_, fun he => ?_⟩
    · rw [h4 n hn] at he; simp at he
    · rw [h4 n hn] at he; simp at he
    · rw [h1] at he; simp at he⟩
  packages f hf m hm q x _ := (hp f hf).1.symm
  maps f hf m hm q x h fd hfd hmap := by
    rw [((hp f hf).2.2 m hm _ (contains_listed h)).2.2.1 fd hfd] at hmap
    simp at hmap

theorem uses_field {q : Path} {x : Msg} {fd : FieldD} (hx : ∀ fd ∈ x.fields, fd.isMap = false) (h : UsesType q x fd) : fd ∈ x.fields := by
  rcases h with ⟨h, _⟩ | ⟨mf, hmf, hm, _⟩
  · exact h
  · rw [hx mf hmf] at hm; simp at hm

/-- The reading of lines as a function, as far as `n` allows. -/
def expand {κ : Type} [DecidableEq κ] (header : κ → List (Line κ)) : Nat → List κ → List (Line κ) → Option (List κ × List Decl)
  | _, seen, [] => some (seen, [])
  | 0, _, _ => none
  | n + 1, seen, .decl d :: ls => (expand header n seen ls).map fun r => (r.1, d :: r.2)
  | n + 1, seen, .incl k :: ls =>
    if k ∈ seen then expand header n seen ls
    else (expand header n (k :: seen) (header k)).bind fun r => (expand header n r.1 ls).map fun r' => (r'.1, r.2 ++ r'.2)

theorem expand_sound {κ : Type} [DecidableEq κ] {header : κ → List (Line κ)} : ∀ {n : Nat} {seen : List κ} {ls : List (Line κ)} {r : List κ × List Decl},
    expand header n seen ls = some r → Expands header seen ls r.1 r.2
  | 0, seen, [], r, h => by
    simp only [expand, Option.some.injEq] at h
    subst h
    exact .nil
  | n + 1, seen, [], r, h => by
    simp only [expand, Option.some.injEq] at h
    subst h
    exact .nil
  | 0, seen, l :: ls, r, h => by simp [expand] at h
  | n + 1, seen, .decl d :: ls, r, h => by
    simp only [expand, Option.map_eq_some_iff] at h
    obtain ⟨r', h, rfl⟩ := h
    exact .decl (expand_sound h)
  | n + 1, seen, .incl k :: ls, r, h => by
    unfold expand at h
    split at h
    · rename_i hk
      exact .again hk (expand_sound h)
    · rename_i hk
      simp only [Option.bind_eq_some_iff, Option.map_eq_some_iff] at h
      obtain ⟨r1, h1, r2, h2, rfl⟩ := h
      exact .once hk (expand_sound h1) (expand_sound h2)

theorem compiles_of_expand {κ : Type} [DecidableEq κ] {header : κ → List (Line κ)} {k : κ} {n : Nat} {out : List Decl}
    (h : (expand header n [k] (header k)).map Prod.snd = some out) : Compiles header k out := by
  simp only [Option.map_eq_some_iff] at h
  obtain ⟨r, h, rfl⟩ := h
  exact ⟨_, expand_sound h⟩

theorem compiles_unique {κ : Type} {header : κ → List (Line κ)} {k : κ} {o1 o2 : List Decl} (h1 : Compiles header k o1) (h2 : Compiles header k o2) :
    o1 = o2 := by
  obtain ⟨s1, h1⟩ := h1
  obtain ⟨s2, h2⟩ := h2
  exact (expands_unique h1 h2).2

variable {extra : Str} {pkgOf : Path → List Str}

theorem bad_list {out a b : List Decl} {cpp : List Str} {q t : Path} {types : List FieldD} {fd : FieldD} (e : out = a ++ .cls cpp q types :: b)
    (hfd : fd ∈ types) (h1 : fd.type = .message) (h2 : fd.msgType = some t) (h3 : ¬ IsQt (pkgOf q) t) (h4 : fd.repeated = true)
    (h5 : .list (nameOf extra pkgOf t) ∉ a) : ¬ Ordered extra pkgOf out := by
  intro ho
  have := (ho a _ b e fd hfd).1 t h1 h2 h3
  rw [if_pos h4] at this
  exact h5 this

theorem bad_class {out a b : List Decl} {cpp : List Str} {q t : Path} {types : List FieldD} {fd : FieldD} (e : out = a ++ .cls cpp q types :: b)
    (hfd : fd ∈ types) (h1 : fd.type = .message) (h2 : fd.msgType = some t) (h3 : ¬ IsQt (pkgOf q) t) (h4 : fd.repeated = false) (h5 : t ≠ q)
    (h6 : .fwd (nameOf extra pkgOf t) ∉ a) (h7 : t ∉ clsMsgs a) : ¬ Ordered extra pkgOf out := by
  intro ho
  have := (ho a _ b e fd hfd).1 t h1 h2 h3
  rw [if_neg (by simp [h4])] at this
  rcases this with h | h | ⟨ts, h⟩
  · exact h5 h
  · exact h6 h
  · refine h7 ?_
    obtain ⟨u, v, rfl⟩ := List.append_of_mem h
    rw [clsMsgs_append]
    simp [clsMsgs]

theorem not_qt {package : List Str} {t : Path} (h : t.dropLast ≠ [['Q', 't', 'P', 'r', 'o', 't', 'o', 'b', 'u', 'f']]) : ¬ IsQt package t :=
  fun hq => h hq.1

/-! ### Single-file mode: a case -/

namespace OrderDemo

def P : Path := [['p']]
def fRep (name : Str) (q : Path) : FieldD := { fMsg name q with repeated := true }

/-- `message C {}` in c.proto; in a.proto, which imports it, `enum E`, `message A { message N {} enum K … N n; repeated A l; C c; E e; }` and
`message B { A.K k; }`. -/
def c : ProtoFile := { name := "c.proto".toList, package := P, messages := [demoMsg ['C']], enums := [], services := [], deps := [] }
def mN : Msg := .mk ['N'] [] [] false
def mA : Msg := .mk ['A'] [fMsg ['n'] (P ++ [['A'], ['N']]), fRep ['l'] (P ++ [['A']]), fMsg ['c'] (P ++ [['C']]), fEnum ['e'] (P ++ [['E']])] [mN] false
def mB : Msg := .mk ['B'] [fEnum ['k'] (P ++ [['A'], ['K']])] [] false
def a : ProtoFile := { name := "a.proto".toList, package := P, messages := [mA, mB], enums := [['E']], services := [], deps := ["c.proto".toList] }

theorem validFiles : ValidFiles (fun _ => P) [a, c] := by
  refine plainFiles (by decide +kernel) ⟨fun n => if n = "c.proto".toList then 0 else 1, ?_⟩ ?_
  · intro f hf d hd
    simp only [List.mem_cons, List.not_mem_nil, or_false] at hf
    rcases hf with rfl | rfl
    · simp only [a, List.mem_cons, List.not_mem_nil, or_false] at hd
      subst hd
      decide +kernel
    · simp [c] at hd
  · decide +kernel

theorem reached_A : Reached P mA (P ++ [['A']]) mA := .self
theorem reached_N : Reached P mA (P ++ [['A'], ['N']]) mN := .nested (m := mA) (List.mem_cons_self ..) (Or.inr ⟨_, List.mem_cons_self .., rfl, rfl⟩) .self
theorem reached_B : Reached P mB (P ++ [['B']]) mB := .self

theorem noMaps : ∀ f ∈ [a, c], ∀ m ∈ f.messages, ∀ p ∈ listed P m, ∀ fd ∈ p.2.fields, fd.isMap = false := by decide +kernel

theorem typesInOrder : ∀ f ∈ [a, c], TypesInOrder (fun _ => P) [a, c] f := by
  intro f hf
  simp only [List.mem_cons, List.not_mem_nil, or_false] at hf
  have hfd : ∀ f ∈ [a, c], ∀ m ∈ f.messages, ∀ q x fd, Reached P m q x → UsesType q x fd → (q, x) ∈ listed P m ∧ fd ∈ x.fields := by
    intro f hf m hm q x fd hx hu
    have hl := contains_listed (reached_contains hx)
    exact ⟨hl, uses_field (noMaps f hf m hm _ hl) hu⟩
  have keyc : ∀ m ∈ c.messages, ∀ p ∈ listed P m, p.2.fields = [] := by decide +kernel
  rcases hf with rfl | rfl
  · constructor
    · intro m hm q x hx fd hu t h1 h2 _
      obtain ⟨hl, hm'⟩ := hfd a (by simp) m hm q x fd hx hu
      have key : ∀ m ∈ a.messages, ∀ p ∈ listed P m, ∀ fd ∈ p.2.fields, fd.type ≠ .message ∨
          fd.msgType ∈ [some (P ++ [['A'], ['N']]), some (P ++ [['A']]), some (P ++ [['C']])] := by decide +kernel
      have key' := (key m hm _ hl fd hm').resolve_left (fun h => h h1)
      simp only [List.mem_cons, List.not_mem_nil, or_false] at key'
      rcases key' with h | h | h <;> rw [h2, Option.some.injEq] at h <;> subst h
      · exact ⟨a, .refl, rfl, mA, List.mem_cons_self .., mN, reached_N⟩
      · exact ⟨a, .refl, rfl, mA, List.mem_cons_self .., mA, reached_A⟩
      · exact ⟨c, .step (f1 := c) (by simp) (by simp [a, c]) (by decide +kernel) (by decide +kernel) .refl, rfl, demoMsg ['C'], List.mem_cons_self .., _, .self⟩
    · intro m hm q x hx fd hu e h1 h2 h3
      obtain ⟨hl, hm'⟩ := hfd a (by simp) m hm q x fd hx hu
      have key : ∀ m ∈ a.messages, ∀ p ∈ listed P m, ∀ fd ∈ p.2.fields, fd.type ≠ .enum ∨
          fd.enumType = some (P ++ [['E']]) ∨ fd.enumType = some (P ++ [['A'], ['K']]) ∧ p.1 = P ++ [['B']] := by decide +kernel
      rcases (key m hm _ hl fd hm').resolve_left (fun h => h h1) with h | ⟨h, hq⟩ <;> rw [h2, Option.some.injEq] at h <;> subst h
      · exact ⟨a, .refl, rfl, Or.inl ⟨['E'], by simp [a], rfl⟩⟩
      · dsimp only at hq
        subst hq
        exact ⟨a, .refl, rfl, Or.inr ⟨rfl, by decide, Or.inr ⟨rfl,
          .side (a := []) (b := []) (c := []) (m1 := mA) (m2 := mB) (Or.inl rfl) (Or.inl rfl) reached_A reached_B⟩⟩⟩
  · constructor
    · intro m hm q x hx fd hu
      obtain ⟨hl, hm'⟩ := hfd c (by simp) m hm q x fd hx hu
      rw [keyc m hm _ hl] at hm'
      simp at hm'
    · intro m hm q x hx fd hu
      obtain ⟨hl, hm'⟩ := hfd c (by simp) m hm q x fd hx hu
      rw [keyc m hm _ hl] at hm'
      simp at hm'

/-- The conditions of `C99_single_partial`, and what the compiler sees of a.proto: the class C of the imported file first. -/
example : ∃ out, Compiles (singleHeader [] [a, c]) a.name out ∧ Ordered [] (fun _ => P) out ∧
    clsMsgs out = [P ++ [['C']], P ++ [['A'], ['N']], P ++ [['A']], P ++ [['B']]] := by
  have h : Compiles (singleHeader [] [a, c]) a.name (((expand (singleHeader [] [a, c]) 30 [a.name] (singleHeader [] [a, c] a.name)).map Prod.snd).getD []) :=
    compiles_of_expand (n := 30) (by decide +kernel)
  exact ⟨_, h, C99_single_partial validFiles typesInOrder h, by decide +kernel⟩

/-- The conditions of `C99_later_enum_violated`: `message B { A.K k; } message A { enum K … }` (the message with the enumeration comes later), and
`message A { message N { K k; } enum K … N n; }`. -/
def late : ProtoFile := { a with messages := [mB, demoMsg ['A']], deps := [] }
def mNk : Msg := .mk ['N'] [fEnum ['k'] (P ++ [['A'], ['K']])] [] false
def mAn : Msg := .mk ['A'] [fMsg ['n'] (P ++ [['A'], ['N']])] [mNk] false
def outer : ProtoFile := { a with messages := [mAn], deps := [] }

theorem one_valid {f : ProtoFile} (hp : f.package = P) (hd : f.deps = []) (hn : (f.messages.map Msg.name).Nodup)
    (hl : ∀ m ∈ f.messages, ∀ p ∈ listed P m, p.2.entry = false ∧ (p.2.nested.map Msg.name).Nodup ∧ (∀ fd ∈ p.2.fields, fd.isMap = false) ∧
      ∀ n ∈ p.2.nested, n.entry = false) : ValidFiles (fun _ => P) [f] := by
  refine plainFiles (by simp) ⟨fun _ => 0, ?_⟩ ?_
  · intro g hg d hd'
    rw [List.mem_singleton.mp hg, hd] at hd'
    simp at hd'
  · intro g hg
    rw [List.mem_singleton.mp hg]
    exact ⟨hp, hn, by rw [hp]; exact hl⟩

example (extra : Str) {out : List Decl} (h : Compiles (singleHeader extra [late]) late.name out) : ¬ Ordered extra (fun _ => P) out :=
  C99_later_enum_violated (one_valid rfl rfl (by decide +kernel) (by decide +kernel)) (List.mem_singleton.mpr rfl) (List.mem_cons_self ..) reached_B
    (List.mem_cons_self ..) rfl rfl rfl (by decide)
    (.side (a := []) (b := []) (c := []) (m1 := mB) (m2 := demoMsg ['A']) (Or.inl rfl) (Or.inl rfl) reached_B .self)
    (fun g hg _ => by rw [List.mem_singleton.mp hg]) h

theorem reached_Nk : Reached P mAn (P ++ [['A'], ['N']]) mNk :=
  .nested (m := mAn) (List.mem_cons_self ..) (Or.inr ⟨_, List.mem_cons_self .., rfl, rfl⟩) .self

theorem before_outer : Before P [] [mAn] (P ++ [['A'], ['N']]) (P ++ [['A']]) :=
  .within (m := mAn) (n := mNk) (List.mem_cons_self ..) (Or.inl rfl) (List.mem_cons_self ..) (Or.inr ⟨_, List.mem_cons_self .., rfl, rfl⟩) .self

example (extra : Str) {out : List Decl} (h : Compiles (singleHeader extra [outer]) outer.name out) : ¬ Ordered extra (fun _ => P) out :=
  C99_later_enum_violated (one_valid rfl rfl (by decide +kernel) (by decide +kernel)) (List.mem_singleton.mpr rfl) (List.mem_cons_self ..) reached_Nk
    (List.mem_cons_self ..) rfl rfl rfl (by decide) before_outer (fun g hg _ => by rw [List.mem_singleton.mp hg]) h

/-! ### Multi-file mode -/

theorem noSlashes_one {f : ProtoFile} (hp : f.package = P) (hs : f.services = []) (hm : ∀ m ∈ f.messages, '/' ∉ m.name) : NoSlashes [f] := by
  intro g hg
  rw [List.mem_singleton.mp hg]
  refine ⟨?_, hm, ?_⟩
  · rw [hp]; simp [P, NoSlash]
  · rw [hs]; simp

/-- The conditions of `C99_outer_enum_violated`. -/
example (extra : Str) {out : List Decl} (h : Compiles (multiHeader extra (fun _ => P) [outer]) (headerOf P ['A']) out) : ¬ Ordered extra (fun _ => P) out :=
  C99_outer_enum_violated (files := [outer]) (f := outer) (m := mAn) (e := P ++ [['A'], ['K']]) (one_valid rfl rfl (by decide +kernel) (by decide +kernel)) (noSlashes_one rfl rfl (by decide +kernel)) (by decide +kernel)
    (List.mem_singleton.mpr rfl) (List.mem_cons_self ..) reached_Nk (List.mem_cons_self ..) rfl rfl rfl (by decide) before_outer
    (fun g hg n hn y _ => by
      rw [List.mem_singleton.mp hg] at hn ⊢
      rw [List.mem_singleton.mp hn]) h

/-- The conditions of `C99_own_list_violated`: `message A { repeated A l; }`, a tree. -/
def mTree : Msg := .mk ['A'] [fRep ['l'] (P ++ [['A']])] [] false
def tree : ProtoFile := { a with messages := [mTree], deps := [] }

example (extra : Str) {out : List Decl} (h : Compiles (multiHeader extra (fun _ => P) [tree]) (headerOf P ['A']) out) : ¬ Ordered extra (fun _ => P) out :=
  C99_own_list_violated (files := [tree]) (f := tree) (m := mTree) (one_valid rfl rfl (by decide +kernel) (by decide +kernel)) (noSlashes_one rfl rfl (by decide +kernel)) (by decide +kernel)
    (List.mem_singleton.mpr rfl) (List.mem_cons_self ..) .self (List.mem_cons_self ..) rfl rfl rfl rfl (not_qt (by decide))
    (fun g hg n hn t y hy _ => by
      rw [List.mem_singleton.mp hg] at hn hy ⊢
      have hn' : n = mTree := List.mem_singleton.mp hn
      subst hn'
      refine ⟨?_, rfl⟩
      have := contains_listed (reached_contains hy)
      have key : ∀ p ∈ listed tree.package mTree, p.1 = tree.package ++ [mTree.name] := by decide +kernel
      exact key _ this) h

/-- The conditions of `C99_multi_partial`: `message A { message N {} N n; repeated B l; A a; }`, `message B {}`, and `message C { D d; }` and
`message D { C c; }`, which use each other. -/
def mA2 : Msg := .mk ['A'] [fMsg ['n'] (P ++ [['A'], ['N']]), fRep ['l'] (P ++ [['B']]), fMsg ['a'] (P ++ [['A']])] [mN] false
def mC : Msg := .mk ['C'] [fMsg ['d'] (P ++ [['D']])] [] false
def mD : Msg := .mk ['D'] [fMsg ['c'] (P ++ [['C']])] [] false
def good : ProtoFile := { a with messages := [mA2, demoMsg ['B'], mC, mD], deps := [] }

theorem good_valid : ValidFiles (fun _ => P) [good] := one_valid rfl rfl (by decide +kernel) (by decide +kernel)

theorem good_types : ∀ f ∈ [good], ∀ m ∈ f.messages, TypesAbove [] (fun _ => P) [good] (multiHeader [] (fun _ => P) [good]) f m := by
  intro f hf m hm
  rw [List.mem_singleton.mp hf] at hm ⊢
  have noMaps : ∀ m ∈ good.messages, ∀ p ∈ listed P m, ∀ fd ∈ p.2.fields, fd.isMap = false := by decide +kernel
  constructor
  · intro q x hx fd hu t h1 h2 _
    have hl := contains_listed (reached_contains hx)
    have hfd := uses_field (noMaps m hm _ hl) hu
    have key : (∀ p ∈ listed P mA2, ∀ fd ∈ p.2.fields, (p.1 = P ++ [['A']] ∧ fd.msgType = some (P ++ [['A'], ['N']])) ∨
        fd.msgType = some (P ++ [['B']]) ∨ (p.1 = P ++ [['A']] ∧ fd.msgType = some (P ++ [['A']]) ∧ fd.repeated = false)) ∧
        (∀ p ∈ listed P (demoMsg ['B']), ∀ fd ∈ p.2.fields, False) ∧
        (∀ p ∈ listed P mC, ∀ fd ∈ p.2.fields, fd.msgType = some (P ++ [['D']]) ∧ fd.isMap = false ∧ fd.repeated = false) ∧
        (∀ p ∈ listed P mD, ∀ fd ∈ p.2.fields, fd.msgType = some (P ++ [['C']]) ∧ fd.isMap = false ∧ fd.repeated = false) := by decide +kernel
    have hm' := hm
    simp only [good, List.mem_cons, List.not_mem_nil, or_false] at hm'
    have key' : (m = mA2 ∧ q = P ++ [['A']] ∧ fd.msgType = some (P ++ [['A'], ['N']])) ∨ (m = mA2 ∧ fd.msgType = some (P ++ [['B']])) ∨
        (m = mA2 ∧ q = P ++ [['A']] ∧ fd.msgType = some (P ++ [['A']]) ∧ fd.repeated = false) ∨
        ((fd.msgType = some (P ++ [['D']]) ∨ fd.msgType = some (P ++ [['C']])) ∧ fd.isMap = false ∧ fd.repeated = false) := by
      rcases hm' with rfl | rfl | rfl | rfl
      · rcases key.1 _ hl fd hfd with h | h | h
        · exact Or.inl ⟨rfl, h⟩
        · exact Or.inr (Or.inl ⟨rfl, h⟩)
        · exact Or.inr (Or.inr (Or.inl ⟨rfl, h⟩))
      · exact (key.2.1 _ hl fd hfd).elim
      · exact Or.inr (Or.inr (Or.inr ((key.2.2.1 _ hl fd hfd).imp Or.inl id)))
      · exact Or.inr (Or.inr (Or.inr ((key.2.2.2 _ hl fd hfd).imp Or.inr id)))
    have hne : P ≠ good.package ++ [m.name] := by
      intro h
      have := congrArg List.length h
      simp [good, P, a] at this
    rcases key' with ⟨rfl, hq, h⟩ | ⟨rfl, h⟩ | ⟨rfl, hq, h, hr⟩ | ⟨h | h, hmap, hr⟩ <;>
      rw [h2, Option.some.injEq] at h <;> subst h
    · subst hq
      exact Or.inr (Or.inl (.within (m := mA2) (n := mN) (List.mem_cons_self ..) (Or.inl rfl) (List.mem_cons_self ..)
        (Or.inr ⟨_, List.mem_cons_self .., rfl, rfl⟩) .self))
    · refine Or.inr (Or.inr (Or.inl ⟨good, demoMsg ['B'], _, ⟨List.mem_singleton.mpr rfl, by simp [good], by decide +kernel, ?_⟩, .self⟩))
      intro h
      generalize hk : headerOf good.package (demoMsg ['B']).name = k at h
      generalize hk' : headerOf good.package mA2.name = k' at h
      cases h with
      | refl => rw [← hk] at hk'; revert hk'; decide +kernel
      | step hi _ =>
        subst hk
        have : ∀ l ∈ multiHeader [] (fun _ => P) [good] (headerOf good.package (demoMsg ['B']).name), ∀ k ∈ multiRun true [good], l ≠ .incl k := by
          decide +kernel
        exact this _ hi _ (multi_incl_mem hi) rfl
    · subst hq
      exact Or.inl ⟨hr, rfl⟩
    · exact Or.inr (Or.inr (Or.inr ⟨rfl, hfd, hmap, hr, hne, by decide +kernel⟩))
    · exact Or.inr (Or.inr (Or.inr ⟨rfl, hfd, hmap, hr, hne, by decide +kernel⟩))
  · intro q x hx fd hu e h1
    have hl := contains_listed (reached_contains hx)
    have hfd := uses_field (noMaps m hm _ hl) hu
    have key : ∀ m ∈ good.messages, ∀ p ∈ listed P m, ∀ fd ∈ p.2.fields, fd.type ≠ .enum := by decide +kernel
    exact absurd h1 (key m hm _ hl fd hfd)

example : ∃ out, Compiles (multiHeader [] (fun _ => P) [good]) (headerOf P ['A']) out ∧ Ordered [] (fun _ => P) out ∧
    clsMsgs out = [P ++ [['B']], P ++ [['A'], ['N']], P ++ [['A']]] := by
  have h : Compiles (multiHeader [] (fun _ => P) [good]) (headerOf P ['A'])
      (((expand (multiHeader [] (fun _ => P) [good]) 30 [headerOf P ['A']] (multiHeader [] (fun _ => P) [good] (headerOf P ['A']))).map Prod.snd).getD []) :=
    compiles_of_expand (n := 30) (by decide +kernel)
  exact ⟨_, h, C99_multi_partial good_valid (noSlashes_one rfl rfl (by decide +kernel)) (by decide +kernel) good_types h, by decide +kernel⟩

/-! ### Further headers that cannot be compiled -/

/-- `message A { message N { M m; } message M {} N n; M m; }`: the first nested message uses the second. -/
def sibling : ProtoFile :=
  { a with messages := [.mk ['A'] [fMsg ['n'] (P ++ [['A'], ['N']]), fMsg ['m'] (P ++ [['A'], ['M']])]
      [.mk ['N'] [fMsg ['m'] (P ++ [['A'], ['M']])] [] false, .mk ['M'] [] [] false] false], deps := [] }
/-- `message C { D d; }`, `message D { C c; }`. -/
def mutual_ : ProtoFile := { a with messages := [mC, mD], deps := [] }
/-- The same with repeated fields. -/
def lists : ProtoFile :=
  { a with messages := [.mk ['C'] [fRep ['d'] (P ++ [['D']])] [] false, .mk ['D'] [fRep ['c'] (P ++ [['C']])] [] false], deps := [] }

/-- What the compiler sees. -/
def sees (extra : Str) (f : ProtoFile) (name : Str) : List Decl :=
  ((expand (multiHeader extra (fun _ => P) [f]) 30 [headerOf P name] (multiHeader extra (fun _ => P) [f] (headerOf P name))).map Prod.snd).getD []

end OrderDemo

open OrderDemo in
/-- In multi-file mode, a nested message with a field whose type is a message that is nested beside it and comes later: there is no forward
declaration. -/
theorem C99_sibling_violated : ∃ f : ProtoFile, ValidFiles (fun _ => P) [f] ∧ NoSlashes [f] ∧ (outputs true [f]).Nodup ∧
    ∃ m ∈ f.messages, ∀ out, Compiles (multiHeader [] (fun _ => P) [f]) (headerOf f.package m.name) out → ¬ Ordered [] (fun _ => P) out := by
  refine ⟨sibling, one_valid rfl rfl (by decide +kernel) (by decide +kernel), noSlashes_one rfl rfl (by decide +kernel), by decide +kernel, _,
    List.mem_cons_self .., fun out h => ?_⟩
  have h0 : Compiles (multiHeader [] (fun _ => P) [sibling]) (headerOf P ['A']) (sees [] sibling ['A']) := compiles_of_expand (n := 30) (by decide +kernel)
  obtain rfl := compiles_unique h h0
  exact bad_class (a := (sees [] sibling ['A']).take 0) (b := (sees [] sibling ['A']).drop 1) (q := P ++ [['A'], ['N']]) (t := P ++ [['A'], ['M']])
    (cpp := [['p'], ['A'] ++ kNested, ['N']]) (types := [fMsg ['m'] (P ++ [['A'], ['M']])]) (fd := fMsg ['m'] (P ++ [['A'], ['M']]))
    (by decide +kernel) (List.mem_cons_self ..) rfl rfl (not_qt (by decide)) rfl (by decide) (by decide +kernel) (by decide +kernel)

open OrderDemo in
/-- In multi-file mode with an extra namespace, two messages that use each other: the forward declarations are not in the extra namespace. Without
it, they can be used (`good`). -/
theorem C99_extra_namespace_violated : ∃ f : ProtoFile, ValidFiles (fun _ => P) [f] ∧ NoSlashes [f] ∧ (outputs true [f]).Nodup ∧
    (∀ m ∈ f.messages, TypesAbove [] (fun _ => P) [f] (multiHeader [] (fun _ => P) [f]) f m) ∧
    ∀ m ∈ f.messages, ∀ out, Compiles (multiHeader ['X'] (fun _ => P) [f]) (headerOf f.package m.name) out → ¬ Ordered ['X'] (fun _ => P) out := by
  refine ⟨mutual_, one_valid rfl rfl (by decide +kernel) (by decide +kernel), noSlashes_one rfl rfl (by decide +kernel), by decide +kernel, ?_, ?_⟩
  · intro m hm
    have noMaps : ∀ m ∈ mutual_.messages, ∀ p ∈ listed P m, ∀ fd ∈ p.2.fields, fd.isMap = false := by decide +kernel
    have key : ∀ m ∈ mutual_.messages, ∀ p ∈ listed P m, ∀ fd ∈ p.2.fields, (fd.msgType = some (P ++ [['D']]) ∨ fd.msgType = some (P ++ [['C']])) ∧
        fd.isMap = false ∧ fd.repeated = false ∧ fd.type ≠ .enum := by decide +kernel
    have hne : P ≠ mutual_.package ++ [m.name] := by
      intro h
      have := congrArg List.length h
      simp [mutual_, P, a] at this
    constructor
    · intro q x hx fd hu t h1 h2 _
      have hl := contains_listed (reached_contains hx)
      have hfd := uses_field (noMaps m hm _ hl) hu
      obtain ⟨h | h, hmap, hr, _⟩ := key m hm _ hl fd hfd <;> rw [h2, Option.some.injEq] at h <;> subst h
      · exact Or.inr (Or.inr (Or.inr ⟨rfl, hfd, hmap, hr, hne, by decide +kernel⟩))
      · exact Or.inr (Or.inr (Or.inr ⟨rfl, hfd, hmap, hr, hne, by decide +kernel⟩))
    · intro q x hx fd hu e h1
      have hl := contains_listed (reached_contains hx)
      have hfd := uses_field (noMaps m hm _ hl) hu
      exact absurd h1 (key m hm _ hl fd hfd).2.2.2
  · intro m hm out h
    have hm' : m = mC ∨ m = mD := by simpa [mutual_] using hm
    rcases hm' with rfl | rfl
    · have h0 : Compiles (multiHeader ['X'] (fun _ => P) [mutual_]) (headerOf P ['C']) (sees ['X'] mutual_ ['C']) :=
        compiles_of_expand (n := 30) (by decide +kernel)
      obtain rfl := compiles_unique h h0
      exact bad_class (a := (sees ['X'] mutual_ ['C']).take 1) (b := (sees ['X'] mutual_ ['C']).drop 2) (q := P ++ [['D']]) (t := P ++ [['C']])
        (cpp := [['X'], ['p'], ['D']]) (types := [fMsg ['c'] (P ++ [['C']])]) (fd := fMsg ['c'] (P ++ [['C']]))
        (by decide +kernel) (List.mem_cons_self ..) rfl rfl (not_qt (by decide)) rfl (by decide) (by decide +kernel) (by decide +kernel)
    · have h0 : Compiles (multiHeader ['X'] (fun _ => P) [mutual_]) (headerOf P ['D']) (sees ['X'] mutual_ ['D']) :=
        compiles_of_expand (n := 30) (by decide +kernel)
      obtain rfl := compiles_unique h h0
      exact bad_class (a := (sees ['X'] mutual_ ['D']).take 1) (b := (sees ['X'] mutual_ ['D']).drop 2) (q := P ++ [['C']]) (t := P ++ [['D']])
        (cpp := [['X'], ['p'], ['C']]) (types := [fMsg ['d'] (P ++ [['D']])]) (fd := fMsg ['d'] (P ++ [['D']]))
        (by decide +kernel) (List.mem_cons_self ..) rfl rfl (not_qt (by decide)) rfl (by decide) (by decide +kernel) (by decide +kernel)

open OrderDemo in
/-- In multi-file mode, two messages with repeated fields of each other's type: neither header can be compiled. -/
theorem C99_mutual_lists_violated : ∃ f : ProtoFile, ValidFiles (fun _ => P) [f] ∧ NoSlashes [f] ∧ (outputs true [f]).Nodup ∧
    f.messages ≠ [] ∧ ∀ m ∈ f.messages, ∀ out, Compiles (multiHeader [] (fun _ => P) [f]) (headerOf f.package m.name) out →
      ¬ Ordered [] (fun _ => P) out := by
  refine ⟨lists, one_valid rfl rfl (by decide +kernel) (by decide +kernel), noSlashes_one rfl rfl (by decide +kernel), by decide +kernel, by simp [lists], ?_⟩
  intro m hm out h
  simp only [lists, List.mem_cons, List.not_mem_nil, or_false] at hm
  rcases hm with rfl | rfl
  · have h0 : Compiles (multiHeader [] (fun _ => P) [lists]) (headerOf P ['C']) (sees [] lists ['C']) := compiles_of_expand (n := 30) (by decide +kernel)
    obtain rfl := compiles_unique h h0
    exact bad_list (a := (sees [] lists ['C']).take 0) (b := (sees [] lists ['C']).drop 1) (q := P ++ [['D']]) (t := P ++ [['C']])
      (cpp := [['p'], ['D']]) (types := [fRep ['c'] (P ++ [['C']])]) (fd := fRep ['c'] (P ++ [['C']]))
      (by decide +kernel) (List.mem_cons_self ..) rfl rfl (not_qt (by decide)) rfl (by decide +kernel)
  · have h0 : Compiles (multiHeader [] (fun _ => P) [lists]) (headerOf P ['D']) (sees [] lists ['D']) := compiles_of_expand (n := 30) (by decide +kernel)
    obtain rfl := compiles_unique h h0
    exact bad_list (a := (sees [] lists ['D']).take 0) (b := (sees [] lists ['D']).drop 1) (q := P ++ [['C']]) (t := P ++ [['D']])
      (cpp := [['p'], ['C']]) (types := [fRep ['d'] (P ++ [['D']])]) (fd := fRep ['d'] (P ++ [['D']]))
      (by decide +kernel) (List.mem_cons_self ..) rfl rfl (not_qt (by decide)) rfl (by decide +kernel)

end QtPb.Gen
