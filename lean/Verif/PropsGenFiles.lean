import Verif.FilesLemmas
/-
C58: the headers written in multi-file mode, and the include directives in them.
-/
namespace QtPb.Gen
open Spec

/-! ### Which files are written -/

theorem multiRun_eq (folder : Bool) (files : List ProtoFile) :
    multiRun folder files = (outputs folder files).map fun k => dirOf k.1 ++ k.2 ++ ['.', 'h'] := by
  simp only [multiRun, outputs, List.map_cons, List.map_flatMap, List.map_append, List.map_map]
  congr 1
  refine congrArg (fun g => List.flatMap g files) (funext fun f => ?_)
  simp only [multiHeaders]
  congr 1 <;> apply List.map_congr_left <;> intro x _ <;> cases folder <;>
    simp [messageHeader, clientHeader, generateBaseName, concat_dirOf, dirOf, toLower, kH, kClient]

theorem outputs_noSlash {folder : Bool} {files : List ProtoFile} (h : NoSlashes files) :
    ∀ k ∈ outputs folder files, (∀ a ∈ k.1, NoSlash a) ∧ NoSlash k.2 := by
  intro k hk
  simp only [outputs, List.mem_cons, List.mem_flatMap, List.mem_append, List.mem_map] at hk
  rcases hk with rfl | ⟨f, hf, ⟨m, hm, rfl⟩ | ⟨s, hs, rfl⟩⟩
  · exact ⟨by simp, by unfold NoSlash; decide⟩
  · refine ⟨?_, noSlash_lower ((h f hf).2.1 m hm)⟩
    cases folder
    · simp
    · exact (h f hf).1
  · refine ⟨?_, ?_⟩
    · cases folder
      · simp
      · exact (h f hf).1
    · intro hm
      simp only [List.mem_append] at hm
      rcases hm with hm | hm
      · exact noSlash_lower ((h f hf).2.2 s hs) hm
      · revert hm; decide

/-- C58: no header is written twice exactly if the outputs differ in package (with FOLDER) or in the name without regard to case. -/
theorem C58_written_once {folder : Bool} {files : List ProtoFile} (h : NoSlashes files) :
    (multiRun folder files).Nodup ↔ (outputs folder files).Nodup := by
  rw [multiRun_eq]
  have hn := outputs_noSlash (folder := folder) h
  constructor
  · intro hd
    unfold List.Nodup at *
    rw [List.pairwise_map] at hd
    exact hd.imp (fun hab e => hab (by rw [e]))
  · intro hd
    unfold List.Nodup at *
    rw [List.pairwise_map]
    refine hd.imp_of_mem fun {a b} ha hb hab e => hab ?_
    have e' := List.append_cancel_right e
    obtain ⟨e1, e2⟩ := dirOf_inj _ _ _ _ (hn a ha).1 (hn b hb).1 (hn a ha).2 (hn b hb).2 e'
    exact Prod.ext e1 e2

def demoMsg (n : Str) : Msg := .mk n [] [] false
def demoProto (package : List Str) (messages : List Msg) (services : List ServiceD) : ProtoFile :=
  { name := ['x', '.', 'p', 'r', 'o', 't', 'o'], package := package, messages := messages, enums := [], services := services, deps := [] }

/-- The hypotheses of `C58_written_once`: two packages with a message A, one of them with a service A. -/
example : (multiRun true [demoProto [['p']] [demoMsg ['A']] [⟨['A'], []⟩], demoProto [['q'], ['r']] [demoMsg ['A']] []]).Nodup :=
  (C58_written_once (by
    intro f hf
    simp only [List.mem_cons, List.not_mem_nil, or_false] at hf
    rcases hf with rfl | rfl <;> simp [demoProto, demoMsg, Msg.name, NoSlash])).mpr (by decide +kernel)

/-- Two messages of a file whose names differ in case are written to one header. -/
theorem C58_case_violated : ∃ f : ProtoFile, NoSlashes [f] ∧ (f.messages.map Msg.name).Nodup ∧ ¬ (multiRun true [f]).Nodup := by
  refine ⟨demoProto [['p']] [demoMsg ['A', 'b'], demoMsg ['A', 'B']] [], ?_, by decide +kernel, by decide +kernel⟩
  intro f hf
  simp only [List.mem_cons, List.not_mem_nil, or_false] at hf
  subst hf
  simp [demoProto, demoMsg, Msg.name, NoSlash]

/-- A message and the client of a service are written to one header if the message is named as the service with Client after it. -/
theorem C58_client_name_violated : ∃ f : ProtoFile, NoSlashes [f] ∧ (f.messages.map Msg.name ++ f.services.map ServiceD.name).Nodup ∧
    ¬ (multiRun true [f]).Nodup := by
  refine ⟨demoProto [['p']] [demoMsg (['A'] ++ ['C', 'l', 'i', 'e', 'n', 't'])] [⟨['A'], []⟩], ?_, by decide +kernel, by decide +kernel⟩
  intro f hf
  simp only [List.mem_cons, List.not_mem_nil, or_false] at hf
  subst hf
  simp [demoProto, demoMsg, Msg.name, NoSlash]

/-! ### Include directives for the types of fields -/

/-- A text that cannot be the name of a Qt class. -/
def Target (t : Str) : Prop := t ≠ [] ∧ (t.map Char.toLower = t ∨ '/' ∈ t)

theorem target_text {package p : List Str} {top : Str} (h : top ≠ []) : Target (packageDir package p ++ toLower top) := by
  refine ⟨by simp [toLower, h], ?_⟩
  unfold packageDir
  split
  · rename_i hp
    cases p with
    | nil => left; simpa [concat, toLower] using lower_idem top
    | cons a p => right; simp [concat]
  · left; simpa [toLower] using lower_idem top

theorem not_target {t : Str} (h1 : t.map Char.toLower ≠ t) (h2 : NoSlash t) : ¬ Target t := by
  rintro ⟨_, h | h⟩
  · exact h1 h
  · exact h2 h

variable {pkgOf : Path → List Str}

theorem isQtType_iff {package : List Str} {fd : FieldD} {q : Path} (hq : fd.msgType = some q) : isQtType package fd = true ↔ IsQt package q := by
  simp [isQtType, hq, IsQt, kQtProtobuf]

theorem newInclude_target {package : List Str} {message : Path} {fd : FieldD} {t : Str} (ht : Target t)
    (hqt : ∀ q, fd.msgType = some q → IsQt package q → (q.getLastD []).map Char.toLower ≠ q.getLastD [] ∧ NoSlash (q.getLastD []))
    {n : Str} {inc : Option Inc} (h : newInclude pkgOf package message fd = some (n, inc)) (e : n = t) : inc = some (.internal t) := by
  subst e
  unfold newInclude at h
  split at h
  · split at h
    · simp at h
    · rename_i q hq
      split at h
      · rename_i hi
        obtain ⟨h1, h2⟩ := hqt q hq ((isQtType_iff hq).mp hi)
        simp only [Option.some.injEq, Prod.mk.injEq] at h
        exact absurd (h.1 ▸ ht) (not_target h1 h2)
      · split at h
        · simp only [Option.some.injEq, Prod.mk.injEq] at h
          rw [← h.2, h.1]
        · split at h
          · simp only [Option.some.injEq, Prod.mk.injEq] at h
            rw [← h.2, h.1]
          · simp only [Option.some.injEq, Prod.mk.injEq] at h
            exact absurd h.1.symm ht.1
  · simp only [Option.some.injEq, Prod.mk.injEq] at h
    exact absurd (h.1 ▸ ht) (not_target (by decide +kernel) (by unfold NoSlash; decide +kernel))
  · simp only [Option.some.injEq, Prod.mk.injEq] at h
    exact absurd (h.1 ▸ ht) (not_target (by decide +kernel) (by unfold NoSlash; decide +kernel))
  · split at h
    · simp at h
    · split at h
      · simp only [Option.some.injEq, Prod.mk.injEq] at h
        exact absurd h.1.symm ht.1
      · simp only [Option.some.injEq, Prod.mk.injEq] at h
        rw [← h.2, h.1]
      · simp at h
  · simp at h

theorem includeFlat_faithful {package : List Str} {message : Path} {fd : FieldD} {t : Str} (ht : Target t)
    (hqt : ∀ q, fd.msgType = some q → IsQt package q → (q.getLastD []).map Char.toLower ≠ q.getLastD [] ∧ NoSlash (q.getLastD []))
    {st : List Str × List Inc} (h : Faithful t st) : Faithful t (includeFlat pkgOf package message st fd) := by
  unfold includeFlat
  split
  · exact h
  · rename_i n inc he
    exact emit_faithful h fun e => newInclude_target ht hqt he e

/-- The fields that `printInclude` goes through for a map. -/
theorem entry_uses {package : List Str} {m : Msg} {mf fd : FieldD} (hmf : mf ∈ m.fields) (hmap : mf.isMap = true) (hty : mf.type = .message)
    (h : fd ∈ ((m.nested.find? fun n => some (package ++ [m.name] ++ [n.name]) == mf.msgType).map Msg.fields).getD []) :
    UsesType (package ++ [m.name]) m fd := by
  cases hf : m.nested.find? fun n => some (package ++ [m.name] ++ [n.name]) == mf.msgType with
  | none => rw [hf] at h; simp at h
  | some n =>
    simp only [hf, Option.map_some, Option.getD_some] at h
    have h1 := List.mem_of_find?_eq_some hf
    have h2 := List.find?_some hf
    exact Or.inr ⟨mf, hmf, hmap, hty, n, h1, by simpa using (beq_iff_eq.mp h2).symm, h⟩

theorem printInclude_faithful {package : List Str} {m : Msg} {t : Str} (ht : Target t) (hqt : QtNamed package m (package ++ [m.name]))
    {fd : FieldD} (hfd : fd ∈ m.fields) {st : List Str × List Inc} (h : Faithful t st) :
    Faithful t (printInclude pkgOf package (package ++ [m.name]) m.nested st fd) := by
  unfold printInclude
  split
  · rename_i hc
    refine emit_faithful (fold_faithful _ ?_ _ h) ?_
    · intro st a ha hst
      exact includeFlat_faithful ht (hqt a (entry_uses hfd (by simpa using hc.2) hc.1 ha)) hst
    · intro e
      exact absurd (e ▸ ht) (not_target (by decide +kernel) (by unfold NoSlash; decide +kernel))
  · rename_i hc
    by_cases hm : fd.isMap = true
    · have hty : fd.type ≠ .message := fun e => hc ⟨e, hm⟩
      refine (?_ : Faithful t (includeFlat pkgOf package (package ++ [m.name]) st fd))
      unfold includeFlat
      split
      · exact h
      · rename_i n inc he
        refine emit_faithful h fun e => ?_
        have : newInclude pkgOf package (package ++ [m.name]) { fd with msgType := none } = some (n, inc) := by
          rw [← he]; unfold newInclude; split <;> simp_all
        exact newInclude_target ht (by simp) this e
    · exact includeFlat_faithful ht (hqt fd (Or.inl ⟨hfd, by simpa using hm⟩)) h

theorem getLastD_concat (p : List Str) (a : Str) : (p ++ [a]).getLastD [] = a := by simp

/-- What `printInclude` prints for a type outside of the message. -/
theorem newInclude_type {package : List Str} {message : Path} {fd : FieldD} {q : Path} {top : Str} {r : List Str}
    (hty : fd.type = .message) (hq : fd.msgType = some q) (hqt : ¬ IsQt package q) (hp : q = pkgOf q ++ top :: r)
    (hown : pkgOf q ++ [top] ≠ message) (hnest : q.dropLast = message → pkgOf q ++ [top] = message) :
    newInclude pkgOf package message fd =
      some (packageDir package (pkgOf q) ++ toLower top, some (.internal (packageDir package (pkgOf q) ++ toLower top))) := by
  have hi : isQtType package fd = false := by
    cases h : isQtType package fd with
    | false => rfl
    | true => exact absurd ((isQtType_iff hq).mp h) hqt
  have hh : highest pkgOf q = pkgOf q ++ [top] := by
    unfold highest
    generalize pkgOf q = p at hp
    subst hp
    rw [List.take_append]
    simp [List.take_of_length_le]
  unfold newInclude
  simp only [hty, hq, hi, Bool.false_eq_true, if_false]
  cases r with
  | nil =>
    have hl : q.length ≤ (pkgOf q).length + 1 := by have := congrArg List.length hp; simp at this; omega
    have hlast : q.getLastD [] = top := by rw [hp, getLastD_concat]
    rw [if_pos hl, hlast]
  | cons b r =>
    have hl : ¬ q.length ≤ (pkgOf q).length + 1 := by
      have := congrArg List.length hp
      simp at this; omega
    have hd : q.dropLast ≠ message ∧ highest pkgOf q ≠ message := by
      refine ⟨fun e => hown (hnest e), ?_⟩
      rw [hh]; exact hown
    rw [if_neg hl, if_pos hd, hh, getLastD_concat]

theorem mem_run_message {files : List ProtoFile} {g : ProtoFile} (hg : g ∈ files) {t : Msg} (ht : t ∈ g.messages) :
    headerOf g.package t.name ∈ multiRun true files := by
  simp only [multiRun, List.mem_cons, List.mem_flatMap, multiHeaders, List.mem_append, List.mem_map]
  exact Or.inr ⟨g, hg, Or.inl ⟨t, ht, messageHeader_folder _ _⟩⟩

/-- The printed text opens the header of the type. -/
theorem opens_type {files : List ProtoFile} {package p : List Str} {top : Str} (hmem : headerOf p top ∈ multiRun true files)
    (hshadow : p = package ∨ package = [] ∨ headerOf (package ++ p) top ∉ multiRun true files) :
    Opens (multiRun true files) (dirOf package) (packageDir package p ++ toLower top) (headerOf p top) := by
  refine ⟨hmem, ?_⟩
  unfold packageDir
  have happ : ∀ a b : List Str, dirOf (a ++ b) = dirOf a ++ dirOf b := by
    intro a b; induction a with
    | nil => rfl
    | cons c a ih => simp [dirOf, ih]
  split
  · rename_i hp
    rcases hshadow with e | e | e
    · exact absurd e hp
    · left; subst e; simp [headerOf, dirOf, concat_dirOf, toLower]
    · right
      refine ⟨by simp [headerOf, concat_dirOf, toLower], ?_⟩
      intro h; apply e
      simpa [headerOf, happ, concat_dirOf, toLower] using h
  · rename_i hp
    have : p = package := by simpa using hp
    subst this
    left; simp [headerOf, toLower]

theorem mem_fold_of_step {α : Type} {step : List Str × List Inc → α → List Str × List Inc} {i : Inc} {I : List Str × List Inc → Prop}
    (hmono : ∀ (st : List Str × List Inc) (a : α), i ∈ st.2 → i ∈ (step st a).2) {a : α} (hstep : ∀ st : List Str × List Inc, I st → i ∈ (step st a).2) :
    ∀ (l : List α) (_ : ∀ (st : List Str × List Inc) (b : α), b ∈ l → I st → I (step st b)) (st : List Str × List Inc), I st → a ∈ l →
      i ∈ (l.foldl step st).2
  | [], _, _, _, h => absurd h (by simp)
  | b :: l, hI, st, hst, h => by
    simp only [List.mem_cons] at h
    rcases h with rfl | h
    · exact fold_mono hmono l _ (hstep st hst)
    · exact mem_fold_of_step hmono hstep l (fun st c hc => hI st c (by simp [hc])) _ (hI st b (by simp) hst) h

theorem find_entry {q : Path} {x : Msg} (hv : (x.nested.map Msg.name).Nodup) {n : Msg} (hn : n ∈ x.nested) {mt : Option Path}
    (hm : mt = some (q ++ [n.name])) : x.nested.find? (fun k => some (q ++ [k.name]) == mt) = some n := by
  subst hm
  cases hf : x.nested.find? (fun k => some (q ++ [k.name]) == some (q ++ [n.name])) with
  | none =>
    have := List.find?_eq_none.mp hf n hn
    simp at this
  | some k =>
    have h1 := List.mem_of_find?_eq_some hf
    have h2 : q ++ [k.name] = q ++ [n.name] := by simpa using List.find?_some hf
    have h3 : k.name = n.name := by simpa using h2
    rw [same_name hv h1 hn h3]

/-- C58, the part that holds: with FOLDER, the header of a message includes the header of the type of each of its fields, repeated
fields and values of maps too, if the type is in another top-level message. Missing: the header of a type of another package is
found only if no file of the own package hides it (`C58_hidden_violated`); fields of nested messages that are not singular
(`C58_nested_repeated_violated`); enumerations (`C58_global_enum_violated`, `C58_enum_package_violated`). -/
theorem C58_field_type_partial {files : List ProtoFile} {f : ProtoFile} {m : Msg} (hv : Valid (f.package ++ [m.name]) m)
    (hqt : QtNamed f.package m (f.package ++ [m.name])) {fd : FieldD} (hu : UsesType (f.package ++ [m.name]) m fd) {q : Path} {top : Str}
    (hty : fd.type = .message) (hq : fd.msgType = some q) (hnq : ¬ IsQt f.package q) (hin : IsIn files (pkgOf q) top q) (htop : top ≠ [])
    (hown : pkgOf q ++ [top] ≠ f.package ++ [m.name]) (hnest : q.dropLast = f.package ++ [m.name] → pkgOf q = f.package)
    (hshadow : pkgOf q = f.package ∨ f.package = [] ∨ headerOf (f.package ++ pkgOf q) top ∉ multiRun true files) :
    Includes (multiIncludes pkgOf f.package m) (multiRun true files) (dirOf f.package) (headerOf (pkgOf q) top) := by
  obtain ⟨⟨g, hg, hgp, tm, htm, hname⟩, r, hp⟩ := hin
  have hmem : headerOf (pkgOf q) top ∈ multiRun true files := by
    have := mem_run_message hg htm
    rwa [hgp, hname] at this
  refine ⟨_, ?_, opens_type hmem hshadow⟩
  have ht : Target (packageDir f.package (pkgOf q) ++ toLower top) := target_text htop
  generalize hT : packageDir f.package (pkgOf q) ++ toLower top = T at ht
  have hnest' : q.dropLast = f.package ++ [m.name] → pkgOf q ++ [top] = f.package ++ [m.name] := by
    intro e
    have e2 := hnest e
    have h1 : q.dropLast = f.package ++ (top :: r).dropLast := by
      rw [e2] at hp; rw [hp]; exact List.dropLast_append_of_ne_nil (by simp)
    rw [h1] at e
    have h2 : (top :: r).dropLast = [m.name] := List.append_cancel_left e
    cases r with
    | nil => simp at h2
    | cons b r => simp only [List.dropLast_cons₂, List.cons.injEq] at h2; rw [e2, h2.1]
  have hnew := newInclude_type (package := f.package) hty hq hnq hp hown hnest'
  rw [hT] at hnew
  have hflat : ∀ st : List Str × List Inc, Faithful T st → .internal T ∈ (includeFlat pkgOf f.package (f.package ++ [m.name]) st fd).2 := by
    intro st hst
    unfold includeFlat
    rw [hnew]
    exact emit_internal hst
  have hinit : Faithful T ([], []) := by intro h; simp at h
  unfold multiIncludes
  refine fold_mono (fun st a => includeDep_mono) _ _ ?_
  rcases hu with ⟨hfd, hmap⟩ | ⟨mf, hmf, hmap, hmty, n, hn, hmt, hfd⟩
  · refine mem_fold_of_step (I := Faithful T) (fun st a => printInclude_mono) ?_ m.fields ?_ _ hinit hfd
    · intro st hst
      unfold printInclude
      rw [if_neg (by simp [hmap])]
      exact hflat st hst
    · intro st b hb hst
      exact printInclude_faithful ht hqt hb hst
  · refine mem_fold_of_step (I := Faithful T) (fun st a => printInclude_mono) (a := mf) ?_ m.fields ?_ _ hinit hmf
    · intro st hst
      unfold printInclude
      rw [if_pos ⟨hmty, hmap⟩]
      refine emit_mono ?_
      rw [find_entry hv.names hn hmt]
      simp only [Option.map_some, Option.getD_some]
      refine mem_fold_of_step (step := includeFlat pkgOf f.package (f.package ++ [m.name])) (I := Faithful T) (a := fd) (fun st a => includeFlat_mono) hflat n.fields ?_ _ hst hfd
      intro st b hb hst
      exact includeFlat_faithful ht (hqt b (Or.inr ⟨mf, hmf, hmap, hmty, n, hn, hmt, hb⟩)) hst
    · intro st b hb hst
      exact printInclude_faithful ht hqt hb hst

theorem mem_pureTypes {package : List Str} {fields : List FieldD} {fd : FieldD} {q : Path} (hfd : fd ∈ fields) (h : Singular package fd q) :
    q ∈ pureTypes package fields := by
  obtain ⟨h1, h2, h3, h4, h5⟩ := h
  have hi : isQtType package fd = false := by
    cases hh : isQtType package fd with
    | false => rfl
    | true => exact absurd ((isQtType_iff h4).mp hh) h5
  simp only [pureTypes, List.mem_filterMap, List.mem_filter]
  exact ⟨fd, ⟨hfd, by simp [isPureMessage, h1, h2, h3, hi]⟩, h4⟩

theorem mem_nestedDepsList {package : List Str} {path : Path} {fields : List FieldD} {n : Msg} {q : Path} : ∀ {l : List Msg}, n ∈ l →
    visits fields (path ++ [n.name]) = true → q ∈ pureTypes package n.fields ++ nestedDeps package path n → q ∈ nestedDepsList package path fields l
  | k :: l, hn, hv, hq => by
    unfold nestedDepsList
    simp only [List.mem_cons] at hn
    rcases hn with rfl | hn
    · rw [if_pos hv]; exact List.mem_append_left _ hq
    · exact List.mem_append_right _ (mem_nestedDepsList hn hv hq)

theorem mem_deps {package : List Str} {pre : List Str} {m x : Msg} {qx : Path} (h : Reached pre m qx x) {q : Path}
    (hq : q ∈ pureTypes package x.fields) : q ∈ pureTypes package m.fields ++ nestedDeps package pre m := by
  induction h with
  | self => exact List.mem_append_left _ hq
  | @nested pre m n x qx hn hv _ ih =>
    refine List.mem_append_right _ ?_
    cases m with
    | mk name fields nested entry =>
      unfold nestedDeps
      exact mem_nestedDepsList hn (visits_iff (x := .mk name fields nested entry) |>.mpr hv) (ih hq)

/-- C58, the part that holds for nested messages: with FOLDER, the header of a message includes the header of the type of every
singular field of a message nested in it at any depth (as far as the generator gets there, C44). -/
theorem C58_nested_type_partial {files : List ProtoFile} {f : ProtoFile} {m x : Msg} {qx : Path} (hr : Reached f.package m qx x)
    (hqt : QtNamed f.package m (f.package ++ [m.name])) {fd : FieldD} (hfd : fd ∈ x.fields) {q : Path} {top : Str}
    (hs : Singular f.package fd q) (hin : IsIn files (pkgOf q) top q) (htop : top ≠ [])
    (hshadow : pkgOf q = f.package ∨ f.package = [] ∨ headerOf (f.package ++ pkgOf q) top ∉ multiRun true files) :
    Includes (multiIncludes pkgOf f.package m) (multiRun true files) (dirOf f.package) (headerOf (pkgOf q) top) := by
  obtain ⟨⟨g, hg, hgp, tm, htm, hname⟩, r, hp⟩ := hin
  have hmem : headerOf (pkgOf q) top ∈ multiRun true files := by
    have := mem_run_message hg htm
    rwa [hgp, hname] at this
  refine ⟨_, ?_, opens_type hmem hshadow⟩
  have ht : Target (packageDir f.package (pkgOf q) ++ toLower top) := target_text htop
  have hh : highest pkgOf q = pkgOf q ++ [top] := by
    unfold highest
    generalize pkgOf q = p at hp
    subst hp
    rw [List.take_append]
    simp [List.take_of_length_le]
  have hdep : q ∈ nestedDeps f.package f.package m ++ pureTypes f.package m.fields := by
    have := mem_deps hr (mem_pureTypes hfd hs)
    simp only [List.mem_append] at this ⊢
    exact this.symm
  unfold multiIncludes
  refine mem_fold_of_step (I := Faithful (packageDir f.package (pkgOf q) ++ toLower top)) (fun st a => includeDep_mono) ?_ _ ?_ _ ?_ hdep
  · intro st hst
    unfold includeDep
    rw [hh, getLastD_concat]
    exact emit_internal hst
  · intro st b _ hst
    exact includeDep_faithful hst
  · refine fold_faithful _ ?_ _ (by intro h; simp at h)
    intro st b hb hst
    exact printInclude_faithful ht hqt hb hst

/-! ### No include directive fails -/

/-- Every include directive with quotes in the list opens a file. -/
def AllOpen (files : List Str) (dir : Str) (incs : List Inc) : Prop := ∀ t, .internal t ∈ incs → ∃ file, Opens files dir t file

theorem emit_allOpen {files : List Str} {dir : Str} {st : List Str × List Inc} {n : Str} {inc : Option Inc} (h : AllOpen files dir st.2)
    (hn : ∀ t, inc = some (.internal t) → ∃ file, Opens files dir t file) : AllOpen files dir (emit st n inc).2 := by
  unfold emit
  split
  · exact h
  · intro t ht
    simp only [List.mem_append, Option.mem_toList] at ht
    rcases ht with ht | ht
    · exact h t ht
    · exact hn t (by simpa using ht)

theorem fold_allOpen {α : Type} {step : List Str × List Inc → α → List Str × List Inc} {files : List Str} {dir : Str} :
    ∀ (l : List α) (_ : ∀ (st : List Str × List Inc) (a : α), a ∈ l → AllOpen files dir st.2 → AllOpen files dir (step st a).2)
      (st : List Str × List Inc), AllOpen files dir st.2 → AllOpen files dir (l.foldl step st).2
  | [], _, _, h => h
  | a :: l, hs, st, h => fold_allOpen l (fun st b hb => hs st b (by simp [hb])) (step st a) (hs st a (by simp) h)

theorem opens_some {files : List ProtoFile} {package p : List Str} {top : Str} (hmem : headerOf p top ∈ multiRun true files) :
    ∃ file, Opens (multiRun true files) (dirOf package) (packageDir package p ++ toLower top) file := by
  by_cases h : dirOf package ++ (packageDir package p ++ toLower top) ++ ['.', 'h'] ∈ multiRun true files
  · exact ⟨_, h, Or.inl rfl⟩
  · unfold packageDir at h ⊢
    split at h
    · rename_i hp
      rw [if_pos hp]
      exact ⟨_, hmem, Or.inr ⟨by simp [headerOf, concat_dirOf, toLower], h⟩⟩
    · rename_i hp
      have : p = package := by simpa using hp
      subst this
      exact absurd (by simpa [headerOf, toLower] using hmem) h

theorem highest_eq {q : Path} {top : Str} {r : List Str} (hp : q = pkgOf q ++ top :: r) : highest pkgOf q = pkgOf q ++ [top] := by
  unfold highest
  generalize pkgOf q = p at hp
  subst hp
  rw [List.take_append]
  simp [List.take_of_length_le]

theorem includeFlat_allOpen {files : List ProtoFile} {package : List Str} {message : Path} {fd : FieldD}
    (hmsg : ∀ q, fd.type = .message → fd.msgType = some q → ¬ IsQt package q → ∃ top, IsIn files (pkgOf q) top q)
    (henum : ∀ e, fd.type = .enum → fd.enumType = some e → e.length = (pkgOf e).length + 2 →
      ∃ g ∈ files, g.package = package ∧ ∃ t ∈ g.messages, t.name = e.dropLast.getLastD [])
    {st : List Str × List Inc} (h : AllOpen (multiRun true files) (dirOf package) st.2) :
    AllOpen (multiRun true files) (dirOf package) (includeFlat pkgOf package message st fd).2 := by
  unfold includeFlat
  split
  · exact h
  · rename_i n inc he
    refine emit_allOpen h fun t hinc => ?_
    subst hinc
    unfold newInclude at he
    split at he
    · rename_i hty
      split at he
      · simp at he
      · rename_i q hq
        split at he
        · simp at he
        · rename_i hi
          obtain ⟨top, ⟨g, hg, hgp, tm, htm, hname⟩, r, hp⟩ := hmsg q hty hq (fun hh => hi ((isQtType_iff hq).mpr hh))
          have hmem : headerOf (pkgOf q) top ∈ multiRun true files := by
            have := mem_run_message hg htm
            rwa [hgp, hname] at this
          have hh := highest_eq hp
          split at he
          · rename_i hl
            have hr : r = [] := by
              have := congrArg List.length hp
              simp at this
              exact List.length_eq_zero_iff.mp (by omega)
            subst hr
            have hlast : q.getLastD [] = top := by rw [hp, getLastD_concat]
            simp only [Option.some.injEq, Prod.mk.injEq, Inc.internal.injEq] at he
            rw [← he.2, hlast]
            exact opens_some hmem
          · split at he
            · simp only [Option.some.injEq, Prod.mk.injEq, Inc.internal.injEq] at he
              rw [← he.2, hh, getLastD_concat]
              exact opens_some hmem
            · simp at he
    · simp at he
    · simp at he
    · rename_i hty
      split at he
      · simp at he
      · rename_i e hen
        split at he
        · simp at he
        · rename_i hpl
          simp only [Option.some.injEq, Prod.mk.injEq, Inc.internal.injEq] at he
          rw [← he.2]
          have hlen : e.length = (pkgOf e).length + 2 := by
            unfold enumPlace at hpl
            split at hpl
            · simp at hpl
            · split at hpl
              · assumption
              · simp at hpl
          obtain ⟨g, hg, hgp, tm, htm, hname⟩ := henum e hty hen hlen
          have hmem := mem_run_message hg htm
          rw [hgp, hname] at hmem
          simpa [packageDir] using opens_some (package := package) hmem
        · simp at he
    · simp at he

mutual
theorem nestedDeps_reached (package : List Str) (q : Path) : ∀ (m : Msg) (pre : List Str), q ∈ nestedDeps package pre m →
    ∃ qx x, Reached pre m qx x ∧ q ∈ pureTypes package x.fields
  | .mk name fields nested entry, pre, h => by
    unfold nestedDeps at h
    exact nestedDepsList_reached package q nested pre (.mk name fields nested entry) (fun n hn => hn) h
theorem nestedDepsList_reached (package : List Str) (q : Path) : ∀ (l : List Msg) (pre : List Str) (m : Msg), (∀ n ∈ l, n ∈ m.nested) →
    q ∈ nestedDepsList package (pre ++ [m.name]) m.fields l → ∃ qx x, Reached pre m qx x ∧ q ∈ pureTypes package x.fields
  | [], _, _, _, h => by simp [nestedDepsList] at h
  | n :: l, pre, m, hl, h => by
    unfold nestedDepsList at h
    simp only [List.mem_append] at h
    rcases h with h | h
    · split at h
      · rename_i hv
        have hn := hl n (by simp)
        have hv' := visits_iff.mp hv
        simp only [List.mem_append] at h
        rcases h with h | h
        · exact ⟨_, n, .nested hn hv' .self, h⟩
        · obtain ⟨qx, x, hr, hq⟩ := nestedDeps_reached package q n _ h
          exact ⟨qx, x, .nested hn hv' hr, hq⟩
      · simp at h
    · exact nestedDepsList_reached package q l pre m (fun k hk => hl k (by simp [hk])) h
end

theorem pureTypes_singular {package : List Str} {fields : List FieldD} {q : Path} (h : q ∈ pureTypes package fields) :
    ∃ fd ∈ fields, Singular package fd q := by
  simp only [pureTypes, List.mem_filterMap, List.mem_filter] at h
  obtain ⟨fd, ⟨hfd, hp⟩, hq⟩ := h
  simp only [isPureMessage, Bool.and_eq_true, beq_iff_eq, Bool.not_eq_true'] at hp
  obtain ⟨⟨⟨h1, h2⟩, h3⟩, h4⟩ := hp
  refine ⟨fd, hfd, h1, h2, h3, hq, fun hi => ?_⟩
  rw [(isQtType_iff hq).mpr hi] at h4
  simp at h4

/-- C58, the part that holds: with FOLDER, every include directive with quotes in the header of a message opens a generated header,
if the types of all fields are in generated files and the enumerations declared in other messages are of the same package.
Missing: enumerations of messages of other packages (`C58_enum_package_violated`). -/
theorem C58_no_broken_include_partial {files : List ProtoFile} {f : ProtoFile} {m : Msg}
    (hmsg : ∀ fd q, UsesType (f.package ++ [m.name]) m fd → fd.type = .message → fd.msgType = some q → ¬ IsQt f.package q →
      ∃ top, IsIn files (pkgOf q) top q)
    (henum : ∀ fd e, (UsesType (f.package ++ [m.name]) m fd ∨ fd ∈ m.fields) → fd.type = .enum → fd.enumType = some e →
      e.length = (pkgOf e).length + 2 → ∃ g ∈ files, g.package = f.package ∧ ∃ t ∈ g.messages, t.name = e.dropLast.getLastD [])
    (hnested : ∀ qx x fd q, Reached f.package m qx x → fd ∈ x.fields → Singular f.package fd q → ∃ top, IsIn files (pkgOf q) top q) :
    ∀ t, .internal t ∈ multiIncludes pkgOf f.package m → ∃ file, Opens (multiRun true files) (dirOf f.package) t file := by
  have hdeps : ∀ q, q ∈ nestedDeps f.package f.package m ++ pureTypes f.package m.fields → ∃ top, IsIn files (pkgOf q) top q := by
    intro q hq
    simp only [List.mem_append] at hq
    rcases hq with hq | hq
    · obtain ⟨qx, x, hr, hx⟩ := nestedDeps_reached _ _ _ _ hq
      obtain ⟨fd, hfd, hs⟩ := pureTypes_singular hx
      exact hnested qx x fd q hr hfd hs
    · obtain ⟨fd, hfd, hs⟩ := pureTypes_singular hq
      exact hnested _ m fd q .self hfd hs
  have := fold_allOpen (step := includeDep pkgOf f.package) (files := multiRun true files) (dir := dirOf f.package)
    (nestedDeps f.package f.package m ++ pureTypes f.package m.fields) ?_
    (m.fields.foldl (printInclude pkgOf f.package (f.package ++ [m.name]) m.nested) ([], [])) ?_
  · exact this
  · intro st q hq hst
    obtain ⟨top, ⟨g, hg, hgp, tm, htm, hname⟩, r, hp⟩ := hdeps q hq
    refine emit_allOpen hst fun t ht => ?_
    simp only [Option.some.injEq, Inc.internal.injEq] at ht
    rw [← ht, highest_eq hp, getLastD_concat]
    have hmem := mem_run_message hg htm
    rw [hgp, hname] at hmem
    exact opens_some hmem
  · refine fold_allOpen _ ?_ _ (by intro t h; simp at h)
    intro st fd hfd hst
    unfold printInclude
    split
    · rename_i hc
      refine emit_allOpen (fold_allOpen _ ?_ _ hst) (by simp)
      intro st a ha hst
      have hu := entry_uses hfd hc.2 hc.1 ha
      exact includeFlat_allOpen (fun q => hmsg a q hu) (fun e => henum a e (Or.inl hu)) hst
    · rename_i hc
      refine includeFlat_allOpen ?_ (fun e => henum fd e (Or.inr hfd)) hst
      intro q hty hq
      refine hmsg fd q (Or.inl ⟨hfd, ?_⟩) hty hq
      cases hm : fd.isMap with
      | false => rfl
      | true => exact absurd ⟨hty, hm⟩ hc

end QtPb.Gen
