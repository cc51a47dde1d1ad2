import Verif.PropsGenIncludes
/-
C59: the headers written in single-file mode, and the include directives for the files a file imports.
-/
namespace QtPb.Gen
open Spec

theorem beforeLast_append {c : Char} : ∀ (s r : Str), c ∉ r → beforeLast c (s ++ c :: r) = some s
  | [], r, h => by
    have : beforeLast c r = none := by
      induction r with
      | nil => rfl
      | cons x r ih =>
        simp only [List.mem_cons, not_or] at h
        simp only [beforeLast, ih h.2]
        rw [if_neg (fun e => h.1 e.symm)]
    simp [beforeLast, this]
  | x :: s, r, h => by simp [beforeLast, beforeLast_append s r h]

theorem beforeLast_none {c : Char} : ∀ (s : Str), beforeLast c s = none ↔ c ∉ s
  | [] => by simp [beforeLast]
  | x :: s => by
    have ih := beforeLast_none (c := c) s
    simp only [beforeLast, List.mem_cons, not_or]
    cases h : beforeLast c s with
    | some t =>
      have : c ∈ s := by
        apply Classical.byContradiction
        intro hn
        rw [ih.mpr hn] at h; simp at h
      simp [this]
    | none =>
      have := ih.mp h
      by_cases hx : x = c
      · simp [hx]
      · simp [hx, this, Ne.symm hx]

theorem afterLast_append {c : Char} : ∀ (s r : Str), c ∉ r → afterLast c (s ++ c :: r) = some r
  | [], r, h => by
    have : afterLast c r = none := by
      induction r with
      | nil => rfl
      | cons x r ih =>
        simp only [List.mem_cons, not_or] at h
        simp only [afterLast, ih h.2]
        rw [if_neg (fun e => h.1 e.symm)]
    simp [afterLast, this]
  | x :: s, r, h => by simp [afterLast, afterLast_append s r h]

theorem afterLast_none {c : Char} : ∀ (s : Str), c ∉ s → afterLast c s = none
  | [], _ => rfl
  | x :: s, h => by
    simp only [List.mem_cons, not_or] at h
    simp only [afterLast, afterLast_none s h.2]
    rw [if_neg (fun e => h.1 e.symm)]

theorem dirOf_last : ∀ (d : List Str), d ≠ [] → ∃ s, dirOf d = s ++ ['/']
  | [], h => absurd rfl h
  | [a], _ => ⟨a, by simp [dirOf]⟩
  | a :: b :: d, _ => by
    obtain ⟨s, hs⟩ := dirOf_last (b :: d) (by simp)
    exact ⟨a ++ '/' :: s, by rw [dirOf, hs]; simp⟩

theorem basename_eq {d : List Str} {b ext : Str} (hb : NoSlash b) (he : '.' ∉ ext) :
    extractFileBasename (dirOf d ++ b ++ '.' :: ext) = some b := by
  unfold extractFileBasename
  rw [beforeLast_append _ _ he]
  simp only [Option.map_some, Option.some.injEq]
  cases d with
  | nil => rw [dirOf, List.nil_append, afterLast_none b hb]; rfl
  | cons a d =>
    obtain ⟨s, hs⟩ := dirOf_last (a :: d) (by simp)
    rw [hs]
    have : s ++ ['/'] ++ b = s ++ '/' :: b := by simp
    rw [this, afterLast_append s b hb]; rfl

theorem generateBaseName_eq (folder : Bool) (package : List Str) (b : Str) : generateBaseName folder package b = dirOf (outDir folder package) ++ b := by
  cases folder <;> simp [generateBaseName, outDir, concat_dirOf, dirOf]

/-- C59: the headers written for a file: the one for messages and enumerations if it has any, and the one for services if it has
any, with the name of the file without its directory and extension, in the directory of the package with FOLDER. -/
theorem C59_headers {folder : Bool} {f : ProtoFile} {d : List Str} {b ext : Str} (hname : IsNamed f.name d b ext) :
    singleHeaders folder f = some
      ((if f.messages = [] ∧ f.enums = [] then [] else [messagesHeader folder f.package b]) ++
       (if f.services = [] then [] else [servicesHeader folder f.package b])) := by
  obtain ⟨hn, _, hb, he, _⟩ := hname
  have hb' : extractFileBasename f.name = some b := by rw [hn]; exact basename_eq hb he
  unfold singleHeaders
  split
  · rename_i h; simp [h]
  · rw [hb']
    simp only [Option.map_some, generateBaseName_eq, messagesHeader, servicesHeader, kQpb, kH, kGrpc]
    simp

/-- C59: generation fails exactly for files without a dot in the name that have something to generate. -/
theorem C59_fails {folder : Bool} {f : ProtoFile} :
    singleHeaders folder f = none ↔ '.' ∉ f.name ∧ ¬ (f.messages = [] ∧ f.enums = [] ∧ f.services = []) := by
  unfold singleHeaders
  split
  · rename_i h; simp [h]
  · rename_i h
    rw [Option.map_eq_none_iff, extractFileBasename, Option.map_eq_none_iff, beforeLast_none]
    simp [h]

/-- The headers of a run in single-file mode, if no file fails. -/
def singleRun (folder : Bool) (files : List ProtoFile) : List Str := files.flatMap fun f => (singleHeaders folder f).getD []

/-- C59: the source file of the messages of a file includes their header, if no file of another package hides it. -/
theorem C59_own_header_partial {folder : Bool} {files : List ProtoFile} {f : ProtoFile} (hf : f ∈ files) {d : List Str} {b ext : Str}
    (hname : IsNamed f.name d b ext) (hm : f.messages ≠ [] ∨ f.enums ≠ [])
    (hhide : outDir folder f.package = [] ∨
      dirOf (outDir folder f.package) ++ messagesHeader folder f.package b ∉ singleRun folder files) :
    Includes (singleSourceInclude folder f).toList (singleRun folder files) (dirOf (outDir folder f.package)) (messagesHeader folder f.package b) := by
  have hrun : messagesHeader folder f.package b ∈ singleRun folder files := by
    simp only [singleRun, List.mem_flatMap]
    refine ⟨f, hf, ?_⟩
    rw [C59_headers hname]
    have : ¬ (f.messages = [] ∧ f.enums = []) := by rintro ⟨h1, h2⟩; rcases hm with h | h <;> contradiction
    simp [this]
  have hb' : extractFileBasename f.name = some b := by rw [hname.1]; exact basename_eq hname.2.2.1 hname.2.2.2.1
  refine ⟨dirOf (outDir folder f.package) ++ b ++ ['.', 'q', 'p', 'b'], ?_, hrun, ?_⟩
  · simp [singleSourceInclude, hb', generateBaseName_eq, kQpb]
  · rcases hhide with h | h
    · left; rw [messagesHeader, h]; simp [dirOf]
    · right; refine ⟨by simp [messagesHeader], ?_⟩
      intro hin; apply h; simpa [messagesHeader] using hin

/-- With FOLDER, the header of a file of package a.a is opened by the source file of the file of that name of package a. -/
theorem C59_own_header_violated : ∃ (files : List ProtoFile) (f : ProtoFile) (b : Str), f ∈ files ∧ IsNamed f.name [] b ['p'] ∧ f.messages ≠ [] ∧
    ¬ Includes (singleSourceInclude true f).toList (singleRun true files) (dirOf f.package) (messagesHeader true f.package b) := by
  let f : ProtoFile := { demoProto [['a']] [demoMsg ['M']] [] with name := ['x', '.', 'p'] }
  let g : ProtoFile := { demoProto [['a'], ['a']] [demoMsg ['M']] [] with name := ['y', '/', 'x', '.', 'p'] }
  refine ⟨[f, g], f, ['x'], List.mem_cons_self .., ⟨rfl, by simp, by simp [NoSlash], by simp, by simp [NoSlash]⟩, by simp [f, demoProto], ?_⟩
  decide +kernel

theorem mem_mapM {α β : Type} {g : α → Option β} {a : α} {b : β} (hg : g a = some b) : ∀ {l : List α} {l' : List β}, a ∈ l → l.mapM g = some l' → b ∈ l' := by
  intro l
  induction l with
  | nil => intro l' h; simp at h
  | cons x l ih =>
    intro l' h hm
    rw [List.mapM_cons] at hm
    cases hx : g x with
    | none => rw [hx] at hm; simp at hm
    | some y =>
      cases hl : l.mapM g with
      | none => rw [hx, hl] at hm; simp at hm
      | some ys =>
        rw [hx, hl] at hm
        have hm' : y :: ys = l' := by simpa using hm
        subst hm'
        simp only [List.mem_cons] at h ⊢
        rcases h with rfl | h
        · left; rw [hg] at hx; simpa using hx
        · right; exact ih h hl

/-- C59, the part that holds for imports: the header of a file includes the header of an imported file, if that is in the directory
the generator writes its header to, declares messages or enumerations, and is not hidden. Missing: imports in other directories
(`C59_import_directory_violated`) and imports of files without messages and enumerations (`C59_import_services_violated`). -/
theorem C59_import_partial {folder : Bool} {files : List ProtoFile} {f g : ProtoFile} (hg : g ∈ files) (hdep : g.name ∈ f.deps)
    (hlib : g.name ≠ kQtCore ∧ g.name ≠ kQtGui) {d : List Str} {b ext : Str} (hname : IsNamed g.name d b ext)
    (hdir : d = outDir folder g.package) (hm : g.messages ≠ [] ∨ g.enums ≠ []) {incs : List Inc} (hincs : singleIncludes f = some incs)
    (hhide : outDir folder f.package = [] ∨
      dirOf (outDir folder f.package) ++ messagesHeader folder g.package b ∉ singleRun folder files) :
    Includes incs (singleRun folder files) (dirOf (outDir folder f.package)) (messagesHeader folder g.package b) := by
  have hrun : messagesHeader folder g.package b ∈ singleRun folder files := by
    simp only [singleRun, List.mem_flatMap]
    refine ⟨g, hg, ?_⟩
    rw [C59_headers hname]
    have : ¬ (g.messages = [] ∧ g.enums = []) := by rintro ⟨h1, h2⟩; rcases hm with h | h <;> contradiction
    simp [this]
  have hr : removeFileSuffix g.name = some (dirOf d ++ b) := by
    rw [hname.1]; exact beforeLast_append _ _ hname.2.2.2.1
  refine ⟨dirOf d ++ b ++ kQpb, ?_, hrun, ?_⟩
  · refine mem_mapM (g := fun d => (removeFileSuffix d).map fun b => Inc.internal (b ++ kQpb)) (a := g.name) (by rw [hr]; rfl) ?_ hincs
    rw [List.mem_filter]
    exact ⟨hdep, by simpa using hlib⟩
  · subst hdir
    rcases hhide with h | h
    · left; rw [messagesHeader, h]; simp [dirOf, kQpb]
    · right; refine ⟨by simp [messagesHeader, kQpb], ?_⟩
      intro hin; apply h; simpa [messagesHeader, kQpb] using hin

/-- The hypotheses of `C59_import_partial`: a file of package p imports "q/y.p" of package q. -/
example : let g : ProtoFile := { demoProto [['q']] [demoMsg ['T']] [] with name := ['q', '/', 'y', '.', 'p'] }
    let f : ProtoFile := { demoProto [['p']] [demoMsg ['M']] [] with name := ['x', '.', 'p'], deps := [g.name] }
    Includes [.internal ['q', '/', 'y', '.', 'q', 'p', 'b']] (singleRun true [f, g]) (dirOf [['p']]) (messagesHeader true [['q']] ['y']) := by
  intro g f
  exact C59_import_partial (folder := true) (f := f) (g := g) (d := [['q']]) (ext := ['p']) (by simp) (List.mem_cons_self ..) (by decide +kernel)
    ⟨rfl, by simp [NoSlash], by simp [NoSlash], by simp, by simp [NoSlash]⟩ rfl (Or.inl (by simp [g, demoProto])) (by decide +kernel)
    (Or.inr (by decide +kernel))

/-- Without FOLDER, an import from a directory is looked for in that directory, but its header is written to the output directory. -/
theorem C59_import_directory_violated : ∃ (f g : ProtoFile) (incs : List Inc) (b : Str), g.name ∈ f.deps ∧ g.messages ≠ [] ∧
    IsNamed g.name [['s']] b ['p'] ∧ singleIncludes f = some incs ∧
    ¬ Includes incs (singleRun false [f, g]) [] (messagesHeader false g.package b) := by
  let g : ProtoFile := { demoProto [['q']] [demoMsg ['T']] [] with name := ['s', '/', 'y', '.', 'p'] }
  let f : ProtoFile := { demoProto [['q']] [demoMsg ['M']] [] with name := ['x', '.', 'p'], deps := [g.name] }
  refine ⟨f, g, [.internal ['s', '/', 'y', '.', 'q', 'p', 'b']], ['y'], List.mem_cons_self .., by simp [g, demoProto],
    ⟨rfl, by simp [NoSlash], by simp [NoSlash], by simp, by simp [NoSlash]⟩, by decide +kernel, ?_⟩
  decide +kernel

/-- An imported file with services only has no header for messages, which the importing file includes all the same. -/
theorem C59_import_services_violated : ∃ (f g : ProtoFile) (t : Str), g.name ∈ f.deps ∧ (∃ hs, singleHeaders false g = some hs) ∧
    singleIncludes f = some [.internal t] ∧ ∀ file, ¬ Opens (singleRun false [f, g]) [] t file := by
  let g : ProtoFile := { demoProto [] [] [⟨['S'], []⟩] with name := ['y', '.', 'p'] }
  let f : ProtoFile := { demoProto [] [demoMsg ['M']] [] with name := ['x', '.', 'p'], deps := [g.name] }
  refine ⟨f, g, ['y', '.', 'q', 'p', 'b'], List.mem_cons_self .., ⟨_, C59_headers (d := []) (b := ['y']) (ext := ['p'])
    ⟨rfl, by simp, by simp [NoSlash], by simp, by simp [NoSlash]⟩⟩, by decide +kernel, ?_⟩
  rintro file ⟨hm, rfl | ⟨rfl, _⟩⟩ <;> revert hm <;> decide +kernel

/-- A file x.proto with services and a file x_grpc.proto with messages are written to one header. -/
theorem C59_grpc_name_violated : ∃ files : List ProtoFile, (files.map ProtoFile.name).Nodup ∧ ¬ (singleRun false files).Nodup :=
  ⟨[{ demoProto [] [] [⟨['S'], []⟩] with name := ['x', '.', 'p'] },
    { demoProto [] [demoMsg ['M']] [] with name := ['x', '_', 'g', 'r', 'p', 'c', '.', 'p'] }], by decide +kernel, by decide +kernel⟩

/-- The hypotheses of `C59_own_header_partial`. -/
example : let f : ProtoFile := { demoProto [['a']] [demoMsg ['M']] [] with name := ['d', '/', 'x', '.', 'p'] }
    Includes (singleSourceInclude true f).toList (singleRun true [f]) (dirOf [['a']]) (messagesHeader true [['a']] ['x']) := by
  intro f
  exact C59_own_header_partial (folder := true) (f := f) (d := [['d']]) (ext := ['p']) (List.mem_cons_self ..)
    ⟨rfl, by simp [NoSlash], by simp [NoSlash], by simp, by simp [NoSlash]⟩ (Or.inl (by simp [f, demoProto])) (Or.inr (by decide +kernel))

end QtPb.Gen
