import Verif.PropsGenSingle
/-
C59: the include directives in the files for the services of a file, in single-file mode.
-/
namespace QtPb.Gen
open Spec

theorem opens_named {files : List Str} {dir : List Str} {target : Str} (hrun : target ++ ['.', 'h'] ∈ files)
    (hhide : dir = [] ∨ dirOf dir ++ (target ++ ['.', 'h']) ∉ files) : Opens files (dirOf dir) target (target ++ ['.', 'h']) := by
  refine ⟨hrun, ?_⟩
  rcases hhide with rfl | h
  · exact Or.inl (by simp [dirOf])
  · exact Or.inr ⟨rfl, by rwa [List.append_assoc]⟩

theorem messagesHeader_written {folder : Bool} {files : List ProtoFile} {g : ProtoFile} (hg : g ∈ files) {d : List Str} {b ext : Str}
    (hname : IsNamed g.name d b ext) (hm : g.messages ≠ [] ∨ g.enums ≠ []) : messagesHeader folder g.package b ∈ singleRun folder files := by
  simp only [singleRun, List.mem_flatMap]
  refine ⟨g, hg, ?_⟩
  rw [C59_headers hname]
  have : ¬ (g.messages = [] ∧ g.enums = []) := by rintro ⟨h1, h2⟩; rcases hm with h | h <;> contradiction
  simp [this]

theorem servicesHeader_written {folder : Bool} {files : List ProtoFile} {g : ProtoFile} (hg : g ∈ files) {d : List Str} {b ext : Str}
    (hname : IsNamed g.name d b ext) (hs : g.services ≠ []) : servicesHeader folder g.package b ∈ singleRun folder files := by
  simp only [singleRun, List.mem_flatMap]
  refine ⟨g, hg, ?_⟩
  rw [C59_headers hname]
  simp [hs]

/-- C59: the source file of the clients of a file includes their header, if no file of another package hides it. -/
theorem C59_client_header_partial {folder : Bool} {files : List ProtoFile} {f : ProtoFile} (hf : f ∈ files) {d : List Str} {b ext : Str}
    (hname : IsNamed f.name d b ext) (hs : f.services ≠ [])
    (hhide : outDir folder f.package = [] ∨
      dirOf (outDir folder f.package) ++ servicesHeader folder f.package b ∉ singleRun folder files) :
    Includes (grpcSourceInclude folder f).toList (singleRun folder files) (dirOf (outDir folder f.package)) (servicesHeader folder f.package b) := by
  have hb' : extractFileBasename f.name = some b := by rw [hname.1]; exact basename_eq hname.2.2.1 hname.2.2.2.1
  have e : servicesHeader folder f.package b = dirOf (outDir folder f.package) ++ b ++ kGrpc ++ kQpb ++ ['.', 'h'] := by
    simp [servicesHeader, kGrpc, kQpb]
  have hrun := servicesHeader_written (folder := folder) hf hname hs
  rw [e] at hrun hhide ⊢
  exact ⟨_, by simp [grpcSourceInclude, hb', generateBaseName_eq], opens_named hrun hhide⟩

/-- C59: the header of the clients of a file includes the header with the argument and answer of every method, if that is of the file itself or
of a file in the directory its header is written to, and not hidden. Missing: files in other directories, as for imports, and the types of Qt
(`C59_client_qt_violated`). -/
theorem C59_client_types_partial {fileOf : Path → Str} {folder : Bool} {files : List ProtoFile} {f g : ProtoFile} (hg : g ∈ files)
    {s : ServiceD} (hs : s ∈ f.services) {m : MethodD} (hm : m ∈ s.methods) {q : Path} (hq : q = m.input ∨ q = m.output) (hfile : fileOf q = g.name)
    (hmsg : g.messages ≠ []) (hself : g.name = f.name → g = f) {d : List Str} {b ext : Str} (hname : IsNamed g.name d b ext)
    (hdir : g.name ≠ f.name → d = outDir folder g.package) {incs : List Inc} (hincs : grpcIncludes fileOf folder f = some incs)
    (hhide : outDir folder f.package = [] ∨
      dirOf (outDir folder f.package) ++ messagesHeader folder g.package b ∉ singleRun folder files) :
    Includes incs (singleRun folder files) (dirOf (outDir folder f.package)) (messagesHeader folder g.package b) := by
  have e : messagesHeader folder g.package b = dirOf (outDir folder g.package) ++ b ++ kQpb ++ ['.', 'h'] := by
    simp [messagesHeader, kQpb]
  have hrun := messagesHeader_written (folder := folder) hg hname (Or.inl hmsg)
  rw [e] at hrun hhide ⊢
  refine ⟨_, ?_, opens_named hrun hhide⟩
  simp only [grpcIncludes, Option.bind_eq_bind] at hincs
  cases ho : ((f.services.flatMap fun s => s.methods.flatMap fun m => [m.input, m.output]).filter fun q => fileOf q ≠ f.name).mapM
      (fun q => (removeFileSuffix (fileOf q)).map fun b => Inc.internal (b ++ kQpb)) with
  | none =>
    rw [ho] at hincs
    cases hincs
  | some others =>
    cases hb : extractFileBasename f.name with
    | none =>
      rw [ho, hb] at hincs
      cases hincs
    | some b' =>
      have hi : others ++ (if f.messages = [] then [] else [.internal (generateBaseName folder f.package b' ++ kQpb)]) = incs := by
        rw [ho, hb] at hincs
        exact Option.some.inj hincs
      rw [← hi]
      by_cases hsame : g.name = f.name
      · have := hself hsame
        subst this
        rw [hname.1, basename_eq hname.2.2.1 hname.2.2.2.1] at hb
        simp only [Option.some.injEq] at hb
        subst hb
        rw [if_neg hmsg, generateBaseName_eq]
        simp
      · refine List.mem_append_left _ (mem_mapM (a := q) ?_ ?_ ho)
        · have hr : removeFileSuffix g.name = some (dirOf d ++ b) := by
            rw [hname.1]; exact beforeLast_append _ _ hname.2.2.2.1
          rw [hfile, hr, hdir hsame]
          rfl
        · rw [List.mem_filter]
          refine ⟨List.mem_flatMap.mpr ⟨s, hs, List.mem_flatMap.mpr ⟨m, hm, ?_⟩⟩, by simp [hfile, hsame]⟩
          rcases hq with rfl | rfl <;> simp

/-- A method with an argument of a Qt type: the header of the clients includes a header for QtCore.proto, which is not generated. -/
theorem C59_client_qt_violated : ∃ (fileOf : Path → Str) (f : ProtoFile) (t : Str), (∀ q, fileOf q = kQtCore ∨ fileOf q = f.name) ∧
    (∃ s ∈ f.services, ∃ m ∈ s.methods, fileOf m.input = kQtCore) ∧ (∃ incs, grpcIncludes fileOf false f = some incs ∧ .internal t ∈ incs) ∧
    ∀ file, ¬ Opens (singleRun false [f]) [] t file := by
  let q : Path := [['Q', 't', 'P', 'r', 'o', 't', 'o', 'b', 'u', 'f'], ['Q', 'U', 'r', 'l']]
  let f : ProtoFile := { demoProto [] [demoMsg ['M']] [⟨['S'], [⟨['g'], q, [['M']], false, false⟩]⟩] with name := ['x', '.', 'p'] }
  refine ⟨fun p => if p = q then kQtCore else f.name, f, (removeFileSuffix kQtCore).getD [] ++ kQpb, fun p => ?_,
    ⟨_, List.mem_cons_self .., _, List.mem_cons_self .., rfl⟩, ⟨_, rfl, ?_⟩, ?_⟩
  · dsimp only
    split
    · exact Or.inl rfl
    · exact Or.inr rfl
  · decide +kernel
  · rintro file ⟨hm, rfl | ⟨rfl, _⟩⟩ <;> revert hm <;> decide +kernel

/-- The hypotheses of the theorems: a service in "x.p" with an argument of "q/y.p" and an answer of its own file. -/
example : let g : ProtoFile := { demoProto [['q']] [demoMsg ['T']] [] with name := ['q', '/', 'y', '.', 'p'] }
    let f : ProtoFile := { demoProto [['p']] [demoMsg ['M']] [⟨['S'], [⟨['g'], [['q'], ['T']], [['p'], ['M']], false, false⟩]⟩] with
      name := ['x', '.', 'p'], deps := [g.name] }
    ∃ incs, Includes incs (singleRun true [f, g]) (dirOf [['p']]) (messagesHeader true [['q']] ['y']) ∧
      Includes incs (singleRun true [f, g]) (dirOf [['p']]) (messagesHeader true [['p']] ['x']) ∧
      Includes (grpcSourceInclude true f).toList (singleRun true [f, g]) (dirOf [['p']]) (servicesHeader true [['p']] ['x']) := by
  intro g f
  have hincs : grpcIncludes (fun p => if p = [['q'], ['T']] then g.name else f.name) true f =
      some [.internal ['q', '/', 'y', '.', 'q', 'p', 'b'], .internal ['p', '/', 'x', '.', 'q', 'p', 'b']] := by decide +kernel
  have hgn : IsNamed g.name [['q']] ['y'] ['p'] := ⟨rfl, by simp [NoSlash], by simp [NoSlash], by simp, by simp [NoSlash]⟩
  have hfn : IsNamed f.name [] ['x'] ['p'] := ⟨rfl, by simp, by simp [NoSlash], by simp, by simp [NoSlash]⟩
  refine ⟨[.internal ['q', '/', 'y', '.', 'q', 'p', 'b'], .internal ['p', '/', 'x', '.', 'q', 'p', 'b']], ?_, ?_, ?_⟩
  · exact C59_client_types_partial (folder := true) (f := f) (g := g) (by simp) (List.mem_cons_self ..) (List.mem_cons_self ..) (q := [['q'], ['T']])
      (Or.inl rfl) rfl (by simp [g, demoProto]) (fun e => absurd e (by decide +kernel)) hgn (fun _ => rfl) hincs (Or.inr (by decide +kernel))
  · exact C59_client_types_partial (folder := true) (f := f) (g := f) (by simp) (List.mem_cons_self ..) (List.mem_cons_self ..) (q := [['p'], ['M']])
      (Or.inr rfl) rfl (by simp [f, demoProto]) (fun _ => rfl) hfn (fun h => absurd rfl h) hincs (Or.inr (by decide +kernel))
  · exact C59_client_header_partial (folder := true) (f := f) (List.mem_cons_self ..) hfn (by simp [f, demoProto]) (Or.inr (by decide +kernel))

end QtPb.Gen
