import Verif.OrderLemmas
import Verif.PropsGenTree
/-
C99: generated headers declare what they use before they use it. Single-file mode.
-/
namespace QtPb.Gen
open Spec

variable {extra : Str} {pkgOf : Path → List Str}

/-! ### Lemmas -/

theorem nameOf_printed {m : Msg} {package : List Str} {p : Printed} (hp : p ∈ declare (fileNs extra package) package m)
    (hk : pkgOf p.msg = package) : p.cpp = nameOf extra pkgOf p.msg := by
  obtain ⟨r, h1, h2⟩ := declare_cpp m _ _ p hp
  unfold nameOf cppName
  rw [hk, h1, h2]
  obtain ⟨l, a, hl⟩ : ∃ l a, m.name :: r = l ++ [a] := ⟨_, _, (List.dropLast_concat_getLast (by simp)).symm⟩
  rw [hl, relName_eq]
  have h3 : (package ++ (l ++ [a])).drop package.length = l ++ [a] := by simp
  rw [h3, List.dropLast_concat]
  have h4 : (package ++ (l ++ [a])).getLastD [] = a := by rw [← List.append_assoc]; simp
  rw [h4]
  simp [fileNs]

theorem typesOf_uses {q : Path} {x : Msg} {fd : FieldD} (hmt : ∀ f ∈ x.fields, f.isMap = true → f.type = .message)
    (h : fd ∈ typesOf q x.fields x.nested) : UsesType q x fd := by
  unfold typesOf at h
  rw [List.mem_flatMap] at h
  obtain ⟨f, hf, h⟩ := h
  by_cases hm : f.isMap = true
  · rw [if_pos hm] at h
    cases hn : x.nested.find? fun n => some (q ++ [n.name]) == f.msgType with
    | none => rw [hn] at h; simp at h
    | some n =>
      rw [hn] at h
      have h1 := List.mem_of_find?_eq_some hn
      have h2 := List.find?_some hn
      exact Or.inr ⟨f, hf, hm, hmt f hf hm, n, h1, by simpa using (beq_iff_eq.mp h2).symm, h⟩
  · rw [if_neg hm] at h
    rw [List.mem_singleton] at h
    subst h
    exact Or.inl ⟨hf, by simpa using hm⟩

theorem flatMap_declare (ns : List Str) (path : Path) : ∀ l : List Msg, l.flatMap (declare ns path) = declareList ns path [] l
  | [] => rfl
  | m :: l => by
    rw [declareList, List.flatMap_cons, flatMap_declare ns path l]
    rfl

theorem flatMap_declareDecls (ns : List Str) (path : Path) : ∀ l : List Msg, l.flatMap (declareDecls ns path) = declareDeclsList ns path [] l
  | [] => rfl
  | m :: l => by
    rw [declareDeclsList, List.flatMap_cons, flatMap_declareDecls ns path l]
    rfl

theorem used_visits {pre : Path} {fields : List FieldD} {n : Msg} : Used pre fields n ↔ visits fields (pre ++ [n.name]) = true :=
  (visits_iff (x := .mk [] fields [] false)).symm

theorem declareList_append (ns : List Str) (path : Path) (fields : List FieldD) : ∀ a b : List Msg,
    declareList ns path fields (a ++ b) = declareList ns path fields a ++ declareList ns path fields b
  | [], b => rfl
  | n :: a, b => by rw [List.cons_append, declareList, declareList, declareList_append ns path fields a b, List.append_assoc]

/-- One element stands before another in a list. -/
def Precedes {α : Type} (l : List α) (p q : α) : Prop := ∃ a b c, l = a ++ p :: b ++ q :: c

theorem Precedes.wrap {α : Type} {l : List α} {p q : α} (h : Precedes l p q) (a c : List α) : Precedes (a ++ l ++ c) p q := by
  obtain ⟨x, y, z, rfl⟩ := h
  exact ⟨a ++ x, y, z ++ c, by simp⟩

theorem precedes_of_mem {α : Type} {l1 l2 : List α} {p q : α} (hp : p ∈ l1) (hq : q ∈ l2) : Precedes (l1 ++ l2) p q := by
  obtain ⟨a, b, rfl⟩ := List.append_of_mem hp
  obtain ⟨c, d, rfl⟩ := List.append_of_mem hq
  exact ⟨a, b ++ c, d, by simp⟩

theorem before_precedes {pre p q : Path} {fields : List FieldD} {l : List Msg} (h : Before pre fields l p q) :
    ∀ ns, Precedes ((declareList ns pre fields l).map Printed.msg) p q := by
  induction h with
  | @side pre p q fields a b c m1 m2 x y h1 h2 hp hq =>
    intro ns
    rw [declareList_append, List.append_cons, declareList_append, declareList_append, declareList, declareList, declareList,
      if_pos (used_visits.mp h1), if_pos (used_visits.mp h2)]
    have hp' := (mem_declare m1 ns pre p).mpr ⟨x, hp⟩
    have hq' := (mem_declare m2 ns pre q).mpr ⟨y, hq⟩
    simp only [List.map_append]
    refine precedes_of_mem (List.mem_append_left _ (List.mem_append_right _ (by simpa using hp'))) (List.mem_append_left _ hq')
  | @within pre p fields l m n x hm hu hn hu' hp =>
    intro ns
    obtain ⟨a, b, rfl⟩ := List.append_of_mem hm
    rw [declareList_append, declareList, if_pos (used_visits.mp hu)]
    simp only [List.map_append]
    have : Precedes ((declare ns pre m).map Printed.msg) p (pre ++ [m.name]) := by
      cases m with
      | mk name fs nested e =>
        rw [declare, List.map_append]
        refine precedes_of_mem ?_ (by simp [Msg.name])
        exact (mem_declareList nested _ _ (.mk name fs nested e) p).mpr ⟨n, hn, used_visits.mp hu', x, hp⟩
    have := this.wrap ((declareList ns pre fields a).map Printed.msg) ((declareList ns pre fields b).map Printed.msg)
    simpa [List.append_assoc] using this
  | @deeper pre p q fields l m hm hu hb ih =>
    intro ns
    obtain ⟨a, b, rfl⟩ := List.append_of_mem hm
    rw [declareList_append, declareList, if_pos (used_visits.mp hu)]
    simp only [List.map_append]
    have : Precedes ((declare ns pre m).map Printed.msg) p q := by
      cases m with
      | mk name fs nested e =>
        rw [declare, List.map_append]
        have := (ih (ns ++ [nestedNs name])).wrap [] ([Printed.mk (pre ++ [name]) (ns ++ [upperCaseName name])].map Printed.msg)
        simpa [Msg.name, Msg.fields, Msg.nested] using this
    have := this.wrap ((declareList ns pre fields a).map Printed.msg) ((declareList ns pre fields b).map Printed.msg)
    simpa [List.append_assoc] using this

theorem split_unique {α : Type} {a b a' b' : List α} {x : α} (hn : (a ++ x :: b).Nodup) (e : a ++ x :: b = a' ++ x :: b') : a = a' := by
  induction a generalizing a' with
  | nil =>
    cases a' with
    | nil => rfl
    | cons y a' =>
      simp only [List.nil_append, List.cons_append, List.cons.injEq] at e
      obtain ⟨rfl, rfl⟩ := e
      simp at hn
  | cons y a ih =>
    cases a' with
    | nil =>
      simp only [List.nil_append, List.cons_append, List.cons.injEq] at e
      obtain ⟨rfl, rfl⟩ := e
      simp at hn
    | cons z a' =>
      simp only [List.cons_append, List.cons.injEq] at e
      obtain ⟨rfl, e⟩ := e
      rw [ih (List.nodup_cons.mp (by simpa using hn)).2 e]

/-- What stands before the class of `q` in declarations with each class once. -/
theorem mem_of_precedes {ds a b : List Decl} {cpp : List Str} {p q : Path} {types : List FieldD} (hn : (clsMsgs ds).Nodup)
    (hs : ds = a ++ .cls cpp q types :: b) (hp : Precedes (clsMsgs ds) p q) : p ∈ clsMsgs a := by
  obtain ⟨x, y, z, e⟩ := hp
  rw [hs, clsMsgs_append] at e hn
  change (clsMsgs a ++ q :: clsMsgs b).Nodup at hn
  change clsMsgs a ++ q :: clsMsgs b = _ at e
  have := split_unique hn e
  rw [this]
  simp

theorem mem_clsMsgs {q : Path} : ∀ {ds : List Decl}, q ∈ clsMsgs ds → ∃ cpp types, .cls cpp q types ∈ ds
  | .cls cpp q' types :: ds, h => by
    rcases List.mem_cons.mp h with rfl | h
    · exact ⟨cpp, types, List.mem_cons_self ..⟩
    · obtain ⟨c, t, h⟩ := mem_clsMsgs h
      exact ⟨c, t, List.mem_cons_of_mem _ h⟩
  | .fwd _ :: ds, h => by
    obtain ⟨c, t, h⟩ := mem_clsMsgs (ds := ds) h
    exact ⟨c, t, List.mem_cons_of_mem _ h⟩
  | .list _ :: ds, h => by
    obtain ⟨c, t, h⟩ := mem_clsMsgs (ds := ds) h
    exact ⟨c, t, List.mem_cons_of_mem _ h⟩
  | .gadget _ :: ds, h => by
    obtain ⟨c, t, h⟩ := mem_clsMsgs (ds := ds) h
    exact ⟨c, t, List.mem_cons_of_mem _ h⟩

theorem not_mem_clsMsgs {ds : List Decl} (h : clsMsgs ds = []) (cpp : List Str) (q : Path) (types : List FieldD) : .cls cpp q types ∉ ds := by
  intro hm
  obtain ⟨a, b, rfl⟩ := List.append_of_mem hm
  rw [clsMsgs_append] at h
  simp [clsMsgs] at h

/-- Where a class stands in a header. -/
theorem cls_position {κ : Type} {I : List κ} {G C : List Decl} {cpp : List Str} {q : Path} {types : List FieldD} {pre post : List (Line κ)}
    (hG : ∀ cpp q types, .cls cpp q types ∉ G)
    (e : I.map .incl ++ (G ++ C).map .decl = pre ++ .decl (.cls cpp q types) :: post) :
    ∃ a b, C = a ++ .cls cpp q types :: b ∧ pre = I.map .incl ++ (G ++ a).map .decl := by
  rw [List.map_append, ← List.append_assoc] at e
  have hnot : Line.decl (Decl.cls cpp q types) ∉ I.map .incl ++ G.map .decl := by
    intro hmem
    rcases List.mem_append.mp hmem with hmem | hmem
    · simp at hmem
    · simp only [List.mem_map, Line.decl.injEq, exists_eq_right] at hmem
      exact hG _ _ _ hmem
  rcases List.append_eq_append_iff.mp e with ⟨u, h1, h2⟩ | ⟨u, h1, h2⟩
  · obtain ⟨v, w, hvw, hu, hw⟩ := List.map_eq_append_iff.mp h2
    cases w with
    | nil => simp at hw
    | cons d' w =>
      simp only [List.map_cons, List.cons.injEq, Line.decl.injEq] at hw
      obtain ⟨rfl, _⟩ := hw
      exact ⟨v, w, hvw, by rw [h1, List.map_append, hu, List.append_assoc]⟩
  · cases u with
    | nil =>
      simp only [List.append_nil, List.nil_append] at h1 h2
      cases C with
      | nil => simp at h2
      | cons d' C =>
        simp only [List.map_cons, List.cons.injEq, Line.decl.injEq] at h2
        obtain ⟨rfl, _⟩ := h2
        exact ⟨[], C, rfl, by rw [← h1]; simp⟩
    | cons y u =>
      simp only [List.cons_append, List.cons.injEq] at h2
      exact absurd (by rw [h1, ← h2.1]; simp) hnot

/-! ### Headers of files -/

theorem find_file {files : List ProtoFile} (hn : (files.map ProtoFile.name).Nodup) {f : ProtoFile} (hf : f ∈ files) :
    files.find? (·.name = f.name) = some f := by
  induction files with
  | nil => simp at hf
  | cons g files ih =>
    simp only [List.map_cons, List.nodup_cons] at hn
    rcases List.mem_cons.mp hf with rfl | hf
    · simp
    · have : g.name ≠ f.name := fun e => hn.1 (by rw [e]; exact List.mem_map_of_mem hf)
      rw [List.find?_cons_of_neg (by simpa using this)]
      exact ih hn.2 hf

theorem singleHeader_file {files : List ProtoFile} (hn : (files.map ProtoFile.name).Nodup) {f : ProtoFile} (hf : f ∈ files) :
    singleHeader extra files f.name = singleLines extra f := by
  unfold singleHeader
  rw [find_file hn hf]

theorem mem_incl_single {f : ProtoFile} {d : Str} : .incl d ∈ singleLines extra f ↔ d ∈ f.deps ∧ d ≠ kQtCore ∧ d ≠ kQtGui := by
  unfold singleLines
  simp [-List.map_append, List.mem_map]

theorem kQtCore_eq : "QtProtobuf/QtCore.proto".toList = kQtCore := by simp [kQtCore]
theorem kQtGui_eq : "QtProtobuf/QtGui.proto".toList = kQtGui := by simp [kQtGui]

theorem sees_reach {files : List ProtoFile} (hn : (files.map ProtoFile.name).Nodup) {f g : ProtoFile} (h : Sees files f g) (hf : f ∈ files) :
    g ∈ files ∧ Reach (singleHeader extra files) f.name g.name ∧
      (g = f ∨ ∃ d, .incl d ∈ singleHeader extra files f.name ∧ Reach (singleHeader extra files) d g.name) := by
  induction h with
  | refl => exact ⟨hf, .refl, Or.inl rfl⟩
  | @step f f1 g h1 hd hc hq _ ih =>
    obtain ⟨i1, i2, _⟩ := ih h1
    have : Line.incl f1.name ∈ singleHeader extra files f.name := by
      rw [singleHeader_file hn hf, mem_incl_single]
      exact ⟨hd, by rwa [← kQtCore_eq], by rwa [← kQtGui_eq]⟩
    exact ⟨i1, .step this i2, Or.inr ⟨_, this, i2⟩⟩

theorem decl_single {f : ProtoFile} {d : Decl} : .decl d ∈ singleLines extra f ↔
    d ∈ f.enums.map (gadgetDecl extra f.package) ++ f.messages.flatMap (forwardDecls (fileNs extra f.package) f.package) ++
      f.messages.flatMap (declareDecls (fileNs extra f.package) f.package) := by
  unfold singleLines
  simp only [List.mem_append, List.mem_map, reduceCtorEq, and_false, exists_false, false_or, Line.decl.injEq, exists_eq_right]

theorem reached_contains {pre : List Str} {m x : Msg} {q : Path} (h : Reached pre m q x) : Contains pre m q x := by
  induction h with
  | self => exact .self
  | nested hn _ _ ih => exact .nested hn ih

/-- The declarations of a generated class. -/
theorem generated_decls {files : List ProtoFile} (hv : ValidFiles pkgOf files) {g : ProtoFile} (hg : g ∈ files) {t : Path} (h : Generated g t) :
    .fwd (nameOf extra pkgOf t) ∈ g.messages.flatMap (forwardDecls (fileNs extra g.package) g.package) ∧
    .list (nameOf extra pkgOf t) ∈ g.messages.flatMap (forwardDecls (fileNs extra g.package) g.package) ∧
    ∃ types, .cls (nameOf extra pkgOf t) t types ∈ g.messages.flatMap (declareDecls (fileNs extra g.package) g.package) := by
  obtain ⟨m, hm, x, hx⟩ := h
  have hk := hv.packages g hg m hm t x (reached_contains hx)
  have := (mem_declare m (fileNs extra g.package) g.package t).mpr ⟨x, hx⟩
  obtain ⟨p, hp, rfl⟩ := List.mem_map.mp this
  have hc := nameOf_printed hp hk
  rw [← hc]
  obtain ⟨h1, h2⟩ := mem_forwardDecls m _ _ p hp
  obtain ⟨⟨types, h3⟩, _⟩ := mem_declareDecls m _ _ p hp
  exact ⟨List.mem_flatMap.mpr ⟨m, hm, h1⟩, List.mem_flatMap.mpr ⟨m, hm, h2⟩, types, List.mem_flatMap.mpr ⟨m, hm, h3⟩⟩

theorem clsMsgs_file (extra : Str) (g : ProtoFile) : clsMsgs (g.messages.flatMap (declareDecls (fileNs extra g.package) g.package)) =
    (File.classes extra ⟨g.package, g.messages⟩).map Printed.msg := by
  rw [flatMap_declareDecls, clsMsgs_declareList, File.classes, flatMap_declare]

theorem cls_of_msg {files : List ProtoFile} (hv : ValidFiles pkgOf files) {g : ProtoFile} (hg : g ∈ files) {cpp : List Str} {q : Path}
    {types : List FieldD} (h : .cls cpp q types ∈ g.messages.flatMap (declareDecls (fileNs extra g.package) g.package)) :
    cpp = nameOf extra pkgOf q ∧ ∃ m ∈ g.messages, ∃ x, Reached g.package m q x ∧ types = typesOf q x.fields x.nested := by
  obtain ⟨m, hm, h⟩ := List.mem_flatMap.mp h
  obtain ⟨h1, x, hx, ht⟩ := cls_reached m _ _ _ _ _ h
  exact ⟨nameOf_printed h1 (hv.packages g hg m hm q x (reached_contains hx)), m, hm, x, hx, ht⟩

theorem ready_mono : Mono (Ready extra pkgOf) := by
  intro B B' d hs h
  cases d with
  | cls cpp q types =>
    intro fd hfd
    obtain ⟨h1, h2⟩ := h fd hfd
    refine ⟨fun t ht hm hq => ?_, fun e he hm => ?_⟩
    · have := h1 t ht hm hq
      by_cases hr : fd.repeated = true
      · rw [if_pos hr] at this ⊢
        exact hs _ this
      · rw [if_neg hr] at this ⊢
        rcases this with h | h | ⟨ts, h⟩
        · exact Or.inl h
        · exact Or.inr (Or.inl (hs _ h))
        · exact Or.inr (Or.inr ⟨ts, hs _ h⟩)
    · rcases h2 e he hm with h | h
      · exact Or.inl h
      · refine Or.inr ?_
        unfold EnumDeclared at h ⊢
        split at h
        · rename_i hl; rw [if_pos hl]; exact hs _ h
        · rename_i hl; rw [if_neg hl]; obtain ⟨ts, h⟩ := h; exact ⟨ts, hs _ h⟩
  | _ => trivial

theorem single_rank {files : List ProtoFile} (hv : ValidFiles pkgOf files) :
    ∃ rank : Str → Nat, ∀ k k', .incl k' ∈ singleHeader extra files k → rank k' < rank k := by
  obtain ⟨rank, hrank⟩ := hv.imports
  refine ⟨rank, fun k k' h => ?_⟩
  cases hk : files.find? (·.name = k) with
  | none => unfold singleHeader at h; rw [hk] at h; simp at h
  | some f =>
    have hf := List.mem_of_find?_eq_some hk
    have hname : f.name = k := by simpa using List.find?_some hk
    subst hname
    rw [singleHeader_file hv.names hf, mem_incl_single] at h
    exact hrank f hf k' h.1

theorem reach_rank {κ : Type} {header : κ → List (Line κ)} {rank : κ → Nat} (hr : ∀ k k', .incl k' ∈ header k → rank k' < rank k) {a b : κ}
    (h : Reach header a b) : rank b ≤ rank a := by
  induction h with
  | refl => exact Nat.le_refl _
  | step hi _ ih => have := hr _ _ hi; omega

theorem single_local {files : List ProtoFile} (hv : ValidFiles pkgOf files) (ho : ∀ f ∈ files, TypesInOrder pkgOf files f) (k : Str) :
    LocalOk (singleHeader extra files) (Ready extra pkgOf) k := by
  intro pre d post e B hB hpre
  cases hk : files.find? (·.name = k) with
  | none =>
    have : singleHeader extra files k = [] := by unfold singleHeader; rw [hk]
    rw [this] at e
    simp at e
  | some f =>
    have hf := List.mem_of_find?_eq_some hk
    have hname : f.name = k := by simpa using List.find?_some hk
    subst hname
    have e0 := e
    rw [singleHeader_file hv.names hf] at e
    cases d with
    | fwd _ => trivial
    | list _ => trivial
    | gadget _ => trivial
    | cls cpp q types =>
      -- where the class stands
      unfold singleLines at e
      obtain ⟨a, b, hcl, hpre_eq⟩ := cls_position (not_mem_clsMsgs (by
        rw [clsMsgs_append, show clsMsgs (f.enums.map (gadgetDecl extra f.package)) = [] from ?_,
          show clsMsgs (f.messages.flatMap (forwardDecls (fileNs extra f.package) f.package)) = [] from ?_]
        · rfl
        · generalize f.messages = l
          induction l with
          | nil => rfl
          | cons m l ih => rw [List.flatMap_cons, clsMsgs_append, clsMsgs_forward, ih]; rfl
        · generalize f.enums = l
          induction l with
          | nil => rfl
          | cons m l ih => simpa [gadgetDecl, clsMsgs] using ih)) e
      have hq : Decl.cls cpp q types ∈ f.messages.flatMap (declareDecls (fileNs extra f.package) f.package) := by rw [hcl]; simp
      obtain ⟨hcpp, m, hm, x, hx, ht⟩ := cls_of_msg hv hf hq
      have hcon := reached_contains hx
      have hpk : pkgOf q = f.package := hv.packages f hf m hm q x hcon
      -- declarations of files that are seen
      have own : ∀ d' ∈ f.enums.map (gadgetDecl extra f.package) ++ f.messages.flatMap (forwardDecls (fileNs extra f.package) f.package), d' ∈ B := by
        intro d' hd'
        refine hpre d' ?_
        rw [hpre_eq]
        refine List.mem_append_right _ (List.mem_map_of_mem (List.mem_append_left _ hd'))
      have other : ∀ g, Sees files f g → g.name ≠ f.name → ∀ d', .decl d' ∈ singleLines extra g → d' ∈ B := by
        intro g hs hne d' hd'
        obtain ⟨hg, _, h | ⟨k', hk', hr⟩⟩ := sees_reach (extra := extra) hv.names hs hf
        · rw [h] at hne; exact absurd rfl hne
        · have hk'' : Line.incl k' ∈ pre := by
            rw [singleHeader_file hv.names hf, mem_incl_single] at hk'
            rw [hpre_eq]
            refine List.mem_append_left _ (List.mem_map_of_mem (List.mem_filter.mpr ⟨hk'.1, by simpa using hk'.2⟩))
          have hne' : ¬ Reach (singleHeader extra files) k' f.name := by
            obtain ⟨rank, hrank⟩ := single_rank (extra := extra) hv
            have := hrank _ _ hk'
            intro e
            have := reach_rank hrank e
            omega
          exact hB k' hk'' hne' g.name d' hr (by rw [singleHeader_file hv.names hg]; exact hd')
      have both : ∀ g, Sees files f g → ∀ d' ∈ g.enums.map (gadgetDecl extra g.package) ++
          g.messages.flatMap (forwardDecls (fileNs extra g.package) g.package), d' ∈ B := by
        intro g hs d' hd'
        by_cases hne : g.name = f.name
        · have hg := (sees_reach (extra := extra) hv.names hs hf).1
          have : g = f := by
            have h1 := find_file hv.names hg
            have h2 := find_file hv.names hf
            rw [hne, h2] at h1
            exact (Option.some.inj h1).symm
          subst this
          exact own d' hd'
        · exact other g hs hne d' (decl_single.mpr (List.mem_append_left _ hd'))
      intro fd hfd
      rw [ht] at hfd
      have hu := typesOf_uses (fun f' hf' hm' => hv.maps f hf m hm q x hcon f' hf' hm') hfd
      refine ⟨fun t h1 h2 h3 => ?_, fun e' h1 h2 => ?_⟩
      · rw [hpk] at h3
        obtain ⟨g, hs, _, hgen⟩ := (ho f hf).msg m hm q x hx fd hu t h1 h2 h3
        have hg := (sees_reach (extra := extra) hv.names hs hf).1
        obtain ⟨d1, d2, _⟩ := generated_decls (extra := extra) hv hg hgen
        split
        · exact both g hs _ (List.mem_append_right _ d2)
        · exact Or.inr (Or.inl (both g hs _ (List.mem_append_right _ d1)))
      · by_cases heq : e'.dropLast = q
        · exact Or.inl heq
        · refine Or.inr ?_
          obtain ⟨g, hs, hpe, h⟩ := (ho f hf).enum m hm q x hx fd hu e' h1 h2 heq
          have hg := (sees_reach (extra := extra) hv.names hs hf).1
          unfold EnumDeclared
          rcases h with ⟨n, hn, he⟩ | ⟨hpd, hlen, h⟩
          · rw [if_pos (by rw [he, ← hpe, he]; rw [he] at hpe; simp [hpe])]
            refine both g hs _ (List.mem_append_left _ (List.mem_map.mpr ⟨n, hn, ?_⟩))
            unfold gadgetDecl fileNs kGadget
            rw [hpe, he]
            simp
          · rw [if_neg (by rw [hpe]; omega)]
            rcases h with ⟨hne, hgen⟩ | ⟨rfl, hbef⟩
            · obtain ⟨_, _, types', d3⟩ := generated_decls (extra := extra) hv hg hgen
              exact ⟨types', other g hs hne _ (decl_single.mpr (List.mem_append_right _ d3))⟩
            · have hprec := before_precedes hbef (fileNs extra g.package)
              rw [← clsMsgs_declareList, ← flatMap_declareDecls] at hprec
              have hnd : (clsMsgs (g.messages.flatMap (declareDecls (fileNs extra g.package) g.package))).Nodup := by
                rw [clsMsgs_file]
                exact (C44_never_twice (extra := extra) (hv.valid g hf)).1
              have hin := mem_of_precedes hnd hcl hprec
              obtain ⟨cpp', types', hin⟩ := mem_clsMsgs hin
              have hin' : Decl.cls cpp' e'.dropLast types' ∈ g.messages.flatMap (declareDecls (fileNs extra g.package) g.package) := by
                rw [hcl]; exact List.mem_append_left _ hin
              obtain ⟨hc', _⟩ := cls_of_msg hv hf hin'
              refine ⟨types', ?_⟩
              rw [← hc']
              refine hpre _ ?_
              rw [hpre_eq]
              exact List.mem_append_right _ (List.mem_map_of_mem (List.mem_append_right _ hin))

/-- In single-file mode, the header of every file declares what it uses before it uses it, if the enumerations that fields use are not in a
message that comes later in the file. -/
theorem C99_single_partial {files : List ProtoFile} (hv : ValidFiles pkgOf files) (ho : ∀ f ∈ files, TypesInOrder pkgOf files f) {k : Str}
    {out : List Decl} (h : Compiles (singleHeader extra files) k out) : Ordered extra pkgOf out :=
  compiles_ordered (single_local hv ho) h

end QtPb.Gen
