import Verif.PropsGenOrder
import Verif.PropsGenFiles
/-
C99: generated headers declare what they use before they use it. Multi-file mode.
-/
namespace QtPb.Gen
open Spec

variable {extra : Str} {pkgOf : Path → List Str}

/-! ### Which header is which -/

theorem find_nodup {α β : Type} [DecidableEq β] {g : α → β} : ∀ {l : List α}, (l.map g).Nodup → ∀ {a : α}, a ∈ l →
    l.find? (fun x => g x = g a) = some a
  | b :: l, hn, a, ha => by
    simp only [List.map_cons, List.nodup_cons] at hn
    rcases List.mem_cons.mp ha with rfl | ha
    · simp
    · have : g b ≠ g a := fun e => hn.1 (by rw [e]; exact List.mem_map_of_mem ha)
      rw [List.find?_cons_of_neg (by simpa using this)]
      exact find_nodup hn.2 ha

theorem headers_sublist (files : List ProtoFile) :
    ((files.flatMap fun f => f.messages.map fun m => (f, m)).map fun p => messageHeader true p.1.package p.2.name).Sublist
      (files.flatMap (multiHeaders true)) := by
  induction files with
  | nil => exact .slnil
  | cons f files ih =>
    rw [List.flatMap_cons, List.map_append, List.flatMap_cons]
    refine .append ?_ ih
    unfold multiHeaders
    rw [List.map_map]
    exact List.sublist_append_left _ _

theorem multiHeader_message {files : List ProtoFile} (hn : (multiRun true files).Nodup) {f : ProtoFile} (hf : f ∈ files) {m : Msg}
    (hm : m ∈ f.messages) :
    multiHeader extra pkgOf files (headerOf f.package m.name) = multiLines extra pkgOf (multiRun true files) f.package m := by
  unfold multiRun at hn
  obtain ⟨h1, h2⟩ := List.nodup_cons.mp hn
  have hmem : headerOf f.package m.name ∈ files.flatMap (multiHeaders true) := by
    rw [List.mem_flatMap]
    refine ⟨f, hf, ?_⟩
    rw [← messageHeader_folder]
    unfold multiHeaders
    exact List.mem_append_left _ (List.mem_map_of_mem (f := fun x : Msg => messageHeader true f.package x.name) hm)
  unfold multiHeader
  rw [if_neg (fun e => h1 (by rw [← e]; exact hmem))]
  have hpair : (f, m) ∈ files.flatMap fun f => f.messages.map fun m => (f, m) :=
    List.mem_flatMap.mpr ⟨f, hf, List.mem_map_of_mem (f := fun x => (f, x)) hm⟩
  have := find_nodup (g := fun p : ProtoFile × Msg => messageHeader true p.1.package p.2.name) (h2.sublist (headers_sublist files)) hpair
  simp only [messageHeader_folder] at this ⊢
  rw [this]

theorem opened_opens {headers : List Str} {package : List Str} {t file : Str} (h : Opens headers (dirOf package) t file) :
    opened headers (concat ['/'] package) (.internal t) = some file := by
  obtain ⟨h1, h2⟩ := h
  rw [show (['.', 'h'] : Str) = kH from rfl] at h2
  simp only [opened, concat_dirOf]
  rcases h2 with rfl | ⟨rfl, hn⟩
  · rw [if_pos h1]
  · rw [if_neg hn, if_pos h1]

/-- What C58 says of include directives, as lines of headers: a header that is included is opened. -/
theorem incl_of_includes {files : List ProtoFile} (hn : (multiRun true files).Nodup) {f : ProtoFile} (hf : f ∈ files) {m : Msg}
    (hm : m ∈ f.messages) {file : Str} (h : Includes (multiIncludes pkgOf f.package m) (multiRun true files) (dirOf f.package) file) :
    .incl file ∈ multiHeader extra pkgOf files (headerOf f.package m.name) := by
  obtain ⟨t, ht, ho⟩ := h
  rw [multiHeader_message hn hf hm]
  unfold multiLines
  exact List.mem_append_left _ (List.mem_map_of_mem (List.mem_filterMap.mpr ⟨_, ht, opened_opens ho⟩))

theorem incl_globalEnums {files : List ProtoFile} (hn : (multiRun true files).Nodup) {f : ProtoFile} (hf : f ∈ files) {m : Msg}
    (hm : m ∈ f.messages) (h : .globalEnums ∈ multiIncludes pkgOf f.package m) :
    .incl (kGlobalEnums ++ kH) ∈ multiHeader extra pkgOf files (headerOf f.package m.name) := by
  rw [multiHeader_message hn hf hm]
  unfold multiLines
  exact List.mem_append_left _ (List.mem_map_of_mem (List.mem_filterMap.mpr ⟨_, h, rfl⟩))

theorem multiHeader_cases {files : List ProtoFile} (k : Str) :
    (k = kGlobalEnums ++ kH ∧ multiHeader extra pkgOf files k = globalEnumLines extra files) ∨ multiHeader extra pkgOf files k = [] ∨
      ∃ f ∈ files, ∃ m ∈ f.messages, k = headerOf f.package m.name ∧
        multiHeader extra pkgOf files k = multiLines extra pkgOf (multiRun true files) f.package m := by
  unfold multiHeader
  by_cases hk : k = kGlobalEnums ++ kH
  · rw [if_pos hk]; exact Or.inl ⟨hk, rfl⟩
  · rw [if_neg hk]
    cases hfind : (files.flatMap fun f => f.messages.map fun m => (f, m)).find? (fun p => messageHeader true p.1.package p.2.name = k) with
    | none => exact Or.inr (Or.inl rfl)
    | some p =>
      obtain ⟨f, m⟩ := p
      have h1 := List.mem_of_find?_eq_some hfind
      have h2 : messageHeader true f.package m.name = k := by simpa using List.find?_some hfind
      simp only [List.mem_flatMap, List.mem_map, Prod.mk.injEq] at h1
      obtain ⟨f', hf', m', hm', rfl, rfl⟩ := h1
      exact Or.inr (Or.inr ⟨f', hf', m', hm', by rw [← h2, messageHeader_folder], rfl⟩)

theorem not_reach_of_globalEnums {files : List ProtoFile} (hn : (multiRun true files).Nodup) {f : ProtoFile} (hf : f ∈ files) {m : Msg}
    (hm : m ∈ f.messages) : ¬ Reach (multiHeader extra pkgOf files) (kGlobalEnums ++ kH) (headerOf f.package m.name) := by
  intro h
  generalize hk : kGlobalEnums ++ kH = k at h
  generalize hk' : headerOf f.package m.name = k' at h
  cases h with
  | refl =>
    unfold multiRun at hn
    refine (List.nodup_cons.mp hn).1 ?_
    rw [hk, ← hk', List.mem_flatMap]
    refine ⟨f, hf, ?_⟩
    rw [← messageHeader_folder]
    unfold multiHeaders
    exact List.mem_append_left _ (List.mem_map_of_mem (f := fun x : Msg => messageHeader true f.package x.name) hm)
  | step hi _ =>
    subst hk
    unfold multiHeader at hi
    rw [if_pos rfl] at hi
    unfold globalEnumLines at hi
    simp at hi

/-! ### Declarations of a header -/

theorem reached_decls {files : List ProtoFile} (hv : ValidFiles pkgOf files) {g : ProtoFile} (hg : g ∈ files) {n y : Msg} (hn : n ∈ g.messages)
    {t : Path} (hy : Reached g.package n t y) :
    .list (nameOf extra pkgOf t) ∈ declareDecls (fileNs extra g.package) g.package n ∧
    ∃ types, .cls (nameOf extra pkgOf t) t types ∈ declareDecls (fileNs extra g.package) g.package n := by
  have hk := hv.packages g hg n hn t y (reached_contains hy)
  have := (mem_declare n (fileNs extra g.package) g.package t).mpr ⟨y, hy⟩
  obtain ⟨p, hp, rfl⟩ := List.mem_map.mp this
  rw [← nameOf_printed hp hk]
  obtain ⟨⟨types, h3⟩, h4⟩ := mem_declareDecls n _ _ p hp
  exact ⟨h4, types, h3⟩

theorem clsMsgs_forwardDep (pkgOf : Path → List Str) (message : Path) (l : List Path) : clsMsgs (l.flatMap (forwardDep pkgOf message)) = [] := by
  induction l with
  | nil => rfl
  | cons q l ih =>
    rw [List.flatMap_cons, clsMsgs_append, ih]
    unfold forwardDep
    split <;> rfl

theorem forwardDep_name {t : Path} {message : Path} (hd : t.dropLast ≠ message)
    (hc : ∀ c ∈ (t.drop (pkgOf t).length).dropLast, upperCaseName c = c) : .fwd (nameOf [] pkgOf t) ∈ forwardDep pkgOf message t := by
  unfold forwardDep
  rw [if_neg hd, List.mem_singleton]
  unfold nameOf cppName
  simp only [if_true, List.nil_append]
  congr 2
  congr 1
  exact List.map_congr_left fun c h => by rw [hc c h]

mutual
/-- A list type follows its class. -/
theorem list_after : ∀ (m : Msg) (ns : List Str) (path : Path) (a b : List Decl) (cpp : List Str) (q : Path) (types : List FieldD),
    declareDecls ns path m = a ++ .cls cpp q types :: b → ∃ c, b = .list cpp :: c
  | .mk name fields nested e, ns, path, a, b, cpp, q, types, h => by
    rw [declareDecls] at h
    rcases List.append_eq_append_iff.mp h with ⟨u, h1, h2⟩ | ⟨u, h1, h2⟩
    · cases u with
      | nil =>
        simp only [List.nil_append, List.cons.injEq, Decl.cls.injEq] at h2
        obtain ⟨⟨rfl, rfl, rfl⟩, rfl⟩ := h2
        exact ⟨[], rfl⟩
      | cons y u =>
        cases u with
        | nil => simp at h2
        | cons z u => simp at h2
    · cases u with
      | nil =>
        simp only [List.nil_append, List.cons.injEq, Decl.cls.injEq] at h2
        obtain ⟨⟨rfl, rfl, rfl⟩, rfl⟩ := h2
        exact ⟨[], rfl⟩
      | cons y u =>
        simp only [List.cons_append, List.cons.injEq] at h2
        obtain ⟨rfl, rfl⟩ := h2
        obtain ⟨c, hc⟩ := list_afterList nested _ _ _ a u cpp q types h1
        exact ⟨c ++ _, by rw [hc]; rfl⟩
theorem list_afterList : ∀ (l : List Msg) (ns : List Str) (path : Path) (fields : List FieldD) (a b : List Decl) (cpp : List Str) (q : Path)
    (types : List FieldD), declareDeclsList ns path fields l = a ++ .cls cpp q types :: b → ∃ c, b = .list cpp :: c
  | [], _, _, _, a, b, _, _, _, h => by simp [declareDeclsList] at h
  | n :: rest, ns, path, fields, a, b, cpp, q, types, h => by
    rw [declareDeclsList] at h
    rcases List.append_eq_append_iff.mp h with ⟨u, h1, h2⟩ | ⟨u, h1, h2⟩
    · exact list_afterList rest _ _ _ u b cpp q types h2
    · cases u with
      | nil =>
        exact list_afterList rest _ _ _ [] b cpp q types (by simpa using h2.symm)
      | cons y u =>
        simp only [List.cons_append, List.cons.injEq] at h2
        obtain ⟨rfl, rfl⟩ := h2
        by_cases hv : visits fields (path ++ [n.name])
        · rw [if_pos hv] at h1
          obtain ⟨c, hc⟩ := list_after n _ _ a u cpp q types h1
          exact ⟨c ++ _, by rw [hc]; rfl⟩
        · rw [if_neg hv] at h1
          simp at h1
end

theorem declareList_single (ns : List Str) (path : Path) (m : Msg) : declareList ns path [] [m] = declare ns path m := by
  rw [declareList, declareList, List.append_nil]
  rfl

theorem nodup_message {f : ProtoFile} (hv : ValidFile ⟨f.package, f.messages⟩) {m : Msg} (hm : m ∈ f.messages) (extra : Str) :
    (clsMsgs (declareDecls (fileNs extra f.package) f.package m)).Nodup := by
  rw [clsMsgs_declare]
  have := (C44_never_twice (extra := extra) hv).1
  rw [File.classes, List.map_flatMap] at this
  obtain ⟨a, b, hab⟩ := List.append_of_mem hm
  change (List.flatMap (fun x => (declare (fileNs extra f.package) f.package x).map Printed.msg) f.messages).Nodup at this
  rw [hab, List.flatMap_append, List.flatMap_cons] at this
  exact (List.nodup_append.mp (List.nodup_append.mp this).2.1).1

theorem multi_local {files : List ProtoFile} (hv : ValidFiles pkgOf files) (hn : (multiRun true files).Nodup)
    (ho : ∀ f ∈ files, ∀ m ∈ f.messages, TypesAbove extra pkgOf files (multiHeader extra pkgOf files) f m) (k : Str) :
    LocalOk (multiHeader extra pkgOf files) (Ready extra pkgOf) k := by
  intro pre d post e B hB hpre
  cases d with
  | fwd _ => trivial
  | list _ => trivial
  | gadget _ => trivial
  | cls cpp q types =>
    rcases multiHeader_cases (extra := extra) (pkgOf := pkgOf) (files := files) k with ⟨rfl, hh⟩ | hh | ⟨f, hf, m, hm, rfl, hh⟩
    · have : Line.decl (Decl.cls cpp q types) ∈ globalEnumLines extra files := by rw [← hh, e]; simp
      unfold globalEnumLines at this
      simp [gadgetDecl] at this
    · rw [hh] at e
      simp at e
    · have e0 := e
      rw [hh] at e
      unfold multiLines at e
      obtain ⟨a, b, hcl, hpre_eq⟩ := cls_position (not_mem_clsMsgs (clsMsgs_forwardDep pkgOf _ _)) e
      have hq : Decl.cls cpp q types ∈ declareDecls (fileNs extra f.package) f.package m := by rw [hcl]; simp
      obtain ⟨hdec, x, hx, ht⟩ := cls_reached m _ _ _ _ _ hq
      have hcon := reached_contains hx
      have hpk : pkgOf q = f.package := hv.packages f hf m hm q x hcon
      -- classes that come before
      have before : ∀ t, Before f.package [] [m] t q → .list (nameOf extra pkgOf t) ∈ B ∧ ∃ types', .cls (nameOf extra pkgOf t) t types' ∈ B := by
        intro t hb
        have hprec := before_precedes hb (fileNs extra f.package)
        rw [declareList_single, ← clsMsgs_declare] at hprec
        have hin := mem_of_precedes (nodup_message (hv.valid f hf) hm extra) hcl hprec
        obtain ⟨cpp', types', hin⟩ := mem_clsMsgs hin
        have hin' : Decl.cls cpp' t types' ∈ declareDecls (fileNs extra f.package) f.package m := by rw [hcl]; exact List.mem_append_left _ hin
        obtain ⟨hd', y, hy, _⟩ := cls_reached m _ _ _ _ _ hin'
        have hname : cpp' = nameOf extra pkgOf t := nameOf_printed hd' (hv.packages f hf m hm t y (reached_contains hy))
        subst hname
        have inB : ∀ d' ∈ a, d' ∈ B := by
          intro d' hd'
          refine hpre _ ?_
          rw [hpre_eq]
          exact List.mem_append_right _ (List.mem_map_of_mem (List.mem_append_right _ hd'))
        refine ⟨?_, types', inB _ hin⟩
        obtain ⟨u, v, huv⟩ := List.append_of_mem hin
        rw [huv] at hcl
        have hcl' : declareDecls (fileNs extra f.package) f.package m = u ++ .cls (nameOf extra pkgOf t) t types' :: (v ++ .cls cpp q types :: b) := by
          rw [hcl]; simp
        obtain ⟨c, hc⟩ := list_after m _ _ _ _ _ _ _ hcl'
        cases v with
        | nil => simp at hc
        | cons z v =>
          simp only [List.cons_append, List.cons.injEq] at hc
          refine inB _ ?_
          rw [huv, ← hc.1]
          simp
      -- classes of headers above
      have above : ∀ g n y t, Above files (multiHeader extra pkgOf files) f m g n → Reached g.package n t y →
          .list (nameOf extra pkgOf t) ∈ B ∧ ∃ types', .cls (nameOf extra pkgOf t) t types' ∈ B := by
        intro g n y t ⟨hg, hnm, hi, hr⟩ hy
        have hi' : .incl (headerOf g.package n.name) ∈ pre := by
          rw [multiHeader_message hn hf hm] at hi
          unfold multiLines at hi
          rw [hpre_eq]
          refine List.mem_append_left _ ?_
          rcases List.mem_append.mp hi with hi | hi
          · exact hi
          · simp at hi
        obtain ⟨h1, types', h2⟩ := reached_decls (extra := extra) hv hg hnm hy
        have all : ∀ d' ∈ declareDecls (fileNs extra g.package) g.package n, d' ∈ B := by
          intro d' hd'
          refine hB _ hi' hr _ d' .refl ?_
          rw [multiHeader_message hn hg hnm]
          unfold multiLines
          exact List.mem_append_right _ (List.mem_map_of_mem (List.mem_append_right _ hd'))
        exact ⟨all _ h1, types', all _ h2⟩
      intro fd hfd
      rw [ht] at hfd
      have hu := typesOf_uses (fun f' hf' hm' => hv.maps f hf m hm q x hcon f' hf' hm') hfd
      refine ⟨fun t h1 h2 h3 => ?_, fun e' h1 h2 => ?_⟩
      · rw [hpk] at h3
        rcases (ho f hf m hm).msg q x hx fd hu t h1 h2 h3 with ⟨hr, rfl⟩ | hb | ⟨g, n, y, ha, hy⟩ | ⟨rfl, hfx, hmap, hr, hd, hc⟩
        · rw [if_neg (by simp [hr])]
          exact Or.inl rfl
        · obtain ⟨d1, d2⟩ := before t hb
          split
          · exact d1
          · exact Or.inr (Or.inr d2)
        · obtain ⟨d1, d2⟩ := above g n y t ha hy
          split
          · exact d1
          · exact Or.inr (Or.inr d2)
        · rw [if_neg (by simp [hr])]
          refine Or.inr (Or.inl (hpre _ ?_))
          rw [hpre_eq]
          refine List.mem_append_right _ (List.mem_map_of_mem (List.mem_append_left _ (List.mem_flatMap.mpr ⟨t, ?_, forwardDep_name hd hc⟩)))
          have := mem_deps hx (mem_pureTypes hfx (⟨h1, hmap, hr, h2, h3⟩ : Singular f.package fd t))
          simp only [List.mem_append] at this ⊢
          exact this.symm
      · by_cases heq : e'.dropLast = q
        · exact Or.inl heq
        · refine Or.inr ?_
          unfold EnumDeclared
          rcases (ho f hf m hm).enum q x hx fd hu e' h1 h2 heq with ⟨g, hg, hpe, ⟨n, hne, he⟩, hi⟩ | ⟨hlen, hb | ⟨g, n, y, ha, hy⟩⟩
          · rw [if_pos (by rw [he] at hpe ⊢; rw [hpe]; simp)]
            have hi' : .incl (kGlobalEnums ++ kH) ∈ pre := by
              change Line.incl (kGlobalEnums ++ kH) ∈ _ at hi
              rw [multiHeader_message hn hf hm] at hi
              unfold multiLines at hi
              rw [hpre_eq]
              refine List.mem_append_left _ ?_
              rcases List.mem_append.mp hi with hi | hi
              · exact hi
              · simp at hi
            refine hB _ hi' (not_reach_of_globalEnums hn hf hm) _ _ .refl ?_
            unfold multiHeader
            rw [if_pos rfl]
            unfold globalEnumLines
            refine List.mem_map_of_mem (List.mem_flatMap.mpr ⟨g, hg, List.mem_map.mpr ⟨n, hne, ?_⟩⟩)
            unfold gadgetDecl fileNs kGadget
            rw [hpe, he]
            simp
          · rw [if_neg (by omega)]
            exact (before _ hb).2
          · rw [if_neg (by omega)]
            exact (above g n y _ ha hy).2

/-- In multi-file mode with FOLDER, the headers declare what they use before they use it, under the conditions of `TypesAbove`. -/
theorem C99_multi_partial {files : List ProtoFile} (hv : ValidFiles pkgOf files) (hs : NoSlashes files) (hn : (outputs true files).Nodup)
    (ho : ∀ f ∈ files, ∀ m ∈ f.messages, TypesAbove extra pkgOf files (multiHeader extra pkgOf files) f m) {k : Str} {out : List Decl}
    (h : Compiles (multiHeader extra pkgOf files) k out) : Ordered extra pkgOf out :=
  compiles_ordered (multi_local hv ((C58_written_once hs).mpr hn) ho) h

end QtPb.Gen
