import Verif.PropsGenOrderMulti
import Verif.PropsGenIncludes
/-
C99: where generated headers use what they have not declared, and cases that meet the conditions of the theorems.
-/
namespace QtPb.Gen
open Spec

variable {extra : Str} {pkgOf : Path → List Str}

/-! ### The headers can be read to the end -/

/-- The compiler gets through the headers of a project in single-file mode, also if they include each other. -/
theorem C99_single_read (extra : Str) (files : List ProtoFile) (k : Str) : ∃ out, Compiles (singleHeader extra files) k out := by
  refine compiles_exists (K := k :: files.flatMap ProtoFile.deps) ?_ (List.mem_cons_self ..)
  intro k1 _ k' h
  cases hk : files.find? (·.name = k1) with
  | none => unfold singleHeader at h; rw [hk] at h; simp at h
  | some f =>
    unfold singleHeader at h
    rw [hk] at h
    exact List.mem_cons_of_mem _ (List.mem_flatMap.mpr ⟨f, List.mem_of_find?_eq_some hk, (mem_incl_single.mp h).1⟩)

theorem multi_incl_mem {files : List ProtoFile} {k k' : Str} (h : .incl k' ∈ multiHeader extra pkgOf files k) : k' ∈ multiRun true files := by
  rcases multiHeader_cases (extra := extra) (pkgOf := pkgOf) (files := files) k with ⟨_, hh⟩ | hh | ⟨f, _, m, _, _, hh⟩
  · rw [hh] at h
    unfold globalEnumLines at h
    simp at h
  · rw [hh] at h
    simp at h
  · rw [hh] at h
    unfold multiLines at h
    rcases List.mem_append.mp h with h | h
    · simp only [List.mem_map, Line.incl.injEq, exists_eq_right, List.mem_filterMap] at h
      obtain ⟨i, _, hi⟩ := h
      unfold opened at hi
      cases i with
      | internal t =>
        dsimp only at hi
        split at hi
        · rename_i hm; rw [← Option.some.inj hi]; exact hm
        · split at hi
          · rename_i hm; rw [← Option.some.inj hi]; exact hm
          · simp at hi
      | external t => simp at hi
      | globalEnums =>
        rw [← Option.some.inj hi]
        exact List.mem_cons_self ..
    · simp at h

/-- And in multi-file mode. -/
theorem C99_multi_read (extra : Str) (pkgOf : Path → List Str) (files : List ProtoFile) (k : Str) :
    ∃ out, Compiles (multiHeader extra pkgOf files) k out :=
  compiles_exists (K := k :: multiRun true files) (fun _ _ _ h => List.mem_cons_of_mem _ (multi_incl_mem h)) (List.mem_cons_self ..)

/-! ### Lemmas -/

section
variable {κ : Type} {header : κ → List (Line κ)}

theorem expands_origin {seen seen' : List κ} {ls : List (Line κ)} {out : List Decl} (h : Expands header seen ls seen' out) :
    (∀ k ∈ seen, k ∈ seen') ∧ ∀ d ∈ out, .decl d ∈ ls ∨ ∃ k, k ∉ seen ∧ .decl d ∈ header k := by
  induction h with
  | nil => exact ⟨fun _ h => h, by intro d hd; simp at hd⟩
  | @decl seen seen' d ls out h ih =>
    refine ⟨ih.1, fun d' hd' => ?_⟩
    rcases List.mem_cons.mp hd' with rfl | hd'
    · exact Or.inl (List.mem_cons_self ..)
    · exact (ih.2 d' hd').imp (List.mem_cons_of_mem _) id
  | @again seen seen' k ls out hk h ih =>
    exact ⟨ih.1, fun d' hd' => (ih.2 d' hd').imp (List.mem_cons_of_mem _) id⟩
  | @once seen seen' seen'' k ls inner out hk hin hout ih1 ih2 =>
    refine ⟨fun x hx => ih2.1 _ (ih1.1 _ (List.mem_cons_of_mem _ hx)), fun d' hd' => ?_⟩
    rcases List.mem_append.mp hd' with hd' | hd'
    · rcases ih1.2 d' hd' with h | ⟨k', h1, h2⟩
      · exact Or.inr ⟨k, hk, h⟩
      · exact Or.inr ⟨k', fun h => h1 (List.mem_cons_of_mem _ h), h2⟩
    · rcases ih2.2 d' hd' with h | ⟨k', h1, h2⟩
      · exact Or.inl (List.mem_cons_of_mem _ h)
      · exact Or.inr ⟨k', fun h => h1 (ih1.1 _ (List.mem_cons_of_mem _ h)), h2⟩

theorem expands_decls {seen seen' : List κ} : ∀ {ds : List Decl} {out : List Decl}, Expands header seen (ds.map .decl) seen' out → out = ds
  | [], _, h => by cases h; rfl
  | d :: ds, _, h => by
    cases h with
    | decl h => rw [expands_decls h]

/-- What the compiler sees of a header with its include directives first: what other headers declare, then its declarations. -/
theorem expands_parts {ds : List Decl} {seen' : List κ} : ∀ {I : List κ} {seen : List κ} {out : List Decl},
    Expands header seen (I.map .incl ++ ds.map .decl) seen' out →
      ∃ inner, out = inner ++ ds ∧ ∀ d ∈ inner, ∃ k, k ∉ seen ∧ .decl d ∈ header k
  | [], _, _, h => ⟨[], by rw [expands_decls h]; rfl, by intro d hd; simp at hd⟩
  | k :: I, seen, _, h => by
    cases h with
    | again hk h => exact expands_parts h
    | @once _ s1 _ _ _ inner out hk hin hout =>
      obtain ⟨i2, rfl, h2⟩ := expands_parts hout
      refine ⟨inner ++ i2, by simp, fun d hd => ?_⟩
      rcases List.mem_append.mp hd with hd | hd
      · rcases (expands_origin hin).2 d hd with h | ⟨k', h1, h2⟩
        · exact ⟨k, hk, h⟩
        · exact ⟨k', fun h => h1 (List.mem_cons_of_mem _ h), h2⟩
      · obtain ⟨k', h3, h4⟩ := h2 d hd
        exact ⟨k', fun h => h3 ((expands_origin hin).1 _ (List.mem_cons_of_mem _ h)), h4⟩

end

theorem precedes_not_before {ds a b : List Decl} {cpp : List Str} {p q : Path} {types : List FieldD} (hn : (clsMsgs ds).Nodup)
    (hs : ds = a ++ .cls cpp q types :: b) (hp : Precedes (clsMsgs ds) q p) : p ∉ clsMsgs a := by
  obtain ⟨x, y, z, e⟩ := hp
  rw [hs, clsMsgs_append] at e hn
  change (clsMsgs a ++ q :: clsMsgs b).Nodup at hn
  change clsMsgs a ++ q :: clsMsgs b = _ at e
  have e' : clsMsgs a ++ q :: clsMsgs b = x ++ q :: (y ++ p :: z) := by rw [e]; simp
  have := split_unique hn e'
  rw [e', ← this] at hn
  intro hmem
  exact (List.nodup_append.mp hn).2.2 p hmem p (by simp) rfl

/-- The class of a message with a field, and what it names. -/
theorem cls_of_reached {m x : Msg} {ns : List Str} {path q : Path} (hx : Reached path m q x) :
    ∃ p types, p ∈ declare ns path m ∧ p.msg = q ∧ .cls p.cpp q types ∈ declareDecls ns path m := by
  obtain ⟨p, hp, rfl⟩ := List.mem_map.mp ((mem_declare m ns path q).mpr ⟨x, hx⟩)
  obtain ⟨⟨types, h⟩, _⟩ := mem_declareDecls m _ _ p hp
  exact ⟨p, types, hp, rfl, h⟩

theorem mem_typesOf {q : Path} {fields : List FieldD} {nested : List Msg} {fd : FieldD} (h : fd ∈ fields) (hm : fd.isMap = false) :
    fd ∈ typesOf q fields nested := by
  unfold typesOf
  exact List.mem_flatMap.mpr ⟨fd, h, by simp [hm]⟩

theorem eq_of_name {l : List Msg} (hn : (l.map Msg.name).Nodup) {a b : Msg} (ha : a ∈ l) (hb : b ∈ l) (e : a.name = b.name) : a = b := by
  have h1 := find_nodup hn ha
  have h2 := find_nodup hn hb
  rw [e, h2] at h1
  exact (Option.some.inj h1).symm

theorem contains_unique {pre : List Str} {m x : Msg} {q : Path} (h : Contains pre m q x) : ∀ {x' : Msg}, Contains pre m q x' →
    (∀ q x, Contains pre m q x → Valid q x) → x = x' := by
  induction h with
  | self =>
    intro x' h' _
    cases h' with
    | self => rfl
    | nested hn h' =>
      obtain ⟨r, hr⟩ := contains_prefix h'
      have := congrArg List.length hr
      simp at this
  | @nested pre m n x q hn h ih =>
    intro x' h' hv
    cases h' with
    | self =>
      obtain ⟨r, hr⟩ := contains_prefix h
      have := congrArg List.length hr
      simp at this
    | @nested _ _ n' _ _ hn' h' =>
      obtain ⟨r, hr⟩ := contains_prefix h
      obtain ⟨r', hr'⟩ := contains_prefix h'
      rw [hr] at hr'
      have hname : n.name = n'.name := (List.cons.inj (List.append_cancel_left
        (by simpa using hr' : (pre ++ [m.name]) ++ (n.name :: r) = (pre ++ [m.name]) ++ (n'.name :: r')))).1
      obtain rfl := eq_of_name (hv _ _ .self).names hn hn' hname
      exact ih h' (fun q x hq => hv q x (.nested hn hq))

theorem has_unique {f : File} (hv : ValidFile f) {q : Path} {x x' : Msg} (h : Has f q x) (h' : Has f q x') : x = x' := by
  obtain ⟨m, hm, h⟩ := h
  obtain ⟨m', hm', h'⟩ := h'
  obtain ⟨r, hr⟩ := contains_prefix h
  obtain ⟨r', hr'⟩ := contains_prefix h'
  rw [hr] at hr'
  have hname : m.name = m'.name := (List.cons.inj (List.append_cancel_left (by simpa using hr' : f.package ++ (m.name :: r) = f.package ++ (m'.name :: r')))).1
  obtain rfl := eq_of_name hv.names hm hm' hname
  exact contains_unique h h' (fun q x hq => hv.valid q x ⟨m, hm, hq⟩)

theorem contains_unique_reached {f : ProtoFile} (hv : ValidFile ⟨f.package, f.messages⟩) {m m' x x' : Msg} (hm : m ∈ f.messages) (hm' : m' ∈ f.messages)
    {q : Path} (h : Reached f.package m q x) (h' : Reached f.package m' q x') : x = x' :=
  has_unique hv ⟨m, hm, reached_contains h⟩ ⟨m', hm', reached_contains h'⟩

/-! ### Enumerations of messages that come later -/

/-- In single-file mode, a field whose type is an enumeration of a message that comes later in the file, or of the message that the one with the
field is in: no header with this can be compiled. -/
theorem C99_later_enum_violated {files : List ProtoFile} (hv : ValidFiles pkgOf files) {f : ProtoFile} (hf : f ∈ files) {m x : Msg} {q : Path}
    (hm : m ∈ f.messages) (hx : Reached f.package m q x) {fd : FieldD} (hfd : fd ∈ x.fields) (hmap : fd.isMap = false) (hty : fd.type = .enum)
    {e : Path} (he : fd.enumType = some e) (hlen : (pkgOf e).length + 1 < e.length) (hb : Before f.package [] f.messages q e.dropLast)
    (hu : ∀ g ∈ files, Generated g e.dropLast → g.name = f.name) {out : List Decl} (h : Compiles (singleHeader extra files) f.name out) :
    ¬ Ordered extra pkgOf out := by
  intro ho
  obtain ⟨seen, h⟩ := h
  rw [singleHeader_file hv.names hf] at h
  unfold singleLines at h
  obtain ⟨inner, hout, hin⟩ := expands_parts h
  have hnd : (clsMsgs (f.messages.flatMap (declareDecls (fileNs extra f.package) f.package))).Nodup := by
    rw [clsMsgs_file]
    exact (C44_never_twice (extra := extra) (hv.valid f hf)).1
  have hprec := before_precedes hb (fileNs extra f.package)
  rw [← clsMsgs_declareList, ← flatMap_declareDecls] at hprec
  obtain ⟨p, types, hp, rfl, hcls⟩ := cls_of_reached (ns := fileNs extra f.package) hx
  have hcls' : .cls p.cpp p.msg types ∈ f.messages.flatMap (declareDecls (fileNs extra f.package) f.package) := List.mem_flatMap.mpr ⟨m, hm, hcls⟩
  obtain ⟨_, m', hm', x', hx', ht⟩ := cls_of_msg hv hf hcls'
  obtain rfl := contains_unique_reached (hv.valid f hf) hm hm' hx hx'
  obtain ⟨a, b, hab⟩ := List.append_of_mem hcls'
  have hnot := precedes_not_before hnd hab hprec
  rw [hab] at hout
  have hr := ho (inner ++ (f.enums.map (gadgetDecl extra f.package) ++ f.messages.flatMap (forwardDecls (fileNs extra f.package) f.package) ++ a))
    (.cls p.cpp p.msg types) b (by rw [hout]; simp)
  have hfd' : fd ∈ types := by rw [ht]; exact mem_typesOf hfd hmap
  rcases (hr fd hfd').2 e hty he with h1 | h1
  · rw [h1] at hprec
    obtain ⟨u, v, w, huvw⟩ := hprec
    rw [huvw] at hnd
    exact (List.nodup_append.mp hnd).2.2 p.msg (by simp) p.msg (by simp) rfl
  · unfold EnumDeclared at h1
    rw [if_neg (by omega)] at h1
    obtain ⟨types', h1⟩ := h1
    rcases List.mem_append.mp h1 with h1 | h1
    · obtain ⟨k, hk, hd⟩ := hin _ h1
      cases hkf : files.find? (·.name = k) with
      | none => unfold singleHeader at hd; rw [hkf] at hd; simp at hd
      | some g =>
        have hg := List.mem_of_find?_eq_some hkf
        have hgn : g.name = k := by simpa using List.find?_some hkf
        unfold singleHeader at hd
        rw [hkf, decl_single] at hd
        rcases List.mem_append.mp hd with hd | hd
        · rcases List.mem_append.mp hd with hd | hd
          · simp [gadgetDecl] at hd
          · obtain ⟨m2, _, hd⟩ := List.mem_flatMap.mp hd
            exact not_mem_clsMsgs (clsMsgs_forward m2 _ _) _ _ _ hd
        · obtain ⟨_, m2, hm2, y, hy, _⟩ := cls_of_msg hv hg hd
          have := hu g hg ⟨m2, hm2, y, hy⟩
          exact hk (by rw [← hgn, this]; simp)
    · rcases List.mem_append.mp h1 with h1 | h1
      · rcases List.mem_append.mp h1 with h1 | h1
        · simp [gadgetDecl] at h1
        · obtain ⟨m2, _, h1⟩ := List.mem_flatMap.mp h1
          exact not_mem_clsMsgs (clsMsgs_forward m2 _ _) _ _ _ h1
      · refine hnot ?_
        obtain ⟨u, v, huv⟩ := List.append_of_mem h1
        rw [huv, clsMsgs_append]
        simp [clsMsgs]

/-- What the compiler sees of a header in multi-file mode: what other headers declare, the forward declarations and the classes. -/
theorem multi_parts {files : List ProtoFile} (hn : (multiRun true files).Nodup) {f : ProtoFile} (hf : f ∈ files) {m : Msg} (hm : m ∈ f.messages)
    {out : List Decl} (h : Compiles (multiHeader extra pkgOf files) (headerOf f.package m.name) out) :
    ∃ inner, out = inner ++ ((nestedDeps f.package f.package m ++ pureTypes f.package m.fields).flatMap (forwardDep pkgOf (f.package ++ [m.name])) ++
        declareDecls (fileNs extra f.package) f.package m) ∧
      ∀ d ∈ inner, (∃ c, d = .fwd c) ∨ (∃ c, d = .gadget c) ∨ ∃ g ∈ files, ∃ n ∈ g.messages, headerOf g.package n.name ≠ headerOf f.package m.name ∧
        d ∈ declareDecls (fileNs extra g.package) g.package n := by
  obtain ⟨seen, h⟩ := h
  rw [multiHeader_message hn hf hm] at h
  unfold multiLines at h
  obtain ⟨inner, hout, hin⟩ := expands_parts h
  refine ⟨inner, hout, fun d hd => ?_⟩
  obtain ⟨k, hk, hd⟩ := hin d hd
  rcases multiHeader_cases (extra := extra) (pkgOf := pkgOf) (files := files) k with ⟨_, hh⟩ | hh | ⟨g, hg, n, hn', rfl, hh⟩
  · rw [hh] at hd
    unfold globalEnumLines at hd
    simp only [List.mem_map, Line.decl.injEq, exists_eq_right, List.mem_flatMap] at hd
    obtain ⟨_, _, _, _, rfl⟩ := hd
    exact Or.inr (Or.inl ⟨_, rfl⟩)
  · rw [hh] at hd
    simp at hd
  · rw [hh] at hd
    unfold multiLines at hd
    rcases List.mem_append.mp hd with hd | hd
    · simp at hd
    · simp only [List.mem_map, Line.decl.injEq, exists_eq_right, List.mem_append] at hd
      rcases hd with hd | hd
      · obtain ⟨t, _, hd⟩ := List.mem_flatMap.mp hd
        unfold forwardDep at hd
        split at hd
        · simp at hd
        · rw [List.mem_singleton] at hd
          exact Or.inl ⟨_, hd⟩
      · exact Or.inr (Or.inr ⟨g, hg, n, hn', fun e => hk (by rw [e]; exact List.mem_singleton.mpr rfl), hd⟩)

/-- The same in multi-file mode: an enumeration of a message that comes later in the same header, as the message that the one with the field is in. -/
theorem C99_outer_enum_violated {files : List ProtoFile} (hv : ValidFiles pkgOf files) (hs : NoSlashes files) (hn : (outputs true files).Nodup)
    {f : ProtoFile} (hf : f ∈ files) {m x : Msg} {q : Path}
    (hm : m ∈ f.messages) (hx : Reached f.package m q x) {fd : FieldD} (hfd : fd ∈ x.fields) (hmap : fd.isMap = false) (hty : fd.type = .enum)
    {e : Path} (he : fd.enumType = some e) (hlen : (pkgOf e).length + 1 < e.length) (hb : Before f.package [] [m] q e.dropLast)
    (hu : ∀ g ∈ files, ∀ n ∈ g.messages, ∀ y, Reached g.package n e.dropLast y → headerOf g.package n.name = headerOf f.package m.name)
    {out : List Decl} (h : Compiles (multiHeader extra pkgOf files) (headerOf f.package m.name) out) : ¬ Ordered extra pkgOf out := by
  intro ho
  obtain ⟨inner, hout, hin⟩ := multi_parts ((C58_written_once hs).mpr hn) hf hm h
  have hnd := nodup_message (hv.valid f hf) hm extra
  have hprec := before_precedes hb (fileNs extra f.package)
  rw [declareList_single, ← clsMsgs_declare] at hprec
  obtain ⟨p, types, hp, rfl, hcls⟩ := cls_of_reached (ns := fileNs extra f.package) hx
  obtain ⟨_, x', hx', ht⟩ := cls_reached m _ _ _ _ _ hcls
  obtain rfl := contains_unique_reached (hv.valid f hf) hm hm hx hx'
  obtain ⟨a, b, hab⟩ := List.append_of_mem hcls
  have hnot := precedes_not_before hnd hab hprec
  rw [hab] at hout
  have hr := ho (inner ++ ((nestedDeps f.package f.package m ++ pureTypes f.package m.fields).flatMap (forwardDep pkgOf (f.package ++ [m.name])) ++ a))
    (.cls p.cpp p.msg types) b (by rw [hout]; simp)
  have hfd' : fd ∈ types := by rw [ht]; exact mem_typesOf hfd hmap
  rcases (hr fd hfd').2 e hty he with h1 | h1
  · rw [h1] at hprec
    obtain ⟨u, v, w, huvw⟩ := hprec
    rw [huvw] at hnd
    exact (List.nodup_append.mp hnd).2.2 p.msg (by simp) p.msg (by simp) rfl
  · unfold EnumDeclared at h1
    rw [if_neg (by omega)] at h1
    obtain ⟨types', h1⟩ := h1
    rcases List.mem_append.mp h1 with h1 | h1
    · rcases hin _ h1 with ⟨c, hc⟩ | ⟨c, hc⟩ | ⟨g, hg, n, hn', hne, hd⟩
      · simp at hc
      · simp at hc
      · obtain ⟨_, y, hy, _⟩ := cls_reached n _ _ _ _ _ hd
        exact hne (hu g hg n hn' y hy)
    · rcases List.mem_append.mp h1 with h1 | h1
      · exact not_mem_clsMsgs (clsMsgs_forwardDep _ _ _) _ _ _ h1
      · refine hnot ?_
        obtain ⟨u, v, huv⟩ := List.append_of_mem h1
        rw [huv, clsMsgs_append]
        simp [clsMsgs]

/-! ### Lists of a message in itself -/

mutual
/-- A list type comes after a class. -/
theorem list_has_class : ∀ (m : Msg) (ns : List Str) (path : Path) (a b : List Decl) (cpp : List Str), declareDecls ns path m = a ++ b → .list cpp ∈ a →
    ∃ q types, .cls cpp q types ∈ a
  | .mk name fields nested e, ns, path, a, b, cpp, h, hl => by
    rw [declareDecls] at h
    rcases List.append_eq_append_iff.mp h with ⟨u, rfl, h2⟩ | ⟨u, h1, _⟩
    · rcases List.mem_append.mp hl with hl | hl
      · obtain ⟨q, types, hc⟩ := list_has_classList nested _ _ _ _ [] cpp (by rw [List.append_nil]) hl
        exact ⟨q, types, List.mem_append_left _ hc⟩
      · cases u with
        | nil => simp at hl
        | cons y u =>
          simp only [List.cons_append, List.cons.injEq] at h2
          obtain ⟨rfl, h2⟩ := h2
          rcases List.mem_cons.mp hl with hl | hl
          · simp at hl
          · cases u with
            | nil => simp at hl
            | cons z u =>
              simp only [List.cons_append, List.cons.injEq, List.nil_eq, List.append_eq_nil_iff] at h2
              obtain ⟨rfl, rfl, rfl⟩ := h2
              simp only [List.mem_cons, List.not_mem_nil, or_false, Decl.list.injEq] at hl
              subst hl
              exact ⟨_, _, List.mem_append_right _ (List.mem_cons_self ..)⟩
    · exact list_has_classList nested _ _ _ a u cpp h1 hl
theorem list_has_classList : ∀ (l : List Msg) (ns : List Str) (path : Path) (fields : List FieldD) (a b : List Decl) (cpp : List Str),
    declareDeclsList ns path fields l = a ++ b → .list cpp ∈ a → ∃ q types, .cls cpp q types ∈ a
  | [], _, _, _, a, b, _, h, hl => by
    simp only [declareDeclsList, List.nil_eq, List.append_eq_nil_iff] at h
    rw [h.1] at hl
    simp at hl
  | n :: rest, ns, path, fields, a, b, cpp, h, hl => by
    rw [declareDeclsList] at h
    have first : ∀ a' b', (if visits fields (path ++ [n.name]) then declareDecls ns path n else []) = a' ++ b' → .list cpp ∈ a' →
        ∃ q types, .cls cpp q types ∈ a' := by
      intro a' b' e hl'
      by_cases hv : visits fields (path ++ [n.name])
      · rw [if_pos hv] at e
        exact list_has_class n _ _ a' b' cpp e hl'
      · rw [if_neg hv] at e
        simp only [List.nil_eq, List.append_eq_nil_iff] at e
        rw [e.1] at hl'
        simp at hl'
    rcases List.append_eq_append_iff.mp h with ⟨u, rfl, h2⟩ | ⟨u, h1, _⟩
    · rcases List.mem_append.mp hl with hl | hl
      · obtain ⟨q, types, hc⟩ := first _ [] (by rw [List.append_nil]) hl
        exact ⟨q, types, List.mem_append_left _ hc⟩
      · obtain ⟨q, types, hc⟩ := list_has_classList rest _ _ _ u b cpp h2 hl
        exact ⟨q, types, List.mem_append_right _ hc⟩
    · exact first a u h1 hl
end

/-- In multi-file mode, a message with a repeated field of its own type: no header with this can be compiled, as the name of its list type comes
after the class. (In single-file mode it is declared before.) -/
theorem C99_own_list_violated {files : List ProtoFile} (hv : ValidFiles pkgOf files) (hs : NoSlashes files) (hn : (outputs true files).Nodup)
    {f : ProtoFile} (hf : f ∈ files) {m x : Msg} {q : Path} (hm : m ∈ f.messages) (hx : Reached f.package m q x) {fd : FieldD}
    (hfd : fd ∈ x.fields) (hmap : fd.isMap = false) (hty : fd.type = .message) (hrep : fd.repeated = true) (hmt : fd.msgType = some q)
    (hqt : ¬ IsQt f.package q)
    (hu : ∀ g ∈ files, ∀ n ∈ g.messages, ∀ t y, Reached g.package n t y → nameOf extra pkgOf t = nameOf extra pkgOf q →
      t = q ∧ headerOf g.package n.name = headerOf f.package m.name)
    {out : List Decl} (h : Compiles (multiHeader extra pkgOf files) (headerOf f.package m.name) out) : ¬ Ordered extra pkgOf out := by
  intro ho
  obtain ⟨inner, hout, hin⟩ := multi_parts ((C58_written_once hs).mpr hn) hf hm h
  have hnd := nodup_message (hv.valid f hf) hm extra
  obtain ⟨p, types, hp, rfl, hcls⟩ := cls_of_reached (ns := fileNs extra f.package) hx
  obtain ⟨_, x', hx', ht⟩ := cls_reached m _ _ _ _ _ hcls
  obtain rfl := contains_unique_reached (hv.valid f hf) hm hm hx hx'
  obtain ⟨a, b, hab⟩ := List.append_of_mem hcls
  have hout' := hout
  rw [hab] at hout'
  have hr := ho (inner ++ ((nestedDeps f.package f.package m ++ pureTypes f.package m.fields).flatMap (forwardDep pkgOf (f.package ++ [m.name])) ++ a))
    (.cls p.cpp p.msg types) b (by rw [hout']; simp)
  have hfd' : fd ∈ types := by rw [ht]; exact mem_typesOf hfd hmap
  have hl := (hr fd hfd').1 p.msg hty hmt (by rw [hv.packages f hf m hm p.msg x (reached_contains hx)]; exact hqt)
  rw [if_pos hrep] at hl
  unfold ListDeclared at hl
  rcases List.mem_append.mp hl with hl | hl
  · rcases hin _ hl with ⟨c, hc⟩ | ⟨c, hc⟩ | ⟨g, hg, n, hn', hne, hd⟩
    · simp at hc
    · simp at hc
    · obtain ⟨t, types', hc⟩ := list_has_class n _ _ _ [] _ (by rw [List.append_nil]) hd
      obtain ⟨hd', y, hy, _⟩ := cls_reached n _ _ _ _ _ hc
      have hname := nameOf_printed hd' (hv.packages g hg n hn' t y (reached_contains hy))
      exact hne (hu g hg n hn' t y hy hname.symm).2
  · rcases List.mem_append.mp hl with hl | hl
    · obtain ⟨t, _, hl⟩ := List.mem_flatMap.mp hl
      unfold forwardDep at hl
      split at hl <;> simp at hl
    · obtain ⟨t, types', hc⟩ := list_has_class m _ _ a _ _ hab hl
      have hc' : Decl.cls (nameOf extra pkgOf p.msg) t types' ∈ declareDecls (fileNs extra f.package) f.package m := by
        rw [hab]; exact List.mem_append_left _ hc
      obtain ⟨hd', y, hy, _⟩ := cls_reached m _ _ _ _ _ hc'
      have hname := nameOf_printed hd' (hv.packages f hf m hm t y (reached_contains hy))
      have := (hu f hf m hm t y hy hname.symm).1
      subst this
      rw [hab, clsMsgs_append] at hnd
      refine (List.nodup_append.mp hnd).2.2 p.msg ?_ p.msg (List.mem_cons_self ..) rfl
      obtain ⟨u, v, huv⟩ := List.append_of_mem hc
      rw [huv, clsMsgs_append]
      simp [clsMsgs]

end QtPb.Gen
