import Verif.NameLemmas
/-
C42: the names of types in generated code denote the types they are printed for.
-/
namespace QtPb.Gen
open Spec

/-! ### Specification -/

/-- The names the theorems are about: in the class of the message M (`nameM` in the messages `insideM` of the file `fM`) a type T
(`nameT` in the messages `insideT` of the file `fT`) is named. All components are identifiers; the messages that T is in are
capitalised; no name of the extra namespace or of generated namespaces is used by M; no message has the name of a package (protoc
guarantees that). -/
structure Spec.Names (extra : Str) (fM : File) (insideM : List Str) (nameM : Str) (fT : File) (insideT : List Str) (nameT : Str) : Prop where
  identM : ∀ c ∈ fM.package ++ insideM ++ [nameM], Ident c
  identT : ∀ c ∈ fT.package ++ insideT ++ [nameT], Ident c
  extra : extra = [] ∨ Ident extra ∧ extra ∉ fM.package ++ insideM
  capital : ∀ c ∈ insideT, Capital c
  reserved : ∀ c ∈ fM.package ++ insideM, ¬ kNested <:+ c
  apartM : ∀ w, w ≠ [] → w <+: insideM → ¬ fM.package ++ w <+: fT.package
  apartT : ∀ w, w ≠ [] → w <+: insideT → ¬ fT.package ++ w <+: fM.package

/-! ### Lemmas -/

theorem extra_list {extra : Str} : (if extra = [] then [] else [extra]) = fileNs extra [] := by simp [fileNs]

theorem fileNs_eq (extra : Str) (package : List Str) : fileNs extra package = fileNs extra [] ++ package := by simp [fileNs]

theorem ident_extra {extra : Str} {P : Prop} (h : extra = [] ∨ Ident extra ∧ P) : ∀ c ∈ fileNs extra [], Ident c := by
  intro c hc
  simp only [fileNs, List.append_nil] at hc
  split at hc
  · simp at hc
  · simp only [List.mem_singleton] at hc
    subst hc
    rcases h with h | h
    · contradiction
    · exact h.1

theorem ident_nested {c : Str} (h : Ident c) : Ident (c ++ kNested) := by
  refine ⟨by simp [h.1], ?_, ?_⟩ <;> rw [List.mem_append, not_or]
  · exact ⟨h.2.1, by decide⟩
  · exact ⟨h.2.2, by decide⟩

theorem prefix_append_cases {y a b : List Str} (h : y <+: a ++ b) : y <+: a ∨ ∃ w, w ≠ [] ∧ w <+: b ∧ y = a ++ w := by
  obtain ⟨r, hr⟩ := h
  rcases List.append_eq_append_iff.mp hr with ⟨v, h1, -⟩ | ⟨w, h1, h2⟩
  · exact Or.inl ⟨v, h1.symm⟩
  · by_cases h0 : w = []
    · subst h0
      exact Or.inl (by rw [h1]; simp)
    · exact Or.inr ⟨w, h0, ⟨r, h2.symm⟩, h1⟩

/-- A name that starts with the scope of M starts with nothing, or there is no extra namespace. -/
theorem extra_prefix {extra : Str} {y x : List Str} (h : extra = [] ∨ Ident extra ∧ extra ∉ y) (hp : y <+: fileNs extra [] ++ x) :
    extra = [] ∨ y = [] := by
  by_cases h0 : extra = []
  · exact Or.inl h0
  · rcases h with h | ⟨-, h⟩
    · exact absurd h h0
    · right
      cases y with
      | nil => rfl
      | cons a y =>
        simp only [fileNs, if_neg h0, List.append_nil, List.singleton_append, List.cons_prefix_cons] at hp
        exact absurd (by simp [hp.1]) h

/-- The scope relative name of something in the package of T, with the messages or namespaces `inner`. -/
theorem cut_scope {extra : Str} {fM : File} {insideM : List Str} {nameM : Str} {fT : File} {insideT : List Str} {nameT : Str}
    (h : Names extra fM insideM nameM fT insideT nameT) {x : List Str} (hx : ∀ c ∈ x, Ident c) :
    ∃ z, getScopeNamespacesString (getNamespacesString kScope x)
        (getNamespacesString kScope (getNamespaces (some (typeAt fM.package insideM nameM)))) = joined kScope z ∧ (∀ c ∈ z, Ident c) ∧
      (x = fM.package ++ insideM ++ z ∨ (¬ fM.package ++ insideM <+: x ∧ z = x)) := by
  rw [getNamespaces_eq h.identM, getNamespacesString_eq, getNamespacesString_eq]
  have hy : ∀ c ∈ fM.package ++ insideM, Ident c := fun c hc => h.identM c (by rw [List.mem_append]; exact Or.inl hc)
  rcases getScope_eq hx hy with ⟨z, h1, h2⟩ | ⟨h1, h2⟩
  · exact ⟨z, h2, fun c hc => hx c (by rw [h1]; simp [hc]), Or.inl h1⟩
  · exact ⟨x, h2, hx, Or.inr ⟨h1, rfl⟩⟩

/-! ### Properties -/

/-- Splitting a full name into its components and joining them is lossless. -/
theorem C42_split_join {l : List Str} (h : ∀ c ∈ l, Ident c) :
    split '.' (joined ['.'] l) = l ∧ getNamespacesString ['.'] (split '.' (joined ['.'] l)) = joined ['.'] l ∧
      ∀ l', (∀ c ∈ l', Ident c) → getNamespacesString kScope l = getNamespacesString kScope l' → l = l' := by
  have hs := split_joined (d := '.') l (fun p hp => ⟨(h p hp).1, (h p hp).2.1⟩)
  refine ⟨hs, ?_, ?_⟩
  · rw [hs]
    unfold getNamespacesString
    cases l with
    | nil => rfl
    | cons a l =>
      simp only [joined_concat (l := a :: l) (by simp)]
      rw [if_neg (by simp), List.length_append, Nat.add_sub_cancel, List.take_left']
      rfl
  · intro l' h' e
    rw [getNamespacesString_eq, getNamespacesString_eq] at e
    exact joined_inj h h' e

/-- A message that is not a map entry counts as nested exactly if it is in another message; a map entry does not. -/
theorem C42_isNested {q : Path} {x n : Msg} (hv : Valid q x) (hn : n ∈ x.nested)
    (hmap : ∀ fd ∈ x.fields, fd.isMap = true → ∃ k ∈ x.nested, k.entry = true ∧ fd.msgType = some (q ++ [k.name])) :
    isNested (some x.fields) (q ++ [n.name]) = !n.entry ∧ isNested none (q ++ [n.name]) = false := by
  refine ⟨?_, rfl⟩
  unfold isNested
  simp only
  cases hfd : x.fields.find? (fun f => f.msgType == some (q ++ [n.name])) with
  | none =>
    simp only
    cases he : n.entry with
    | false => rfl
    | true =>
      obtain ⟨fd, h1, h2, h3⟩ := hv.entry_used n hn he
      have := List.find?_eq_none.mp hfd fd h1
      simp [h3] at this
  | some fd =>
    have h1 := List.mem_of_find?_eq_some hfd
    have h2 : fd.msgType = some (q ++ [n.name]) := by simpa using List.find?_some hfd
    simp only
    cases hm : fd.isMap with
    | true =>
      obtain ⟨k, hk, he, h3⟩ := hmap fd h1 hm
      rw [h2] at h3
      simp only [Option.some.injEq, List.append_cancel_left_eq, List.cons.injEq, and_true] at h3
      rw [same_name hv.names hn hk h3, he]
    | false =>
      cases he : n.entry with
      | false => rfl
      | true => exact absurd ⟨fd, h1, hm, h2⟩ (hv.entry_only n hn he)

/-- The name printed for a message T in the class of a message M, relative to that class and its namespaces, is the name of the
class of T in a scope around the class of M; so is the name of its list type. The full name is the name of the class of T. -/
theorem C42_message_partial {extra : Str} {fM fT : File} {insideM insideT : List Str} {nameM nameT : Str} {enums : Path → List Str}
    (h : Names extra fM insideM nameM fT insideT nameT) {pM pT : Printed}
    (hM : pM ∈ fM.classes extra) (eM : pM.msg = fM.package ++ insideM ++ [nameM])
    (hT : pT ∈ fT.classes extra) (eT : pT.msg = fT.package ++ insideT ++ [nameT])
    {nested : Bool} (hn : nested = true ↔ insideT ≠ []) :
    let tm := messageTypeMap extra (typeAt fT.package insideT nameT) nested (some (typeAt fM.package insideM nameM))
    (∃ z, tm.scope_type = joined kScope (z ++ [upperCaseName nameT]) ∧ tm.scope_list_type = joined kScope (z ++ [upperCaseName nameT ++ kRepeated]) ∧
      Found (Denotes extra fT enums) pM.cpp (z ++ [upperCaseName nameT]) pT.msg) ∧
    (∃ F, tm.full_type = joined kScope F ∧ Denotes extra fT enums F pT.msg) := by
  intro tm
  have hM' := class_name hM eM
  have hT' := class_name hT eT
  have hext := ident_extra h.extra
  have hcls : Denotes extra fT enums (fileNs extra [] ++ fT.package ++ insideT.map nestedNs ++ [upperCaseName nameT]) pT.msg := by
    rw [← fileNs_eq, ← hT']
    exact .cls hT
  have hidT : ∀ c ∈ fT.package ++ insideT, Ident c := fun c hc => h.identT c (by rw [List.mem_append]; exact Or.inl hc)
  constructor
  · -- the namespaces that are cut
    by_cases hnest : insideT = []
    · have hb : nested = false := by
        cases nested with
        | false => rfl
        | true => exact absurd hnest (hn.mp rfl)
      subst hb hnest
      rw [List.append_nil] at hidT
      rw [List.map_nil, List.append_nil] at hcls
      have hx : ∀ c ∈ fileNs extra [] ++ fT.package, Ident c := by
        intro c hc
        rcases List.mem_append.mp hc with hc | hc
        · exact hext c hc
        · exact hidT c hc
      obtain ⟨z, hz, hidz, hcut⟩ := cut_scope h hx
      have e : tm.scope_type = qualify (joined kScope z) (upperCaseName nameT) ∧
          tm.scope_list_type = qualify (joined kScope z) (upperCaseName nameT ++ kRepeated) := by
        rw [← hz]
        have := getNamespaces_eq (package := fT.package) (inside := []) (name := nameT) (by simpa using h.identT)
        rw [List.append_nil] at this
        simp only [tm, messageTypeMap, this, extra_list]
        exact ⟨rfl, rfl⟩
      refine ⟨z, by rw [e.1, qualify_eq hidz], by rw [e.2, qualify_eq hidz], ?_⟩
      rcases hcut with hcut | ⟨-, rfl⟩
      · rcases extra_prefix h.extra (x := fT.package) ⟨z, hcut.symm⟩ with h0 | h0
        · subst h0
          have hin : insideM = [] := by
            refine Classical.byContradiction fun hne => ?_
            exact h.apartM insideM hne (List.prefix_refl _) ⟨z, by simpa [fileNs] using hcut.symm⟩
          subst hin
          refine ⟨fM.package, ⟨[upperCaseName nameM], by rw [hM']; simp [fileNs]⟩, ?_⟩
          rw [← List.append_assoc, ← List.append_nil fM.package, ← hcut]
          simpa using hcls
        · rw [h0, List.nil_append] at hcut
          subst hcut
          exact ⟨[], List.nil_prefix, hcls⟩
      · exact ⟨[], List.nil_prefix, hcls⟩
    · have hb : nested = true := hn.mpr hnest
      subst hb
      have hx : ∀ c ∈ fT.package ++ insideT.map (· ++ kNested), Ident c := by
        intro c hc
        rcases List.mem_append.mp hc with hc | hc
        · exact hidT c (by simp [hc])
        · obtain ⟨d, hd, rfl⟩ := List.mem_map.mp hc
          exact ident_nested (hidT d (by simp [hd]))
      obtain ⟨z, hz, hidz, hcut⟩ := cut_scope h hx
      have e : tm.scope_type = qualify (joined kScope z) (upperCaseName nameT) ∧
          tm.scope_list_type = qualify (joined kScope z) (upperCaseName nameT ++ kRepeated) := by
        rw [← hz]
        simp only [tm, messageTypeMap, getNestedNamespaces_eq h.identT, if_true]
        exact ⟨rfl, rfl⟩
      refine ⟨z, by rw [e.1, qualify_eq hidz], by rw [e.2, qualify_eq hidz], ?_⟩
      rw [(capital_map h.capital).2] at hcls
      rcases hcut with hcut | ⟨-, rfl⟩
      · have hp : fM.package ++ insideM <+: fT.package := by
          rcases prefix_append_cases (y := fM.package ++ insideM) ⟨z, hcut.symm⟩ with hp | ⟨w, hw, hw', hp⟩
          · exact hp
          · exfalso
            cases w with
            | nil => exact hw rfl
            | cons a w =>
              obtain ⟨d, -, hd⟩ := List.mem_map.mp (hw'.subset (List.mem_cons_self))
              exact h.reserved a (by rw [hp]; simp) ⟨d, hd⟩
        have hin : insideM = [] := by
          refine Classical.byContradiction fun hne => ?_
          exact h.apartM insideM hne (List.prefix_refl _) hp
        subst hin
        refine ⟨fileNs extra fM.package, ⟨[upperCaseName nameM], by rw [hM']; simp⟩, ?_⟩
        rw [fileNs_eq, List.append_assoc, ← List.append_assoc fM.package, ← List.append_nil fM.package, ← hcut]
        simpa using hcls
      · refine ⟨fileNs extra [], ⟨fM.package ++ insideM.map nestedNs ++ [upperCaseName nameM], by rw [hM', fileNs_eq extra fM.package]; simp⟩, ?_⟩
        simpa using hcls
  · refine ⟨fileNs extra [] ++ fT.package ++ insideT ++ [upperCaseName nameT], ?_, ?_⟩
    · have hx : ∀ c ∈ fileNs extra [] ++ (fT.package ++ insideT), Ident c := by
        intro c hc
        rcases List.mem_append.mp hc with hc | hc
        · exact hext c hc
        · exact hidT c hc
      simp only [tm, messageTypeMap, getNamespaces_eq h.identT, extra_list]
      rw [List.append_assoc (fileNs extra []), ← qualify_eq hx, ← getNamespacesString_eq]
      rfl
    · have := denotes_at (enums := enums) hT (i1 := []) (i2 := insideT) (name := nameT) (by simpa using eT) h.capital
      rw [fileNs_eq] at this
      simpa using this

/-- The same for what is declared inside the class of a message: map entries and enumerations of a message C, used in the class of
a message M, if M is not directly nested in C. -/
theorem member_name {extra : Str} {fM fT : File} {insideM insideT : List Str} {nameM nameT : Str} {enums : Path → List Str}
    (h : Names extra fM insideM nameM fT insideT nameT) {pM pC : Printed}
    (hM : pM ∈ fM.classes extra) (eM : pM.msg = fM.package ++ insideM ++ [nameM])
    (hC : pC ∈ fT.classes extra) (eC : pC.msg = fT.package ++ insideT)
    (hne : fM.package ++ insideM ≠ fT.package ++ insideT)
    (hmem : ∀ c, Denotes extra fT enums c pC.msg → Denotes extra fT enums (c ++ [upperCaseName nameT]) (pC.msg ++ [nameT])) :
    (∃ z, (∀ c ∈ z, Ident c) ∧ getScopeNamespacesString (getNamespacesString kScope (fileNs extra [] ++ (fT.package ++ insideT)))
        (getNamespacesString kScope (getNamespaces (some (typeAt fM.package insideM nameM)))) = joined kScope z ∧
      Found (Denotes extra fT enums) pM.cpp (z ++ [upperCaseName nameT]) (pC.msg ++ [nameT])) ∧
    Denotes extra fT enums (fileNs extra [] ++ (fT.package ++ insideT) ++ [upperCaseName nameT]) (pC.msg ++ [nameT]) := by
  have hM' := class_name hM eM
  have hext := ident_extra h.extra
  have hidT : ∀ c ∈ fT.package ++ insideT, Ident c := fun c hc => h.identT c (by rw [List.mem_append]; exact Or.inl hc)
  -- insideT is not empty
  obtain ⟨i, n, hin, hcap, hncap⟩ : ∃ i n, insideT = i ++ [n] ∧ (∀ c ∈ i, Capital c) ∧ Capital n := by
    obtain ⟨i, n, h1, -⟩ := C44_cpp_name pC hC
    rw [eC, List.append_assoc, List.append_cancel_left_eq] at h1
    exact ⟨i, n, h1, fun c hc => h.capital c (by rw [h1]; simp [hc]), h.capital n (by rw [h1]; simp)⟩
  have hat : ∀ i1 i2, i = i1 ++ i2 → Denotes extra fT enums (fileNs extra fT.package ++ i1.map nestedNs ++ i2 ++ [n] ++ [upperCaseName nameT])
      (pC.msg ++ [nameT]) := by
    intro i1 i2 hi
    refine hmem _ ?_
    have := denotes_at (enums := enums) hC (i1 := i1) (i2 := i2) (name := n) (by rw [eC, hin, ← hi]; simp)
      (fun c hc => hcap c (by rw [hi]; simp [hc]))
    rw [show upperCaseName n = n from hncap] at this
    exact this
  have hfull : Denotes extra fT enums (fileNs extra [] ++ (fT.package ++ insideT) ++ [upperCaseName nameT]) (pC.msg ++ [nameT]) := by
    have := hat [] i rfl
    rw [fileNs_eq] at this
    rw [hin]
    simpa using this
  refine ⟨?_, hfull⟩
  have hx : ∀ c ∈ fileNs extra [] ++ (fT.package ++ insideT), Ident c := by
    intro c hc
    rcases List.mem_append.mp hc with hc | hc
    · exact hext c hc
    · exact hidT c hc
  obtain ⟨z, hz, hidz, hcut⟩ := cut_scope h hx
  refine ⟨z, hidz, hz, ?_⟩
  rcases hcut with hcut | ⟨-, rfl⟩
  · rcases extra_prefix h.extra (x := fT.package ++ insideT) ⟨z, hcut.symm⟩ with h0 | h0
    · subst h0
      have hcut' : fT.package ++ insideT = fM.package ++ insideM ++ z := by simpa [fileNs] using hcut
      rcases prefix_append_cases (y := fM.package ++ insideM) (a := fT.package) (b := insideT) ⟨z, hcut'.symm⟩ with hp | ⟨w, hw, hw', hp⟩
      · have hinM : insideM = [] := by
          refine Classical.byContradiction fun hne => ?_
          exact h.apartM insideM hne (List.prefix_refl _) hp
        subst hinM
        refine ⟨fM.package, ⟨[upperCaseName nameM], by rw [hM']; simp [fileNs]⟩, ?_⟩
        rw [← List.append_assoc, ← List.append_nil fM.package, ← hcut]
        exact hfull
      · -- the packages are the same
        have hpk : fM.package = fT.package ∧ insideM = w := by
          rcases List.append_eq_append_iff.mp hp with ⟨v, h1, h2⟩ | ⟨v, h1, h2⟩
          · -- fT.package = fM.package ++ v
            by_cases hv : v = []
            · subst hv
              exact ⟨by simpa using h1.symm, by simpa using h2⟩
            · exact absurd ⟨[], by rw [h1]; simp⟩ (h.apartM v hv ⟨w, h2.symm⟩)
          · by_cases hv : v = []
            · subst hv
              exact ⟨by simpa using h1, by simpa using h2.symm⟩
            · refine absurd ⟨[], by rw [h1]; simp⟩ (h.apartT v hv ?_)
              exact List.IsPrefix.trans ⟨insideM, h2.symm⟩ hw'
        obtain ⟨hpk, rfl⟩ := hpk
        -- the messages around the class of C, cut at insideM
        have hz' : insideT = insideM ++ z := by
          rw [hpk, List.append_assoc, List.append_cancel_left_eq] at hcut'
          exact hcut'
        have hznil : z ≠ [] := by
          rintro rfl
          rw [List.append_nil] at hcut'
          exact hne hcut'.symm
        obtain ⟨z', b, rfl⟩ : ∃ z' b, z = z' ++ [b] := ⟨z.dropLast, z.getLast hznil, (List.dropLast_concat_getLast hznil).symm⟩
        rw [hin, ← List.append_assoc] at hz'
        obtain ⟨h1, h2⟩ := List.append_inj' hz' rfl
        simp only [List.cons.injEq, and_true] at h2
        subst h2
        refine ⟨fM.package ++ insideM.map nestedNs, ⟨[upperCaseName nameM], by rw [hM']; simp [fileNs]⟩, ?_⟩
        have := hat insideM z' h1
        rw [hpk]
        simpa [fileNs] using this
    · rw [h0, List.nil_append] at hcut
      subst hcut
      exact ⟨[], List.nil_prefix, hfull⟩
  · exact ⟨[], List.nil_prefix, hfull⟩

/-- An enumeration of a message, used in the class of a message M: of M itself or of a top-level message of the file, but M is not
directly nested in the message of the enumeration. -/
theorem C42_enum_partial {extra : Str} {fM fT : File} {insideM insideT : List Str} {nameM nameT : Str} {enums : Path → List Str}
    (h : Names extra fM insideM nameM fT insideT nameT) {pM pC : Printed}
    (hM : pM ∈ fM.classes extra) (eM : pM.msg = fM.package ++ insideM ++ [nameM])
    (hC : pC ∈ fT.classes extra) (eC : pC.msg = fT.package ++ insideT) (henum : nameT ∈ enums (fT.package ++ insideT))
    (hne : fM.package ++ insideM ≠ fT.package ++ insideT) {scopeEnums topEnums : List Str}
    (hvis : (typeAt fT.package insideT nameT).full ∈ scopeEnums ∨ (typeAt fT.package insideT nameT).full ∈ topEnums) :
    let tm := enumTypeMap extra (typeAt fT.package insideT nameT) (enumVisibility (typeAt fT.package insideT nameT).full scopeEnums topEnums)
      (some (typeAt fM.package insideM nameM))
    (∃ z, tm.scope_type = joined kScope (z ++ [upperCaseName nameT]) ∧ Found (Denotes extra fT enums) pM.cpp (z ++ [upperCaseName nameT]) (pC.msg ++ [nameT])) ∧
    (∃ F, tm.full_type = joined kScope F ∧ Denotes extra fT enums F (pC.msg ++ [nameT])) := by
  intro tm
  have hv : enumVisibility (typeAt fT.package insideT nameT).full scopeEnums topEnums ≠ .global := by
    unfold enumVisibility
    rcases hvis with hv | hv
    · rw [if_pos (by simpa using hv)]
      decide
    · split
      · decide
      · rw [if_pos (by simpa using hv)]
        decide
  obtain ⟨⟨z, hidz, hz, hf⟩, hfull⟩ := member_name (enums := enums) h hM eM hC eC hne (fun c hd => .enum hd (by rw [eC]; exact henum))
  have hext := ident_extra h.extra
  have hx : ∀ c ∈ fileNs extra [] ++ (fT.package ++ insideT), Ident c := by
    intro c hc
    rcases List.mem_append.mp hc with hc | hc
    · exact hext c hc
    · exact h.identT c (by rw [List.mem_append]; exact Or.inl hc)
  refine ⟨⟨z, ?_, hf⟩, ⟨_, ?_, hfull⟩⟩
  · rw [← qualify_eq hidz, ← hz]
    simp only [tm, enumTypeMap, if_neg hv, getNamespaces_eq h.identT, extra_list, List.append_nil]
    rfl
  · rw [← qualify_eq hx, ← getNamespacesString_eq]
    simp only [tm, enumTypeMap, if_neg hv, getNamespaces_eq h.identT, extra_list, List.append_nil]
    rfl

/-- The map type of a field of a message M, used in the class of M. -/
theorem C42_map {extra : Str} {f : File} {inside : List Str} {name entry : Str} {enums : Path → List Str}
    (h : Names extra f inside name f (inside ++ [name]) entry) {p : Printed}
    (hp : p ∈ f.classes extra) (ep : p.msg = f.package ++ inside ++ [name]) {x : Msg} (hx : Has f p.msg x) {fd : FieldD} (hfd : fd ∈ x.fields)
    (hmap : fd.isMap = true) (htype : fd.msgType = some (p.msg ++ [entry])) :
    let tm := messageTypeMap extra (typeAt f.package (inside ++ [name]) entry) false (some (typeAt f.package inside name))
    (∃ z, tm.scope_type = joined kScope (z ++ [upperCaseName entry]) ∧ Found (Denotes extra f enums) p.cpp (z ++ [upperCaseName entry]) (p.msg ++ [entry])) ∧
    (∃ F, tm.full_type = joined kScope F ∧ Denotes extra f enums F (p.msg ++ [entry])) := by
  intro tm
  obtain ⟨⟨z, hidz, hz, hf⟩, hfull⟩ := member_name (enums := enums) h hp ep hp (by rw [ep]; simp)
    (by intro e; have := congrArg List.length e; simp at this)
    (fun c hd => .map hd hx hfd hmap htype)
  have hext := ident_extra h.extra
  have hid : ∀ c ∈ fileNs extra [] ++ (f.package ++ (inside ++ [name])), Ident c := by
    intro c hc
    rcases List.mem_append.mp hc with hc | hc
    · exact hext c hc
    · exact h.identT c (by rw [List.mem_append]; exact Or.inl hc)
  refine ⟨⟨z, ?_, hf⟩, ⟨_, ?_, hfull⟩⟩
  · rw [← qualify_eq hidz, ← hz]
    simp only [tm, messageTypeMap, getNamespaces_eq h.identT, extra_list]
    rfl
  · rw [← qualify_eq hid, ← getNamespacesString_eq]
    simp only [tm, messageTypeMap, getNamespaces_eq h.identT, extra_list]
    rfl

/-- An enumeration of a file, used in the class of a message of any file. -/
theorem C42_global_enum {extra : Str} {fM fT : File} {insideM : List Str} {nameM nameT : Str} {enums : Path → List Str}
    (h : Names extra fM insideM nameM fT [] nameT) {pM : Printed}
    (hM : pM ∈ fM.classes extra) (eM : pM.msg = fM.package ++ insideM ++ [nameM]) (henum : nameT ∈ enums fT.package)
    (hg : upperCaseName nameT ++ kGadget ∉ fM.package ++ insideM) (hidu : Ident (upperCaseName nameT)) :
    let tm := enumTypeMap extra (typeAt fT.package [] nameT) .global (some (typeAt fM.package insideM nameM))
    (∃ z, tm.scope_type = joined kScope (z ++ [upperCaseName nameT]) ∧ Found (Denotes extra fT enums) pM.cpp (z ++ [upperCaseName nameT]) (fT.package ++ [nameT])) ∧
    (∃ F, tm.full_type = joined kScope F ∧ Denotes extra fT enums F (fT.package ++ [nameT])) := by
  intro tm
  have hM' := class_name hM eM
  have hext := ident_extra h.extra
  have hns := getNamespaces_eq h.identT
  rw [List.append_nil] at hns
  have hfull : Denotes extra fT enums (fileNs extra [] ++ fT.package ++ [upperCaseName nameT ++ kGadget] ++ [upperCaseName nameT]) (fT.package ++ [nameT]) := by
    rw [← extra_list]
    exact .gadget henum
  have hx : ∀ c ∈ fileNs extra [] ++ fT.package ++ [upperCaseName nameT ++ kGadget], Ident c := by
    intro c hc
    simp only [List.mem_append, List.mem_singleton] at hc
    rcases hc with (hc | hc) | rfl
    · exact hext c hc
    · exact h.identT c (by simp [hc])
    · refine ⟨by simp [hidu.1], ?_, ?_⟩ <;> rw [List.mem_append, not_or]
      · exact ⟨hidu.2.1, by decide⟩
      · exact ⟨hidu.2.2, by decide⟩
  constructor
  · obtain ⟨z, hz, hidz, hcut⟩ := cut_scope h hx
    refine ⟨z, ?_, ?_⟩
    · rw [← qualify_eq hidz, ← hz]
      simp only [tm, enumTypeMap, hns, extra_list, if_true]
      rfl
    · rcases hcut with hcut | ⟨-, rfl⟩
      · rw [List.append_assoc] at hcut
        rcases extra_prefix h.extra (x := fT.package ++ [upperCaseName nameT ++ kGadget]) ⟨z, hcut.symm⟩ with h0 | h0
        · subst h0
          have hcut' : fT.package ++ [upperCaseName nameT ++ kGadget] = fM.package ++ insideM ++ z := by simpa [fileNs] using hcut
          rcases prefix_append_cases (y := fM.package ++ insideM) (a := fT.package) ⟨z, hcut'.symm⟩ with hp | ⟨w, hw, hw', hp⟩
          · have hinM : insideM = [] := by
              refine Classical.byContradiction fun hne => ?_
              exact h.apartM insideM hne (List.prefix_refl _) hp
            subst hinM
            refine ⟨fM.package, ⟨[upperCaseName nameM], by rw [hM']; simp [fileNs]⟩, ?_⟩
            rw [← List.append_assoc, ← List.append_nil fM.package, ← hcut']
            simpa [fileNs] using hfull
          · exfalso
            cases w with
            | nil => exact hw rfl
            | cons a w =>
              have := hw'.subset (List.mem_cons_self (a := a) (l := w))
              simp only [List.mem_singleton] at this
              exact hg (by rw [hp, ← this]; simp)
        · rw [h0, List.nil_append] at hcut
          subst hcut
          exact ⟨[], List.nil_prefix, by simpa using hfull⟩
      · exact ⟨[], List.nil_prefix, hfull⟩
  · refine ⟨_, ?_, hfull⟩
    rw [← qualify_eq hx, ← getNamespacesString_eq]
    simp only [tm, enumTypeMap, hns, extra_list, if_true]
    rfl

/-- If no name is declared in two of the scopes around the class of M, C++ finds what the theorems above say: the name printed for
a type is looked up to be that type. -/
theorem C42_lookup {denotes : List Str → Path → Prop} {declared : List Str → Prop} {S P : List Str} {t : Path}
    (hdecl : ∀ c q, denotes c q → ∀ d, d ≠ [] → d <+: c → declared d)
    (huniq : ∀ B B' k, B <+: S → B' <+: S → declared (B ++ [k]) → declared (B' ++ [k]) → B = B')
    (hP : P ≠ []) (h : Found denotes S P t) : ∃ R, LooksUp declared S P R ∧ denotes R t := by
  obtain ⟨A, hA, hd⟩ := h
  cases P with
  | nil => exact absurd rfl hP
  | cons c rest =>
    have hc : declared (A ++ [c]) := hdecl _ _ hd _ (by simp) ⟨rest, by simp⟩
    exact ⟨A ++ c :: rest, ⟨A, c, rest, hA, rfl, rfl, hc, fun B hB hb => by rw [huniq B A c hB hA hb hc]; exact Nat.le_refl _⟩, hd⟩

/-! ### Where the names are wrong -/

/-- package p; message o { message I {} I a = 1; } message M { o.I b = 1; } -/
def lowerFile : File :=
  ⟨[['p']], [.mk ['o'] [⟨['a'], ['a'], 1, .message, false, false, some [['p'], ['o'], ['I']], none⟩] [.mk ['I'] [] [] false] false,
    .mk ['M'] [⟨['b'], ['b'], 1, .message, false, false, some [['p'], ['o'], ['I']], none⟩] [] false]⟩

/-- If the name of the message that T is in starts with a small letter, the name printed for T denotes nothing: the namespace is
printed with a capital where it is declared, and without where it is used. -/
theorem C42_lower_violated : ∃ pM pT : Printed, pM ∈ lowerFile.classes [] ∧ pM.msg = [['p'], ['M']] ∧ pT ∈ lowerFile.classes [] ∧
    pT.msg = [['p'], ['o'], ['I']] ∧
    (messageTypeMap [] (typeAt [['p']] [['o']] ['I']) true (some (typeAt [['p']] [] ['M']))).scope_type = joined kScope [['o'] ++ kNested, ['I']] ∧
    ¬ Found (Denotes [] lowerFile fun _ => []) pM.cpp [['o'] ++ kNested, ['I']] pT.msg := by
  refine ⟨⟨[['p'], ['M']], [['p'], ['M']]⟩, ⟨[['p'], ['o'], ['I']], [['p'], nestedNs ['o'], ['I']]⟩, by decide, rfl, by decide, rfl, by decide +kernel, ?_⟩
  rintro ⟨A, -, hd⟩
  have := denotes_component hd (['o'] ++ kNested) (by simp)
  revert this
  decide

/-- package p; message A { message T {} T t = 1; p.T u = 2; } message T {} -/
def shadowFile : File :=
  ⟨[['p']], [.mk ['A'] [⟨['t'], ['t'], 1, .message, false, false, some [['p'], ['A'], ['T']], none⟩,
    ⟨['u'], ['u'], 2, .message, false, false, some [['p'], ['T']], none⟩] [.mk ['T'] [] [] false] false, .mk ['T'] [] [] false]⟩

/-- If a message nested in M has the name of a message of the package, the name printed for the latter in the class of M, which
is right in the namespace of the package, is looked up to be the nested one. -/
theorem C42_shadow_violated : ∃ pM : Printed, pM ∈ shadowFile.classes [] ∧ pM.msg = [['p'], ['A']] ∧
    (messageTypeMap [] (typeAt [['p']] [] ['T']) false (some (typeAt [['p']] [] ['A']))).scope_type = joined kScope [['T']] ∧
    Found (Denotes [] shadowFile fun _ => []) pM.cpp [['T']] [['p'], ['T']] ∧
    ∀ R, LooksUp (fun d => ∃ c q, Denotes [] shadowFile (fun _ => []) c q ∧ d <+: c) pM.cpp [['T']] R →
      Denotes [] shadowFile (fun _ => []) R [['p'], ['A'], ['T']] ∧ ¬ Denotes [] shadowFile (fun _ => []) R [['p'], ['T']] := by
  have hA : Denotes [] shadowFile (fun _ => []) [['p'], ['A']] [['p'], ['A']] :=
    .cls (p := ⟨[['p'], ['A']], [['p'], ['A']]⟩) (by decide)
  have hT : Denotes [] shadowFile (fun _ => []) [['p'], ['T']] [['p'], ['T']] :=
    .cls (p := ⟨[['p'], ['T']], [['p'], ['T']]⟩) (by decide)
  have hin : Denotes [] shadowFile (fun _ => []) [['p'], ['A'], ['T']] [['p'], ['A'], ['T']] :=
    .alias (n := .mk ['T'] [] [] false) hA ⟨_, List.mem_cons_self, .self⟩ (by simp [Msg.nested])
      (Or.inr ⟨_, List.mem_cons_self, rfl, rfl⟩)
  refine ⟨⟨[['p'], ['A']], [['p'], ['A']]⟩, by decide, rfl, by decide +kernel, ⟨[['p']], ⟨[['A']], rfl⟩, hT⟩, ?_⟩
  rintro R ⟨A, c, rest, hA, h1, rfl, hd, hmax⟩
  simp only [List.cons.injEq] at h1
  obtain ⟨rfl, rfl⟩ := h1
  have hlen := hmax [['p'], ['A']] (List.prefix_refl _) ⟨_, _, hin, List.prefix_refl _⟩
  have hAeq : A = [['p'], ['A']] := hA.eq_of_length (Nat.le_antisymm hA.length_le hlen)
  subst hAeq
  refine ⟨hin, fun hbad => ?_⟩
  rcases denotes_inv hbad with ⟨p, hp, h1, h2⟩ | ⟨c, q, a, h1, h2, h3⟩ | ⟨e, he, -⟩
  · have : ∀ p ∈ shadowFile.classes [], ¬ (p.cpp = [['p'], ['A'], ['T']] ∧ p.msg = [['p'], ['T']]) := by decide
    exact this p hp ⟨h1, h2⟩
  · obtain ⟨h1, -⟩ := List.append_inj' (s₁ := [['p'], ['A']]) h1 rfl
    obtain ⟨h2, -⟩ := List.append_inj' (s₁ := [['p']]) h2 rfl
    subst h1 h2
    obtain ⟨c0, q0, b, h1, h2⟩ := denotes_last h3
    obtain ⟨-, h1⟩ := List.append_inj' (s₁ := [['p']]) (t₁ := [['A']]) h1 rfl
    obtain ⟨-, h2⟩ := List.append_inj' (s₁ := []) (t₁ := [['p']]) h2 rfl
    simp only [List.cons.injEq, and_true] at h1 h2
    subst h2
    rcases denotes_inv h3 with ⟨p, hp, h1, h2⟩ | ⟨c, q, a, h1, h2, h3⟩ | ⟨e, he, -⟩
    · have : ∀ p ∈ shadowFile.classes [], ¬ (p.cpp = [['p'], ['A']] ∧ p.msg = [['p']]) := by decide
      exact this p hp ⟨h1, h2⟩
    · obtain ⟨h2, -⟩ := List.append_inj' (s₁ := []) (t₁ := [['p']]) h2 rfl
      subst h2
      obtain ⟨c0, q0, b, -, h2⟩ := denotes_last h3
      simp at h2
    · simp at he
  · simp at he

/-- package p; message C { enum E { Z = 0; } message N { E e = 1; } N n = 1; } -/
def innerFile : File :=
  ⟨[['p']], [.mk ['C'] [⟨['n'], ['n'], 1, .message, false, false, some [['p'], ['C'], ['N']], none⟩]
    [.mk ['N'] [⟨['e'], ['e'], 1, .enum, false, false, none, none⟩] [] false] false]⟩

/-- The enumerations of `innerFile`. -/
def innerEnums (q : Path) : List Str := if q = [['p'], ['C']] then [['E']] else []

/-- The name printed for an enumeration of C in the class of a message nested in C denotes nothing: that class is not in the
class of C. (The condition on M in `C42_enum_partial`.) -/
theorem C42_inner_enum_violated : ∃ pM : Printed, pM ∈ innerFile.classes [] ∧ pM.msg = [['p'], ['C'], ['N']] ∧
    (let t := typeAt [['p']] [['C']] ['E'];
      (enumTypeMap [] t (enumVisibility t.full [] [t.full]) (some (typeAt [['p']] [['C']] ['N']))).scope_type = joined kScope [['E']]) ∧
    ¬ Found (Denotes [] innerFile innerEnums) pM.cpp [['E']] [['p'], ['C'], ['E']] := by
  refine ⟨⟨[['p'], ['C'], ['N']], [['p'], nestedNs ['C'], ['N']]⟩, by decide, rfl, by decide +kernel, ?_⟩
  rintro ⟨A, hA, hd⟩
  have hcls : ∀ p ∈ innerFile.classes [], p.msg ≠ [['p'], ['C'], ['E']] := by decide
  have hns : nestedNs ['C'] ≠ ['C'] := by decide
  rcases denotes_inv hd with ⟨p, hp, h1, h2⟩ | ⟨c, q, a, h1, h2, h3⟩ | ⟨e, he, -⟩
  · exact hcls p hp h2
  · obtain ⟨h1, -⟩ := List.append_inj' (s₁ := A) h1 rfl
    obtain ⟨h2, -⟩ := List.append_inj' (s₁ := [['p'], ['C']]) (t₁ := [['E']]) h2 rfl
    subst h1 h2
    -- the scope that has the name of C is not around the class of N
    obtain ⟨c0, q0, b, h1, h2⟩ := denotes_last h3
    obtain ⟨-, h2⟩ := List.append_inj' (s₁ := [['p']]) (t₁ := [['C']]) h2 rfl
    simp only [List.cons.injEq, and_true] at h2
    subst h2
    rw [h1] at hA
    have hmem : upperCaseName ['C'] ∈ [['p'], nestedNs ['C'], ['N']] := hA.subset (by simp)
    revert hmem
    decide
  · have : innerEnums innerFile.package = [] := by decide
    rw [this] at he
    simp at he

/-- package p; message C { message N { enum E { Z = 0; } E e = 1; } N n = 1; N.E f = 2; } -/
def deepFile : File :=
  ⟨[['p']], [.mk ['C'] [⟨['n'], ['n'], 1, .message, false, false, some [['p'], ['C'], ['N']], none⟩,
      ⟨['f'], ['f'], 2, .enum, false, false, none, none⟩]
    [.mk ['N'] [⟨['e'], ['e'], 1, .enum, false, false, none, none⟩] [] false] false]⟩

/-- The enumerations of `deepFile`. -/
def deepEnums (q : Path) : List Str := if q = [['p'], ['C'], ['N']] then [['E']] else []

/-- The name printed for an enumeration of a nested message outside that message denotes nothing: it is taken for an enumeration of
a file. (The condition on the visibility in `C42_enum_partial`.) -/
theorem C42_deep_enum_violated : ∃ pM : Printed, pM ∈ deepFile.classes [] ∧ pM.msg = [['p'], ['C']] ∧
    (let t := typeAt [['p']] [['C'], ['N']] ['E'];
      (enumTypeMap [] t (enumVisibility t.full [] []) (some (typeAt [['p']] [] ['C']))).scope_type =
        joined kScope [['C'], ['N'], ['E'] ++ kGadget, ['E']]) ∧
    ¬ Found (Denotes [] deepFile deepEnums) pM.cpp [['C'], ['N'], ['E'] ++ kGadget, ['E']] [['p'], ['C'], ['N'], ['E']] := by
  refine ⟨⟨[['p'], ['C']], [['p'], ['C']]⟩, by decide, rfl, by decide +kernel, ?_⟩
  rintro ⟨A, -, hd⟩
  have := denotes_component hd (['E'] ++ kGadget) (by simp)
  revert this
  decide

/-! ### Examples -/

/-- The class of A names the class of C in B in A, with the extra namespace x. -/
example : ∃ z, (messageTypeMap ['x'] (typeAt [['p']] [['A'], ['B']] ['C']) true (some (typeAt [['p']] [] ['A']))).scope_type =
      joined kScope (z ++ [['C']]) ∧ Found (Denotes ['x'] demoFile fun _ => []) [['x'], ['p'], ['A']] (z ++ [['C']]) [['p'], ['A'], ['B'], ['C']] := by
  have h : Names ['x'] demoFile [] ['A'] demoFile [['A'], ['B']] ['C'] :=
    { identM := by unfold Ident; decide
      identT := by unfold Ident; decide
      extra := Or.inr ⟨by unfold Ident; decide, by decide⟩
      capital := by unfold Capital; decide
      reserved := by decide
      apartM := by
        intro w hw h
        exact absurd (List.prefix_nil.mp h) hw
      apartT := by
        intro w hw h h'
        have := h'.length_le
        cases w with
        | nil => exact hw rfl
        | cons a w => simp [demoFile] at this }
  obtain ⟨⟨z, h1, -, h2⟩, -⟩ := C42_message_partial (enums := fun _ => []) h
    (pM := ⟨[['p'], ['A']], [['x'], ['p'], ['A']]⟩) (by decide) rfl
    (pT := ⟨[['p'], ['A'], ['B'], ['C']], [['x'], ['p'], nestedNs ['A'], nestedNs ['B'], ['C']]⟩) (by decide) rfl
    (nested := true) (by simp)
  exact ⟨z, h1, h2⟩

/-- The same name as text. -/
example : (messageTypeMap ['x'] (typeAt [['p']] [['A'], ['B']] ['C']) true (some (typeAt [['p']] [] ['A']))).scope_type =
    joined kScope [['A'] ++ kNested, ['B'] ++ kNested, ['C']] := by decide +kernel

/-- The class of A names its map type. -/
example : ∃ z, (messageTypeMap ['x'] (typeAt [['p']] [['A']] ['M']) false (some (typeAt [['p']] [] ['A']))).scope_type =
      joined kScope (z ++ [['M']]) ∧ Found (Denotes ['x'] demoFile fun _ => []) [['x'], ['p'], ['A']] (z ++ [['M']]) [['p'], ['A'], ['M']] := by
  have h : Names ['x'] demoFile [] ['A'] demoFile [['A']] ['M'] :=
    { identM := by unfold Ident; decide
      identT := by unfold Ident; decide
      extra := Or.inr ⟨by unfold Ident; decide, by decide⟩
      capital := by unfold Capital; decide
      reserved := by decide
      apartM := by
        intro w hw h
        exact absurd (List.prefix_nil.mp h) hw
      apartT := by
        intro w hw h h'
        have := h'.length_le
        cases w with
        | nil => exact hw rfl
        | cons a w => simp [demoFile] at this }
  obtain ⟨⟨z, h1, h2⟩, -⟩ := C42_map (enums := fun _ => []) h
    (p := ⟨[['p'], ['A']], [['x'], ['p'], ['A']]⟩) (by decide) rfl ⟨_, List.mem_cons_self, .self⟩
    (fd := ⟨['m'], ['m'], 3, .message, true, true, some [['p'], ['A'], ['M']], none⟩) (by simp [Msg.fields]) rfl rfl
  exact ⟨z, h1, h2⟩

/-- The class of C names its own enumeration. -/
example : ∃ z, (enumTypeMap [] (typeAt [['p']] [['C']] ['E']) .local (some (typeAt [['p']] [] ['C']))).scope_type =
      joined kScope (z ++ [['E']]) ∧ Found (Denotes [] innerFile innerEnums) [['p'], ['C']] (z ++ [['E']]) [['p'], ['C'], ['E']] := by
  have h : Names [] innerFile [] ['C'] innerFile [['C']] ['E'] :=
    { identM := by unfold Ident; decide
      identT := by unfold Ident; decide
      extra := Or.inl rfl
      capital := by unfold Capital; decide
      reserved := by decide
      apartM := by
        intro w hw h
        exact absurd (List.prefix_nil.mp h) hw
      apartT := by
        intro w hw h h'
        have := h'.length_le
        cases w with
        | nil => exact hw rfl
        | cons a w => simp [innerFile] at this }
  obtain ⟨⟨z, h1, h2⟩, -⟩ := C42_enum_partial (enums := innerEnums) h
    (pM := ⟨[['p'], ['C']], [['p'], ['C']]⟩) (by decide) rfl
    (pC := ⟨[['p'], ['C']], [['p'], ['C']]⟩) (by decide) rfl (by decide) (by decide)
    (scopeEnums := [(typeAt [['p']] [['C']] ['E']).full]) (topEnums := []) (Or.inl (by simp [innerFile]))
  have hv : enumVisibility (typeAt [['p']] [['C']] ['E']).full [(typeAt [['p']] [['C']] ['E']).full] [] = .local := by decide +kernel
  simp only [innerFile, hv] at h1
  exact ⟨z, h1, h2⟩

/-- An enumeration of the package is found from the class of a message. -/
example : ∃ z, (enumTypeMap [] (typeAt [['p']] [] ['e']) .global (some (typeAt [['p']] [] ['C']))).scope_type =
      joined kScope (z ++ [['E']]) ∧ Found (Denotes [] innerFile fun _ => [['e']]) [['p'], ['C']] (z ++ [['E']]) [['p'], ['e']] := by
  have h : Names [] innerFile [] ['C'] innerFile [] ['e'] :=
    { identM := by unfold Ident; decide
      identT := by unfold Ident; decide
      extra := Or.inl rfl
      capital := by unfold Capital; decide
      reserved := by decide
      apartM := by
        intro w hw h
        exact absurd (List.prefix_nil.mp h) hw
      apartT := by
        intro w hw h
        exact absurd (List.prefix_nil.mp h) hw }
  obtain ⟨⟨z, h1, h2⟩, -⟩ := C42_global_enum (enums := fun _ => [['e']]) h
    (pM := ⟨[['p'], ['C']], [['p'], ['C']]⟩) (by decide) rfl (by simp) (by decide) (by unfold Ident; decide)
  exact ⟨z, h1, h2⟩

example : isNested (some demoFile.messages[0].fields) [['p'], ['A'], ['B']] = true ∧
    isNested (some demoFile.messages[0].fields) [['p'], ['A'], ['M']] = false := by
  have hv : Valid [['p'], ['A']] demoFile.messages[0] := demoFile_valid.valid _ _ ⟨_, List.mem_cons_self, .self⟩
  have hmap : ∀ fd ∈ demoFile.messages[0].fields, fd.isMap = true →
      ∃ k ∈ demoFile.messages[0].nested, k.entry = true ∧ fd.msgType = some ([['p'], ['A']] ++ [k.name]) := by
    simp [demoFile, Msg.fields, Msg.nested, Msg.entry, Msg.name]
  exact ⟨(C42_isNested hv (n := demoFile.messages[0].nested[0]'(by decide)) (by simp) hmap).1,
    (C42_isNested hv (n := demoFile.messages[0].nested[2]'(by decide)) (by simp) hmap).1⟩

/-- package p; message M { A a = 1; } message A {} -/
def flatFile : File :=
  ⟨[['p']], [.mk ['M'] [⟨['a'], ['a'], 1, .message, false, false, some [['p'], ['A']], none⟩] [] false, .mk ['A'] [] [] false]⟩

theorem flatFile_denotes {c : List Str} {q : Path} (h : Denotes [] flatFile (fun _ => []) c q) : c = [['p'], ['M']] ∨ c = [['p'], ['A']] := by
  have hx : ∀ q x, Has flatFile q x → x.nested = [] ∧ ∀ fd ∈ x.fields, fd.isMap = false := by
    rintro q x ⟨m, hm, hc⟩
    simp only [flatFile, List.mem_cons, List.not_mem_nil, or_false] at hm
    rcases hm with rfl | rfl <;> cases hc with
    | self => simp [Msg.nested, Msg.fields]
    | nested hn _ => simp [Msg.nested] at hn
  cases h with
  | cls hp =>
    have : ∀ p ∈ flatFile.classes [], p.cpp = [['p'], ['M']] ∨ p.cpp = [['p'], ['A']] := by decide
    exact this _ hp
  | alias _ h hn => rw [(hx _ _ h).1] at hn; simp at hn
  | map _ h hfd hm => rw [(hx _ _ h).2 _ hfd] at hm; simp at hm
  | enum _ h => simp at h
  | gadget h => simp at h

/-- The hypotheses of `C42_lookup` hold for the name of A in the class of M. -/
example : ∃ R, LooksUp (fun d => d ≠ [] ∧ ∃ c q, Denotes [] flatFile (fun _ => []) c q ∧ d <+: c) [['p'], ['M']] [['A']] R ∧
    Denotes [] flatFile (fun _ => []) R [['p'], ['A']] := by
  refine C42_lookup (fun c q h d hd hp => ⟨hd, c, q, h, hp⟩) ?_ (by simp)
    ⟨[['p']], ⟨[['M']], rfl⟩, .cls (p := ⟨[['p'], ['A']], [['p'], ['A']]⟩) (by decide)⟩
  rintro B B' k - - ⟨-, c, q, h, hp⟩ ⟨-, c', q', h', hp'⟩
  have key : ∀ (B c : List Str), (c = [['p'], ['M']] ∨ c = [['p'], ['A']]) → B ++ [k] <+: c → B = if k = ['p'] then [] else [['p']] := by
    rintro B c hc ⟨r, hr⟩
    have : ∃ a, c = [['p'], a] ∧ a ≠ ['p'] := by rcases hc with rfl | rfl <;> exact ⟨_, rfl, by decide⟩
    obtain ⟨a, rfl, ha⟩ := this
    match B, hr with
    | [], hr =>
      simp only [List.nil_append, List.cons_append, List.cons.injEq] at hr
      rw [if_pos hr.1]
    | [b], hr =>
      simp only [List.nil_append, List.cons_append, List.cons.injEq] at hr
      obtain ⟨rfl, rfl, -⟩ := hr
      rw [if_neg ha]
    | b :: b' :: B, hr =>
      have := congrArg List.length hr
      simp at this
  rw [key B c (flatFile_denotes h) hp, key B' c' (flatFile_denotes h') hp']

end QtPb.Gen
