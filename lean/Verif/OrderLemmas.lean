import Verif.GenOrder
import Verif.PropsGenTree
/-
Lemmas about the order of declarations in generated headers.
-/
namespace QtPb.Gen
open Spec

/-! ### Headers that are opened once -/

section
variable {κ : Type} {header : κ → List (Line κ)}

/-- All that the header `k` and those it opens declare is in `B`. -/
def Done (header : κ → List (Line κ)) (B : List Decl) (k : κ) : Prop := ∀ k' d, Reach header k k' → .decl d ∈ header k' → d ∈ B

theorem Done.mono {B B' : List Decl} {k : κ} (h : Done header B k) (hs : ∀ d ∈ B, d ∈ B') : Done header B' k :=
  fun k' d hr hd => hs d (h k' d hr hd)

/-- `R` is monotone in what was declared. -/
def Mono (R : List Decl → Decl → Prop) : Prop := ∀ B B' d, (∀ x ∈ B, x ∈ B') → R B d → R B' d

theorem reach_trans {a b c : κ} (h : Reach header a b) (h' : Reach header b c) : Reach header a c := by
  induction h with
  | refl => exact h'
  | step hi _ ih => exact .step hi (ih h')

/-- What is used in the header `k` is declared in it before or in a header it has opened before and that does not include it. -/
def LocalOk (header : κ → List (Line κ)) (R : List Decl → Decl → Prop) (k : κ) : Prop :=
  ∀ pre d post, header k = pre ++ .decl d :: post → ∀ B, (∀ k', .incl k' ∈ pre → ¬ Reach header k' k → Done header B k') →
    (∀ d', .decl d' ∈ pre → d' ∈ B) → R B d

/-- All of the header `k` was seen. -/
def Closed (header : κ → List (Line κ)) (seen : List κ) (B : List Decl) (k : κ) : Prop :=
  (∀ d, .decl d ∈ header k → d ∈ B) ∧ ∀ k', .incl k' ∈ header k → k' ∈ seen

theorem Closed.mono {seen seen' : List κ} {B B' : List Decl} {k : κ} (h : Closed header seen B k) (hs : ∀ x ∈ seen, x ∈ seen')
    (hB : ∀ d ∈ B, d ∈ B') : Closed header seen' B' k := ⟨fun d hd => hB d (h.1 d hd), fun k' hk' => hs k' (h.2 k' hk')⟩

/-- A header that was opened and does not include the current one is done. -/
theorem done_of_closed {seen stack : List κ} {B : List Decl} {cur : κ} (hst : ∀ k ∈ stack, Reach header k cur)
    (hcl : ∀ k ∈ seen, k ∉ stack → Closed header seen B k) {k : κ} (hk : k ∈ seen) (hn : ¬ Reach header k cur) : Done header B k := by
  intro k' d hr
  induction hr with
  | refl => exact fun hd => (hcl _ hk (fun h => hn (hst _ h))).1 d hd
  | @step k k1 k' h1 _ ih => exact ih ((hcl _ hk (fun h => hn (hst _ h))).2 k1 h1) (fun h => hn (.step h1 h))

theorem expands_ordered {R : List Decl → Decl → Prop} (hok : ∀ k, LocalOk header R k)
    {seen seen' : List κ} {ls : List (Line κ)} {out : List Decl} (h : Expands header seen ls seen' out) :
    ∀ (stack : List κ) cur pre before, header cur = pre ++ ls → (∀ k ∈ stack, Reach header k cur) → cur ∈ stack →
      (∀ k ∈ seen, k ∉ stack → Closed header seen before k) →
      (∀ k, .incl k ∈ pre → k ∈ seen) → (∀ d, .decl d ∈ pre → d ∈ before) →
      (∀ a d b, out = a ++ d :: b → R (before ++ a) d) ∧
      (∀ k ∈ seen, k ∈ seen') ∧
      (∀ k ∈ seen', k ∉ stack → Closed header seen' (before ++ out) k) ∧
      (∀ k, .incl k ∈ pre ++ ls → k ∈ seen') ∧
      (∀ d, .decl d ∈ pre ++ ls → d ∈ before ++ out) := by
  induction h with
  | nil =>
    intro stack cur pre before he hst hc hcl hp hd
    refine ⟨by intro a d b e; cases a <;> simp at e, fun k hk => hk, ?_, ?_, ?_⟩ <;> simpa
  | @decl seen seen' d ls out h ih =>
    intro stack cur pre before he hst hc hcl hp hd
    have he' : header cur = (pre ++ [.decl d]) ++ ls := by rw [he]; simp
    obtain ⟨h1, h2, h3, h4, h5⟩ := ih stack cur (pre ++ [.decl d]) (before ++ [d]) he' hst hc
      (fun k hk hn => (hcl k hk hn).mono (fun _ h => h) (fun x hx => List.mem_append_left _ hx))
      (by
        intro k hk
        simp only [List.mem_append, List.mem_singleton, reduceCtorEq, or_false] at hk
        exact hp k hk)
      (by
        intro x hx
        simp only [List.mem_append, List.mem_singleton, Line.decl.injEq] at hx ⊢
        exact hx.imp (hd x) id)
    refine ⟨?_, h2, ?_, ?_, ?_⟩
    · intro a x b e
      cases a with
      | nil =>
        simp only [List.nil_append, List.cons.injEq] at e
        obtain ⟨rfl, rfl⟩ := e
        rw [List.append_nil]
        exact hok cur pre d ls he before (fun k' hk' hn => done_of_closed hst hcl (hp k' hk') hn) hd
      | cons y a =>
        simp only [List.cons_append, List.cons.injEq] at e
        obtain ⟨rfl, rfl⟩ := e
        have := h1 a x b rfl
        simpa using this
    · intro k hk hr
      have := h3 k hk hr
      simpa using this
    · intro k hk
      exact h4 k (by simpa using hk)
    · intro x hx
      have := h5 x (by simpa using hx)
      simpa using this
  | @again seen seen' k ls out hk h ih =>
    intro stack cur pre before he hst hc hcl hp hd
    have he' : header cur = (pre ++ [.incl k]) ++ ls := by rw [he]; simp
    obtain ⟨h1, h2, h3, h4, h5⟩ := ih stack cur (pre ++ [.incl k]) before he' hst hc hcl
      (by
        intro k' hk'
        simp only [List.mem_append, List.mem_singleton, Line.incl.injEq] at hk'
        rcases hk' with hk' | rfl
        · exact hp k' hk'
        · exact hk)
      (by
        intro x hx
        simp only [List.mem_append, List.mem_singleton, reduceCtorEq, or_false] at hx
        exact hd x hx)
    exact ⟨h1, h2, h3, fun k' hk' => h4 k' (by simpa using hk'), fun x hx => h5 x (by simpa using hx)⟩
  | @once seen seen' seen'' k ls inner out hk hin hout ih1 ih2 =>
    intro stack cur pre before he hst hc hcl hp hd
    have hcur : .incl k ∈ header cur := by rw [he]; simp
    obtain ⟨i1, i2, i3, i4, i5⟩ := ih1 (k :: stack) k [] before (by simp)
      (by
        intro k2 hk2
        rcases List.mem_cons.mp hk2 with rfl | hk2
        · exact .refl
        · exact reach_trans (hst k2 hk2) (.step hcur .refl))
      (List.mem_cons_self ..)
      (by
        intro k2 hk2 hn
        simp only [List.mem_cons, not_or] at hn
        rcases List.mem_cons.mp hk2 with rfl | hk2
        · exact absurd rfl hn.1
        · exact (hcl k2 hk2 hn.2).mono (fun x hx => List.mem_cons_of_mem _ hx) (fun _ h => h))
      (by intro k2 hk2; simp at hk2) (by intro x hx; simp at hx)
    have hcl1 : ∀ k2 ∈ seen', k2 ∉ stack → Closed header seen' (before ++ inner) k2 := by
      intro k2 hk2 hn
      by_cases e : k2 = k
      · subst e
        exact ⟨fun d hd' => i5 d (by simpa using hd'), fun k' hk' => i4 k' (by simpa using hk')⟩
      · exact i3 k2 hk2 (by simp [e, hn])
    have he' : header cur = (pre ++ [.incl k]) ++ ls := by rw [he]; simp
    obtain ⟨h1, h2, h3, h4, h5⟩ := ih2 stack cur (pre ++ [.incl k]) (before ++ inner) he' hst hc hcl1
      (by
        intro k' hk'
        simp only [List.mem_append, List.mem_singleton, Line.incl.injEq] at hk'
        rcases hk' with hk' | rfl
        · exact i2 _ (List.mem_cons_of_mem _ (hp k' hk'))
        · exact i2 _ (List.mem_cons_self ..))
      (by
        intro x hx
        simp only [List.mem_append, List.mem_singleton, reduceCtorEq, or_false] at hx
        exact List.mem_append_left _ (hd x hx))
    refine ⟨?_, ?_, ?_, ?_, ?_⟩
    · intro a x b e
      rcases List.append_eq_append_iff.mp e with ⟨c, e1, e2⟩ | ⟨c, e1, e2⟩
      · rw [e1, ← List.append_assoc]
        exact h1 c x b e2
      · cases c with
        | nil =>
          simp only [List.append_nil, List.nil_append] at e1 e2
          have := h1 [] x b (by simpa using e2.symm)
          rw [← e1]
          simpa using this
        | cons y c =>
          simp only [List.cons_append, List.cons.injEq] at e2
          obtain ⟨rfl, e3⟩ := e2
          exact i1 a x c e1
    · exact fun k2 hk2 => h2 _ (i2 _ (List.mem_cons_of_mem _ hk2))
    · intro k2 hk2 hn
      have := h3 k2 hk2 hn
      simpa using this
    · intro k2 hk2
      exact h4 k2 (by simpa using hk2)
    · intro x hx
      have := h5 x (by simpa using hx)
      simpa using this

/-- If each header declares what it uses before, or includes it before from a header that does not include it, then what the compiler sees is in
order. -/
theorem compiles_ordered {R : List Decl → Decl → Prop} (hok : ∀ k, LocalOk header R k) {k : κ} {out : List Decl}
    (h : Compiles header k out) : ∀ a d b, out = a ++ d :: b → R a d := by
  obtain ⟨seen, h⟩ := h
  have := (expands_ordered hok h [k] k [] [] (by simp) (by intro k' hk'; rw [List.mem_singleton.mp hk']; exact .refl)
    (List.mem_singleton.mpr rfl) (by intro k' hk' hn; exact absurd hk' hn) (by intro k' hk'; simp at hk') (by intro d hd; simp at hd)).1
  simpa using this

/-- The headers that are left to be opened. -/
private def left [DecidableEq κ] (K seen : List κ) : Nat := (K.filter fun k => !decide (k ∈ seen)).length

private theorem left_mono [DecidableEq κ] {K seen seen' : List κ} (h : ∀ k ∈ seen, k ∈ seen') : left K seen' ≤ left K seen := by
  unfold left
  induction K with
  | nil => simp
  | cons a K ih =>
    simp only [List.filter_cons]
    by_cases h1 : a ∈ seen
    · simpa [h1, h a h1] using ih
    · by_cases h2 : a ∈ seen' <;> simp [h1, h2] <;> omega

private theorem left_cons [DecidableEq κ] {K seen : List κ} {k : κ} (hk : k ∈ K) (hs : k ∉ seen) : left K (k :: seen) < left K seen := by
  unfold left
  induction K with
  | nil => simp at hk
  | cons a K ih =>
    simp only [List.filter_cons]
    by_cases e : a = k
    · subst e
      have := left_mono (K := K) (seen := seen) (seen' := a :: seen) (fun x hx => List.mem_cons_of_mem _ hx)
      unfold left at this
      simp [hs] at this ⊢
      omega
    · have hk' : k ∈ K := by
        rcases List.mem_cons.mp hk with h | h
        · exact absurd h.symm e
        · exact h
      have := ih hk'
      by_cases h1 : a ∈ seen <;> simp [h1, e] at this ⊢ <;> omega

theorem expands_exists [DecidableEq κ] {K : List κ} (hK : ∀ k ∈ K, ∀ k', .incl k' ∈ header k → k' ∈ K) :
    ∀ (n : Nat) (ls : List (Line κ)) (seen : List κ), left K seen ≤ n → (∀ k', .incl k' ∈ ls → k' ∈ K) →
      ∃ seen' out, Expands header seen ls seen' out ∧ ∀ k ∈ seen, k ∈ seen' := by
  intro n
  induction n with
  | zero =>
    intro ls
    induction ls with
    | nil => exact fun seen _ _ => ⟨seen, [], .nil, fun k hk => hk⟩
    | cons l ls ih =>
      intro seen hn hl
      obtain ⟨s, o, h, hs⟩ := ih seen hn (fun k' hk' => hl k' (List.mem_cons_of_mem _ hk'))
      cases l with
      | decl d => exact ⟨s, d :: o, .decl h, hs⟩
      | incl k =>
        by_cases hk : k ∈ seen
        · exact ⟨s, o, .again hk h, hs⟩
        · have := left_cons (hl k (List.mem_cons_self ..)) hk
          omega
  | succ n ihn =>
    intro ls
    induction ls with
    | nil => exact fun seen _ _ => ⟨seen, [], .nil, fun k hk => hk⟩
    | cons l ls ih =>
      intro seen hn hl
      cases l with
      | decl d =>
        obtain ⟨s, o, h, hs⟩ := ih seen hn (fun k' hk' => hl k' (List.mem_cons_of_mem _ hk'))
        exact ⟨s, d :: o, .decl h, hs⟩
      | incl k =>
        by_cases hk : k ∈ seen
        · obtain ⟨s, o, h, hs⟩ := ih seen hn (fun k' hk' => hl k' (List.mem_cons_of_mem _ hk'))
          exact ⟨s, o, .again hk h, hs⟩
        · have hkK := hl k (List.mem_cons_self ..)
          have := left_cons hkK hk
          obtain ⟨s1, o1, h1, hs1⟩ := ihn (header k) (k :: seen) (by omega) (fun k' hk' => hK k hkK k' hk')
          obtain ⟨s2, o2, h2, hs2⟩ := ih s1 (by
            have := left_mono (K := K) (seen := seen) (seen' := s1) (fun x hx => hs1 x (List.mem_cons_of_mem _ hx))
            omega) (fun k' hk' => hl k' (List.mem_cons_of_mem _ hk'))
          exact ⟨s2, o1 ++ o2, .once hk h1 h2, fun x hx => hs2 x (hs1 x (List.mem_cons_of_mem _ hx))⟩

/-- What the compiler sees of a header is one list of declarations, whichever headers include each other. -/
theorem compiles_exists [DecidableEq κ] {K : List κ} (hK : ∀ k ∈ K, ∀ k', .incl k' ∈ header k → k' ∈ K) {k : κ} (hk : k ∈ K) :
    ∃ out, Compiles header k out := by
  obtain ⟨s, o, h, _⟩ := expands_exists hK _ (header k) [k] (Nat.le_refl _) (hK k hk)
  exact ⟨o, s, h⟩

theorem expands_unique {seen s1 s2 : List κ} {ls : List (Line κ)} {o1 o2 : List Decl} (h1 : Expands header seen ls s1 o1)
    (h2 : Expands header seen ls s2 o2) : s1 = s2 ∧ o1 = o2 := by
  induction h1 generalizing s2 o2 with
  | nil => cases h2; exact ⟨rfl, rfl⟩
  | decl h ih =>
    cases h2 with
    | decl h' =>
      obtain ⟨rfl, rfl⟩ := ih h'
      exact ⟨rfl, rfl⟩
  | again hk h ih =>
    cases h2 with
    | again _ h' => exact ih h'
    | once hk' => exact absurd hk hk'
  | once hk hi ho ih1 ih2 =>
    cases h2 with
    | again hk' => exact absurd hk' hk
    | once _ hi' ho' =>
      obtain ⟨rfl, rfl⟩ := ih1 hi'
      obtain ⟨rfl, rfl⟩ := ih2 ho'
      exact ⟨rfl, rfl⟩

end

/-! ### The declarations of a message -/

/-- The messages whose classes are among the declarations. -/
def clsMsgs : List Decl → List Path
  | [] => []
  | .cls _ q _ :: ds => q :: clsMsgs ds
  | _ :: ds => clsMsgs ds

theorem clsMsgs_append : ∀ a b : List Decl, clsMsgs (a ++ b) = clsMsgs a ++ clsMsgs b
  | [], b => rfl
  | .cls _ _ _ :: a, b => by simp [clsMsgs, clsMsgs_append a b]
  | .fwd _ :: a, b => by simp [clsMsgs, clsMsgs_append a b]
  | .list _ :: a, b => by simp [clsMsgs, clsMsgs_append a b]
  | .gadget _ :: a, b => by simp [clsMsgs, clsMsgs_append a b]

mutual
theorem clsMsgs_declare : ∀ (m : Msg) (ns : List Str) (path : Path), clsMsgs (declareDecls ns path m) = (declare ns path m).map Printed.msg
  | .mk name fields nested e, ns, path => by
    rw [declareDecls, declare, clsMsgs_append, List.map_append, clsMsgs_declareList nested]
    rfl
theorem clsMsgs_declareList : ∀ (l : List Msg) (ns : List Str) (path : Path) (fields : List FieldD),
    clsMsgs (declareDeclsList ns path fields l) = (declareList ns path fields l).map Printed.msg
  | [], _, _, _ => rfl
  | n :: rest, ns, path, fields => by
    rw [declareDeclsList, declareList, clsMsgs_append, List.map_append, clsMsgs_declareList rest]
    by_cases h : visits fields (path ++ [n.name])
    · simp only [h, if_true, clsMsgs_declare n]
    · simp only [h]; rfl
end

mutual
theorem clsMsgs_forward : ∀ (m : Msg) (ns : List Str) (path : Path), clsMsgs (forwardDecls ns path m) = []
  | .mk name fields nested e, ns, path => by
    rw [forwardDecls, clsMsgs_append]
    by_cases h : hasNested (path ++ [name]) fields nested
    · simp only [h, if_true, clsMsgs_forwardList nested]; rfl
    · simp only [h]; rfl
theorem clsMsgs_forwardList : ∀ (l : List Msg) (ns : List Str) (path : Path) (fields : List FieldD),
    clsMsgs (forwardDeclsList ns path fields l) = []
  | [], _, _, _ => rfl
  | n :: rest, ns, path, fields => by
    rw [forwardDeclsList, clsMsgs_append, clsMsgs_forwardList rest]
    by_cases h : visits fields (path ++ [n.name])
    · simp only [h, if_true, clsMsgs_forward n]; rfl
    · simp only [h]; rfl
end

mutual
/-- The forward declarations are those of the classes that are printed. -/
theorem mem_forwardDecls : ∀ (m : Msg) (ns : List Str) (path : Path) (p : Printed), p ∈ declare ns path m →
    .fwd p.cpp ∈ forwardDecls ns path m ∧ .list p.cpp ∈ forwardDecls ns path m
  | .mk name fields nested e, ns, path, p, hp => by
    rw [declare, List.mem_append, List.mem_singleton] at hp
    rw [forwardDecls]
    rcases hp with hp | rfl
    · have hn : hasNested (path ++ [name]) fields nested = true := by
        cases hh : hasNested (path ++ [name]) fields nested with
        | true => rfl
        | false =>
          rw [declareList_none nested (noNested hh)] at hp
          simp at hp
      have := mem_forwardDeclsList nested (ns ++ [nestedNs name]) (path ++ [name]) fields p hp
      simp only [hn, if_true]
      exact ⟨List.mem_append_left _ this.1, List.mem_append_left _ this.2⟩
    · exact ⟨List.mem_append_right _ (by simp), List.mem_append_right _ (by simp)⟩
theorem mem_forwardDeclsList : ∀ (l : List Msg) (ns : List Str) (path : Path) (fields : List FieldD) (p : Printed), p ∈ declareList ns path fields l →
    .fwd p.cpp ∈ forwardDeclsList ns path fields l ∧ .list p.cpp ∈ forwardDeclsList ns path fields l
  | [], _, _, _, p, hp => by simp [declareList] at hp
  | n :: rest, ns, path, fields, p, hp => by
    rw [declareList, List.mem_append] at hp
    rw [forwardDeclsList]
    rcases hp with hp | hp
    · by_cases h : visits fields (path ++ [n.name])
      · simp only [h, if_true] at hp ⊢
        have := mem_forwardDecls n ns path p hp
        exact ⟨List.mem_append_left _ this.1, List.mem_append_left _ this.2⟩
      · simp [h] at hp
    · have := mem_forwardDeclsList rest ns path fields p hp
      exact ⟨List.mem_append_right _ this.1, List.mem_append_right _ this.2⟩
end

mutual
/-- The class of a message and its list type. -/
theorem mem_declareDecls : ∀ (m : Msg) (ns : List Str) (path : Path) (p : Printed), p ∈ declare ns path m →
    (∃ types, .cls p.cpp p.msg types ∈ declareDecls ns path m) ∧ .list p.cpp ∈ declareDecls ns path m
  | .mk name fields nested e, ns, path, p, hp => by
    rw [declare, List.mem_append, List.mem_singleton] at hp
    rw [declareDecls]
    rcases hp with hp | rfl
    · obtain ⟨⟨types, h1⟩, h2⟩ := mem_declareDeclsList nested (ns ++ [nestedNs name]) (path ++ [name]) fields p hp
      exact ⟨⟨types, List.mem_append_left _ h1⟩, List.mem_append_left _ h2⟩
    · exact ⟨⟨_, List.mem_append_right _ (List.mem_cons_self ..)⟩, List.mem_append_right _ (by simp)⟩
theorem mem_declareDeclsList : ∀ (l : List Msg) (ns : List Str) (path : Path) (fields : List FieldD) (p : Printed), p ∈ declareList ns path fields l →
    (∃ types, .cls p.cpp p.msg types ∈ declareDeclsList ns path fields l) ∧ .list p.cpp ∈ declareDeclsList ns path fields l
  | [], _, _, _, p, hp => by simp [declareList] at hp
  | n :: rest, ns, path, fields, p, hp => by
    rw [declareList, List.mem_append] at hp
    rw [declareDeclsList]
    rcases hp with hp | hp
    · by_cases h : visits fields (path ++ [n.name])
      · simp only [h, if_true] at hp ⊢
        obtain ⟨⟨types, h1⟩, h2⟩ := mem_declareDecls n ns path p hp
        exact ⟨⟨types, List.mem_append_left _ h1⟩, List.mem_append_left _ h2⟩
      · simp [h] at hp
    · obtain ⟨⟨types, h1⟩, h2⟩ := mem_declareDeclsList rest ns path fields p hp
      exact ⟨⟨types, List.mem_append_right _ h1⟩, List.mem_append_right _ h2⟩
end

mutual
/-- A class among the declarations is that of a message the generator gets to, with the types of its fields. -/
theorem cls_reached : ∀ (m : Msg) (ns : List Str) (path : Path) (cpp : List Str) (q : Path) (types : List FieldD),
    .cls cpp q types ∈ declareDecls ns path m →
      ⟨q, cpp⟩ ∈ declare ns path m ∧ ∃ x, Reached path m q x ∧ types = typesOf q x.fields x.nested
  | .mk name fields nested e, ns, path, cpp, q, types, h => by
    rw [declareDecls, List.mem_append] at h
    rw [declare, List.mem_append]
    rcases h with h | h
    · obtain ⟨h1, n, hn, hv, x, hr, ht⟩ := cls_reachedList nested (ns ++ [nestedNs name]) (path ++ [name]) fields cpp q types h
      refine ⟨Or.inl h1, x, .nested (m := .mk name fields nested e) hn ?_ hr, ht⟩
      exact (visits_iff (x := .mk name fields nested e)).mp hv
    · simp only [List.mem_cons, Decl.cls.injEq, reduceCtorEq, List.not_mem_nil, or_false] at h
      obtain ⟨rfl, rfl, rfl⟩ := h
      exact ⟨Or.inr (List.mem_singleton.mpr rfl), .mk name fields nested e, .self, rfl⟩
theorem cls_reachedList : ∀ (l : List Msg) (ns : List Str) (path : Path) (fields : List FieldD) (cpp : List Str) (q : Path) (types : List FieldD),
    .cls cpp q types ∈ declareDeclsList ns path fields l →
      ⟨q, cpp⟩ ∈ declareList ns path fields l ∧
      ∃ n ∈ l, visits fields (path ++ [n.name]) = true ∧ ∃ x, Reached path n q x ∧ types = typesOf q x.fields x.nested
  | [], _, _, _, _, _, _, h => by simp [declareDeclsList] at h
  | n :: rest, ns, path, fields, cpp, q, types, h => by
    rw [declareDeclsList, List.mem_append] at h
    rw [declareList, List.mem_append]
    rcases h with h | h
    · by_cases hv : visits fields (path ++ [n.name])
      · simp only [hv, if_true] at h ⊢
        obtain ⟨h1, x, hr, ht⟩ := cls_reached n ns path cpp q types h
        exact ⟨Or.inl h1, n, List.mem_cons_self .., hv, x, hr, ht⟩
      · simp [hv] at h
    · obtain ⟨h1, k, hk, hv, x, hr, ht⟩ := cls_reachedList rest ns path fields cpp q types h
      exact ⟨Or.inr h1, k, List.mem_cons_of_mem _ hk, hv, x, hr, ht⟩
end

end QtPb.Gen
