import Verif.SpecCppInline
import Verif.TextSrcFile
/-
What the reader of headers of `SpecCppInline` finds in printed text, call by call. (Helpers for the theorems about generated headers.)
-/
set_option linter.unusedVariables false

namespace QtPb.TextProof
open QtPb.Gen QtPb.Gen.Text QtPb.Gen.Text.Spec QtPb.SpecCpp

theorem inAll_append (r : InReader) (a b : List Lexeme) : inAll r (a ++ b) = (inAll r a).bind fun r' => inAll r' b := by
  induction a generalizing r with
  | nil => rfl
  | cons x a ih =>
    simp only [List.cons_append, inAll]
    cases onIn r x with
    | none => rfl
    | some r' => exact ih r'

/-- Complete declarations; what is left of a last one does not matter (with `a`, nothing is left before; with `b`, nothing is left after). -/
def HEff (a b : Bool) (ls : List Lexeme) (e : List Text → List Declared) : Prop :=
  ∀ scope head found, atLabel head = false → (a = true → head = []) →
    ∃ head', atLabel head' = false ∧ (b = true → head' = []) ∧
      inAll ⟨scope, head, none, found⟩ ls = some ⟨scope, head', none, found ++ e scope⟩

theorem HEff.nil (a : Bool) : HEff a a [] (fun _ => []) := fun scope head found h1 h2 => ⟨head, h1, h2, by simp [inAll]⟩

theorem HEff.append {a b d : Bool} {x y : List Lexeme} {e f : List Text → List Declared} (hx : HEff a b x e) (hy : HEff b d y f) :
    HEff a d (x ++ y) (fun s => e s ++ f s) := by
  intro scope head found h1 h2
  obtain ⟨head1, g1, g2, g3⟩ := hx scope head found h1 h2
  obtain ⟨head2, k1, k2, k3⟩ := hy scope head1 (found ++ e scope) g1 g2
  exact ⟨head2, k1, k2, by rw [inAll_append, g3, Option.bind_some, k3, List.append_assoc]⟩

theorem HEff.weaken {a b a' b' : Bool} {x : List Lexeme} {e : List Text → List Declared} (h : HEff a b x e) (ha : a = true → a' = true)
    (hb : b' = true → b = true) : HEff a' b' x e := by
  intro scope head found h1 h2
  obtain ⟨head1, g1, g2, g3⟩ := h scope head found h1 (fun e => h2 (ha e))
  exact ⟨head1, g1, fun e => g2 (hb e), g3⟩

/-! ### Text without functions and members -/

structure PlainL (x : Lexeme) : Prop where
  noOpen : x ≠ .punct '{'
  noClose : x ≠ .punct '}'
  word : ∀ w, x = .word w → w ∉ sections

/-- Statements are not those of members. -/
def covered : Bool → List Lexeme → Bool
  | _, [] => true
  | s, x :: r => if x = .punct ';' then s && covered false r else covered (s || notInMember x) r

theorem covered_mono : ∀ (ls : List Lexeme) (s : Bool), covered s ls = true → covered true ls = true
  | [], _, _ => rfl
  | x :: r, s, h => by
    simp only [covered] at h ⊢
    split
    · rename_i hx; simp only [hx, if_true, Bool.and_eq_true] at h; simp [h.2]
    · rename_i hx
      simp only [hx, if_false] at h
      exact covered_mono r _ h

theorem covered_append : ∀ (a b : List Lexeme) (s : Bool), (∀ x ∈ a, x ≠ .punct ';') → covered s b = true → covered s (a ++ b) = true
  | [], b, s, _, h => h
  | x :: a, b, s, ha, h => by
    have hx : x ≠ .punct ';' := ha x (by simp)
    simp only [List.cons_append, covered, hx, if_false]
    refine covered_append a b _ (fun y hy => ha y (by simp [hy])) ?_
    cases s with
    | true => exact h
    | false => cases notInMember x with
      | true => exact covered_mono b _ h
      | false => exact h

theorem atLabel_snoc {head : List Lexeme} {x : Lexeme} (h : PlainL x) : atLabel (head ++ [x]) = false := by
  unfold atLabel
  rw [List.getLast?_concat]
  cases x with
  | word w => simpa using h.word w rfl
  | _ => rfl

theorem plain_all : ∀ (ls : List Lexeme) (s : Bool), (∀ x ∈ ls, PlainL x) → covered s ls = true → ∀ scope head found, atLabel head = false →
    (s = true → head.any notInMember = true) →
    ∃ head', atLabel head' = false ∧ inAll ⟨scope, head, none, found⟩ ls = some ⟨scope, head', none, found⟩
  | [], s, _, _, scope, head, found, hl, _ => ⟨head, hl, rfl⟩
  | x :: ls, s, h, hc, scope, head, found, hl, hs => by
    have hx := h x (by simp)
    have hr := fun y hy => h y (List.mem_cons_of_mem x hy)
    by_cases hx1 : x = .punct ';'
    · subst hx1
      simp only [covered, if_true, Bool.and_eq_true] at hc
      have hm : memberOf head = none := by simp [memberOf, hs hc.1]
      obtain ⟨head', k1, k2⟩ := plain_all ls false hr hc.2 scope [] found rfl (by simp)
      exact ⟨head', k1, by simp [inAll, onIn, hm, k2]⟩
    · simp only [covered, hx1, if_false] at hc
      obtain ⟨head', k1, k2⟩ := plain_all ls _ hr hc scope (head ++ [x]) found (atLabel_snoc hx) (by
        intro e
        rw [Bool.or_eq_true] at e
        simp only [List.any_append, List.any_cons, List.any_nil, Bool.or_false, Bool.or_eq_true]
        exact e.imp hs id)
      exact ⟨head', k1, by simp [inAll, onIn, hx.noOpen, hx.noClose, hx1, hl, k2]⟩

theorem heff_plain {ls : List Lexeme} (h : ∀ x ∈ ls, PlainL x) (hc : covered false ls = true) : HEff false false ls (fun _ => []) := by
  intro scope head found h1 _
  obtain ⟨head', k1, k2⟩ := plain_all ls false h hc scope head found h1 (by simp)
  exact ⟨head', k1, by simp, by simp [k2]⟩

theorem harmless_plain {x : Lexeme} (h : Harmless x) : PlainL x ∧ x ≠ .punct ';' := by
  cases x with
  | str s => exact h.elim
  | word w =>
    refine ⟨⟨by simp, by simp, fun v e => ?_⟩, by simp⟩
    cases e
    simp only [Harmless, reserved, keywords, labels, List.mem_append, List.mem_cons, not_or] at h
    exact h.2.2
  | punct c =>
    obtain ⟨-, -, -, -, -, -, -, h1, h2, -, -, h3⟩ := okChar_ne h
    exact ⟨⟨by simp [h1], by simp [h2], by simp⟩, by simp [h3]⟩

/-! ### Templates without functions and members -/

def plainS : SLex → Bool
  | .word p => (match literal p with | some w => !sections.contains w | none => quietWord p)
  | .punct c => c != '{' && c != '}'
  | .str _ => true

def markS : SLex → Bool
  | .word p => literal p == some kwClass
  | .punct c => c == '=' || c == '(' || c == ')'
  | .str _ => false

def coveredS : Bool → List SLex → Bool
  | _, [] => true
  | s, x :: r => if x = .punct ';' then s && coveredS false r else coveredS (s || markS x) r

theorem inst_plain {vars : Vars} {inCode : Str → Bool} (hg : Good vars inCode) {x : SLex} (hd : Defined vars inCode x) (h : plainS x = true) :
    (∀ y ∈ inst vars x, PlainL y) ∧ (x ≠ .punct ';' → ∀ y ∈ inst vars x, y ≠ .punct ';') := by
  cases x with
  | word p =>
    simp only [plainS] at h
    cases hl : literal p with
    | some w =>
      simp only [hl, Bool.not_eq_true', List.contains_eq_mem, decide_eq_false_iff_not] at h
      obtain ⟨hv, hw⟩ := literal_val vars p w hl
      simp only [inst, hv, lexemes_word w hw, endWord]
      refine ⟨fun y hy => ?_, fun _ y hy => ?_⟩
      · split at hy
        · simp at hy
        · simp only [List.mem_singleton] at hy
          subst hy
          exact ⟨by simp, by simp, fun v e => by cases e; exact h⟩
      · split at hy
        · simp at hy
        · simp only [List.mem_singleton] at hy
          subst hy; simp
    | none =>
      simp only [hl] at h
      have := quietWord_harmless hg hd h
      exact ⟨fun y hy => (harmless_plain (this y hy)).1, fun _ y hy => (harmless_plain (this y hy)).2⟩
  | punct c =>
    simp only [plainS, Bool.and_eq_true, bne_iff_ne, ne_eq] at h
    refine ⟨fun y hy => ?_, fun hx y hy => ?_⟩
    · simp only [inst, List.mem_singleton] at hy
      subst hy
      exact ⟨by simpa using h.1, by simpa using h.2, by simp⟩
    · simp only [inst, List.mem_singleton] at hy
      subst hy
      exact fun e => hx (by cases e; rfl)
  | str p =>
    refine ⟨fun y hy => ?_, fun _ y hy => ?_⟩ <;>
    · simp only [inst, List.mem_singleton] at hy
      subst hy
      first | exact ⟨by simp, by simp, by simp⟩ | simp

theorem covered_true {ls : List Lexeme} : ∀ {a : List Lexeme}, (∃ x ∈ a, notInMember x = true) → (∀ x ∈ a, x ≠ .punct ';') →
    covered true ls = true → ∀ s, covered s (a ++ ls) = true
  | [], ⟨x, hx, _⟩, _, _, _ => by simp at hx
  | y :: a, ⟨x, hx, hm⟩, ha, h, s => by
    have hy : y ≠ .punct ';' := ha y (by simp)
    simp only [List.cons_append, covered, hy, if_false]
    rcases List.mem_cons.1 hx with rfl | hx
    · simp only [hm, Bool.or_true]
      exact covered_append a ls true (fun z hz => ha z (by simp [hz])) h
    · exact covered_true ⟨x, hx, hm⟩ (fun z hz => ha z (by simp [hz])) h _

theorem inst_covered {vars : Vars} {inCode : Str → Bool} (hg : Good vars inCode) : ∀ (sl : List SLex) (s : Bool),
    (∀ x ∈ sl, Defined vars inCode x) → (∀ x ∈ sl, plainS x = true) → coveredS s sl = true → covered s (sl.flatMap (inst vars)) = true
  | [], _, _, _, _ => rfl
  | x :: sl, s, hd, hp, hc => by
    have ih := fun s' => inst_covered hg sl s' (fun y hy => hd y (by simp [hy])) (fun y hy => hp y (by simp [hy]))
    have hx := (inst_plain hg (hd x (by simp)) (hp x (by simp))).2
    rw [List.flatMap_cons]
    by_cases he : x = .punct ';'
    · subst he
      simp only [coveredS, if_true, Bool.and_eq_true] at hc
      simp [inst, covered, hc.1, ih false hc.2]
    · simp only [coveredS, he, if_false] at hc
      cases hm : markS x with
      | false =>
        rw [hm, Bool.or_false] at hc
        exact covered_append _ _ s (hx he) (ih s hc)
      | true =>
        rw [hm, Bool.or_true] at hc
        refine covered_true ?_ (hx he) (ih true hc) s
        cases x with
        | str p => simp [markS] at hm
        | punct c =>
          refine ⟨.punct c, by simp [inst], ?_⟩
          simp only [markS, Bool.or_eq_true, beq_iff_eq] at hm
          rcases hm with (rfl | rfl) | rfl <;> rfl
        | word p =>
          simp only [markS, beq_iff_eq] at hm
          obtain ⟨hv, hw⟩ := literal_val vars p _ hm
          exact ⟨.word kwClass, by simp only [inst, hv, lexemes_word _ hw]; decide, rfl⟩

/-! ### Calls -/

/-- The calls print complete declarations. -/
def HG (a b : Bool) (ops : List Op) (e : List Text → List Declared) : Prop := ∃ ls, Lx false false ops ls ∧ HEff a b ls e

theorem HG.nil (a : Bool) : HG a a [] (fun _ => []) := ⟨[], Lx.nil _, HEff.nil _⟩

theorem HG.append {a b d : Bool} {x y : List Op} {e f : List Text → List Declared} (hx : HG a b x e) (hy : HG b d y f) :
    HG a d (x ++ y) (fun s => e s ++ f s) := by
  obtain ⟨l, h1, h2⟩ := hx
  obtain ⟨k, h3, h4⟩ := hy
  exact ⟨l ++ k, h1.append h3, h2.append h4⟩

theorem HG.congr {a b : Bool} {x : List Op} {e f : List Text → List Declared} (h : HG a b x e) (he : ∀ s, e s = f s) : HG a b x f := by
  have : e = f := funext he
  rw [← this]; exact h

theorem HG.cons {a b d : Bool} {op : Op} {y : List Op} {e f : List Text → List Declared} (hx : HG a b [op] e) (hy : HG b d y f) :
    HG a d (op :: y) (fun s => e s ++ f s) := HG.append hx hy

theorem HG.weaken {a b a' b' : Bool} {x : List Op} {e : List Text → List Declared} (h : HG a b x e) (ha : a = true → a' = true)
    (hb : b' = true → b = true) : HG a' b' x e := by
  obtain ⟨l, h1, h2⟩ := h
  exact ⟨l, h1, h2.weaken ha hb⟩

theorem HG.indented {a b : Bool} {x : List Op} {e : List Text → List Declared} (h : HG a b x e) : HG a b (indented x) e := by
  obtain ⟨l, h1, h2⟩ := h
  exact ⟨l, h1.indented, h2⟩

theorem HG.flatMap {a : Bool} {α : Type} {l : List α} {f : α → List Op} {e : α → List Text → List Declared} (h : ∀ x ∈ l, HG a a (f x) (e x)) :
    HG a a (l.flatMap f) (fun s => l.flatMap fun x => e x s) := by
  induction l with
  | nil => exact HG.nil _
  | cons x l ih =>
    have := (h x (by simp)).append (ih (fun y hy => h y (by simp [hy])))
    simpa [List.flatMap_cons] using this

theorem HG.map {a : Bool} {α : Type} {l : List α} {f : α → Op} {e : α → List Text → List Declared} (h : ∀ x ∈ l, HG a a [f x] (e x)) :
    HG a a (l.map f) (fun s => l.flatMap fun x => e x s) := by
  have := HG.flatMap (f := fun x => [f x]) h
  rwa [← List.map_eq_flatMap] at this

theorem HG.ite {a b : Bool} {p : Prop} [Decidable p] {x y : List Op} {e f : List Text → List Declared} (hx : p → HG a b x e)
    (hy : ¬ p → HG a b y f) : HG a b (if p then x else y) (fun s => if p then e s else f s) := by
  by_cases h : p
  · simpa [h] using hx h
  · simpa [h] using hy h

/-- Text without functions and members. -/
abbrev HQ (ops : List Op) : Prop := HG false false ops (fun _ => [])

theorem HQ.append {x y : List Op} (hx : HQ x) (hy : HQ y) : HQ (x ++ y) := (HG.append hx hy).congr (by simp)
theorem HQ.cons {x : Op} {y : List Op} (hx : HQ [x]) (hy : HQ y) : HQ (x :: y) := HQ.append hx hy
theorem HQ.nil : HQ [] := HG.nil _
theorem HQ.flatMap {α : Type} {l : List α} {f : α → List Op} (h : ∀ x ∈ l, HQ (f x)) : HQ (l.flatMap f) :=
  (HG.flatMap (e := fun _ _ => []) h).congr (by simp)
theorem HQ.map {α : Type} {l : List α} {f : α → Op} (h : ∀ x ∈ l, HQ [f x]) : HQ (l.map f) :=
  (HG.map (e := fun _ _ => []) h).congr (by simp)
theorem HQ.ite {p : Prop} [Decidable p] {x y : List Op} (hx : p → HQ x) (hy : ¬ p → HQ y) : HQ (if p then x else y) := by
  split
  · exact hx ‹_›
  · exact hy ‹_›

/-- Whether a template is such text. -/
def quietT (keys : List Str) (t : Str) : Bool :=
  match symb (fun _ => true) keys t with
  | some (sl, false) => sl.all plainS && coveredS false sl
  | _ => false

theorem hq_of {vars : Vars} {keys : List Str} {t : Str} (hg : GoodL vars) (hk : ∀ x ∈ keys, (vars.get x).isSome = true)
    (h : quietT keys t = true) : HQ [.print vars t] := by
  unfold quietT at h
  split at h
  · rename_i sl hs
    rw [Bool.and_eq_true, List.all_eq_true] at h
    have hd : ∀ x ∈ sl, Defined vars (fun _ => true) x := fun x hx => by
      have := symb_defined hs x hx
      cases x with
      | word p =>
        intro v hv
        simp only [definedS, List.all_eq_true] at this
        exact ⟨hk v (by simpa using this v (mem_wordVars hv)), rfl⟩
      | _ => trivial
    refine ⟨_, lx_print hg.good.fits hk hs, heff_plain ?_ (inst_covered hg.good sl false hd h.1 h.2)⟩
    intro y hy
    obtain ⟨x, hx, hy⟩ := List.mem_flatMap.1 hy
    exact (inst_plain hg.good (hd x hx) (h.1 x hx)).1 y hy
  · simp at h

theorem hq_nil {t : Str} (h : quietT [] t = true) : HQ [.print [] t] := hq_of .nil (by simp) h

theorem hq_newline : HQ [.print [] (text! "\n")] := hq_nil (by decide +kernel)

/-- A comment. -/
theorem hq_comment {o : Options} {s : Str} (h : o.comments = true → '$' ∉ s ∧ ∃ t, Comments.Trimmed s t ∧ Comments.Harmless t) :
    HQ (printComments o s) := by
  refine ⟨[], ?_, HEff.nil _⟩
  intro n start w _ hw
  have hw := hw rfl
  subst hw
  by_cases hc : o.comments = true
  · obtain ⟨hd, t, ht, hh⟩ := h hc
    by_cases hne : t = []
    · have hcalls : Comments.printCalls o.comments s = [] := by
        rw [hne] at ht
        simp [Comments.printCalls, hc, Comments.trim_eq ht]
      exact ⟨[], start, [], [], by simp [printComments, hcalls, run], rfl, rfl, fun _ => rfl, fun _ => rfl⟩
    · obtain ⟨text, h1, h2⟩ := Comments.C82_comment_partial n start s t ht hne hd hh
      have hcalls : ∀ x ∈ Comments.printCalls o.comments s, '$' ∉ x := by
        have hfirst : ∀ x r, t = x :: r → ¬ Comments.Blank [x] := by
          obtain ⟨a, b, _, _, _, h, _⟩ := ht
          exact h
        have htd : '$' ∉ t := by
          obtain ⟨a, b, rfl, _⟩ := ht
          exact fun h => hd (by simp [h])
        have := (Comments.body_noPair hne hfirst).2.2.2 htd
        intro x hx
        simp only [Comments.printCalls, hc, Comments.trim_eq ht, Bool.not_true, Bool.false_eq_true, if_false, hne, List.mem_append,
          List.mem_singleton] at hx
        rcases hx with (rfl | hx) | rfl
        · decide
        · exact this x hx
        · decide
      have hr := run_plain n (Comments.printCalls o.comments s) start hcalls
      have he : Comments.emit n start (Comments.printCalls o.comments s).flatten = text := by
        rw [Comments.printComments, ← hc, Comments.printAll_plain _ hcalls] at h1
        exact Option.some.inj h1
      rw [he] at hr
      exact ⟨text, _, [], [], hr, lex_comment h2, rfl, fun _ => rfl, fun _ => rfl⟩
  · have : Comments.printCalls o.comments s = [] := by simp [Comments.printCalls, hc]
    exact ⟨[], start, [], [], by simp [printComments, this, run], rfl, rfl, fun _ => rfl, fun _ => rfl⟩

end QtPb.TextProof
