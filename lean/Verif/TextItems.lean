import Verif.SpecCppDef
import Verif.TextEff
/-
The lexemes of printed text, call by call, and the blocks and statements the reader of `SpecCppDef` finds in them. (Helpers for the theorems
about generated sources.)
-/
namespace QtPb.TextProof
open QtPb.Gen QtPb.Gen.Text QtPb.Gen.Text.Spec QtPb.SpecCpp

/-! ### The lexemes that calls print -/

/-- The calls print these lexemes, wherever they are made: at the beginning of a word or (with `a`) after one, leaving the lexer at the
beginning of a word or (with `b`) after one. -/
def Lx (a b : Bool) (ops : List Op) (ls : List Lexeme) : Prop :=
  ∀ n start w, (start = true → w = []) → (a = false → w = []) →
    ∃ text start' out w', run n start ops = some (text, n, start') ∧ lexFrom (.code w) text = some (out, .code w') ∧
      out ++ endWord w' = endWord w ++ ls ∧ (start' = true → w' = []) ∧ (b = false → w' = [])

theorem Lx.nil (a : Bool) : Lx a a [] [] := fun n start w h1 h2 => ⟨[], start, [], w, rfl, rfl, by simp, h1, h2⟩

theorem Lx.append {a b d : Bool} {x y : List Op} {ls ks : List Lexeme} (hx : Lx a b x ls) (hy : Lx b d y ks) :
    Lx a d (x ++ y) (ls ++ ks) := by
  intro n start w h1 h2
  obtain ⟨t1, s1, o1, w1, r1, l1, e1, f1, g1⟩ := hx n start w h1 h2
  obtain ⟨t2, s2, o2, w2, r2, l2, e2, f2, g2⟩ := hy n s1 w1 f1 g1
  refine ⟨t1 ++ t2, s2, o1 ++ o2, w2, ?_, ?_, ?_, f2, g2⟩
  · rw [run_append, r1]; simp [r2]
  · rw [lexFrom_append_some l1, l2]; rfl
  · rw [List.append_assoc, e2, ← List.append_assoc, e1, List.append_assoc]

theorem Lx.cons {a b d : Bool} {op : Op} {y : List Op} {ls ks : List Lexeme} (hx : Lx a b [op] ls) (hy : Lx b d y ks) :
    Lx a d (op :: y) (ls ++ ks) := Lx.append hx hy

theorem Lx.congr {a b : Bool} {x : List Op} {ls ks : List Lexeme} (h : Lx a b x ls) (e : ls = ks) : Lx a b x ks := e ▸ h

theorem Lx.weaken {a : Bool} {x : List Op} {ls : List Lexeme} (h : Lx a false x ls) : Lx a true x ls := by
  intro n start w h1 h2
  obtain ⟨t1, s1, o1, w1, r1, l1, e1, f1, g1⟩ := h n start w h1 h2
  exact ⟨t1, s1, o1, w1, r1, l1, e1, f1, by simp⟩

theorem Lx.indent1 {a b : Bool} {x : List Op} {ls : List Lexeme} (h : Lx a b x ls) : Lx a b ([.indent] ++ x ++ [.outdent]) ls := by
  intro n start w h1 h2
  obtain ⟨t1, s1, o1, w1, r1, l1, e1⟩ := h (n + 2) start w h1 h2
  exact ⟨t1, s1, o1, w1, run_indent n start x r1, l1, e1⟩

theorem Lx.indented {a b : Bool} {x : List Op} {ls : List Lexeme} (h : Lx a b x ls) : Lx a b (indented x) ls := by
  have e : QtPb.Gen.Text.indented x = [.indent] ++ ([.indent] ++ x ++ [.outdent]) ++ [.outdent] := by
    simp [QtPb.Gen.Text.indented]
  rw [e]; exact h.indent1.indent1

theorem Lx.flatMap {α : Type} {l : List α} {f : α → List Op} {k : α → List Lexeme} (h : ∀ x ∈ l, Lx false false (f x) (k x)) :
    Lx false false (l.flatMap f) (l.flatMap k) := by
  induction l with
  | nil => exact Lx.nil _
  | cons x l ih => exact (h x (by simp)).append (ih (fun y hy => h y (by simp [hy])))

theorem Lx.map {α : Type} {l : List α} {f : α → Op} {k : α → List Lexeme} (h : ∀ x ∈ l, Lx false false [f x] (k x)) :
    Lx false false (l.map f) (l.flatMap k) := by
  have := Lx.flatMap (f := fun x => [f x]) h
  rwa [← List.map_eq_flatMap] at this

theorem Lx.ite {p : Prop} [Decidable p] {a b : Bool} {x y : List Op} {ls ks : List Lexeme} (hx : p → Lx a b x ls) (hy : ¬ p → Lx a b y ks) :
    Lx a b (if p then x else y) (if p then ls else ks) := by
  split
  · exact hx ‹_›
  · exact hy ‹_›

/-! ### Templates -/

def definedS (keys : List Str) : SLex → Bool
  | .word p => (wordVars p).all keys.contains
  | .punct _ => true
  | .str p => (wordVars p).all keys.contains

/-- The lexemes of a template with variables in them, and whether it ends with a word. None if a variable is not among `keys` or stands
in code although it may not. -/
def symb (inCode : Str → Bool) (keys : List Str) (t : Str) : Option (List SLex × Bool) :=
  match tokens none t with
  | none => none
  | some ts =>
    if (wordVars ts).all keys.contains then
      match sLex inCode (.code []) ts with
      | some (a, .code p) =>
        if a.all (definedS keys) && (wordVars p).all keys.contains then
          (if p = [] then some (a, false) else some (a ++ [.word p], true))
        else none
      | _ => none
    else none

theorem symb_defined {inCode : Str → Bool} {keys : List Str} {t : Str} {sl : List SLex} {b : Bool} (h : symb inCode keys t = some (sl, b)) :
    ∀ x ∈ sl, definedS keys x = true := by
  unfold symb at h
  split at h <;> first | (cases h; done) | skip
  split at h <;> first | (cases h; done) | skip
  split at h <;> first | (cases h; done) | skip
  split at h <;> first | (cases h; done) | skip
  rename_i hd
  simp only [Bool.and_eq_true, List.all_eq_true] at hd
  split at h
  · simp only [Option.some.injEq, Prod.mk.injEq] at h
    obtain ⟨rfl, -⟩ := h
    exact hd.1
  · simp only [Option.some.injEq, Prod.mk.injEq] at h
    obtain ⟨rfl, -⟩ := h
    intro x hx
    rcases List.mem_append.1 hx with hx | hx
    · exact hd.1 x hx
    · simp only [List.mem_singleton] at hx
      subst hx
      simpa only [definedS, List.all_eq_true] using hd.2

theorem lx_print {vars : Vars} {inCode : Str → Bool} {keys : List Str} {t : Str} {sl : List SLex} {b : Bool}
    (hg : Fits vars inCode) (hk : ∀ x ∈ keys, (vars.get x).isSome = true) (h : symb inCode keys t = some (sl, b)) :
    Lx false b [.print vars t] (sl.flatMap (inst vars)) := by
  unfold symb at h
  cases ht : tokens none t with
  | none => simp [ht] at h
  | some ts =>
    simp only [ht] at h
    split at h <;> first | (cases h; done) | skip
    rename_i hdef
    cases hs : sLex inCode (.code []) ts with
    | none => simp [hs] at h
    | some r =>
      obtain ⟨a, S⟩ := r
      cases S with
      | code p =>
        simp only [hs] at h
        split at h <;> first | (cases h; done) | skip
        have hd1 : ∀ x, Tok.var x ∈ ts → (vars.get x).isSome = true := fun x hx => by
          have := List.all_eq_true.1 hdef x (mem_wordVars hx)
          exact hk x (by simpa using this)
        intro n start w _ hw
        have hw := hw rfl
        subst hw
        obtain ⟨text, start', ls, l', pre', m1, m2, ⟨hok, w, rfl, m3⟩, m4, m5⟩ :=
          lex_template hg n ts start (.code []) (.code p) a [] (.code []) hd1 (by intro _; simp [Free, val])
            ⟨by simp [val], [], rfl, rfl⟩ hs
        simp only [List.nil_append] at m4
        have hfin : start' = true → w = [] := fun hst => by
          have := m5 hst
          simp only [Free] at this
          rw [this] at m3
          simp [lexFrom] at m3
          exact m3.2
        have hrun : run n start [.print vars t] = some (text, n, start') := by simp [run, ht, m1]
        have hlex : lexemes (val vars p) = pre' ++ endWord w := lexFrom_lexemes m3
        split at h
        · rename_i hp
          simp only [Option.some.injEq, Prod.mk.injEq] at h
          obtain ⟨rfl, rfl⟩ := h
          subst hp
          simp [val, lexFrom] at m3
          obtain ⟨rfl, rfl⟩ := m3
          exact ⟨text, start', ls, [], hrun, m2, by simp [m4, endWord], fun _ => rfl, fun _ => rfl⟩
        · simp only [Option.some.injEq, Prod.mk.injEq] at h
          obtain ⟨rfl, rfl⟩ := h
          exact ⟨text, start', ls, w, hrun, m2, by simp [m4, endWord, inst, hlex], hfin, by simp⟩
      | _ => simp [hs] at h

/-- A template that begins with a mark may follow a word. -/
theorem Lx.after_word {b : Bool} {vars : Vars} {t : Str} {ls : List Lexeme} {c : Char} {ts : List Tok}
    (h : Lx false b [.print vars t] ls) (ht : tokens none t = some (.ch c :: ts)) (hc : isWord c = false) :
    Lx true b [.print vars t] ls := by
  intro n start w hst _
  obtain ⟨text, start', out, w', h1, h2, h3, h4⟩ := h n start [] (fun _ => rfl) (fun _ => rfl)
  cases start with
  | true => rw [hst rfl]; exact ⟨text, start', out, w', h1, h2, h3, h4⟩
  | false =>
    have : ∃ t', text = c :: t' := by
      simp only [run, ht, emitToks, emitTok, margin] at h1
      by_cases hn : c = '\n'
      · subst hn
        simp only [if_true] at h1
        cases he : emitToks vars n true ts with
        | none => simp [he] at h1
        | some r => simp only [he] at h1; simp at h1; exact ⟨_, h1.1.symm⟩
      · simp [hn] at h1
        cases he : emitToks vars n false ts with
        | none => simp [he] at h1
        | some r => simp [he] at h1; exact ⟨_, h1.1.symm⟩
    obtain ⟨t', rfl⟩ := this
    refine ⟨_, start', endWord w ++ out, w', h1, ?_, ?_, h4⟩
    · rw [lexFrom_flush w c hc, h2]; rfl
    · rw [List.append_assoc, h3]; simp [endWord]

/-! ### Values put into the lexemes of templates -/

def stok (σ : Str → Text) : Tok → Text
  | .ch c => [c]
  | .var x => σ x

def sval (σ : Str → Text) : List Tok → Text
  | [] => []
  | [t] => stok σ t
  | t :: p => stok σ t ++ sval σ p

/-- A character of a word, or a variable that stands for one word. -/
def singleTok (single : List Str) : Tok → Bool
  | .ch c => isWord c
  | .var x => single.contains x

/-- A lexeme of a template with the values put in; a word made of letters and of variables that stand for single words is one word. -/
def put (single : List Str) (σ : Str → Text) : SLex → List Lexeme
  | .word p => if !p.isEmpty && p.all (singleTok single) then [.word (sval σ p)] else lexemes (sval σ p)
  | .punct c => [.punct c]
  | .str p => [.str (sval σ p)]

/-- The values of a map of variables. -/
structure Values (vars : Vars) (keys single : List Str) (σ : Str → Text) : Prop where
  get : ∀ x ∈ keys, vars.get x = some (σ x)
  single : ∀ x ∈ keys, x ∈ single → IsId (σ x)

theorem sval_eq {vars : Vars} {keys single : List Str} {σ : Str → Text} (h : Values vars keys single σ) :
    ∀ (p : List Tok), (wordVars p).all keys.contains = true → val vars p = sval σ p
  | [], _ => rfl
  | [.ch c], _ => rfl
  | [.var x], hp => by
    simp only [wordVars, List.all_cons, List.all_nil, Bool.and_true, List.contains_iff_mem] at hp
    simp [val, sval, tokVal, stok, Vars.val, h.get x hp]
  | .ch c :: t :: p, hp => by
    have ih := sval_eq h (t :: p) hp
    simp only [sval]
    rw [← ih]; rfl
  | .var x :: t :: p, hp => by
    rw [wordVars, List.all_cons, Bool.and_eq_true] at hp
    have ih := sval_eq h (t :: p) hp.2
    have hx := hp.1
    simp only [List.contains_iff_mem] at hx
    simp only [sval]
    rw [← ih]
    simp [val, tokVal, stok, Vars.val, h.get x hx]

theorem sval_id {keys single : List Str} {σ : Str → Text} (h : ∀ x ∈ keys, x ∈ single → IsId (σ x)) :
    ∀ (p : List Tok), (wordVars p).all keys.contains = true → p ≠ [] → p.all (singleTok single) = true → IsId (sval σ p)
  | [t], hp, _, hs => by
    simp only [List.all_cons, List.all_nil, Bool.and_true] at hs
    cases t with
    | ch c => exact ⟨by simp [sval, stok], by simpa [sval, stok, singleTok] using hs⟩
    | var x =>
      simp only [wordVars, List.all_cons, List.all_nil, Bool.and_true, List.contains_iff_mem] at hp
      simp only [singleTok, List.contains_iff_mem] at hs
      simpa [sval, stok] using h x hp hs
  | t :: u :: p, hp, _, hs => by
    rw [List.all_cons, Bool.and_eq_true] at hs
    have hp' : (wordVars (u :: p)).all keys.contains = true := by
      cases t with
      | ch c => exact hp
      | var x => rw [wordVars, List.all_cons, Bool.and_eq_true] at hp; exact hp.2
    have ih := sval_id h (u :: p) hp' (by simp) hs.2
    have ht : ∀ c ∈ stok σ t, isWord c = true := by
      cases t with
      | ch c => simpa [stok, singleTok] using hs.1
      | var x =>
        rw [wordVars, List.all_cons, Bool.and_eq_true] at hp
        have hx := hp.1
        have hs := hs.1
        simp only [singleTok, List.contains_iff_mem] at hs hx
        exact (h x hx hs).2
    refine ⟨by simp [sval, ih.1], ?_⟩
    intro c hc
    simp only [sval, List.mem_append] at hc
    rcases hc with hc | hc
    · exact ht c hc
    · exact ih.2 c hc

theorem put_eq {vars : Vars} {keys single : List Str} {σ : Str → Text} (h : Values vars keys single σ) :
    ∀ (sl : List SLex), (∀ x ∈ sl, definedS keys x = true) → sl.flatMap (inst vars) = sl.flatMap (put single σ)
  | [], _ => rfl
  | x :: sl, hd => by
    rw [List.flatMap_cons, List.flatMap_cons, put_eq h sl (fun y hy => hd y (by simp [hy]))]
    have hx := hd x (by simp)
    have : inst vars x = put single σ x := by
      cases x with
      | word p =>
        simp only [definedS] at hx
        simp only [inst, put, sval_eq h p hx]
        split
        · rename_i hp
          simp only [Bool.and_eq_true, Bool.not_eq_true', List.isEmpty_eq_false_iff] at hp
          exact (sval_id h.single p hx hp.1 hp.2).lexemes
        · rfl
      | punct c => rfl
      | str p => simp only [definedS] at hx; simp only [inst, put, sval_eq h p hx]
    rw [this]

/-- What a template prints, with the values put in. -/
theorem lx_values {vars : Vars} {keys single : List Str} {σ : Str → Text} {inCode : Str → Bool} {t : Str} {sl : List SLex} {b : Bool}
    (hg : Fits vars inCode) (hv : Values vars keys single σ) (h : symb inCode keys t = some (sl, b)) :
    Lx false b [.print vars t] (sl.flatMap (put single σ)) := by
  rw [← put_eq hv sl (symb_defined h)]
  exact lx_print hg (fun x hx => by simp [hv.get x hx]) h

/-! ### Blocks and statements in lexemes -/

theorem defAll_append (r : DefReader) (a b : List Lexeme) : defAll r (a ++ b) = (defAll r a).bind fun r' => defAll r' b := by
  induction a generalizing r with
  | nil => rfl
  | cons x a ih =>
    simp only [List.cons_append, defAll]
    cases onDef r x with
    | none => rfl
    | some r' => exact ih r'

/-- Complete items, in namespaces `scope`. -/
def Yields (ls : List Lexeme) (e : List Text → List Item) : Prop :=
  ∀ scope found, defAll ⟨scope, [], none, found⟩ ls = some ⟨scope, [], none, found ++ e scope⟩

theorem Yields.nil : Yields [] (fun _ => []) := fun scope found => by simp [defAll]

theorem Yields.append {a b : List Lexeme} {e d : List Text → List Item} (ha : Yields a e) (hb : Yields b d) :
    Yields (a ++ b) (fun s => e s ++ d s) := fun scope found => by
  rw [defAll_append, ha]; simp only [Option.bind_some]; rw [hb, List.append_assoc]

theorem Yields.flatMap {α : Type} {l : List α} {f : α → List Lexeme} {e : α → List Text → List Item} (h : ∀ x ∈ l, Yields (f x) (e x)) :
    Yields (l.flatMap f) (fun s => l.flatMap fun x => e x s) := by
  induction l with
  | nil => exact Yields.nil
  | cons x l ih =>
    have := (h x (by simp)).append (ih (fun y hy => h y (by simp [hy])))
    simpa [List.flatMap_cons] using this

theorem Yields.congr {a : List Lexeme} {e d : List Text → List Item} (h : Yields a e) (he : ∀ s, e s = d s) : Yields a d := by
  have : e = d := funext he
  rw [← this]; exact h

theorem Yields.ite {p : Prop} [Decidable p] {a b : List Lexeme} {e d : List Text → List Item} (ha : p → Yields a e) (hb : ¬ p → Yields b d) :
    Yields (if p then a else b) (fun s => if p then e s else d s) := by
  by_cases h : p
  · simpa [h] using ha h
  · simpa [h] using hb h

/-- Neither a brace nor a semicolon. -/
def Inline (x : Lexeme) : Prop := x ≠ .punct '{' ∧ x ≠ .punct '}' ∧ x ≠ .punct ';'

theorem defAll_head (scope : List Text) (found : List Item) : ∀ (ls head : List Lexeme), (∀ x ∈ ls, Inline x) →
    defAll ⟨scope, head, none, found⟩ ls = some ⟨scope, head ++ ls, none, found⟩
  | [], head, _ => by simp [defAll]
  | x :: ls, head, h => by
    obtain ⟨h1, h2, h3⟩ := h x (by simp)
    have ih := defAll_head scope found ls (head ++ [x]) (fun y hy => h y (by simp [hy]))
    simp [defAll, onDef, onTop, h1, h2, h3, ih]

/-- In a body: braces that match. -/
def Balanced (ls : List Lexeme) : Prop :=
  ∀ scope head found b n, defAll ⟨scope, head, some (b, n), found⟩ ls = some ⟨scope, head, some (b ++ ls, n), found⟩

theorem Balanced.nil : Balanced [] := fun scope head found b n => by simp [defAll]

theorem Balanced.append {a b : List Lexeme} (ha : Balanced a) (hb : Balanced b) : Balanced (a ++ b) := fun scope head found c n => by
  rw [defAll_append, ha]; simp only [Option.bind_some]; rw [hb, List.append_assoc]

theorem Balanced.flatMap {α : Type} {l : List α} {f : α → List Lexeme} (h : ∀ x ∈ l, Balanced (f x)) : Balanced (l.flatMap f) := by
  induction l with
  | nil => exact Balanced.nil
  | cons x l ih => exact (h x (by simp)).append (ih (fun y hy => h y (by simp [hy])))

theorem Balanced.ite {p : Prop} [Decidable p] {a b : List Lexeme} (ha : p → Balanced a) (hb : ¬ p → Balanced b) :
    Balanced (if p then a else b) := by
  split
  · exact ha ‹_›
  · exact hb ‹_›

/-- `{`, what stands in a body, `}`. -/
theorem Balanced.braces {a : List Lexeme} (h : Balanced a) : Balanced (.punct '{' :: a ++ [.punct '}']) := by
  intro scope head found b n
  simp only [List.cons_append, defAll, onDef, if_true]
  rw [defAll_append, h]
  simp [defAll, onDef]

/-- No braces at all. -/
def NoBrace (x : Lexeme) : Prop := x ≠ .punct '{' ∧ x ≠ .punct '}'

theorem Inline.noBrace {x : Lexeme} (h : Inline x) : NoBrace x := ⟨h.1, h.2.1⟩

theorem balanced_plain : ∀ (ls : List Lexeme), (∀ x ∈ ls, NoBrace x) → Balanced ls
  | [], _ => Balanced.nil
  | x :: ls, h => by
    intro scope head found b n
    obtain ⟨h1, h2⟩ := h x (by simp)
    have ih := balanced_plain ls (fun y hy => h y (by simp [hy])) scope head found (b ++ [x]) n
    simp [defAll, onDef, h1, h2, ih]

/-- Something with a body. -/
theorem yields_block {head body : List Lexeme} (hh : ∀ x ∈ head, Inline x) (hn : ∀ k n, head = [.word k, .word n] → k ≠ kwNamespace)
    (hb : Balanced body) : Yields (head ++ .punct '{' :: body ++ [.punct '}']) (fun s => [.block s head body]) := by
  intro scope found
  rw [List.append_assoc, defAll_append, defAll_head _ _ _ _ hh]
  simp only [Option.bind_some, List.nil_append, List.cons_append]
  have h1 : onDef ⟨scope, head, none, found⟩ (.punct '{') = some ⟨scope, head, some ([], 0), found⟩ := by
    simp only [onDef, onTop, if_true]
    split
    · rename_i k n
      have := hn k n rfl
      simp [this]
    · rfl
  simp only [defAll, h1]
  rw [defAll_append, hb]
  simp [defAll, onDef]

/-- A statement. -/
theorem yields_statement {ls : List Lexeme} (hh : ∀ x ∈ ls, Inline x) (hne : ls ≠ []) :
    Yields (ls ++ [.punct ';']) (fun s => [.statement s ls]) := by
  intro scope found
  rw [defAll_append, defAll_head _ _ _ _ hh]
  simp [defAll, onDef, onTop, hne]

/-- A semicolon that ends nothing. -/
theorem yields_semicolon : Yields [.punct ';'] (fun _ => []) := by
  intro scope found
  simp [defAll, onDef, onTop]

/-- What stands in a namespace. -/
theorem Yields.inSpace {n : Text} {a : List Lexeme} {e : List Text → List Item} (h : Yields a e) :
    Yields ([.word kwNamespace, .word n, .punct '{'] ++ a ++ [.punct '}']) (fun s => e (s ++ [n])) := by
  intro scope found
  have h1 : defAll ⟨scope, [], none, found⟩ [.word kwNamespace, .word n, .punct '{'] = some ⟨scope ++ [n], [], none, found⟩ := by
    simp [defAll, onDef, onTop]
  rw [List.append_assoc, defAll_append, h1]
  simp only [Option.bind_some]
  rw [defAll_append, h]
  simp [defAll, onDef, onTop]

/-! ### Deciding -/

def Inlines (ls : List Lexeme) : Prop := ∀ x ∈ ls, Inline x

theorem inlines_nil : Inlines [] := by simp [Inlines]
theorem inlines_word (w : Text) (r : List Lexeme) : Inlines (.word w :: r) ↔ Inlines r := by simp [Inlines, Inline]
theorem inlines_str (w : Text) (r : List Lexeme) : Inlines (.str w :: r) ↔ Inlines r := by simp [Inlines, Inline]
theorem inlines_punct (c : Char) (r : List Lexeme) : Inlines (.punct c :: r) ↔ (c ≠ '{' ∧ c ≠ '}' ∧ c ≠ ';') ∧ Inlines r := by
  simp [Inlines, Inline]
theorem inlines_append (a b : List Lexeme) : Inlines (a ++ b) ↔ Inlines a ∧ Inlines b := by
  simp only [Inlines, List.mem_append]
  exact ⟨fun h => ⟨fun x hx => h x (Or.inl hx), fun x hx => h x (Or.inr hx)⟩, fun h x hx => hx.elim (h.1 x) (h.2 x)⟩
theorem inlines_flatMap {α : Type} {l : List α} {f : α → List Lexeme} (h : ∀ x ∈ l, Inlines (f x)) : Inlines (l.flatMap f) := by
  intro x hx
  obtain ⟨a, ha, hx⟩ := List.mem_flatMap.1 hx
  exact h a ha x hx

/-- The braces that are open after a piece of a body. -/
def bal : Nat → List Lexeme → Option Nat
  | n, [] => some n
  | n, .word _ :: r => bal n r
  | n, .str _ :: r => bal n r
  | n, .punct c :: r =>
    if c = '{' then bal (n + 1) r
    else if c = '}' then (match n with | 0 => none | n + 1 => bal n r)
    else bal n r

theorem bal_spec : ∀ (ls : List Lexeme) (k j : Nat), bal k ls = some j → ∀ scope head found b n,
    defAll ⟨scope, head, some (b, k + n), found⟩ ls = some ⟨scope, head, some (b ++ ls, j + n), found⟩
  | [], k, j, h, scope, head, found, b, n => by simp only [bal, Option.some.injEq] at h; subst h; simp [defAll]
  | .word w :: ls, k, j, h, scope, head, found, b, n => by
    have ih := bal_spec ls k j h scope head found (b ++ [.word w]) n
    simp [defAll, onDef, ih]
  | .str w :: ls, k, j, h, scope, head, found, b, n => by
    have ih := bal_spec ls k j h scope head found (b ++ [.str w]) n
    simp [defAll, onDef, ih]
  | .punct c :: ls, k, j, h, scope, head, found, b, n => by
    rw [bal.eq_def] at h
    simp only at h
    split at h
    · rename_i hc
      subst hc
      have ih := bal_spec ls (k + 1) j h scope head found (b ++ [.punct '{']) n
      have e : k + 1 + n = k + n + 1 := by omega
      rw [e] at ih
      simp [defAll, onDef, ih]
    · rename_i h1
      split at h
      · rename_i hc
        subst hc
        cases k with
        | zero => simp at h
        | succ k =>
          have ih := bal_spec ls k j h scope head found (b ++ [.punct '}']) n
          have e : k + 1 + n = (k + n) + 1 := by omega
          rw [e]
          simp [defAll, onDef, ih]
      · rename_i h2
        have ih := bal_spec ls k j h scope head found (b ++ [.punct c]) n
        simp [defAll, onDef, h1, h2, ih]

theorem balanced_of {ls : List Lexeme} (h : bal 0 ls = some 0) : Balanced ls := by
  intro scope head found b n
  have := bal_spec ls 0 0 h scope head found b n
  simpa using this

theorem bal_inlines : ∀ (a r : List Lexeme) (n : Nat), Inlines a → bal n (a ++ r) = bal n r
  | [], _, _, _ => rfl
  | .word w :: a, r, n, h => bal_inlines a r n ((inlines_word w a).1 h)
  | .str w :: a, r, n, h => bal_inlines a r n ((inlines_str w a).1 h)
  | .punct c :: a, r, n, h => by
    obtain ⟨⟨h1, h2, -⟩, h⟩ := (inlines_punct c a).1 h
    have ih := bal_inlines a r n h
    simp [bal, h1, h2, ih]

/-- The lexemes of names and types. -/
theorem inlines_value {v : Text} (h : Value v) : Inlines (lexemes v) := by
  obtain ⟨ls, w, hl, hp, hs⟩ := lexFrom_ok v h.1 []
  rw [lexFrom_lexemes hl]
  intro x hx
  rcases List.mem_append.1 hx with hx | hx
  · cases x with
    | word w => simp [Inline]
    | str s => exact absurd hx (hs s)
    | punct c =>
      obtain ⟨-, -, -, -, -, -, -, h1, h2, -, -, h3⟩ := okChar_ne (h.1 c (hp c hx))
      simp [Inline, h1, h2, h3]
  · simp only [endWord] at hx
    split at hx
    · simp at hx
    · simp at hx; subst hx; simp [Inline]

/-! ### Calls and items -/

/-- The calls print complete items. -/
def Gives (ops : List Op) (e : List Text → List Item) : Prop := ∃ ls, Lx false false ops ls ∧ Yields ls e

theorem Gives.nil : Gives [] (fun _ => []) := ⟨[], Lx.nil _, Yields.nil⟩

theorem Gives.append {x y : List Op} {e d : List Text → List Item} (hx : Gives x e) (hy : Gives y d) :
    Gives (x ++ y) (fun s => e s ++ d s) := by
  obtain ⟨a, h1, h2⟩ := hx
  obtain ⟨b, k1, k2⟩ := hy
  exact ⟨a ++ b, h1.append k1, h2.append k2⟩

theorem Gives.cons {op : Op} {y : List Op} {e d : List Text → List Item} (hx : Gives [op] e) (hy : Gives y d) :
    Gives (op :: y) (fun s => e s ++ d s) := Gives.append hx hy

theorem Gives.congr {x : List Op} {e d : List Text → List Item} (h : Gives x e) (he : ∀ s, e s = d s) : Gives x d := by
  have : e = d := funext he
  rw [← this]; exact h

theorem Gives.flatMap {α : Type} {l : List α} {f : α → List Op} {e : α → List Text → List Item} (h : ∀ x ∈ l, Gives (f x) (e x)) :
    Gives (l.flatMap f) (fun s => l.flatMap fun x => e x s) := by
  induction l with
  | nil => exact Gives.nil
  | cons x l ih =>
    have := (h x (by simp)).append (ih (fun y hy => h y (by simp [hy])))
    simpa [List.flatMap_cons] using this

theorem Gives.ite {p : Prop} [Decidable p] {x y : List Op} {e d : List Text → List Item} (hx : p → Gives x e) (hy : ¬ p → Gives y d) :
    Gives (if p then x else y) (fun s => if p then e s else d s) := by
  by_cases h : p
  · simpa [h] using hx h
  · simpa [h] using hy h

/-- A function or a table. -/
theorem gives_block {ops : List Op} {head body : List Lexeme} {c : Char} (h : Lx false false ops (head ++ .punct '{' :: body ++ [.punct '}']))
    (hh : Inlines head) (hc : Lexeme.punct c ∈ head) (hb : Balanced body) : Gives ops (fun s => [.block s head body]) :=
  ⟨_, h, yields_block hh (fun k n e => by rw [e] at hc; simp at hc) hb⟩

theorem gives_statement {ops : List Op} {ls : List Lexeme} (h : Lx false false ops (ls ++ [.punct ';'])) (hh : Inlines ls) (hne : ls ≠ []) :
    Gives ops (fun s => [.statement s ls]) := ⟨_, h, yields_statement hh hne⟩

/-- Inside of a namespace. -/
theorem Gives.within {a d b : List Op} {n : Text} {e : List Text → List Item} (ha : Lx false false a [.word kwNamespace, .word n, .punct '{'])
    (hb : Gives b e) (hd : Lx false false d [.punct '}']) : Gives (a ++ b ++ d) (fun s => e (s ++ [n])) := by
  obtain ⟨ls, h, hy⟩ := hb
  exact ⟨_, (ha.append h).append hd, hy.inSpace⟩

/-- The text of a file. -/
theorem items_printed {ops : List Op} {e : List Text → List Item} (h : Gives ops e) :
    ∃ text, printed ops = some text ∧ items text = some (e []) := by
  obtain ⟨ls, h, hy⟩ := h
  obtain ⟨text, start', out, w, h1, h2, h3, -, h5⟩ := h 0 true [] (fun _ => rfl) (fun _ => rfl)
  have hw := h5 rfl
  subst hw
  simp only [endWord, if_true, List.append_nil, List.nil_append] at h3
  subst h3
  refine ⟨text, by simp [printed, h1], ?_⟩
  have := hy [] []
  simp [items, lex, h2, endWord, this]

end QtPb.TextProof
