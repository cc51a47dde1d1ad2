import Verif.GenPrint
import Verif.SpecCpp
/-
Reading printed text without printing it: a template is cut into lexemes with variables in them and read as such; what is found is
what the reader of `SpecCpp` finds in the printed text, for all values of the variables that are names or types. (Helpers for the
theorems about generated text.)
-/
namespace QtPb.TextProof
open QtPb.Gen QtPb.Gen.Text QtPb.SpecCpp

/-! ### The lexer on a concatenation -/

theorem lexFrom_append (l : Lex) (a b : Text) :
    lexFrom l (a ++ b) = (lexFrom l a).bind fun r => (lexFrom r.2 b).map fun q => (r.1 ++ q.1, q.2) := by
  induction a generalizing l with
  | nil =>
    simp only [List.nil_append, lexFrom, Option.bind_some]
    cases lexFrom l b <;> simp
  | cons c a ih =>
    simp only [List.cons_append, lexFrom]
    cases step l c with
    | none => rfl
    | some r =>
      obtain ⟨x, l'⟩ := r
      simp only [ih]
      cases lexFrom l' a with
      | none => rfl
      | some q =>
        obtain ⟨y, l''⟩ := q
        simp only [Option.bind_some]
        cases lexFrom l'' b with
        | none => rfl
        | some z => simp [List.append_assoc]

theorem lexFrom_append_some {l l' : Lex} {a b : Text} {x : List Lexeme} (h : lexFrom l a = some (x, l')) :
    lexFrom l (a ++ b) = (lexFrom l' b).map fun q => (x ++ q.1, q.2) := by
  rw [lexFrom_append, h]; rfl

theorem readAll_append (r : Reader) (a b : List Lexeme) :
    readAll r (a ++ b) = (readAll r a).bind fun r' => readAll r' b := by
  induction a generalizing r with
  | nil => rfl
  | cons x a ih =>
    simp only [List.cons_append, readAll]
    cases onLexeme r x with
    | none => rfl
    | some r' => exact ih r'

/-! ### Values -/

/-- The characters of names and types. -/
def okChar (c : Char) : Bool := isWord c || c == ':' || c == '<' || c == '>' || c == ' ' || c == '-' || c == '.'

/-- The lexemes of a text without quotes and slashes. -/
def lexemes (t : Text) : List Lexeme :=
  match lexFrom (.code []) t with
  | some (ls, .code w) => ls ++ endWord w
  | _ => []

/-- The words the reader looks for. -/
abbrev reserved : List Text := keywords

/-- A name or a type: no other characters, and no word of it is looked for by the reader. -/
def Value (v : Text) : Prop := (∀ c ∈ v, okChar c = true) ∧ ∀ w, Lexeme.word w ∈ lexemes v → w ∉ reserved

/-- One word. -/
def IsId (v : Text) : Prop := v ≠ [] ∧ ∀ c ∈ v, isWord c = true

theorem okChar_cases {c : Char} (h : okChar c = true) :
    isWord c = true ∨ c = ':' ∨ c = '<' ∨ c = '>' ∨ c = ' ' ∨ c = '-' ∨ c = '.' := by
  simpa only [okChar, Bool.or_eq_true, beq_iff_eq, or_assoc] using h

theorem isWord_mark {c : Char} (h : isWord c = true) :
    c ≠ '"' ∧ c ≠ '\'' ∧ c ≠ '\\' ∧ c ≠ '/' ∧ c ≠ '\n' ∧ c ≠ '*' ∧ c ≠ ' ' ∧ c ≠ '(' ∧ c ≠ ')' ∧ c ≠ '{' ∧ c ≠ '}' ∧ c ≠ '[' ∧ c ≠ ']' ∧
    c ≠ ';' := by
  refine ⟨?_, ?_, ?_, ?_, ?_, ?_, ?_, ?_, ?_, ?_, ?_, ?_, ?_, ?_⟩ <;> (intro e; subst e; revert h; decide)

theorem okChar_ne {c : Char} (h : okChar c = true) :
    c ≠ '"' ∧ c ≠ '\'' ∧ c ≠ '\\' ∧ c ≠ '/' ∧ c ≠ '\n' ∧ c ≠ '(' ∧ c ≠ ')' ∧ c ≠ '{' ∧ c ≠ '}' ∧ c ≠ '[' ∧ c ≠ ']' ∧ c ≠ ';' := by
  refine ⟨?_, ?_, ?_, ?_, ?_, ?_, ?_, ?_, ?_, ?_, ?_, ?_⟩ <;> (intro e; subst e; revert h; decide)

/-- A lexeme without effect on the reader. -/
def Harmless : Lexeme → Prop
  | .word w => w ∉ reserved
  | .punct c => okChar c = true
  | .str _ => False

/-- In code, such characters keep the lexer in code. -/
theorem lexFrom_ok (v : Text) (hv : ∀ c ∈ v, okChar c = true) (w : Text) :
    ∃ ls w', lexFrom (.code w) v = some (ls, .code w') ∧ (∀ c, Lexeme.punct c ∈ ls → c ∈ v) ∧ (∀ s, Lexeme.str s ∉ ls) := by
  induction v generalizing w with
  | nil => exact ⟨[], w, rfl, by simp, by simp⟩
  | cons c v ih =>
    have hc := hv c (by simp)
    have ht : ∀ c ∈ v, okChar c = true := fun d hd => hv d (by simp [hd])
    by_cases hw : isWord c = true
    · obtain ⟨ls, w', h, hp, hs⟩ := ih ht (w ++ [c])
      refine ⟨ls, w', ?_, fun d hd => by simp [hp d hd], hs⟩
      simp [lexFrom, step, codeStep, hw, h]
    · obtain ⟨h1, h2, h3, h4, -⟩ := okChar_ne hc
      obtain ⟨ls, w', h, hp, hs⟩ := ih ht []
      by_cases hb : isBlank c = true
      · refine ⟨endWord w ++ ls, w', ?_, ?_, ?_⟩
        · simp [lexFrom, step, codeStep, hw, mark, h1, h2, h3, h4, hb, h]
        · intro d hd
          rcases List.mem_append.1 hd with hd | hd
          · simp only [endWord] at hd; split at hd <;> simp at hd
          · simp [hp d hd]
        · intro s hs'
          rcases List.mem_append.1 hs' with hd | hd
          · simp only [endWord] at hd; split at hd <;> simp at hd
          · exact hs s hd
      · refine ⟨endWord w ++ [.punct c] ++ ls, w', ?_, ?_, ?_⟩
        · simp [lexFrom, step, codeStep, hw, mark, h1, h2, h3, h4, hb, h]
        · intro d hd
          rcases List.mem_append.1 hd with hd | hd
          · rcases List.mem_append.1 hd with hd | hd
            · simp only [endWord] at hd; split at hd <;> simp at hd
            · simp at hd; simp [hd]
          · simp [hp d hd]
        · intro s hs'
          rcases List.mem_append.1 hs' with hd | hd
          · rcases List.mem_append.1 hd with hd | hd
            · simp only [endWord] at hd; split at hd <;> simp at hd
            · simp at hd
          · exact hs s hd

theorem lexFrom_lexemes {v : Text} {ls : List Lexeme} {w : Text} (h : lexFrom (.code []) v = some (ls, .code w)) :
    lexemes v = ls ++ endWord w := by
  simp [lexemes, h]

theorem endWord_mem {w : Text} {l : Lexeme} (h : l ∈ endWord w) : l = .word w := by
  simp only [endWord] at h; split at h <;> simp at h; exact h

/-- The lexemes of a value have no effect on the reader. -/
theorem Value.harmless {v : Text} (h : Value v) : ∀ l ∈ lexemes v, Harmless l := by
  obtain ⟨ls, w', e, hp, hs⟩ := lexFrom_ok v h.1 []
  rw [lexFrom_lexemes e]
  intro l hl
  cases l with
  | word w => exact h.2 w (by rw [lexFrom_lexemes e]; exact hl)
  | punct c =>
    rcases List.mem_append.1 hl with hl | hl
    · exact h.1 c (hp c hl)
    · cases endWord_mem hl
  | str s =>
    rcases List.mem_append.1 hl with hl | hl
    · exact (hs s hl).elim
    · cases endWord_mem hl

theorem lexFrom_word (v : Text) (hv : ∀ c ∈ v, isWord c = true) (w : Text) : lexFrom (.code w) v = some ([], .code (w ++ v)) := by
  induction v generalizing w with
  | nil => simp [lexFrom]
  | cons c v ih =>
    have hc := hv c (by simp)
    have := ih (fun d hd => hv d (by simp [hd])) (w ++ [c])
    simp [lexFrom, step, codeStep, hc, this]

theorem IsId.lexemes {v : Text} (h : IsId v) : lexemes v = [.word v] := by
  have := lexFrom_word v h.2 []
  rw [lexFrom_lexemes this]; simp [endWord, h.1]

theorem lexemes_word (v : Text) (h : ∀ c ∈ v, isWord c = true) : lexemes v = endWord v := by
  have := lexFrom_word v h []
  rw [lexFrom_lexemes this]; simp

theorem isWord_ok {c : Char} (h : isWord c = true) : okChar c = true := by simp [okChar, h]

theorem IsId.value {v : Text} (h : IsId v) (hr : v ∉ reserved) : Value v :=
  ⟨fun c hc => isWord_ok (h.2 c hc), fun w hw => by rw [h.lexemes] at hw; simp at hw; rw [hw]; exact hr⟩

/-! ### Templates with variables in them -/

/-- A lexeme with variables in it. -/
inductive SLex
  | word (p : List Tok)
  | punct (c : Char)
  | str (p : List Tok)
deriving DecidableEq, Repr

/-- The lexer on a template. -/
inductive SState
  | code (p : List Tok)
  | slash
  | str (p : List Tok)
  | esc (p : List Tok)
  | line
  | block
  | star
deriving DecidableEq, Repr

def endS (p : List Tok) : List SLex := if p = [] then [] else [.word p]

def sMark (c : Char) : Option (List SLex × SState) :=
  if c = '"' then some ([], .str [])
  else if c = '\'' then none
  else if c = '\\' then none
  else if c = '/' then some ([], .slash)
  else if isBlank c then some ([], .code [])
  else some ([.punct c], .code [])

def sCode (p : List Tok) (c : Char) : Option (List SLex × SState) :=
  if isWord c then some ([], .code (p ++ [.ch c]))
  else (sMark c).map fun r => (endS p ++ r.1, r.2)

/-- `inCode` says which variables may stand outside of string literals. -/
def sStep (inCode : Str → Bool) : SState → Tok → Option (List SLex × SState)
  | .code p, .ch c => sCode p c
  | .code p, .var x => if inCode x then some ([], .code (p ++ [.var x])) else none
  | .slash, .ch c =>
    if c = '*' then some ([], .block)
    else if c = '/' then some ([], .line)
    else (sCode [] c).map fun r => (.punct '/' :: r.1, r.2)
  | .str p, .ch c =>
    if c = '"' then some ([.str p], .code [])
    else if c = '\\' then some ([], .esc p)
    else if c = '\n' then none
    else some ([], .str (p ++ [.ch c]))
  | .str p, .var x => some ([], .str (p ++ [.var x]))
  | .esc p, .ch c => if c = '\n' then none else some ([], .str (p ++ [.ch '\\', .ch c]))
  | .line, .ch c => if c = '\n' then some ([], .code []) else some ([], .line)
  | .block, .ch c => if c = '*' then some ([], .star) else some ([], .block)
  | .star, .ch c =>
    if c = '/' then some ([], .code [])
    else if c = '*' then some ([], .star)
    else some ([], .block)
  | _, .var _ => none

def sLex (inCode : Str → Bool) : SState → List Tok → Option (List SLex × SState)
  | s, [] => some ([], s)
  | s, t :: ts =>
    match sStep inCode s t with
    | none => none
    | some (a, s') =>
      match sLex inCode s' ts with
      | none => none
      | some (b, s'') => some (a ++ b, s'')

/-- What a piece stands for. -/
def tokVal (vars : Vars) : Tok → Str
  | .ch c => [c]
  | .var x => vars.val x

def val (vars : Vars) (p : List Tok) : Str := p.flatMap (tokVal vars)

def inst (vars : Vars) : SLex → List Lexeme
  | .word p => lexemes (val vars p)
  | .punct c => [.punct c]
  | .str p => [.str (val vars p)]

/-- Text without an end of a string literal in it. -/
def Quoted (v : Text) : Prop := ∀ c ∈ v, c ≠ '"' ∧ c ≠ '\\' ∧ c ≠ '\n'

theorem ok_quoted {v : Text} (h : ∀ c ∈ v, okChar c = true) : Quoted v := fun c hc => by
  obtain ⟨h1, -, h3, -, h5, -⟩ := okChar_ne (h c hc); exact ⟨h1, h3, h5⟩

/-- The lexer after the printed text, and what it put out since the end of the last lexeme of the template. -/
def Rel (vars : Vars) : SState → List Lexeme → Lex → Prop
  | .code p, pre, l => (∀ c ∈ val vars p, okChar c = true) ∧ ∃ w, l = .code w ∧ lexFrom (.code []) (val vars p) = some (pre, .code w)
  | .slash, pre, l => pre = [] ∧ l = .slash
  | .str p, pre, l => pre = [] ∧ l = .str (val vars p)
  | .esc p, pre, l => pre = [] ∧ l = .esc (val vars p)
  | .line, pre, l => pre = [] ∧ l = .line
  | .block, pre, l => pre = [] ∧ l = .block
  | .star, pre, l => pre = [] ∧ l = .star

/-- What the variables must be like. -/
def Fits (vars : Vars) (inCode : Str → Bool) : Prop :=
  ∀ x v, vars.get x = some v → Quoted v ∧ (inCode x = true → ∀ c ∈ v, okChar c = true)

theorem val_append (vars : Vars) (p q : List Tok) : val vars (p ++ q) = val vars p ++ val vars q := by simp [val]

theorem inst_endS (vars : Vars) (p : List Tok) {pre : List Lexeme} {w : Text}
    (h : lexFrom (.code []) (val vars p) = some (pre, .code w)) : (endS p).flatMap (inst vars) = pre ++ endWord w := by
  unfold endS
  split
  · rename_i hp
    subst hp
    simp [val, lexFrom] at h
    simp [h.1, h.2, endWord]
  · simp [inst, lexFrom_lexemes h]

/-- Marks. -/
theorem rel_mark {vars : Vars} {c : Char} {a : List SLex} {s' : SState} (h : sMark c = some (a, s')) :
    ∃ ls l' pre', mark c = some (ls, l') ∧ Rel vars s' pre' l' ∧ ls = a.flatMap (inst vars) ++ pre' := by
  unfold sMark at h
  split at h
  · rename_i h1; cases h
    exact ⟨[], .str [], [], by simp [mark, h1], ⟨rfl, by simp [val]⟩, rfl⟩
  · rename_i h1
    split at h
    · cases h
    · rename_i h2
      split at h
      · cases h
      · rename_i h3
        split at h
        · rename_i h4; cases h
          exact ⟨[], .slash, [], by simp [mark, h4], ⟨rfl, rfl⟩, rfl⟩
        · rename_i h4
          split at h
          · rename_i h5; cases h
            exact ⟨[], .code [], [], by simp [mark, h1, h2, h3, h4, h5], ⟨by simp [val], [], rfl, rfl⟩, rfl⟩
          · rename_i h5; cases h
            exact ⟨[.punct c], .code [], [], by simp [mark, h1, h2, h3, h4, h5], ⟨by simp [val], [], rfl, rfl⟩, by simp [inst]⟩

theorem rel_code {vars : Vars} {p : List Tok} {pre : List Lexeme} {l : Lex} {c : Char} {a : List SLex} {s' : SState}
    (hr : Rel vars (.code p) pre l) (h : sCode p c = some (a, s')) :
    ∃ ls l' pre', lexFrom l [c] = some (ls, l') ∧ Rel vars s' pre' l' ∧ pre ++ ls = a.flatMap (inst vars) ++ pre' := by
  obtain ⟨hok, w, hl, hw⟩ := hr
  subst hl
  unfold sCode at h
  split at h
  · rename_i hc
    cases h
    refine ⟨[], .code (w ++ [c]), pre, by simp [lexFrom, step, codeStep, hc], ⟨?_, w ++ [c], rfl, ?_⟩, by simp⟩
    · intro d hd
      rw [val_append] at hd
      rcases List.mem_append.1 hd with hd | hd
      · exact hok d hd
      · simp [val, tokVal] at hd; subst hd; exact isWord_ok hc
    · rw [val_append, lexFrom_append_some hw]
      simp [val, tokVal, lexFrom, step, codeStep, hc]
  · rename_i hc
    cases hm : sMark c with
    | none => simp [hm] at h
    | some r =>
      obtain ⟨x, s1⟩ := r
      simp [hm] at h
      obtain ⟨ha, hs⟩ := h
      subst hs
      obtain ⟨ls, l', pre', h1, h2, h3⟩ := rel_mark (vars := vars) hm
      refine ⟨endWord w ++ ls, l', pre', by simp [lexFrom, step, codeStep, hc, h1], h2, ?_⟩
      rw [← ha, List.flatMap_append, inst_endS vars p hw, h3]
      simp [List.append_assoc]

theorem rel_step {vars : Vars} {inCode : Str → Bool} {s s' : SState} {pre : List Lexeme} {l : Lex} {c : Char} {a : List SLex}
    (hr : Rel vars s pre l) (h : sStep inCode s (.ch c) = some (a, s')) :
    ∃ ls l' pre', lexFrom l [c] = some (ls, l') ∧ Rel vars s' pre' l' ∧ pre ++ ls = a.flatMap (inst vars) ++ pre' := by
  cases s with
  | code p => exact rel_code hr h
  | slash =>
    obtain ⟨h1, h2⟩ := hr
    subst h1; subst h2
    simp only [sStep] at h
    split at h
    · rename_i hc; cases h
      exact ⟨[], .block, [], by simp [lexFrom, step, hc], ⟨rfl, rfl⟩, rfl⟩
    · rename_i hc
      split at h
      · rename_i hc'; cases h
        exact ⟨[], .line, [], by simp [lexFrom, step, hc'], ⟨rfl, rfl⟩, rfl⟩
      · rename_i hc'
        cases hm : sCode [] c with
        | none => simp [hm] at h
        | some r =>
          obtain ⟨x, s1⟩ := r
          simp [hm] at h
          obtain ⟨ha, hs⟩ := h
          subst hs
          obtain ⟨ls, l', pre', h1, h2, h3⟩ := rel_code (vars := vars) (p := []) (pre := []) (l := .code []) ⟨by simp [val], [], rfl, rfl⟩ hm
          refine ⟨.punct '/' :: ls, l', pre', ?_, h2, ?_⟩
          · simp only [lexFrom, step, hc, hc', if_false] at h1 ⊢
            cases hk : codeStep [] c with
            | none => simp [hk] at h1
            | some q => simp [hk] at h1 ⊢; exact h1
          · rw [← ha]; simp [inst] at h3 ⊢; exact h3
  | str p =>
    obtain ⟨h1, h2⟩ := hr
    subst h1; subst h2
    simp only [sStep] at h
    split at h
    · rename_i hc; cases h
      exact ⟨[.str (val vars p)], .code [], [], by simp [lexFrom, step, hc], ⟨by simp [val], [], rfl, rfl⟩, by simp [inst]⟩
    · rename_i hc
      split at h
      · rename_i hc'; cases h
        exact ⟨[], .esc (val vars p), [], by simp [lexFrom, step, hc'], ⟨rfl, rfl⟩, rfl⟩
      · rename_i hc'
        split at h
        · cases h
        · rename_i hn; cases h
          exact ⟨[], .str (val vars p ++ [c]), [], by simp [lexFrom, step, hc, hc', hn], ⟨rfl, by simp [val, tokVal]⟩, rfl⟩
  | esc p =>
    obtain ⟨h1, h2⟩ := hr
    subst h1; subst h2
    simp only [sStep] at h
    split at h
    · cases h
    · rename_i hn; cases h
      exact ⟨[], .str (val vars p ++ ['\\', c]), [], by simp [lexFrom, step, hn], ⟨rfl, by simp [val, tokVal]⟩, rfl⟩
  | line =>
    obtain ⟨h1, h2⟩ := hr
    subst h1; subst h2
    simp only [sStep] at h
    split at h
    · rename_i hc; cases h
      exact ⟨[], .code [], [], by simp [lexFrom, step, hc], ⟨by simp [val], [], rfl, rfl⟩, rfl⟩
    · rename_i hc; cases h
      exact ⟨[], .line, [], by simp [lexFrom, step, hc], ⟨rfl, rfl⟩, rfl⟩
  | block =>
    obtain ⟨h1, h2⟩ := hr
    subst h1; subst h2
    simp only [sStep] at h
    split at h
    · rename_i hc; cases h
      exact ⟨[], .star, [], by simp [lexFrom, step, hc], ⟨rfl, rfl⟩, rfl⟩
    · rename_i hc; cases h
      exact ⟨[], .block, [], by simp [lexFrom, step, hc], ⟨rfl, rfl⟩, rfl⟩
  | star =>
    obtain ⟨h1, h2⟩ := hr
    subst h1; subst h2
    simp only [sStep] at h
    split at h
    · rename_i hc; cases h
      exact ⟨[], .code [], [], by simp [lexFrom, step, hc], ⟨by simp [val], [], rfl, rfl⟩, rfl⟩
    · rename_i hc
      split at h
      · rename_i hc'; cases h
        exact ⟨[], .star, [], by simp [lexFrom, step, hc'], ⟨rfl, rfl⟩, rfl⟩
      · rename_i hc'; cases h
        exact ⟨[], .block, [], by simp [lexFrom, step, hc, hc'], ⟨rfl, rfl⟩, rfl⟩

theorem lexFrom_str (v : Text) (hv : Quoted v) (s : Text) : lexFrom (.str s) v = some ([], .str (s ++ v)) := by
  induction v generalizing s with
  | nil => simp [lexFrom]
  | cons c v ih =>
    obtain ⟨h1, h2, h3⟩ := hv c (by simp)
    have := ih (fun d hd => hv d (by simp [hd])) (s ++ [c])
    simp [lexFrom, step, h1, h2, h3, this]

theorem rel_var {vars : Vars} {inCode : Str → Bool} {s s' : SState} {pre : List Lexeme} {l : Lex} {x v : Str} {a : List SLex}
    (hf : Fits vars inCode) (hx : vars.get x = some v)
    (hr : Rel vars s pre l) (h : sStep inCode s (.var x) = some (a, s')) :
    ∃ ls l' pre', lexFrom l v = some (ls, l') ∧ Rel vars s' pre' l' ∧ pre ++ ls = a.flatMap (inst vars) ++ pre' := by
  have hv : vars.val x = v := by simp [Vars.val, hx]
  cases s with
  | code p =>
    obtain ⟨hok, w, hl, hw⟩ := hr
    subst hl
    simp only [sStep] at h
    split at h
    · rename_i hin
      cases h
      have hvok := (hf x v hx).2 hin
      obtain ⟨ls, w', hls, -, -⟩ := lexFrom_ok v hvok w
      refine ⟨ls, .code w', pre ++ ls, hls, ⟨?_, w', rfl, ?_⟩, by simp⟩
      · intro d hd
        rw [val_append] at hd
        rcases List.mem_append.1 hd with hd | hd
        · exact hok d hd
        · simp [val, tokVal, hv] at hd; exact hvok d hd
      · rw [val_append, lexFrom_append_some hw]
        simp [val, tokVal, hv, hls]
    · cases h
  | str p =>
    obtain ⟨h1, h2⟩ := hr
    subst h1; subst h2
    simp only [sStep] at h
    cases h
    exact ⟨[], .str (val vars p ++ v), [], lexFrom_str v (hf x v hx).1 _, ⟨rfl, by simp [val, tokVal, hv]⟩, rfl⟩
  | _ => simp [sStep] at h

theorem lexFrom_blanks (n : Nat) (l : Lex) (hl : l = .code [] ∨ l = .block) :
    lexFrom l (List.replicate n ' ') = some ([], l) := by
  induction n with
  | zero => simp [lexFrom]
  | succ n ih =>
    have hs : step l ' ' = some ([], l) := by rcases hl with rfl | rfl <;> decide
    rw [List.replicate_succ, lexFrom, hs]
    simp only [ih]
    rfl

/-- At the beginning of a line the lexer is where blanks do not matter. -/
def Free (vars : Vars) : SState → Prop
  | .code p => val vars p = []
  | .block => True
  | _ => False

theorem free_lex {vars : Vars} {s : SState} {pre : List Lexeme} {l : Lex} (hf : Free vars s) (hr : Rel vars s pre l) :
    pre = [] ∧ (l = .code [] ∨ l = .block) := by
  cases s with
  | code p =>
    obtain ⟨-, w, rfl, h⟩ := hr
    simp only [Free] at hf
    rw [hf] at h
    simp [lexFrom] at h
    exact ⟨h.1, Or.inl (by rw [h.2])⟩
  | block => exact ⟨hr.1, Or.inr hr.2⟩
  | _ => exact hf.elim

theorem free_newline {vars : Vars} {inCode : Str → Bool} {s s' : SState} {a : List SLex}
    (h : sStep inCode s (.ch '\n') = some (a, s')) : Free vars s' := by
  have hw : isWord '\n' = false := by decide
  have hm : sMark '\n' = some ([], .code []) := by decide
  have e1 : ('\n' = '*') = False := by simp
  have e2 : ('\n' = '/') = False := by simp
  have e3 : ('\n' = '"') = False := by simp
  have e4 : ('\n' = '\\') = False := by simp
  cases s <;> simp [sStep, sCode, hw, hm] at h
  · rw [← h.2]; simp [Free, val]
  · rw [← h.2]; simp [Free, val]
  · rw [← h.2]; simp [Free, val]
  · rw [← h.2]; simp [Free]
  · rw [← h.2]; simp [Free]

theorem lexFrom_margin {vars : Vars} {s : SState} {pre : List Lexeme} {l : Lex} (n : Nat) (start : Bool)
    (hf : start = true → Free vars s) (hr : Rel vars s pre l) (t : Text) : lexFrom l (margin n start ++ t) = lexFrom l t := by
  cases start with
  | false => rfl
  | true =>
    obtain ⟨-, hl⟩ := free_lex (hf rfl) hr
    have := lexFrom_blanks n l hl
    simp only [margin, if_true]
    rw [lexFrom_append_some this]
    cases lexFrom l t <;> simp

/-- Printing a template and lexing the text is lexing the template and putting in the values. -/
theorem lex_template {vars : Vars} {inCode : Str → Bool} (hf : Fits vars inCode) (n : Nat) (ts : List Tok) :
    ∀ (start : Bool) (s s' : SState) (a : List SLex) (pre : List Lexeme) (l : Lex),
      (∀ x, Tok.var x ∈ ts → (vars.get x).isSome = true) →
      (start = true → Free vars s) → Rel vars s pre l → sLex inCode s ts = some (a, s') →
      ∃ text start' ls l' pre', emitToks vars n start ts = some (text, start') ∧ lexFrom l text = some (ls, l') ∧
        Rel vars s' pre' l' ∧ pre ++ ls = a.flatMap (inst vars) ++ pre' ∧ (start' = true → Free vars s') := by
  induction ts with
  | nil =>
    intro start s s' a pre l _ hfree hr h
    simp only [sLex, Option.some.injEq, Prod.mk.injEq] at h
    obtain ⟨rfl, rfl⟩ := h
    exact ⟨[], start, [], l, pre, rfl, rfl, hr, by simp, hfree⟩
  | cons t ts ih =>
    intro start s s' a pre l hdef hfree hr h
    simp only [sLex] at h
    cases hs : sStep inCode s t with
    | none => simp [hs] at h
    | some r =>
      obtain ⟨a1, s1⟩ := r
      simp only [hs] at h
      cases hs2 : sLex inCode s1 ts with
      | none => simp [hs2] at h
      | some r2 =>
        obtain ⟨a2, s2⟩ := r2
        simp only [hs2, Option.some.injEq, Prod.mk.injEq] at h
        obtain ⟨rfl, rfl⟩ := h
        have hdef' : ∀ x, Tok.var x ∈ ts → (vars.get x).isSome = true := fun x hx => hdef x (by simp [hx])
        -- the piece itself
        have key : ∃ text1 start1 ls1 l1 pre1, emitTok vars n start t = some (text1, start1) ∧ lexFrom l text1 = some (ls1, l1) ∧
            Rel vars s1 pre1 l1 ∧ pre ++ ls1 = a1.flatMap (inst vars) ++ pre1 ∧ (start1 = true → Free vars s1) := by
          cases t with
          | ch c =>
            obtain ⟨ls, l', pre', h1, h2, h3⟩ := rel_step hr hs
            by_cases hc : c = '\n'
            · subst hc
              exact ⟨['\n'], true, ls, l', pre', by simp [emitTok], h1, h2, h3, fun _ => free_newline hs⟩
            · refine ⟨margin n start ++ [c], false, ls, l', pre', by simp [emitTok, hc], ?_, h2, h3, by simp⟩
              rw [lexFrom_margin n start hfree hr, h1]
          | var x =>
            have hx := hdef x (by simp)
            cases hv : vars.get x with
            | none => rw [hv] at hx; simp at hx
            | some v =>
              obtain ⟨ls, l', pre', h1, h2, h3⟩ := rel_var hf hv hr hs
              cases v with
              | nil =>
                refine ⟨[], start, ls, l', pre', by simp [emitTok, hv], h1, h2, h3, ?_⟩
                intro hst
                have hfs := hfree hst
                cases s with
                | code p =>
                  simp only [sStep] at hs
                  split at hs
                  · cases hs
                    simp only [Free] at hfs ⊢
                    rw [val_append, hfs]
                    simp [val, tokVal, Vars.val, hv]
                  · cases hs
                | block => simp [sStep] at hs
                | _ => exact hfs.elim
              | cons c v =>
                have hne : c ≠ '\n' := ((hf x _ hv).1 c (by simp)).2.2
                refine ⟨margin n start ++ c :: v, false, ls, l', pre', by simp [emitTok, hv, hne], ?_, h2, h3, by simp⟩
                rw [lexFrom_margin n start hfree hr, h1]
        obtain ⟨text1, start1, ls1, l1, pre1, k1, k2, k3, k4, k5⟩ := key
        obtain ⟨text2, start2, ls2, l2, pre2, m1, m2, m3, m4, m5⟩ := ih start1 s1 s2 a2 pre1 l1 hdef' k5 k3 hs2
        refine ⟨text1 ++ text2, start2, ls1 ++ ls2, l2, pre2, by simp [emitToks, k1, m1], ?_, m3, ?_, m5⟩
        · rw [lexFrom_append_some k2, m2]; rfl
        · rw [← List.append_assoc, k4, List.append_assoc, m4]; simp [List.append_assoc]

end QtPb.TextProof
