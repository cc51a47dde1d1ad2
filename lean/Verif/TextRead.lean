import Verif.TextLex
/-
Reading a template with variables in it, and the effect of calls of the Printer on the reader of the text they print. (Helpers for the
theorems about generated text.)
-/
namespace QtPb.TextProof
open QtPb.Gen QtPb.Gen.Text QtPb.SpecCpp

/-! ### The reader on a template -/

inductive SFrame
  | space (p : List Tok)
  | cls (p : List Tok)
  | brace
  | paren
  | square
deriving DecidableEq, Repr

/-- An event with the brackets opened since the beginning. -/
inductive SEvent
  | forward (rel : List SFrame) (p : List Tok)
  | cls (rel : List SFrame) (p : List Tok) (bases : List SLex)
  | call (rel : List SFrame) (m : Text) (args : List SLex)
  | label (rel : List SFrame) (l : Text)
  | func (rel : List SFrame) (p : List Tok)
deriving DecidableEq, Repr

inductive SPending
  | none
  | space
  | spaceName (p : List Tok)
  | cls
  | clsName (p : List Tok) (rest : List SLex)
  | ended
  | call (m : Text)
  | args (m : Text) (args : List SLex)
deriving DecidableEq, Repr

/-- What is known of the word just before: nothing, that there is none, that it is this one. -/
inductive SLast
  | any
  | no
  | word (p : List Tok)
deriving DecidableEq, Repr

structure SReader where
  stack : List SFrame
  pending : SPending
  found : List SEvent
  last : SLast
deriving DecidableEq, Repr

/-- Variables whose values are single words. -/
def glued : List Str :=
  [text! "classname", text! "property_name", text! "property_name_cap", text! "namespace", text! "enum_gadget", text! "method_name",
   text! "method_name_upper", text! "key_type_underscore", text! "value_type_underscore"]

def litTok : Tok → Option Char
  | .ch c => if isWord c then some c else none
  | .var _ => none

/-- A word without variables. -/
def literal : List Tok → Option Text
  | [] => some []
  | t :: p => match litTok t, literal p with | some c, some w => some (c :: w) | _, _ => none

def gluedTok : Tok → Bool
  | .ch c => isWord c
  | .var x => glued.contains x

/-- A single word. -/
def identWord (p : List Tok) : Bool := !p.isEmpty && p.all gluedTok

def spells (kw : Text) : Tok → Bool
  | .ch c => kw.contains c
  | .var _ => true

/-- A word with variables that cannot be one the reader looks for. -/
def quietWord (p : List Tok) : Bool :=
  (match p with | [.var _] => true | _ => false) || (identWord p && reserved.all fun kw => p.any fun t => !spells kw t)

/-- Whether a place may be directly in a class: if nothing was opened since the beginning it may be, unless it is known that the
beginning is outside of classes (`out`). -/
def mayBeIn (out : Bool) : List SFrame → Bool
  | [] => !out
  | .cls _ :: _ => true
  | _ => false

def sOn (out : Bool) (r : SReader) : SLex → Option SReader
  | .word p =>
    match r.pending with
    | .none =>
      match literal p with
      | some w =>
        if w = kwNamespace then some { r with pending := .space, last := .no }
        else if w = kwClass then some { r with pending := .cls, last := .no }
        else if macros.contains w then some { r with pending := .call w, last := .no }
        else if labels.contains w then
          some { r with found := r.found ++ (if mayBeIn out r.stack then [.label r.stack w] else []), last := .no }
        else if w = [] then none
        else some { r with last := .word p }
      | none => if quietWord p then some { r with last := if identWord p then .word p else .any } else none
    | .space => if identWord p then some { r with pending := .spaceName p } else none
    | .cls => if identWord p then some { r with pending := .clsName p [] } else none
    | .clsName n as =>
      if (literal p).isSome || quietWord p then some { r with pending := .clsName n (as ++ [.word p]) } else none
    | .args m as => if (literal p).isSome || quietWord p then some { r with pending := .args m (as ++ [.word p]) } else none
    | _ => none
  | .punct c =>
    match r.pending with
    | .args m as =>
      if c = ')' then
        match r.stack with
        | .paren :: st => some { stack := st, pending := .none, found := r.found ++ [.call st m as], last := .no }
        | _ => none
      else if c = '(' ∨ c = '{' ∨ c = '}' ∨ c = '[' ∨ c = ']' then none
      else some { r with pending := .args m (as ++ [.punct c]) }
    | .call m =>
      if c = '(' then some { r with stack := .paren :: r.stack, pending := .args m [] } else none
    | .space => none
    | .spaceName n =>
      if c = '{' then some { r with stack := .space n :: r.stack, pending := .none, last := .no }
      else if c = ';' then some { r with pending := .none, last := .no }
      else none
    | .cls => none
    | .clsName n as =>
      if c = '{' then
        some { stack := .cls n :: r.stack, pending := .none, found := r.found ++ [.cls r.stack n as], last := .no }
      else if c = ';' then
        (if as = [] then some { r with pending := .none, found := r.found ++ [.forward r.stack n], last := .no } else none)
      else if c = '(' ∨ c = ')' ∨ c = '}' ∨ c = '[' ∨ c = ']' then none
      else some { r with pending := .clsName n (as ++ [.punct c]) }
    | .ended => if c = ';' then some { r with pending := .none, last := .no } else none
    | .none =>
      if c = '{' then some { r with stack := .brace :: r.stack, last := .no }
      else if c = '(' then
        if mayBeIn out r.stack then
          match r.last with
          | .any => none
          | .no => some { r with stack := .paren :: r.stack, last := .no }
          | .word p => some { r with stack := .paren :: r.stack, found := r.found ++ [.func r.stack p], last := .no }
        else some { r with stack := .paren :: r.stack, last := .no }
      else if c = '[' then some { r with stack := .square :: r.stack, last := .no }
      else if c = '}' then
        match r.stack with
        | .brace :: st => some { r with stack := st, last := .no }
        | .space _ :: st => some { r with stack := st, last := .no }
        | .cls _ :: st => some { r with stack := st, pending := .ended, last := .no }
        | _ => none
      else if c = ')' then
        match r.stack with
        | .paren :: st => some { r with stack := st, last := .no }
        | _ => none
      else if c = ']' then
        match r.stack with
        | .square :: st => some { r with stack := st, last := .no }
        | _ => none
      else some { r with last := .no }
  | .str p =>
    match r.pending with
    | .args m as => some { r with pending := .args m (as ++ [.str p]) }
    | .none => some { r with last := .no }
    | _ => none

def sAll (out : Bool) : SReader → List SLex → Option SReader
  | r, [] => some r
  | r, x :: xs => match sOn out r x with | none => none | some r' => sAll out r' xs

def instF (vars : Vars) : SFrame → Frame
  | .space p => .space (val vars p)
  | .cls p => .cls (val vars p)
  | .brace => .brace
  | .paren => .paren
  | .square => .square

/-- The events, inside of `st`. -/
def instE (vars : Vars) (st : List Frame) : SEvent → List Event
  | .forward rel p => [.forward (scopeOf (rel.map (instF vars) ++ st)) (val vars p)]
  | .cls rel p as => [.cls (scopeOf (rel.map (instF vars) ++ st)) (val vars p) (as.flatMap (inst vars))]
  | .call rel m args => [.call (scopeOf (rel.map (instF vars) ++ st)) m (args.flatMap (inst vars))]
  | .label rel l => if inClass (rel.map (instF vars) ++ st) then [.label (scopeOf (rel.map (instF vars) ++ st)) l] else []
  | .func rel p => if inClass (rel.map (instF vars) ++ st) then [.func (scopeOf (rel.map (instF vars) ++ st)) (val vars p)] else []

def instP (vars : Vars) : SPending → Pending
  | .none => .none
  | .space => .space
  | .spaceName p => .spaceName (val vars p)
  | .cls => .cls
  | .clsName p as => .clsName (val vars p) (as.flatMap (inst vars))
  | .ended => .ended
  | .call m => .call m
  | .args m args => .args m (args.flatMap (inst vars))

def instR (vars : Vars) (st : List Frame) (found : List Event) (last : Option Text) (r : SReader) : Reader :=
  ⟨r.stack.map (instF vars) ++ st, instP vars r.pending, found ++ r.found.flatMap (instE vars st), last⟩

/-- What is known of the word just before is right. -/
def LastOk (vars : Vars) : SLast → Option Text → Prop
  | .any, _ => True
  | .no, l => l = none
  | .word p, l => l = some (val vars p)

/-- What the values are like: names or types where they stand in code, single words where they may be glued to others. -/
def Good (vars : Vars) (inCode : Str → Bool) : Prop :=
  ∀ x v, vars.get x = some v → Quoted v ∧ (inCode x = true → Value v) ∧ (x ∈ glued → IsId v)

theorem Good.fits {vars : Vars} {inCode : Str → Bool} (h : Good vars inCode) : Fits vars inCode := fun x v hx =>
  ⟨(h x v hx).1, fun hi => ((h x v hx).2.1 hi).1⟩

/-! ### Values in place of variables -/

theorem literal_val (vars : Vars) : ∀ (p : List Tok) (w : Text), literal p = some w → val vars p = w ∧ ∀ c ∈ w, isWord c = true
  | [], w, h => by simp only [literal, Option.some.injEq] at h; subst h; simp [val]
  | t :: p, w, h => by
    simp only [literal] at h
    cases t with
    | var x => simp [litTok] at h
    | ch c =>
      by_cases hc : isWord c = true
      · cases hp : literal p with
        | none => simp [litTok, hc, hp] at h
        | some w' =>
          simp only [litTok, hc, hp, if_true, Option.some.injEq] at h
          obtain ⟨h1, h2⟩ := literal_val vars p w' hp
          subst h
          refine ⟨?_, ?_⟩
          · simp only [val] at h1 ⊢; simp [tokVal, h1]
          · intro d hd
            rcases List.mem_cons.1 hd with rfl | hd
            · exact hc
            · exact h2 d hd
      · simp [litTok, hc] at h

theorem identWord_val {vars : Vars} {inCode : Str → Bool} (hg : Good vars inCode) {p : List Tok}
    (hd : ∀ x, Tok.var x ∈ p → (vars.get x).isSome = true) (h : identWord p = true) : IsId (val vars p) := by
  simp only [identWord, Bool.and_eq_true, Bool.not_eq_true', List.isEmpty_eq_false_iff, List.all_eq_true] at h
  have key : ∀ t ∈ p, tokVal vars t ≠ [] ∧ ∀ c ∈ tokVal vars t, isWord c = true := by
    intro t ht
    have := h.2 t ht
    cases t with
    | ch c => simp [tokVal]; simpa [gluedTok] using this
    | var x =>
      simp only [gluedTok, List.contains_iff_mem] at this
      have hs := hd x ht
      cases hx : vars.get x with
      | none => rw [hx] at hs; simp at hs
      | some v =>
        have := (hg x v hx).2.2 this
        simp only [tokVal, Vars.val, hx, Option.getD_some]
        exact this
  refine ⟨?_, ?_⟩
  · cases p with
    | nil => exact (h.1 rfl).elim
    | cons t p =>
      have := (key t (by simp)).1
      simp [val, this]
  · intro c hc
    simp only [val, List.mem_flatMap] at hc
    obtain ⟨t, ht, hc⟩ := hc
    exact (key t ht).2 c hc

/-- The lexemes of a word with variables have no effect. -/
theorem quietWord_harmless {vars : Vars} {inCode : Str → Bool} (hg : Good vars inCode) {p : List Tok}
    (hd : ∀ x, Tok.var x ∈ p → (vars.get x).isSome = true ∧ inCode x = true) (h : quietWord p = true) :
    ∀ l ∈ lexemes (val vars p), Harmless l := by
  simp only [quietWord, Bool.or_eq_true] at h
  rcases h with h | h
  · cases p with
    | nil => simp at h
    | cons t p =>
      cases t with
      | ch c => simp at h
      | var x =>
        cases p with
        | cons _ _ => simp at h
        | nil =>
          obtain ⟨h1, h2⟩ := hd x (by simp)
          cases hx : vars.get x with
          | none => rw [hx] at h1; simp at h1
          | some v =>
            have := ((hg x v hx).2.1 h2).harmless
            simpa [val, tokVal, Vars.val, hx] using this
  · simp only [Bool.and_eq_true, List.all_eq_true] at h
    have hid := identWord_val hg (fun x hx => (hd x hx).1) h.1
    rw [hid.lexemes]
    intro l hl
    simp at hl
    subst hl
    simp only [Harmless]
    intro hr
    have := h.2 _ hr
    simp only [List.any_eq_true, Bool.not_eq_true'] at this
    obtain ⟨t, ht, hs⟩ := this
    cases t with
    | var x => simp [spells] at hs
    | ch c =>
      simp only [spells, List.contains_eq_mem, decide_eq_false_iff_not] at hs
      apply hs
      simp only [val, List.mem_flatMap]
      exact ⟨_, ht, by simp [tokVal]⟩

/-- Harmless lexemes only change the word just before. -/
theorem harmless_idle (stack : List Frame) (found : List Event) :
    ∀ (ls : List Lexeme) (last : Option Text), (∀ l ∈ ls, Harmless l) →
      ∃ last', readAll ⟨stack, .none, found, last⟩ ls = some ⟨stack, .none, found, last'⟩
  | [], last, _ => ⟨last, rfl⟩
  | l :: ls, last, h => by
    have hl := h l (by simp)
    have : ∃ last', onLexeme ⟨stack, .none, found, last⟩ l = some ⟨stack, .none, found, last'⟩ := by
      cases l with
      | str s => exact hl.elim
      | word w =>
        refine ⟨some w, ?_⟩
        simp only [Harmless, reserved, keywords, List.mem_append, not_or] at hl
        obtain ⟨hl, hlab⟩ := hl
        simp only [List.mem_cons, List.not_mem_nil, or_false, not_or] at hl
        obtain ⟨h1, h2, h3, h4, h5, -⟩ := hl
        simp [onLexeme, onWord, h1, h2, macros, h3, h4, h5, hlab]
      | punct c =>
        obtain ⟨-, -, -, -, -, h1, h2, h3, h4, h5, h6, h7⟩ := okChar_ne hl
        exact ⟨none, by simp [onLexeme, onPunct, h1, h2, h3, h4, h5, h6]⟩
    obtain ⟨last1, h1⟩ := this
    obtain ⟨last2, h2⟩ := harmless_idle stack found ls last1 (fun l' hl' => h l' (by simp [hl']))
    exact ⟨last2, by simp only [readAll, h1, h2]⟩

theorem harmless_bases (stack : List Frame) (found : List Event) (last : Option Text) (n : Text) :
    ∀ (ls as : List Lexeme), (∀ l ∈ ls, Harmless l) →
      readAll ⟨stack, .clsName n as, found, last⟩ ls = some ⟨stack, .clsName n (as ++ ls), found, last⟩
  | [], as, _ => by simp [readAll]
  | l :: ls, as, h => by
    have hl := h l (by simp)
    have ih := harmless_bases stack found last n ls (as ++ [l]) (fun l' hl' => h l' (by simp [hl']))
    have : onLexeme ⟨stack, .clsName n as, found, last⟩ l = some ⟨stack, .clsName n (as ++ [l]), found, last⟩ := by
      cases l with
      | str s => exact hl.elim
      | word w => simp [onLexeme, onWord]
      | punct c =>
        obtain ⟨-, -, -, -, -, h1, h2, h3, h4, h5, h6, h7⟩ := okChar_ne hl
        simp [onLexeme, onPunct, h1, h2, h3, h4, h5, h6, h7]
    simp only [readAll, this, ih, List.append_assoc, List.singleton_append]

theorem harmless_args (stack : List Frame) (found : List Event) (last : Option Text) (m : Text) :
    ∀ (ls as : List Lexeme), (∀ l ∈ ls, Harmless l) →
      readAll ⟨stack, .args m as, found, last⟩ ls = some ⟨stack, .args m (as ++ ls), found, last⟩
  | [], as, _ => by simp [readAll]
  | l :: ls, as, h => by
    have hl := h l (by simp)
    have ih := harmless_args stack found last m ls (as ++ [l]) (fun l' hl' => h l' (by simp [hl']))
    have : onLexeme ⟨stack, .args m as, found, last⟩ l = some ⟨stack, .args m (as ++ [l]), found, last⟩ := by
      cases l with
      | str s => exact hl.elim
      | word w => simp [onLexeme, onWord]
      | punct c =>
        obtain ⟨-, -, -, -, -, h1, h2, h3, h4, h5, h6, h7⟩ := okChar_ne hl
        simp [onLexeme, onPunct, h1, h2, h3, h4, h5, h6]
    simp only [readAll, this, ih, List.append_assoc, List.singleton_append]

theorem readAll_word {r : Reader} {w : Text} (hw : ∀ c ∈ w, isWord c = true) :
    readAll r (lexemes w) = some (if w = [] then r else onWord r w) := by
  rw [lexemes_word w hw]
  unfold endWord
  split <;> simp [readAll, onLexeme]

/-- Every variable of a list of lexemes has a value; outside of string literals it may stand in code. -/
def Defined (vars : Vars) (inCode : Str → Bool) : SLex → Prop
  | .word p => ∀ x, Tok.var x ∈ p → (vars.get x).isSome = true ∧ inCode x = true
  | _ => True

theorem inClass_rel (vars : Vars) {out : Bool} {st : List Frame} (ho : out = true → inClass st = false) :
    ∀ (rel : List SFrame), mayBeIn out rel = false → inClass (rel.map (instF vars) ++ st) = false
  | [], h => by simpa using ho (by simpa [mayBeIn] using h)
  | f :: rel, h => by cases f <;> simp_all [mayBeIn, inClass, instF]

theorem identWord_quiet {vars : Vars} {inCode : Str → Bool} (hg : Good vars inCode) {p : List Tok}
    (hd : ∀ x, Tok.var x ∈ p → (vars.get x).isSome = true ∧ inCode x = true) (hq : quietWord p = true) (hi : identWord p = true) :
    IsId (val vars p) ∧ val vars p ∉ reserved := by
  have hid := identWord_val hg (fun x hx => (hd x hx).1) hi
  refine ⟨hid, ?_⟩
  have := quietWord_harmless hg hd hq (.word (val vars p)) (by rw [hid.lexemes]; simp)
  exact this

/-- Reading a lexeme of a template is reading what it stands for. -/
theorem sOn_sound {vars : Vars} {inCode : Str → Bool} (hg : Good vars inCode) {out : Bool} {r r' : SReader} {x : SLex}
    (hd : Defined vars inCode x) (h : sOn out r x = some r') (st : List Frame) (ho : out = true → inClass st = false) (found : List Event) (last : Option Text) (hl : LastOk vars r.last last) :
    ∃ last', LastOk vars r'.last last' ∧
      readAll (instR vars st found last r) (inst vars x) = some (instR vars st found last' r') := by
  obtain ⟨stack, pending, fnd, la⟩ := r
  cases x with
  | word p =>
    have lit : ∀ w, literal p = some w → val vars p = w ∧ ∀ c ∈ w, isWord c = true := literal_val vars p
    have quiet := quietWord_harmless hg hd
    have ident := identWord_val hg (fun x hx => (hd x hx).1)
    simp only [inst]
    cases pending with
    | none =>
      simp only [sOn] at h
      cases hlit : literal p with
      | some w =>
        obtain ⟨hv, hw⟩ := lit w hlit
        rw [hv, readAll_word hw]
        simp only [hlit] at h
        by_cases e1 : w = kwNamespace
        · rw [if_pos e1] at h; cases h
          exact ⟨none, rfl, by subst e1; simp [kwNamespace, instR, onWord, instP]⟩
        · rw [if_neg e1] at h
          by_cases e2 : w = kwClass
          · rw [if_pos e2] at h; cases h
            exact ⟨none, rfl, by subst e2; simp [kwClass, kwNamespace, instR, onWord, instP]⟩
          · rw [if_neg e2] at h
            by_cases e3 : macros.contains w = true
            · rw [if_pos e3] at h; cases h
              have hne : w ≠ [] := by rintro rfl; revert e3; decide
              refine ⟨none, rfl, ?_⟩
              simp only [hne, if_false, instR, onWord, instP, e1, e2, e3, if_true]
            · rw [if_neg e3] at h
              by_cases e4 : labels.contains w = true
              · rw [if_pos e4] at h; cases h
                have hne : w ≠ [] := by rintro rfl; revert e4; decide
                refine ⟨none, rfl, ?_⟩
                simp only [hne, if_false, instR, onWord, instP, e1, e2, e3, e4, if_true, Option.some.injEq, true_and,
                  and_true, List.flatMap_append, ← List.append_assoc]
                congr 1
                cases hmay : mayBeIn out stack with
                | true => simp [instE]; rfl
                | false => simp [inClass_rel vars ho stack hmay]
              · rw [if_neg e4] at h
                split at h
                · cases h
                · rename_i e5; cases h
                  refine ⟨some w, by simp [LastOk, hv], ?_⟩
                  simp only [e5, if_false, instR, onWord, instP, e1, e2, e3, e4]
                  rfl
      | none =>
        simp only [hlit] at h
        split at h
        · rename_i hq; cases h
          obtain ⟨last', hr⟩ := harmless_idle (stack.map (instF vars) ++ st) (found ++ fnd.flatMap (instE vars st)) _ last (quiet hq)
          by_cases hi : identWord p = true
          · obtain ⟨hid, hres⟩ := identWord_quiet hg hd hq hi
            refine ⟨some (val vars p), by simp [hi, LastOk], ?_⟩
            rw [hid.lexemes]
            simp only [reserved, keywords, List.mem_append, not_or] at hres
            obtain ⟨hres, hlab⟩ := hres
            simp only [List.mem_cons, List.not_mem_nil, or_false, not_or] at hres
            obtain ⟨h1, h2, h3, h4, h5, -⟩ := hres
            simp [readAll, onLexeme, instR, instP, onWord, h1, h2, macros, h3, h4, h5, hlab]
          · exact ⟨last', by simp [hi, LastOk], hr⟩
        · cases h
    | space =>
      simp only [sOn] at h
      split at h
      · rename_i hi; cases h
        exact ⟨last, hl, by rw [(ident hi).lexemes]; rfl⟩
      · cases h
    | spaceName n => simp [sOn] at h
    | ended => simp [sOn] at h
    | cls =>
      simp only [sOn] at h
      split at h
      · rename_i hi; cases h
        exact ⟨last, hl, by rw [(ident hi).lexemes]; rfl⟩
      · cases h
    | clsName n as =>
      simp only [sOn] at h
      split at h
      · rename_i hq; cases h
        refine ⟨last, hl, ?_⟩
        rcases Bool.or_eq_true _ _ ▸ hq with hq | hq
        · obtain ⟨w, hlit⟩ := Option.isSome_iff_exists.1 hq
          obtain ⟨hv, hw⟩ := lit w hlit
          have hlex := lexemes_word w hw
          simp only [instR, instP, List.flatMap_append, List.flatMap_cons, List.flatMap_nil, inst, hv, List.append_nil]
          rw [readAll_word hw, hlex]
          unfold endWord
          split <;> simp [onWord]
        · simp only [instR, instP, List.flatMap_append, List.flatMap_cons, List.flatMap_nil, inst, List.append_nil]
          exact harmless_bases _ _ _ _ _ _ (quiet hq)
      · cases h
    | call m => simp [sOn] at h
    | args m as =>
      simp only [sOn] at h
      split at h
      · rename_i hq; cases h
        refine ⟨last, hl, ?_⟩
        rcases Bool.or_eq_true _ _ ▸ hq with hq | hq
        · obtain ⟨w, hlit⟩ := Option.isSome_iff_exists.1 hq
          obtain ⟨hv, hw⟩ := lit w hlit
          have hlex := lexemes_word w hw
          simp only [instR, instP, List.flatMap_append, List.flatMap_cons, List.flatMap_nil, inst, hv, List.append_nil]
          rw [readAll_word hw, hlex]
          unfold endWord
          split <;> simp [onWord]
        · simp only [instR, instP, List.flatMap_append, List.flatMap_cons, List.flatMap_nil, inst, List.append_nil]
          exact harmless_args _ _ _ _ _ _ (quiet hq)
      · cases h
  | str p =>
    simp only [inst, readAll]
    cases pending <;> simp only [sOn, Option.some.injEq, reduceCtorEq] at h
    · subst h; exact ⟨none, rfl, by simp [onLexeme, instR, instP]⟩
    · subst h; exact ⟨last, hl, by simp [onLexeme, instR, instP, inst]⟩
  | punct c =>
    simp only [inst, readAll, onLexeme]
    have key : ∃ last', LastOk vars r'.last last' ∧
        onPunct (instR vars st found last ⟨stack, pending, fnd, la⟩) c = some (instR vars st found last' r') := by
      cases pending with
      | args m as =>
        simp only [sOn] at h
        split at h
        · rename_i hc; subst hc
          split at h
          · cases h
            refine ⟨none, rfl, ?_⟩
            simp_all [onPunct, instR, instP, instF, instE]
          · cases h
        · rename_i hc
          split at h
          · cases h
          · rename_i hb; cases h
            refine ⟨last, hl, ?_⟩
            simp only [onPunct, instR, instP, hc, hb, if_false, List.flatMap_append, inst, List.flatMap_cons, List.flatMap_nil,
              List.append_nil]
      | call m =>
        simp only [sOn] at h
        split at h
        · rename_i hc; cases h; subst hc
          exact ⟨last, hl, by simp [onPunct, instR, instP, instF]⟩
        · cases h
      | space => simp [sOn] at h
      | cls => simp [sOn] at h
      | ended =>
        simp only [sOn] at h
        split at h
        · rename_i hc; cases h; subst hc
          exact ⟨none, rfl, by simp [onPunct, instR, instP]⟩
        · cases h
      | spaceName n =>
        simp only [sOn] at h
        split at h
        · rename_i hc; cases h; subst hc
          exact ⟨none, rfl, by simp [onPunct, instR, instP, instF]⟩
        · split at h
          · rename_i hc; cases h; subst hc
            exact ⟨none, rfl, by simp [onPunct, instR, instP]⟩
          · cases h
      | clsName n as =>
        simp only [sOn] at h
        by_cases h1 : c = '{'
        · rw [if_pos h1] at h; cases h; subst h1
          exact ⟨none, rfl, by simp [onPunct, instR, instP, instF, instE]⟩
        · rw [if_neg h1] at h
          by_cases h2 : c = ';'
          · rw [if_pos h2] at h; subst h2
            split at h
            · rename_i he; cases h; subst he
              exact ⟨none, rfl, by simp [onPunct, instR, instP, instE]⟩
            · cases h
          · rw [if_neg h2] at h
            split at h
            · cases h
            · rename_i hb; cases h
              refine ⟨last, hl, ?_⟩
              simp only [onPunct, instR, instP, h1, h2, hb, if_false, List.flatMap_append, inst, List.flatMap_cons, List.flatMap_nil,
                List.append_nil]
      | none =>
        simp only [sOn] at h
        by_cases h1 : c = '{'
        · rw [if_pos h1] at h; cases h; subst h1
          exact ⟨none, rfl, by simp [onPunct, instR, instP, instF]⟩
        · rw [if_neg h1] at h
          by_cases h2 : c = '('
          · rw [if_pos h2] at h; subst h2
            split at h
            · rename_i hmay
              split at h
              · cases h
              · cases h
                simp only [LastOk] at hl
                subst hl
                exact ⟨none, rfl, by simp [onPunct, instR, instP, instF]⟩
              · cases h
                simp only [LastOk] at hl
                subst hl
                exact ⟨none, rfl, by simp [onPunct, instR, instP, instF, instE]; rfl⟩
            · rename_i hmay; cases h
              refine ⟨none, rfl, ?_⟩
              have := inClass_rel vars ho stack (by simpa using hmay)
              cases last <;> simp [onPunct, instR, instP, instF, this]
          · rw [if_neg h2] at h
            repeat' split at h
            all_goals first
              | (cases h; done)
              | (cases h; exact ⟨none, rfl, by simp_all [onPunct, instR, instP, instF]⟩)
    obtain ⟨last', h1, h2⟩ := key
    exact ⟨last', h1, by rw [h2]⟩

theorem sAll_sound {vars : Vars} {inCode : Str → Bool} (hg : Good vars inCode) {out : Bool} (st : List Frame)
    (ho : out = true → inClass st = false) (found : List Event) :
    ∀ (a : List SLex) (r r' : SReader) (last : Option Text), (∀ x ∈ a, Defined vars inCode x) → sAll out r a = some r' →
      LastOk vars r.last last → ∃ last', LastOk vars r'.last last' ∧
        readAll (instR vars st found last r) (a.flatMap (inst vars)) = some (instR vars st found last' r')
  | [], r, r', last, _, h, hl => by simp only [sAll, Option.some.injEq] at h; subst h; exact ⟨last, hl, rfl⟩
  | x :: a, r, r', last, hd, h, hl => by
    simp only [sAll] at h
    cases h1 : sOn out r x with
    | none => simp [h1] at h
    | some r1 =>
      simp only [h1] at h
      obtain ⟨last1, hl1, hr1⟩ := sOn_sound hg (hd x (by simp)) h1 st ho found last hl
      obtain ⟨last2, hl2, hr2⟩ := sAll_sound hg st ho found a r1 r' last1 (fun y hy => hd y (by simp [hy])) h hl1
      refine ⟨last2, hl2, ?_⟩
      rw [List.flatMap_cons, readAll_append, hr1]
      exact hr2

/-! ### The effect of calls of the Printer on the reader -/

/-- Between two calls: in code, after a word that may go on (only if `q`). -/
def Ends (q : Bool) (l : Lex) (start : Bool) : Prop :=
  ∃ w, l = .code w ∧ (q = false → w = []) ∧ w ∉ reserved ∧ (start = true → w = [])

/-- The calls print a text, wherever they are made; inside of any brackets, after the brackets of `s`, it leaves those of `s'`, and
the events `e` are found. With `out` this is so outside of classes. -/
def Eff (out q q' : Bool) (ops : List Op) (s s' : List Frame) (e : List Frame → List Event) : Prop :=
  ∀ n start l, Ends q l start → ∃ text start' ls l', run n start ops = some (text, n, start') ∧ lexFrom l text = some (ls, l') ∧
    Ends q' l' start' ∧
    ∀ st found last, (out = true → inClass st = false) →
      ∃ last', readAll ⟨s ++ st, .none, found, last⟩ ls = some ⟨s' ++ st, .none, found ++ e st, last'⟩

theorem run_append (n : Nat) (start : Bool) (a b : List Op) :
    run n start (a ++ b) = (run n start a).bind fun r => (run r.2.1 r.2.2 b).map fun q => (r.1 ++ q.1, q.2) := by
  induction a generalizing n start with
  | nil =>
    simp only [List.nil_append, run, Option.bind_some]
    cases run n start b <;> simp
  | cons op a ih =>
    cases op with
    | indent => exact ih _ _
    | outdent =>
      simp only [List.cons_append, run]
      split
      · rfl
      · exact ih _ _
    | print vars t =>
      simp only [List.cons_append, run]
      cases tokens none t with
      | none => rfl
      | some ts =>
        simp only
        cases emitToks vars n start ts with
        | none => rfl
        | some r =>
          simp only [ih]
          cases run n r.2 a with
          | none => rfl
          | some q =>
            simp only [Option.bind_some]
            cases run q.2.1 q.2.2 b with
            | none => rfl
            | some z => simp [List.append_assoc]

theorem Eff.nil {out : Bool} (q : Bool) (s : List Frame) : Eff out q q [] s s (fun _ => []) := fun n start l hl =>
  ⟨[], start, [], l, rfl, rfl, hl, fun st found last _ => ⟨last, by simp [readAll]⟩⟩

theorem Eff.append {out q q1 q2 : Bool} {a b : List Op} {s s1 s2 : List Frame} {e1 e2 : List Frame → List Event}
    (ha : Eff out q q1 a s s1 e1) (hb : Eff out q1 q2 b s1 s2 e2) : Eff out q q2 (a ++ b) s s2 (fun st => e1 st ++ e2 st) := by
  intro n start l hl
  obtain ⟨t1, st1, ls1, l1, h1, h2, h3, h4⟩ := ha n start l hl
  obtain ⟨t2, st2, ls2, l2, k1, k2, k3, k4⟩ := hb n st1 l1 h3
  refine ⟨t1 ++ t2, st2, ls1 ++ ls2, l2, ?_, ?_, k3, ?_⟩
  · rw [run_append, h1]; simp [k1]
  · rw [lexFrom_append_some h2, k2]; rfl
  · intro st found last ho
    obtain ⟨last1, h4⟩ := h4 st found last ho
    obtain ⟨last2, k4⟩ := k4 st (found ++ e1 st) last1 ho
    refine ⟨last2, ?_⟩
    rw [readAll_append, h4]
    simp only [Option.bind_some]
    rw [k4, List.append_assoc]

/-- A frame around. -/
theorem Eff.within {out q q' : Bool} {a : List Op} {s s' : List Frame} {e : List Frame → List Event} (h : Eff out q q' a s s' e)
    (r : List Frame) (hr : out = true → ∀ st, inClass st = false → inClass (r ++ st) = false := by
      first | exact fun _ _ _ => rfl | exact fun h => nomatch h) :
    Eff out q q' a (s ++ r) (s' ++ r) (fun st => e (r ++ st)) := by
  intro n start l hl
  obtain ⟨t1, st1, ls1, l1, h1, h2, h3, h4⟩ := h n start l hl
  refine ⟨t1, st1, ls1, l1, h1, h2, h3, fun st found last ho => ?_⟩
  simpa [List.append_assoc] using h4 (r ++ st) found last (fun h => hr h st (ho h))

theorem Eff.congr {out q q' : Bool} {a : List Op} {s s' : List Frame} {e e' : List Frame → List Event} (h : Eff out q q' a s s' e)
    (he : ∀ st, e st = e' st) : Eff out q q' a s s' e' := by
  have : e = e' := funext he
  rw [← this]; exact h

theorem Eff.weaken {out q : Bool} {a : List Op} {s s' : List Frame} {e : List Frame → List Event} (h : Eff out q false a s s' e) :
    Eff out q true a s s' e := by
  intro n start l hl
  obtain ⟨t1, st1, ls1, l1, h1, h2, ⟨w, h3, h4, h5, h6⟩, h7⟩ := h n start l hl
  exact ⟨t1, st1, ls1, l1, h1, h2, ⟨w, h3, by simp, h5, h6⟩, h7⟩

theorem run_indent (n : Nat) (start : Bool) (ops : List Op) {text : Str} {start' : Bool}
    (h : run (n + 2) start ops = some (text, n + 2, start')) : run n start ([.indent] ++ ops ++ [.outdent]) = some (text, n, start') := by
  simp only [List.singleton_append, List.cons_append, List.nil_append, run]
  rw [run_append, h]
  simp [run]

theorem Eff.indent1 {out q q' : Bool} {a : List Op} {s s' : List Frame} {e : List Frame → List Event} (h : Eff out q q' a s s' e) :
    Eff out q q' ([.indent] ++ a ++ [.outdent]) s s' e := by
  intro n start l hl
  obtain ⟨t1, st1, ls1, l1, h1, h2, h3, h4⟩ := h (n + 2) start l hl
  exact ⟨t1, st1, ls1, l1, run_indent n start a h1, h2, h3, h4⟩

theorem Eff.indented {out q q' : Bool} {a : List Op} {s s' : List Frame} {e : List Frame → List Event} (h : Eff out q q' a s s' e) :
    Eff out q q' (indented a) s s' e := by
  have := h.indent1.indent1
  have e : QtPb.Gen.Text.indented a = [.indent] ++ ([.indent] ++ a ++ [.outdent]) ++ [.outdent] := by
    simp [QtPb.Gen.Text.indented]
  rw [e]; exact this

/-- One after the other, without effect on the brackets. -/
theorem Eff.flatMap {out : Bool} {α : Type} {l : List α} {f : α → List Op} {s : List Frame} {e : α → List Frame → List Event}
    (h : ∀ x ∈ l, Eff out false false (f x) s s (e x)) : Eff out false false (l.flatMap f) s s (fun st => l.flatMap fun x => e x st) := by
  induction l with
  | nil => exact Eff.nil _ _
  | cons x l ih =>
    have := (h x (by simp)).append (ih (fun y hy => h y (by simp [hy])))
    simpa [List.flatMap_cons] using this

theorem Eff.map {out : Bool} {α : Type} {l : List α} {f : α → Op} {s : List Frame} {e : α → List Frame → List Event}
    (h : ∀ x ∈ l, Eff out false false [f x] s s (e x)) : Eff out false false (l.map f) s s (fun st => l.flatMap fun x => e x st) := by
  have := Eff.flatMap (l := l) (f := fun x => [f x]) (s := s) (e := e) h
  rwa [← List.map_eq_flatMap] at this

/-! ### The effect of a template -/

def wordVars : List Tok → List Str
  | [] => []
  | .var x :: p => x :: wordVars p
  | .ch _ :: p => wordVars p

theorem mem_wordVars {x : Str} : ∀ {p : List Tok}, Tok.var x ∈ p → x ∈ wordVars p
  | .var y :: p, h => by
    rcases List.mem_cons.1 h with h | h
    · cases h; simp [wordVars]
    · simp [wordVars, mem_wordVars h]
  | .ch c :: p, h => by
    rcases List.mem_cons.1 h with h | h
    · cases h
    · simp [wordVars, mem_wordVars h]

def definedIn (keys : List Str) (inCode : Str → Bool) : SLex → Bool
  | .word p => (wordVars p).all fun x => keys.contains x && inCode x
  | _ => true

/-- A word at the end of a template that is none the reader looks for. -/
def openWord (p : List Tok) : Bool := quietWord p || (match literal p with | some w => !reserved.contains w | none => false)

/-- What a template does to the reader: the brackets it leaves, what is found, and whether it ends with a word. None if it uses a
variable that is not among `keys`, if it cannot be cut into lexemes or read. -/
def effect (out : Bool) (inCode : Str → Bool) (keys : List Str) (s0 : List SFrame) (t : Str) : Option (List SFrame × List SEvent × Bool) :=
  match tokens none t with
  | none => none
  | some ts =>
    if (wordVars ts).all keys.contains then
      match sLex inCode (.code []) ts with
      | some (a, .code p) =>
        if a.all (definedIn keys inCode) && (wordVars p).all (fun x => keys.contains x && inCode x) then
          match sAll out ⟨s0, .none, [], .any⟩ a with
          | some ⟨s1, .none, evs, _⟩ =>
            if p = [] then some (s1, evs, false)
            else if openWord p then some (s1, evs, true)
            else none
          | _ => none
        else none
      | _ => none
    else none

theorem eff_print {out : Bool} {vars : Vars} {inCode : Str → Bool} {keys : List Str}
    {s0 s1 : List SFrame} {t : Str} {evs : List SEvent} {q : Bool}
    (hg : Good vars inCode) (hk : ∀ x ∈ keys, (vars.get x).isSome = true) (h : effect out inCode keys s0 t = some (s1, evs, q)) :
    Eff out false q [.print vars t] (s0.map (instF vars)) (s1.map (instF vars)) (fun st => evs.flatMap (instE vars st)) := by
  unfold effect at h
  cases ht : tokens none t with
  | none => simp [ht] at h
  | some ts =>
    simp only [ht] at h
    split at h <;> first | (cases h; done) | skip
    rename_i hdef
    cases hs : sLex inCode (.code []) ts with
    | none => simp [hs] at h
    | some r =>
      obtain ⟨a, S⟩ := r
      cases S with
      | code p =>
        simp only [hs] at h
        split at h <;> first | (cases h; done) | skip
        rename_i hdef2
        simp only [Bool.and_eq_true, List.all_eq_true] at hdef2
        obtain ⟨hda, hdp⟩ := hdef2
        cases hr : sAll out ⟨s0, .none, [], .any⟩ a with
        | none => simp [hr] at h
        | some r' =>
          obtain ⟨s1', pend, evs', la⟩ := r'
          cases pend with
          | none =>
            simp only [hr] at h
            have hd1 : ∀ x, Tok.var x ∈ ts → (vars.get x).isSome = true := fun x hx => by
              have := List.all_eq_true.1 hdef x (mem_wordVars hx)
              exact hk x (by simpa using this)
            have hd2 : ∀ x ∈ a, Defined vars inCode x := fun x hx => by
              cases x with
              | word p' =>
                intro y hy
                have := hda _ hx
                simp only [definedIn, List.all_eq_true] at this
                have := this y (mem_wordVars hy)
                simp only [Bool.and_eq_true, List.contains_iff_mem] at this
                exact ⟨hk y this.1, this.2⟩
              | _ => trivial
            have hd3 : ∀ x, Tok.var x ∈ p → (vars.get x).isSome = true ∧ inCode x = true := fun x hx => by
              have := hdp x (mem_wordVars hx)
              simp only [List.contains_iff_mem] at this
              exact ⟨hk x this.1, this.2⟩
            intro n start l hl
            obtain ⟨w0, rfl, hw0, -, -⟩ := hl
            have hw0 := hw0 rfl
            subst hw0
            obtain ⟨text, start', ls, l', pre', m1, m2, ⟨hok, w, rfl, m3⟩, m4, m5⟩ :=
              lex_template hg.fits n ts start (.code []) (.code p) a [] (.code []) hd1 (by intro _; simp [Free, val])
                ⟨by simp [val], [], rfl, rfl⟩ hs
            simp only [List.nil_append] at m4
            have hsound := fun st ho found last => sAll_sound hg (out := out) st ho found a _ _ last hd2 hr (by simp [LastOk])
            have hfin : start' = true → w = [] := fun hst => by
              have := m5 hst
              simp only [Free] at this
              rw [this] at m3
              simp [lexFrom] at m3
              exact m3.2
            have hrun : run n start [.print vars t] = some (text, n, start') := by simp [run, ht, m1]
            have hlex : lexemes (val vars p) = pre' ++ endWord w := lexFrom_lexemes m3
            split at h
            · rename_i hp
              simp only [Option.some.injEq, Prod.mk.injEq] at h
              obtain ⟨rfl, rfl, rfl⟩ := h
              subst hp
              simp [val, lexFrom] at m3
              obtain ⟨rfl, rfl⟩ := m3
              refine ⟨text, start', ls, .code [], hrun, m2, ⟨[], rfl, fun _ => rfl, by decide, fun _ => rfl⟩, ?_⟩
              intro st found last ho
              rw [m4]
              obtain ⟨last', -, this⟩ := hsound st ho found last
              exact ⟨last', by simpa [instR, instP] using this⟩
            · split at h <;> first | (cases h; done) | skip
              rename_i hq
              simp only [Option.some.injEq, Prod.mk.injEq] at h
              obtain ⟨rfl, rfl, rfl⟩ := h
              have harm : ∀ x ∈ lexemes (val vars p), Harmless x := by
                simp only [openWord, Bool.or_eq_true] at hq
                rcases hq with hq | hq
                · exact quietWord_harmless hg hd3 hq
                · cases hlit : literal p with
                  | none => simp [hlit] at hq
                  | some w' =>
                    simp only [hlit] at hq
                    obtain ⟨hv, hw⟩ := literal_val vars p w' hlit
                    rw [hv, lexemes_word w' hw]
                    intro x hx
                    rw [endWord_mem hx]
                    simpa [Harmless] using hq
              rw [hlex] at harm
              refine ⟨text, start', ls, .code w, hrun, m2, ⟨w, rfl, by simp, ?_, hfin⟩, ?_⟩
              · by_cases hw : w = []
                · rw [hw]; decide
                · exact harm (.word w) (by simp [endWord, hw])
              · intro st found last ho
                rw [m4, readAll_append]
                obtain ⟨last', -, this⟩ := hsound st ho found last
                simp only [instR, instP, List.flatMap_nil, List.append_nil] at this
                rw [this]
                exact harmless_idle _ _ _ _ (fun x hx => harm x (by simp [hx]))
          | _ => simp [hr] at h
      | _ => simp [hs] at h

theorem lexFrom_flush (w : Text) (c : Char) (hc : isWord c = false) (t : Text) :
    lexFrom (.code w) (c :: t) = (lexFrom (.code []) (c :: t)).map fun q => (endWord w ++ q.1, q.2) := by
  simp only [lexFrom, step, codeStep, hc]
  cases mark c with
  | none => rfl
  | some r =>
    obtain ⟨a, l'⟩ := r
    simp only [Option.map_some, endWord, if_true, List.nil_append, if_neg (Bool.false_ne_true)]
    cases lexFrom l' t <;> simp

/-- A text that begins with a mark may follow a word. -/
theorem Eff.after_word {out q : Bool} {vars : Vars} {t : Str} {s s' : List Frame} {e : List Frame → List Event} {c : Char} {ts : List Tok}
    (h : Eff out false q [.print vars t] s s' e) (ht : tokens none t = some (.ch c :: ts)) (hc : isWord c = false) :
    Eff out true q [.print vars t] s s' e := by
  intro n start l hl
  obtain ⟨w, rfl, -, hw, hst⟩ := hl
  obtain ⟨text, start', ls, l', h1, h2, h3, h4⟩ :=
    h n start (.code []) ⟨[], rfl, fun _ => rfl, by decide, fun _ => rfl⟩
  cases start with
  | true => rw [hst rfl]; exact ⟨text, start', ls, l', h1, h2, h3, h4⟩
  | false =>
    have : ∃ t', text = c :: t' := by
      simp only [run, ht, emitToks, emitTok, margin] at h1
      by_cases hn : c = '\n'
      · subst hn
        simp only [if_true] at h1
        cases he : emitToks vars n true ts with
        | none => simp [he] at h1
        | some r => simp only [he] at h1; simp at h1; exact ⟨_, h1.1.symm⟩
      · simp [hn] at h1
        cases he : emitToks vars n false ts with
        | none => simp [he] at h1
        | some r => simp [he] at h1; exact ⟨_, h1.1.symm⟩
    obtain ⟨t', rfl⟩ := this
    refine ⟨_, start', endWord w ++ ls, l', h1, ?_, h3, ?_⟩
    · rw [lexFrom_flush w c hc, h2]; rfl
    · intro st found last ho
      obtain ⟨last1, hi⟩ := harmless_idle (s ++ st) found (endWord w) last (fun x hx => by rw [endWord_mem hx]; exact hw)
      rw [readAll_append, hi]
      exact h4 st found last1 ho

/-- The text of a file. -/
theorem read_printed {out : Bool} {ops : List Op} {e : List Frame → List Event} (h : Eff out false false ops [] [] e) :
    ∃ text, printed ops = some text ∧ read text = some (e []) := by
  obtain ⟨text, start', ls, l', h1, h2, ⟨w, rfl, hw, -, -⟩, h4⟩ := h 0 true (.code []) ⟨[], rfl, fun _ => rfl, by decide, fun _ => rfl⟩
  have hw := hw rfl
  subst hw
  refine ⟨text, by simp [printed, h1], ?_⟩
  obtain ⟨last', this⟩ := h4 [] [] none (fun _ => rfl)
  simp only [List.append_nil, List.nil_append] at this
  simp [SpecCpp.read, lex, h2, endWord, this]

end QtPb.TextProof
