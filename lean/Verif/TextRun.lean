import Verif.SpecCppRun
import Verif.TextSrc
/-
Running the bodies of functions of generated classes. (Helpers for the theorems about what they do.)
-/
set_option maxRecDepth 100000
namespace QtPb.TextProof
open QtPb.Gen QtPb.Gen.Text QtPb.Gen.Text.Spec QtPb.SpecCpp

/-! ### Reading -/

/-- The statements that lexemes add. -/
def Reads (ls : List Lexeme) (ss : List Stmt) : Prop :=
  ∀ up done, bodyAll ⟨up, done, []⟩ ls = some ⟨up, done ++ ss, []⟩

theorem bodyAll_append (r : BodyReader) (a b : List Lexeme) : bodyAll r (a ++ b) = (bodyAll r a).bind fun r' => bodyAll r' b := by
  induction a generalizing r with
  | nil => rfl
  | cons x a ih =>
    simp only [List.cons_append, bodyAll]
    cases onBody r x with
    | none => rfl
    | some r' => exact ih r'

theorem Reads.nil : Reads [] [] := fun up done => by simp [bodyAll]

theorem Reads.append {a b : List Lexeme} {x y : List Stmt} (ha : Reads a x) (hb : Reads b y) : Reads (a ++ b) (x ++ y) := fun up done => by
  rw [bodyAll_append, ha]; simp only [Option.bind_some]; rw [hb, List.append_assoc]

theorem Reads.flatMap {α : Type} {l : List α} {f : α → List Lexeme} {k : α → List Stmt} (h : ∀ x ∈ l, Reads (f x) (k x)) :
    Reads (l.flatMap f) (l.flatMap k) := by
  induction l with
  | nil => exact Reads.nil
  | cons x l ih => exact (h x (by simp)).append (ih (fun y hy => h y (by simp [hy])))

theorem Reads.stmts {a : List Lexeme} {x : List Stmt} (h : Reads a x) : stmtsOf a = some x := by
  unfold stmtsOf
  have := h [] []
  rw [show ({} : BodyReader) = ⟨[], [], []⟩ from rfl, this]
  rfl

def mem' (N : Text) : Text := text! "m_" ++ N
def sig' (N : Text) : Text := N ++ text! "Changed"
def set' (U : Text) : Text := text! "set" ++ U

theorem bodyAll_head (up : List (List Stmt × Expr)) (done : List Stmt) : ∀ (ls head : List Lexeme), Inlines ls →
    bodyAll ⟨up, done, head⟩ ls = some ⟨up, done, head ++ ls⟩
  | [], head, _ => by simp [bodyAll]
  | x :: ls, head, h => by
    have hx := h x (by simp)
    have e : onBody ⟨up, done, head⟩ x = some ⟨up, done, head ++ [x]⟩ := by
      unfold onBody
      split
      · exact absurd rfl hx.2.2
      · exact absurd rfl hx.1
      · exact absurd rfl hx.2.1
      · rfl
    simp only [bodyAll, e]
    rw [bodyAll_head up done ls _ (fun y hy => h y (by simp [hy])), List.append_assoc]
    rfl

theorem reads_simple {ls : List Lexeme} {s : Stmt} (hi : Inlines ls) (h : simpleOf ls = some s) : Reads (ls ++ [.punct ';']) [s] := by
  intro up done
  rw [bodyAll_append, bodyAll_head up done _ _ hi]
  simp [bodyAll, onBody, h]

theorem reads_if {ls body : List Lexeme} {e : Expr} {ss : List Stmt} (hi : Inlines ls) (h : condOf ls = some e) (hb : Reads body ss) :
    Reads (ls ++ .punct '{' :: (body ++ [.punct '}'])) [.cond e ss] := by
  intro up done
  rw [bodyAll_append, bodyAll_head up done _ _ hi]
  simp only [Option.bind_some, List.nil_append, bodyAll, onBody, h, Option.map_some]
  rw [bodyAll_append, hb]
  simp [bodyAll, onBody]

/-- A statement that is read as it stands, and what follows. -/
theorem Reads.before {a b : List Lexeme} {s : Stmt} {y : List Stmt} (hb : Reads b y)
    (ha : ∀ up done, bodyAll ⟨up, done, []⟩ a = some ⟨up, done ++ [s], []⟩) : Reads (a ++ b) (s :: y) :=
  Reads.append (x := [s]) ha hb

theorem sig_ne (N w : Text) (h : w.length < 7) : sig' N ≠ w := by
  intro e
  have := congrArg List.length e
  simp only [sig', List.length_append, List.length_cons, List.length_nil] at this
  omega

theorem simple_signal (N : Text) : simpleOf [.word (sig' N), .punct '(', .punct ')'] = some (.expr (.call0 [sig' N])) := by
  have h := sig_ne N (text! "return") (by decide)
  show (if sig' N = text! "return" then _ else _) = _
  rw [if_neg h]
  rfl

theorem reads_signal (N : Text) : Reads (cpp! "$N$Changed();") [.expr (.call0 [sig' N])] :=
  reads_simple (ls := [.word (sig' N), .punct '(', .punct ')']) (by simp [inlines_word, inlines_punct, inlines_nil]) (simple_signal N)

/-- `m_N`, `other.m_N`. -/
def own' (N : Text) : Expr := .var (mem' N)
def oth (N : Text) : Expr := .field (text! "other") (mem' N)
def differ (N : Text) : Expr := .ne (own' N) (oth N)
def emit (N : Text) : Stmt := .expr (.call0 [sig' N])
def emitOther (N : Text) : Stmt := .expr (.call0 [text! "other", ['.'], sig' N])

theorem reads_emitOther (N : Text) : Reads (cpp! "other.$N$Changed();") [emitOther N] := by
  intro up done; rfl

theorem reads_copyField (N U : Text) : Reads (Src.copyField N U) [.expr (.call1 [set' U] (oth N))] := by
  intro up done; rfl

theorem reads_copyMessage (N : Text) : Reads (Src.copyMessage N) [.cond (differ N) [.assign (.deref (own' N)) (.deref (oth N))]] := by
  intro up done; rfl

def ifDiffer (N : Text) : List Lexeme := cpp! "if (m_$N$ != other.m_$N$)"

theorem reads_ifDiffer {N : Text} {body : List Lexeme} {ss : List Stmt} (hb : Reads body ss) :
    Reads (ifDiffer N ++ .punct '{' :: (body ++ [.punct '}'])) [.cond (differ N) ss] :=
  reads_if (by simp [ifDiffer, inlines_word, inlines_punct, inlines_nil]) rfl hb

theorem reads_assignMessage (N : Text) : Reads (Src.assignMessage N)
    [.cond (differ N) [.assign (.deref (own' N)) (.deref (oth N)), emit N]] :=
  reads_ifDiffer (body := (cpp! "*m_$N$ = *other.m_$N$;") ++ (cpp! "$N$Changed();")) ((reads_signal N).before fun _ _ => rfl)

theorem reads_moveMessage (N : Text) : Reads (Src.moveMessage N)
    [.cond (differ N) [.assign (.deref (own' N)) (.call1 moveFn (.deref (oth N)))]] := by
  intro up done; rfl

theorem reads_moveAssignMessage (N : Text) : Reads (Src.moveAssignMessage N)
    [.cond (differ N) [.assign (.deref (own' N)) (.call1 moveFn (.deref (oth N))), emit N, emitOther N]] :=
  reads_ifDiffer (body := (cpp! "*m_$N$ = std::move(*other.m_$N$);") ++ ((cpp! "$N$Changed();") ++ (cpp! "other.$N$Changed();")))
    (((reads_signal N).append (reads_emitOther N)).before fun _ _ => rfl)

theorem reads_moveComplex (N : Text) : Reads (Src.moveComplex N)
    [.cond (differ N) [.assign (own' N) (.call1 moveFn (oth N)), emit N, emitOther N]] :=
  reads_ifDiffer (body := (cpp! "m_$N$ = std::move(other.m_$N$);") ++ ((cpp! "$N$Changed();") ++ (cpp! "other.$N$Changed();")))
    (((reads_signal N).append (reads_emitOther N)).before fun _ _ => rfl)

theorem reads_moveInit (N : Text) : Reads (Src.moveInit N) [.assign (own' N) (.call1 moveFn (oth N)), emitOther N] :=
  (reads_emitOther N).before (a := cpp! "m_$N$ = std::move(other.m_$N$);") fun _ _ => rfl

theorem reads_moveField (N U : Text) : Reads (Src.moveField N U)
    [.expr (.call1 [set' U] (.call2 exchangeFn (oth N) (.var (text! "0")))), emitOther N] :=
  (reads_emitOther N).before (a := cpp! "set$U$(std::exchange(other.m_$N$, 0));") fun _ _ => rfl

theorem reads_moveEnum (N : Text) : Reads (Src.moveEnum N) [.assign (own' N) (oth N)] := by
  intro up done; rfl

theorem reads_return : Reads Src.returnThis [.ret (.deref (.var (text! "this")))] := by
  intro up done; rfl

theorem reads_notEqual : Reads Src.notEqualBody [.ret (.not (.call1 equalFn (.var (text! "other"))))] := by
  intro up done; rfl

theorem reads_complexSetter (N : Text) : Reads (Src.complexSetterBody N)
    [.cond (.ne (own' N) (.var N)) [.assign (own' N) (.var N), emit N]] :=
  reads_if (ls := cpp! "if (m_$N$ != $N$)") (body := (cpp! "m_$N$ = $N$;") ++ (cpp! "$N$Changed();"))
    (by simp [inlines_word, inlines_punct, inlines_nil]) rfl ((reads_signal N).before fun _ _ => rfl)

theorem reads_messageSetter (N : Text) : Reads (Src.messageSetterBody N)
    [.cond (.ne (.deref (own' N)) (.var N)) [.assign (.deref (own' N)) (.var N), emit N]] :=
  reads_if (ls := cpp! "if (*m_$N$ != $N$)") (body := (cpp! "*m_$N$ = $N$;") ++ (cpp! "$N$Changed();"))
    (by simp [inlines_word, inlines_punct, inlines_nil]) rfl ((reads_signal N).before fun _ _ => rfl)

/-! #### The comparison -/

section
variable (c : Ctx)

/-- The tokens of the comparison of a field. -/
def equalTokens (f : FieldD) : List Token :=
  let own : Token := .name (mem' f.prop)
  let oth : List Token := [.name (text! "other"), .mark ['.'], .name (mem' f.prop)]
  if isPureMessage c.package f then
    [.mark ['('], own, .mark (text! "==")] ++ oth ++ [.mark (text! "||"), .mark ['*'], own, .mark (text! "=="), .mark ['*']] ++ oth ++ [.mark [')']]
  else if f.type == .message && f.repeated then
    [.name (text! "QtProtobuf"), .mark (text! "::"), .name (text! "repeatedValueCompare"), .mark ['('], own, .mark [',']] ++ oth ++ [.mark [')']]
  else [own, .mark (text! "==")] ++ oth

/-- The comparison of a field. -/
def equalExpr (f : FieldD) : Expr :=
  if isPureMessage c.package f then .or (.eq (own' f.prop) (oth f.prop)) (.eq (.deref (own' f.prop)) (.deref (oth f.prop)))
  else if f.type == .message && f.repeated then .call2 repeatedFn (own' f.prop) (oth f.prop)
  else .eq (own' f.prop) (oth f.prop)

theorem tokens_equal_end (f : FieldD) : tokensOf (equalOf c f) = some (equalTokens c f) := by
  unfold equalOf equalTokens
  split
  · rfl
  · split <;> rfl

theorem tokens_equal (f : FieldD) (r : List Lexeme) : tokensOf (equalOf c f ++ .punct '&' :: .punct '&' :: r) =
    (tokensOf r).map fun l => equalTokens c f ++ .mark (text! "&&") :: l := by
  have e : ∀ (g : List Token), (tokensOf r).map (fun l => g ++ .mark (text! "&&") :: l) =
    ((tokensOf r).map fun l => Token.mark (text! "&&") :: l).map fun l => g ++ l := fun g => by
      rw [Option.map_map]; rfl
  rw [e]
  unfold equalOf equalTokens
  split
  · cases h : tokensOf r with
    | none => simp [Src.equalMessage, tokensOf, h]
    | some l => simp [Src.equalMessage, tokensOf, h, mem']
  · split
    · cases h : tokensOf r with
      | none => simp [Src.equalRepeated, tokensOf, h]
      | some l => simp [Src.equalRepeated, tokensOf, h, mem']
    · cases h : tokensOf r with
      | none => simp [Src.equalField, tokensOf, h]
      | some l => simp [Src.equalField, tokensOf, h, mem']

/-- The tokens of the comparison of all fields. -/
def allTokens (f : FieldD) (fs : List FieldD) : List Token := equalTokens c f ++ fs.flatMap fun g => .mark (text! "&&") :: equalTokens c g

theorem tokens_all : ∀ (f : FieldD) (fs : List FieldD),
    tokensOf (equalOf c f ++ fs.flatMap fun g => [.punct '&', .punct '&'] ++ equalOf c g) = some (allTokens c f fs)
  | f, [] => by simpa [allTokens] using tokens_equal_end c f
  | f, g :: fs => by
    have := tokens_equal c f (equalOf c g ++ fs.flatMap fun g => [.punct '&', .punct '&'] ++ equalOf c g)
    rw [tokens_all g fs] at this
    simpa [allTokens] using this

theorem split_equal (sep : Text) (h : sep = text! "||" ∨ sep = text! "=" ∨ sep = text! "&&") (f : FieldD) (acc r : List Token) :
    splitFrom sep 0 acc (equalTokens c f ++ r) = splitFrom sep 0 (acc ++ equalTokens c f) r := by
  unfold equalTokens
  rcases h with rfl | rfl | rfl
  all_goals
    split
    · simp [splitFrom, isMark]
    · split
      · simp [splitFrom, isMark]
      · simp [splitFrom, isMark]

theorem split_none (sep : Text) (h : sep = text! "||" ∨ sep = text! "=") : ∀ (fs : List FieldD) (acc : List Token),
    splitFrom sep 0 acc (fs.flatMap fun g => .mark (text! "&&") :: equalTokens c g) =
      some [acc ++ fs.flatMap fun g => .mark (text! "&&") :: equalTokens c g]
  | [], acc => by simp [splitFrom]
  | g :: fs, acc => by
    have hs : sep = text! "||" ∨ sep = text! "=" ∨ sep = text! "&&" := by rcases h with h | h <;> simp [h]
    have e : splitFrom sep 0 acc (.mark (text! "&&") :: (equalTokens c g ++ fs.flatMap fun g => .mark (text! "&&") :: equalTokens c g)) =
        splitFrom sep 0 (acc ++ [.mark (text! "&&")]) (equalTokens c g ++ fs.flatMap fun g => .mark (text! "&&") :: equalTokens c g) := by
      rcases h with rfl | rfl <;> simp [splitFrom, isMark]
    rw [List.flatMap_cons, List.cons_append, e, split_equal c sep hs, split_none sep h fs]
    simp

theorem split_and : ∀ (fs : List FieldD) (acc : List Token),
    splitFrom (text! "&&") 0 acc (fs.flatMap fun g => .mark (text! "&&") :: equalTokens c g) = some (acc :: fs.map (equalTokens c))
  | [], acc => by simp [splitFrom]
  | g :: fs, acc => by
    rw [List.flatMap_cons, List.cons_append]
    have e : splitFrom (text! "&&") 0 acc (.mark (text! "&&") :: (equalTokens c g ++ fs.flatMap fun g => .mark (text! "&&") :: equalTokens c g)) =
        (splitFrom (text! "&&") 0 [] (equalTokens c g ++ fs.flatMap fun g => .mark (text! "&&") :: equalTokens c g)).map (acc :: ·) := by
      rw [splitFrom]; rfl
    rw [e, split_equal c _ (Or.inr (Or.inr rfl)), split_and fs]
    rfl

theorem expr_equal (f : FieldD) (n : Nat) : expr (n + 5) (equalTokens c f) = some (equalExpr c f) := by
  unfold equalTokens equalExpr
  split
  · rfl
  · split <;> rfl

/-- The comparison of all fields. -/
def allExpr (f : FieldD) : List FieldD → Expr
  | [] => equalExpr c f
  | g :: fs => .and (equalExpr c f) (allExpr g fs)

theorem join_all : ∀ (f : FieldD) (fs : List FieldD) (n : Nat),
    joinRight .and (((equalTokens c f) :: fs.map (equalTokens c)).map (expr (n + 5))) = some (allExpr c f fs)
  | f, [], n => by simp [joinRight, allExpr, expr_equal]
  | f, g :: fs, n => by
    have := join_all g fs n
    simp only [List.map_cons] at this ⊢
    rw [expr_equal, show ∀ (a : Option Expr) (b : Option Expr) (l : List (Option Expr)), joinRight .and (a :: b :: l) =
      (match a, joinRight .and (b :: l) with | some a, some b => some (.and a b) | _, _ => none) from fun _ _ _ => rfl, this]
    rfl

theorem expr_all (f : FieldD) (fs : List FieldD) : exprOf (allTokens c f fs) = some (allExpr c f fs) := by
  cases fs with
  | nil =>
    have := expr_equal c f 3
    unfold exprOf
    simpa [allTokens, allExpr] using this
  | cons g fs =>
    unfold exprOf
    have h1 : splitMarks (text! "||") (allTokens c f (g :: fs)) = some [allTokens c f (g :: fs)] := by
      unfold splitMarks allTokens
      rw [split_equal c _ (Or.inl rfl), split_none c _ (Or.inl rfl)]
      rfl
    have h2 : splitMarks (text! "&&") (allTokens c f (g :: fs)) = some (equalTokens c f :: equalTokens c g :: fs.map (equalTokens c)) := by
      unfold splitMarks allTokens
      rw [split_equal c _ (Or.inr (Or.inr rfl)), split_and]
      rfl
    rw [expr]
    simp only [h1, h2]
    exact join_all c f (g :: fs) 2

theorem reads_equal (m : Cur) : Reads (equalBody c m) (match m.fields with
    | [] => [.ret (.var (text! "true"))]
    | f :: fs => [.ret (allExpr c f fs)]) := by
  unfold equalBody
  cases m.fields with
  | nil => intro up done; rfl
  | cons f fs =>
    have hi : Inlines (equalOf c f ++ fs.flatMap fun g => [.punct '&', .punct '&'] ++ equalOf c g) := by
      have he : ∀ g, Inlines (equalOf c g) := fun g => by
        unfold equalOf
        split
        · simp [Src.equalMessage, inlines_word, inlines_punct, inlines_nil]
        · split
          · simp [Src.equalRepeated, inlines_word, inlines_punct, inlines_nil]
          · simp [Src.equalField, inlines_word, inlines_punct, inlines_nil]
      rw [inlines_append]
      refine ⟨he f, inlines_flatMap fun g _ => ?_⟩
      simp [inlines_punct, he g]
    refine reads_simple (ls := .word (text! "return") :: (equalOf c f ++ fs.flatMap fun g => [.punct '&', .punct '&'] ++ equalOf c g)) ?_ ?_
    · rw [inlines_word]; exact hi
    · have ht : tokensOf (.word (text! "return") :: (equalOf c f ++ fs.flatMap fun g => [.punct '&', .punct '&'] ++ equalOf c g)) =
          some (.name (text! "return") :: allTokens c f fs) := by
        have := tokens_all c f fs
        have e : ∀ r, (∀ x, r ≠ .punct '=' :: x) → tokensOf (.word (text! "return") :: r) = (tokensOf r).map (.name (text! "return") :: ·) := by
          intro r hr
          rw [tokensOf]
          intro x e
          exact hr _ e
        rw [e, this]
        · rfl
        · intro x
          unfold equalOf
          split
          · simp [Src.equalMessage]
          · split
            · simp [Src.equalRepeated]
            · simp [Src.equalField]
      unfold simpleOf
      rw [ht]
      simp only [if_true, expr_all]
      rfl

end

end QtPb.TextProof
