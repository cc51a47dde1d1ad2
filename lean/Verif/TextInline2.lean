import Verif.TextInline
import Verif.TextDefs2
/-
What the reader of headers finds in functions, members, sections, namespaces and classes. (Helpers for the theorems about generated headers.)
-/
set_option linter.unusedVariables false
set_option maxRecDepth 100000

namespace QtPb.TextProof
open QtPb.Gen QtPb.Gen.Text QtPb.Gen.Text.Spec QtPb.SpecCpp

/-! ### Bodies -/

theorem bal_in : ∀ (ls : List Lexeme) (k j : Nat), bal k ls = some j → ∀ scope head found b n,
    inAll ⟨scope, head, some (b, k + n), found⟩ ls = some ⟨scope, head, some (b ++ ls, j + n), found⟩
  | [], k, j, h, scope, head, found, b, n => by simp only [bal, Option.some.injEq] at h; subst h; simp [inAll]
  | .word w :: ls, k, j, h, scope, head, found, b, n => by
    have ih := bal_in ls k j h scope head found (b ++ [.word w]) n
    simp [inAll, onIn, ih]
  | .str w :: ls, k, j, h, scope, head, found, b, n => by
    have ih := bal_in ls k j h scope head found (b ++ [.str w]) n
    simp [inAll, onIn, ih]
  | .punct c :: ls, k, j, h, scope, head, found, b, n => by
    rw [bal.eq_def] at h
    simp only at h
    split at h
    · rename_i hc
      subst hc
      have ih := bal_in ls (k + 1) j h scope head found (b ++ [.punct '{']) n
      have e : k + 1 + n = k + n + 1 := by omega
      rw [e] at ih
      simp [inAll, onIn, ih]
    · rename_i h1
      split at h
      · rename_i hc
        subst hc
        cases k with
        | zero => simp at h
        | succ k =>
          have ih := bal_in ls k j h scope head found (b ++ [.punct '}']) n
          have e : k + 1 + n = (k + n) + 1 := by omega
          rw [e]
          simp [inAll, onIn, ih]
      · rename_i h2
        have ih := bal_in ls k j h scope head found (b ++ [.punct c]) n
        simp [inAll, onIn, h1, h2, ih]

/-- Lexemes of a head: they are only kept. -/
structure HeadL (x : Lexeme) : Prop extends PlainL x where
  noEnd : x ≠ .punct ';'

theorem head_in (scope : List Text) (found : List Declared) : ∀ (ls head : List Lexeme), (∀ x ∈ ls, HeadL x) → atLabel head = false →
    inAll ⟨scope, head, none, found⟩ ls = some ⟨scope, head ++ ls, none, found⟩ ∧ atLabel (head ++ ls) = false
  | [], head, _, hl => by simp [inAll, hl]
  | x :: ls, head, h, hl => by
    have hx := h x (by simp)
    obtain ⟨h1, h2⟩ := head_in scope found ls (head ++ [x]) (fun y hy => h y (by simp [hy])) (atLabel_snoc hx.toPlainL)
    refine ⟨?_, by simpa using h2⟩
    simp only [inAll, onIn, hx.noOpen, hx.noClose, hx.noEnd, hl, if_false, and_false, Bool.false_eq_true]
    rw [h1]; simp

/-- What a block adds. -/
def blockFound (r : Option (Text × List (List Lexeme × Text))) (body : List Lexeme) (s : List Text) : List Declared :=
  match r with
  | some (f, ps) => [.fn s f ps body]
  | none => []

/-- A block. -/
theorem heff_block {head body : List Lexeme} {r : Option (Text × List (List Lexeme × Text))} (hh : ∀ x ∈ head, HeadL x)
    (ho : ∀ before, opened (before ++ head) = none) (hi : ∀ before, inlineHead (before ++ head) = r) (hb : bal 0 body = some 0) :
    HEff false true (head ++ .punct '{' :: body ++ [.punct '}'])
      (blockFound r body) := by
  intro scope head0 found hl _
  refine ⟨[], rfl, fun _ => rfl, ?_⟩
  rw [List.append_assoc, inAll_append, (head_in scope found head head0 hh hl).1]
  simp only [Option.bind_some, List.cons_append, inAll, onIn, if_true, ho]
  rw [inAll_append]
  have := bal_in body 0 0 hb scope (head0 ++ head) found [] 0
  simp only [Nat.add_zero, List.nil_append] at this
  rw [this]
  have hi0 := hi head0
  simp only [inAll, onIn, hi0]
  cases r <;> simp [blockFound, hi0]

theorem opened_paren (before head : List Lexeme) : opened (before ++ (head ++ [.punct ')'])) = none := by
  simp [opened]

theorem opened_const (before head : List Lexeme) : opened (before ++ (head ++ [.punct ')', .word (text! "const")])) = none := by
  simp [opened]

theorem takeWhile_stop {α : Type} (p : α → Bool) : ∀ (l : List α) (x : α) (r : List α), (∀ y ∈ l, p y = true) → p x = false →
    (l ++ x :: r).takeWhile p = l ∧ (l ++ x :: r).dropWhile p = x :: r
  | [], x, r, _, hx => by simp [List.takeWhile, List.dropWhile, hx]
  | y :: l, x, r, h, hx => by
    obtain ⟨h1, h2⟩ := takeWhile_stop p l x r (fun z hz => h z (by simp [hz])) hx
    have hy := h y (by simp)
    simp [List.takeWhile, List.dropWhile, hy, h1, h2]

theorem inlineHead_plain (before pre ps : List Lexeme) (n : Text) (hp : ∀ x ∈ ps, x ≠ .punct '(') :
    inlineHead (before ++ (pre ++ .word n :: .punct '(' :: ps ++ [.punct ')'])) = some (n, (parts ps).map paramOf) := by
  unfold inlineHead
  simp only [List.reverse_append, List.reverse_cons, List.reverse_nil, List.nil_append, List.append_assoc, List.cons_append]
  have h := takeWhile_stop (fun x => decide (x ≠ Lexeme.punct '(')) ps.reverse (.punct '(') (.word n :: (pre.reverse ++ before.reverse))
    (fun y hy => by simpa using hp y (by simpa using hy)) (by simp)
  rw [if_neg (by simp)]
  simp only [h.1, h.2]
  simp

theorem inlineHead_const (before pre ps : List Lexeme) (n : Text) (hp : ∀ x ∈ ps, x ≠ .punct '(') :
    inlineHead (before ++ (pre ++ .word n :: .punct '(' :: ps ++ [.punct ')', .word (text! "const")])) = some (n, (parts ps).map paramOf) := by
  unfold inlineHead
  simp only [List.reverse_append, List.reverse_cons, List.reverse_nil, List.nil_append, List.append_assoc, List.cons_append]
  have h := takeWhile_stop (fun x => decide (x ≠ Lexeme.punct '(')) ps.reverse (.punct '(') (.word n :: (pre.reverse ++ before.reverse))
    (fun y hy => by simpa using hp y (by simpa using hy)) (by simp)
  rw [if_pos (by simp)]
  simp only [List.drop_succ_cons, List.drop_zero]
  rw [h.1, h.2]
  simp

/-- A function. -/
theorem heff_fn {pre ps body : List Lexeme} {n : Text} (h1 : ∀ x ∈ pre ++ .word n :: .punct '(' :: ps ++ [.punct ')'], HeadL x)
    (hp : ∀ x ∈ ps, x ≠ .punct '(') (hb : bal 0 body = some 0) :
    HEff false true ((pre ++ .word n :: .punct '(' :: ps ++ [.punct ')']) ++ .punct '{' :: body ++ [.punct '}'])
      (fun s => [.fn s n ((parts ps).map paramOf) body]) :=
  heff_block (r := some (n, (parts ps).map paramOf)) h1 (fun b => opened_paren b _) (fun b => inlineHead_plain b pre ps n hp) hb

/-- A function that is `const`. -/
theorem heff_constFn {pre ps body : List Lexeme} {n : Text}
    (h1 : ∀ x ∈ pre ++ .word n :: .punct '(' :: ps ++ [.punct ')', .word (text! "const")], HeadL x)
    (hp : ∀ x ∈ ps, x ≠ .punct '(') (hb : bal 0 body = some 0) :
    HEff false true ((pre ++ .word n :: .punct '(' :: ps ++ [.punct ')', .word (text! "const")]) ++ .punct '{' :: body ++ [.punct '}'])
      (fun s => [.fn s n ((parts ps).map paramOf) body]) :=
  heff_block (r := some (n, (parts ps).map paramOf)) h1 (fun b => opened_const b _) (fun b => inlineHead_const b pre ps n hp) hb

/-- An enumeration. -/
theorem heff_enum {w : Text} {body : List Lexeme} (hw : w ∉ sections) (hb : bal 0 body = some 0) :
    HEff false true ([.word (text! "enum"), .word w] ++ .punct '{' :: body ++ [.punct '}']) (fun _ => []) := by
  refine heff_block (r := none) ?_ ?_ ?_ hb
  · intro x hx
    simp only [List.mem_cons, List.not_mem_nil, or_false] at hx
    rcases hx with rfl | rfl
    · exact ⟨⟨by simp, by simp, fun v e => by cases e; decide⟩, by simp⟩
    · exact ⟨⟨by simp, by simp, fun v e => by cases e; exact hw⟩, by simp⟩
  · intro before
    have e1 : text! "enum" ≠ kwNamespace := by decide
    have e2 : text! "enum" ≠ kwPublic := by decide
    simp [opened, kwNamespace, kwPublic]
  · intro before
    unfold inlineHead
    simp only [List.reverse_append, List.reverse_cons, List.reverse_nil, List.nil_append, List.cons_append, List.head?_cons]
    by_cases hc : w = text! "const"
    · subst hc; simp
    · rw [if_neg (by simpa using hc)]

/-- The beginning of a section. -/
theorem heff_label {w : Text} (hw : w ∈ sections) : HEff false true [.word w, .punct ':'] (fun _ => []) := by
  intro scope head found hl _
  refine ⟨[], rfl, fun _ => rfl, ?_⟩
  have : atLabel (head ++ [.word w]) = true := by
    unfold atLabel; rw [List.getLast?_concat]; simpa using hw
  simp [inAll, onIn, this]

/-- A data member. -/
theorem heff_member {ty : List Lexeme} {n : Text} (ht : ∀ x ∈ ty, HeadL x ∧ notInMember x = false) (hn : notInMember (.word n) = false)
    (hs : n ∉ sections) : HEff true true (ty ++ [.word n, .punct ';']) (fun s => [.member s ty n]) := by
  intro scope head found hl h0
  rw [h0 rfl]
  refine ⟨[], rfl, fun _ => rfl, ?_⟩
  have e : ty ++ [.word n, .punct ';'] = (ty ++ [.word n]) ++ [.punct ';'] := by simp
  have hh : ∀ x ∈ ty ++ [.word n], HeadL x := by
    intro x hx
    rcases List.mem_append.1 hx with hx | hx
    · exact (ht x hx).1
    · simp only [List.mem_singleton] at hx
      subst hx
      exact ⟨⟨by simp, by simp, fun v e => by cases e; exact hs⟩, by simp⟩
  have hm : memberOf (ty ++ [.word n]) = some (ty, n) := by
    unfold memberOf
    rw [if_neg, List.getLast?_concat, List.dropLast_concat]
    simp only [List.any_append, List.any_cons, List.any_nil, Bool.or_false, hn, Bool.or_eq_true, List.any_eq_true, not_or, not_exists, not_and,
      Bool.false_eq_true, not_false_eq_true, and_true]
    intro x hx; simp [(ht x hx).2]
  rw [e, inAll_append, (head_in scope found _ [] hh rfl).1]
  simp [inAll, onIn, hm]

/-! ### Namespaces and classes -/

/-- The calls open a namespace or a class. -/
def HOpen (ops : List Op) (n : Text) : Prop :=
  ∃ ls, Lx false false ops ls ∧ ∀ scope head found, atLabel head = false →
    ∃ head', atLabel head' = false ∧ inAll ⟨scope, head, none, found⟩ ls = some ⟨scope ++ [n], head', none, found⟩

theorem HG.within {a d b : List Op} {n : Text} {e : List Text → List Declared} {x : Bool} (ha : HOpen a n) (hb : HG false x b e)
    {rest : List Lexeme} (hd : Lx false false d (.punct '}' :: rest)) (hr : rest = [] ∨ rest = [.punct ';']) :
    HG false true (a ++ b ++ d) (fun s => e (s ++ [n])) := by
  obtain ⟨la, a1, a2⟩ := ha
  obtain ⟨lb, b1, b2⟩ := hb
  refine ⟨la ++ lb ++ .punct '}' :: rest, (a1.append b1).append hd, ?_⟩
  intro scope head found hl _
  refine ⟨[], rfl, fun _ => rfl, ?_⟩
  obtain ⟨h1, g1, g2⟩ := a2 scope head found hl
  obtain ⟨h2, k1, -, k3⟩ := b2 (scope ++ [n]) h1 found g1 (by simp)
  rw [List.append_assoc, inAll_append, g2, Option.bind_some, inAll_append, k3]
  rcases hr with rfl | rfl
  · simp [inAll, onIn]
  · simp [inAll, onIn, memberOf]

theorem open_space {n : Text} (h : Name n) : HOpen [.print [(text! "namespace", n)] tNamespaceTemplate] n := by
  refine ⟨_, lx_namespace h, ?_⟩
  intro scope head found hl
  refine ⟨[], rfl, ?_⟩
  have e : [Lexeme.word kwNamespace, .word n, .punct '{'] = [.word kwNamespace, .word n] ++ [.punct '{'] := rfl
  have hh : ∀ x ∈ [Lexeme.word kwNamespace, .word n], HeadL x := by
    intro x hx
    simp only [List.mem_cons, List.not_mem_nil, or_false] at hx
    rcases hx with rfl | rfl
    · exact ⟨⟨by simp, by simp, fun v e => by cases e; decide⟩, by simp⟩
    · refine ⟨⟨by simp, by simp, fun v e => ?_⟩, by simp⟩
      cases e
      have := h.2.2
      simp only [keywords, labels, List.mem_append, List.mem_cons, not_or] at this
      exact this.2.2
  have ho : opened (head ++ [.word kwNamespace, .word n]) = some n := by simp [opened]
  rw [e, inAll_append, (head_in scope found _ head hh hl).1]
  simp [inAll, onIn, ho]

theorem name_section {n : Text} (h : Name n) : n ∉ sections := by
  have := h.2.2
  simp only [keywords, labels, List.mem_append, List.mem_cons, not_or] at this
  exact this.2.2

/-- The head of a class, with what stands at its beginning. -/
theorem open_class {ops : List Op} {n : Text} {rest : List Lexeme} (h : Name n)
    (hx : Lx false false ops (cpp! "class $n$ : public QObject {" ++ rest)) (hr : ∀ x ∈ rest, PlainL x) (hc : covered false rest = true) :
    HOpen ops n := by
  refine ⟨_, hx, ?_⟩
  intro scope head found hl
  have e : cpp! "class $n$ : public QObject {" = cpp! "class $n$ : public QObject" ++ [.punct '{'] := rfl
  have hh : ∀ x ∈ cpp! "class $n$ :", HeadL x := by
    intro x hx
    simp only [List.mem_cons, List.not_mem_nil, or_false] at hx
    rcases hx with rfl | rfl | rfl
    · exact ⟨⟨by simp, by simp, fun v e => by cases e; decide⟩, by simp⟩
    · exact ⟨⟨by simp, by simp, fun v e => by cases e; exact name_section h⟩, by simp⟩
    · exact ⟨⟨by simp, by simp, by simp⟩, by simp⟩
  have ho : opened (head ++ cpp! "class $n$ : public QObject") = some n := by
    simp only [opened, List.reverse_append, List.reverse_cons, List.reverse_nil, List.nil_append, List.cons_append]
    rfl
  have hb : inAll ⟨scope, head ++ cpp! "class $n$ :", none, found⟩ (cpp! "public QObject") =
      some ⟨scope, head ++ cpp! "class $n$ : public QObject", none, found⟩ := by
    simp [inAll, onIn]
  have h1 : inAll ⟨scope, head, none, found⟩ (cpp! "class $n$ : public QObject") = some ⟨scope, head ++ cpp! "class $n$ : public QObject", none, found⟩ := by
    have e : cpp! "class $n$ : public QObject" = cpp! "class $n$ :" ++ cpp! "public QObject" := rfl
    rw [e, inAll_append, (head_in scope found _ head hh hl).1, Option.bind_some, hb]
    rfl
  obtain ⟨head', k1, k2⟩ := plain_all rest false hr hc (scope ++ [n]) [] found rfl (by simp)
  refine ⟨head', k1, ?_⟩
  rw [inAll_append, e, inAll_append, h1]
  simp only [Option.bind_some, inAll, onIn, if_true, ho]
  exact k2

theorem hg_spaces : ∀ (ns : List Str) {b : List Op} {e : List Text → List Declared}, (∀ n ∈ ns, Name n) → HG false false b e →
    HG false false ((ns.map fun n => .print [(text! "namespace", n)] tNamespaceTemplate) ++ b ++ ns.map fun _ => .print [] tSimpleBlockEnclosureTemplate)
      (fun s => e (s ++ ns))
  | [], b, e, _, hb => by simpa using hb
  | n :: ns, b, e, h, hb => by
    have ih := hg_spaces ns (fun x hx => h x (by simp [hx])) hb
    have g := (HG.within (open_space (h n (by simp))) ih lx_close (Or.inl rfl)).weaken (a' := false) (b' := false) id (by simp)
    have e1 : (List.map (fun _ => Op.print [] tSimpleBlockEnclosureTemplate) (n :: ns)) =
        ns.map (fun _ => Op.print [] tSimpleBlockEnclosureTemplate) ++ [Op.print [] tSimpleBlockEnclosureTemplate] := by
      simp only [List.map_const', List.length_cons]
      rw [List.replicate_succ']
    rw [e1, List.map_cons]
    simpa only [List.append_assoc, List.cons_append, List.nil_append] using g

theorem HG.inNamespaces {ns : List Str} {b : List Op} {e : List Text → List Declared} (h : ∀ n ∈ ns, Name n) (hb : HG false false b e) :
    HG false false (printNamespaces ns ++ b ++ encloseNamespaces ns) (fun s => e (s ++ ns)) := by
  have g1 := (hb.append hq_newline).congr (f := e) (by simp)
  have g := ((HG.append hq_newline (hg_spaces ns h g1)).append hq_newline).congr (f := fun s => e (s ++ ns)) (by simp)
  unfold printNamespaces encloseNamespaces
  simpa only [List.append_assoc, List.cons_append, List.nil_append] using g

theorem hg_nested {o : Options} {c : Ctx} {path : Path} {name : Str} {fields : List FieldD} (hn : Named name) {ops : List Op}
    {e : List Text → List Declared} (h : HG false false ops e) :
    HG false false ([openNested o c ⟨path ++ [name], fields⟩] ++ ops ++ [.print [] tSimpleBlockEnclosureTemplate]) (fun s => e (s ++ [nestedNs name])) := by
  have e : openNested o c ⟨path ++ [name], fields⟩ = .print [(text! "namespace", nestedNs name)] tNamespaceTemplate := by
    unfold openNested
    rw [own_classname]
    simp [nestedNs]
  rw [e]
  exact (HG.within (open_space (name_nested (name_id hn.2))) h lx_close (Or.inl rfl)).weaken id (by simp)

end QtPb.TextProof
