import Verif.TextInline2
import Verif.TextRun
/-
What the reader of headers finds in the class of a message. (Helpers for the theorems about generated headers.)
-/
set_option linter.unusedVariables false
set_option maxRecDepth 100000

namespace QtPb.TextProof
open QtPb.Gen QtPb.Gen.Text QtPb.Gen.Text.Spec QtPb.SpecCpp

/-! ### Types -/

/-- Lexemes of a type. -/
def TypeL (x : Lexeme) : Prop := HeadL x ∧ notInMember x = false ∧ x ≠ .punct '(' ∧ x ≠ .punct ')' ∧ x ≠ .punct ','

theorem type_harmless {x : Lexeme} (h : Harmless x) : TypeL x := by
  obtain ⟨h1, h2⟩ := harmless_plain h
  cases x with
  | str s => exact h.elim
  | word w =>
    refine ⟨⟨h1, h2⟩, ?_, by simp, by simp, by simp⟩
    simp only [Harmless, reserved, keywords, labels, List.mem_append, List.mem_cons, not_or] at h
    simp [notInMember, h.1.2.1]
  | punct c =>
    have a : c ≠ '=' := by rintro rfl; simp only [Harmless] at h; exact absurd h (by decide)
    have b : c ≠ '(' := by rintro rfl; simp only [Harmless] at h; exact absurd h (by decide)
    have d : c ≠ ')' := by rintro rfl; simp only [Harmless] at h; exact absurd h (by decide)
    have e : c ≠ ',' := by rintro rfl; simp only [Harmless] at h; exact absurd h (by decide)
    exact ⟨⟨h1, h2⟩, by simp [notInMember, a, b, d], by simp [b], by simp [d], by simp [e]⟩

def TypeLs (ls : List Lexeme) : Prop := ∀ x ∈ ls, TypeL x

theorem types_value {v : Text} (h : Value v) : TypeLs (lexemes v) := fun x hx => type_harmless (h.harmless x hx)

theorem types_append {a b : List Lexeme} (ha : TypeLs a) (hb : TypeLs b) : TypeLs (a ++ b) := fun x hx =>
  (List.mem_append.1 hx).elim (ha x) (hb x)

theorem types_cons {x : Lexeme} {a : List Lexeme} (hx : TypeL x) (ha : TypeLs a) : TypeLs (x :: a) := fun y hy => by
  rcases List.mem_cons.1 hy with rfl | hy
  · exact hx
  · exact ha y hy

theorem type_word {w : Text} (h : w ∉ keywords) : TypeL (.word w) := type_harmless h

theorem type_amp : TypeL (.punct '&') := ⟨⟨⟨by simp, by simp, by simp⟩, by simp⟩, by rfl, by simp, by simp, by simp⟩

theorem types_head {a : List Lexeme} (h : TypeLs a) : ∀ x ∈ a, HeadL x := fun x hx => (h x hx).1

theorem types_flat {a : List Lexeme} (h : TypeLs a) : Flat a := fun x hx => (h x hx).2.2

theorem head_append {a b : List Lexeme} (ha : ∀ x ∈ a, HeadL x) (hb : ∀ x ∈ b, HeadL x) : ∀ x ∈ a ++ b, HeadL x := fun x hx =>
  (List.mem_append.1 hx).elim (ha x) (hb x)

theorem head_cons {y : Lexeme} {b : List Lexeme} (ha : HeadL y) (hb : ∀ x ∈ b, HeadL x) : ∀ x ∈ y :: b, HeadL x := fun x hx => by
  rcases List.mem_cons.1 hx with rfl | hx
  · exact ha
  · exact hb x hx

theorem head_nil : ∀ x ∈ ([] : List Lexeme), HeadL x := by simp

theorem head_open : HeadL (.punct '(') := ⟨⟨by simp, by simp, by simp⟩, by simp⟩
theorem head_close : HeadL (.punct ')') := ⟨⟨by simp, by simp, by simp⟩, by simp⟩

theorem word_keywords {w : Text} (h : ∀ k ∈ keywords, w ≠ k) : w ∉ keywords := fun hw => h w hw rfl

/-- No word of these begins with `m_`. -/
theorem member_word (N : Text) : mem' N ∉ keywords := by
  apply word_keywords
  intro k hk e
  have : ∀ k ∈ keywords, (k.take 2 == text! "m_") = false := by decide
  have h := this k hk
  rw [← e] at h
  simp [mem'] at h

theorem set_word (U : Text) : set' U ∉ keywords := by
  apply word_keywords
  intro k hk e
  have : ∀ k ∈ keywords, (k.take 3 == text! "set") = false := by decide
  have h := this k hk
  rw [← e] at h
  simp [set'] at h

theorem private_word (N : Text) : N ++ text! "_p" ∉ keywords := by
  apply word_keywords
  intro k hk e
  have : ∀ k ∈ keywords, (k.reverse.take 2 == text! "p_") = false := by decide
  have h := this k hk
  rw [← e] at h
  simp at h

/-! ### Functions and members -/

/-- `return m_N;` -/
def returnBody (N : Text) : List Lexeme := cpp! "return m_$N$;"

theorem bal_return (N : Text) : bal 0 (returnBody N) = some 0 := by simp [returnBody, bal]

theorem bal_setter (N : Text) : bal 0 (Src.complexSetterBody N) = some 0 := by simp [Src.complexSetterBody, bal]

/-- A getter. -/
theorem heff_getter {T : List Lexeme} {N n : Text} (hT : TypeLs T) (hn : n ∉ keywords) :
    HEff false true (T ++ cpp! "$n$() const { return m_$N$; }") (fun s => [.fn s n [] (returnBody N)]) := by
  have := heff_constFn (pre := T) (ps := []) (n := n) (body := returnBody N)
    (by
      simp only [List.append_assoc, List.cons_append, List.nil_append]
      exact head_append (types_head hT) (head_cons (type_word hn).1 (head_cons head_open (head_cons head_close
        (head_cons (type_word (by decide)).1 head_nil)))))
    (by simp) (bal_return N)
  simpa [returnBody, parts, partsFrom] using this

theorem heff_extra {T : List Lexeme} {N n : Text} (hT : TypeLs T) (hn : n ∉ keywords) :
    HEff false true (T ++ cpp! "&$n$() { return m_$N$; }") (fun s => [.fn s n [] (returnBody N)]) := by
  have := heff_fn (pre := T ++ [.punct '&']) (ps := []) (n := n) (body := returnBody N)
    (by
      simp only [List.append_assoc, List.cons_append, List.nil_append]
      exact head_append (types_head hT) (head_cons type_amp.1 (head_cons (type_word hn).1 (head_cons head_open (head_cons head_close head_nil)))))
    (by simp) (bal_return N)
  simpa [returnBody, parts, partsFrom] using this

/-- A setter. -/
theorem heff_setter {T : List Lexeme} {N n : Text} (hT : TypeLs T) (hn : n ∉ keywords) (hN : Name N) :
    HEff false true (cpp! "void $n$(const @T@ &$N$) { if (m_$N$ != $N$) { m_$N$ = $N$; $N$Changed(); } }")
      (fun s => [.fn s n [(cpp! "const @T@ &", N)] (Src.complexSetterBody N)]) := by
  have hp : TypeLs (cpp! "const @T@ &$N$") :=
    types_cons (type_word (by decide)) (types_append hT (types_cons type_amp (types_cons (type_word hN.2.2) (by simp [TypeLs]))))
  have := heff_fn (pre := [.word (text! "void")]) (ps := cpp! "const @T@ &$N$") (n := n) (body := Src.complexSetterBody N)
    (by
      simp only [List.append_assoc, List.cons_append, List.nil_append]
      refine head_cons (type_word (by decide)).1 (head_cons (type_word hn).1 (head_cons head_open ?_))
      have := head_append (types_head hp) (head_cons head_close head_nil)
      simpa using this)
    (fun x hx => (hp x hx).2.2.1) (bal_setter N)
  have e : (parts (cpp! "const @T@ &$N$")).map paramOf = [(cpp! "const @T@ &", N)] := by
    rw [parts_one (types_flat hp) (by simp), List.map_singleton]
    have e : cpp! "const @T@ &$N$" = (cpp! "const @T@ &") ++ [.word N] := by simp
    rw [e]
    unfold paramOf
    rw [List.getLast?_concat, List.dropLast_concat]
  rw [e] at this
  simpa [List.append_assoc, Src.complexSetterBody] using this

theorem heff_fieldMember {T : List Lexeme} {N : Text} (hT : TypeLs T) :
    HEff true true (T ++ cpp! "m_$N$;") (fun s => [.member s T (mem' N)]) := by
  refine heff_member (fun x hx => ⟨(hT x hx).1, (hT x hx).2.1⟩) (type_word (member_word N)).2.1 ?_
  have := member_word N
  simp only [keywords, labels, List.mem_append, List.mem_cons, not_or] at this
  exact this.2.2

theorem heff_lazy {T : List Lexeme} {N : Text} (hT : TypeLs T) :
    HEff true true (cpp! "QProtobufLazyMessagePointer<@T@> m_$N$;") (fun s => [.member s (cpp! "QProtobufLazyMessagePointer<@T@>") (mem' N)]) := by
  have h : TypeLs (cpp! "QProtobufLazyMessagePointer<@T@>") :=
    types_cons (type_word (by decide)) (types_cons (type_harmless (by simp only [Harmless]; decide))
      (types_append hT (types_cons (type_harmless (by simp only [Harmless]; decide)) (by simp [TypeLs]))))
  have := heff_fieldMember (N := N) h
  simpa [List.append_assoc] using this

end QtPb.TextProof
