/-
Comments of C++ and of proto files.
-/
namespace QtPb.Gen.Comments

/-- `p` occurs in `s`. -/
def Occurs (p s : List Char) : Prop := ∃ a b, s = a ++ p ++ b

/-- The text is white space followed by one comment of C++: `/*`, then anything up to the first `*/`, which is its end. -/
def OneComment (s : List Char) : Prop :=
  ∃ w b, s = w ++ ['/', '*'] ++ b ++ ['*', '/'] ∧ (∀ c ∈ w, c = ' ' ∨ c = '\n') ∧ ¬ Occurs ['*', '/'] (b ++ ['*'])

/-- The comment, which is trimmed, contains neither `*/` nor a line, other than its first, that begins with `/`. -/
def Harmless (t : List Char) : Prop := ¬ Occurs ['*', '/'] t ∧ ¬ Occurs ['\n', '/'] t

/-- White space only. -/
def Blank (c : List Char) : Prop := ∀ x ∈ c, x = ' ' ∨ x = '\t' ∨ x = '\n' ∨ x = '\r' ∨ x = '\x0c' ∨ x = '\x0b'

/-- `t` is `c` without the white space at both ends. -/
def Trimmed (c t : List Char) : Prop :=
  ∃ a b, c = a ++ t ++ b ∧ Blank a ∧ Blank b ∧ (∀ x r, t = x :: r → ¬ Blank [x]) ∧ (∀ x r, t = r ++ [x] → ¬ Blank [x])

end QtPb.Gen.Comments
