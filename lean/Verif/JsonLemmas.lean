import Verif.SpecJsonMsg
import Verif.SerializeLemmas
/-
Lemmas for C47: the reference reader reads what the serializer writes.
-/
namespace QtPb.Json
open Spec

/-! ### Texts and what the reader makes of them -/

/-- What may follow a value. -/
def Delim (rest : Bytes) : Prop := ∀ b r, rest = b :: r → numberChar b = false

/-- The reader reads `t` as `j`, whatever follows. -/
def Reads (t : Bytes) (j : JVal) : Prop :=
  ∀ (n : Nat) (rest : Bytes), t.length ≤ n → Delim rest → readValue n (t ++ rest) = some (j, rest)

theorem skipWs_cons {b : UInt8} {r : Bytes} (h : 0x20 < b) : skipWs (b :: r) = b :: r := by
  unfold skipWs
  rw [if_neg]
  rintro (rfl | rfl | rfl | rfl) <;> simp at h

theorem stringRest_clean {t rest : Bytes} (h : NoEscapes t) : stringRest (t ++ 0x22 :: rest) = some (t, rest) := by
  induction t with
  | nil => rw [List.nil_append]; unfold stringRest; rw [if_pos rfl]
  | cons b t ih =>
    obtain ⟨h1, h2, h3⟩ := h b (by simp)
    have h4 : ¬ b < 0x20 := by rw [UInt8.not_lt]; exact h1
    rw [List.cons_append]
    unfold stringRest
    rw [if_neg h2, if_neg h3, if_neg h4, ih (fun x hx => h x (by simp [hx]))]
    rfl

/-- The reader finds the end of a string with this text. -/
def RawOk (t : Bytes) : Prop := ∀ rest, stringRest (t ++ 0x22 :: rest) = some (t, rest)

theorem rawOk_clean {t : Bytes} (h : NoEscapes t) : RawOk t := fun _ => stringRest_clean h

theorem reads_quote {t : Bytes} (h : RawOk t) : Reads (quote t) (.str t) := by
  intro n rest hn hr
  cases n with
  | zero => simp [quote] at hn
  | succ n =>
    have : quote t ++ rest = 0x22 :: (t ++ 0x22 :: rest) := by simp [quote]
    rw [this, readValue, skipWs_cons (by decide)]
    simp only [h rest, Option.map_some]

theorem reads_bool (b : Bool) : Reads (boolText b) (.bool b) := by
  intro n rest hn hr
  cases n with
  | zero => cases b <;> simp [boolText] at hn
  | succ n => cases b <;> simp [boolText, readValue, skipWs_cons]

/-! ### Numbers -/

theorem all_dropWhile {r : Bytes} (h : (r.dropWhile isDigit).all numberChar = true) : r.all numberChar = true := by
  induction r with
  | nil => rfl
  | cons b r ih =>
    rw [List.dropWhile_cons] at h
    split at h
    · rename_i hb
      rw [List.all_cons, ih h]
      simp [numberChar, hb]
    · exact h

theorem all_digit {r : Bytes} (h : r.all isDigit = true) : r.all numberChar = true := by
  rw [List.all_eq_true] at h ⊢
  intro x hx
  simp [numberChar, h x hx]

theorem isExponent_all {r : Bytes} (h : isExponent r = true) : r.all numberChar = true := by
  unfold isExponent at h
  split at h
  · rfl
  · rename_i e r
    simp only [Bool.and_eq_true, Bool.or_eq_true, beq_iff_eq] at h
    have he : numberChar e = true := by rcases h.1 with rfl | rfl <;> decide
    rw [List.all_cons, he, Bool.true_and]
    have h2 := h.2
    split at h2
    · rename_i s d
      by_cases hs : s = 0x2b ∨ s = 0x2d
      · rw [if_pos hs] at h2
        rw [Bool.and_eq_true] at h2
        have : numberChar s = true := by
          rcases hs with rfl | rfl <;> decide
        rw [List.all_cons, this, Bool.true_and]
        exact all_digit h2.2
      · rw [if_neg hs] at h2
        exact all_digit h2
    · cases h2

theorem isFraction_all {r : Bytes} (h : isFraction r = true) : r.all numberChar = true := by
  unfold isFraction at h
  split at h
  · rename_i d r
    rw [Bool.and_eq_true] at h
    rw [List.all_cons, List.all_cons, all_dropWhile (isExponent_all h.2)]
    simp [numberChar, h.1]
  · exact isExponent_all h

theorem isUnsignedNumber_all {r : Bytes} (h : isUnsignedNumber r = true) :
    r.all numberChar = true ∧ ∃ d r', r = d :: r' ∧ isDigit d = true := by
  unfold isUnsignedNumber at h
  split at h
  · rename_i r
    refine ⟨?_, _, _, rfl, by decide⟩
    rw [List.all_cons, isFraction_all h]; decide
  · rename_i d r _
    simp only [Bool.and_eq_true] at h
    refine ⟨?_, _, _, rfl, h.1⟩
    rw [List.all_cons, all_dropWhile (isFraction_all h.2)]
    simp [numberChar, h.1]
  · cases h

theorem isNumber_all {r : Bytes} (h : isNumber r = true) :
    r.all numberChar = true ∧ ∃ d r', r = d :: r' ∧ (isDigit d = true ∨ d = 0x2d) := by
  unfold isNumber at h
  split at h
  · rename_i r
    refine ⟨?_, _, _, rfl, .inr rfl⟩
    rw [List.all_cons, (isUnsignedNumber_all h).1]; decide
  · obtain ⟨h1, d, r', h2, h3⟩ := isUnsignedNumber_all h
    exact ⟨h1, d, r', h2, .inl h3⟩

theorem takeWhile_append {t rest : Bytes} (h : t.all numberChar = true) (hr : Delim rest) :
    (t ++ rest).takeWhile numberChar = t ∧ (t ++ rest).dropWhile numberChar = rest := by
  induction t with
  | nil =>
    cases rest with
    | nil => simp
    | cons b r =>
      have := hr b r rfl
      simp [this]
  | cons b t ih =>
    rw [List.all_cons, Bool.and_eq_true] at h
    obtain ⟨h1, h2⟩ := ih h.2
    simp [h.1, h1, h2]

theorem reads_number {t : Bytes} (h : isNumber t = true) : Reads t (.num t) := by
  intro n rest hn hr
  obtain ⟨h1, d, r, rfl, hd⟩ := isNumber_all h
  obtain ⟨h2, h3⟩ := takeWhile_append h1 hr
  have hd' : (48 ≤ d ∧ d ≤ 57) ∨ d = 0x2d := by
    rcases hd with hd | hd
    · simp only [isDigit, Bool.and_eq_true, decide_eq_true_eq] at hd; exact .inl hd
    · exact .inr hd
  have hne : ∀ c : UInt8, ¬ ((48 ≤ c ∧ c ≤ 57) ∨ c = 0x2d) → d ≠ c := by rintro c hc rfl; exact hc hd'
  cases n with
  | zero => simp at hn
  | succ n =>
    have hgt : 0x20 < d := by
      rcases hd' with hd' | rfl
      · exact UInt8.lt_of_lt_of_le (by decide) hd'.1
      · decide
    rw [List.cons_append] at h2 h3 ⊢
    rw [readValue, skipWs_cons hgt]
    split
    · rename_i he; exact absurd (List.cons.inj he).1 (hne _ (by decide))
    · rename_i he; exact absurd (List.cons.inj he).1 (hne _ (by decide))
    · rename_i he; exact absurd (List.cons.inj he).1 (hne _ (by decide))
    · rename_i he; exact absurd (List.cons.inj he).1 (hne _ (by decide))
    · rename_i he; exact absurd (List.cons.inj he).1 (hne _ (by decide))
    · rename_i he; exact absurd (List.cons.inj he).1 (hne _ (by decide))
    · rw [h2, h3, if_pos h]

/-! ### Decimal numbers -/

theorem digit_ofNat {n : Nat} (h : n < 10) : isDigit (UInt8.ofNat (48 + n)) = true ∧ (UInt8.ofNat (48 + n)).toNat = 48 + n := by
  have : n = 0 ∨ n = 1 ∨ n = 2 ∨ n = 3 ∨ n = 4 ∨ n = 5 ∨ n = 6 ∨ n = 7 ∨ n = 8 ∨ n = 9 := by omega
  rcases this with rfl | rfl | rfl | rfl | rfl | rfl | rfl | rfl | rfl | rfl <;> decide

theorem digits_spec : ∀ (fuel n : Nat), n < 10 ^ fuel → 0 < fuel →
    (digits fuel n).all isDigit = true ∧ digits fuel n ≠ [] ∧
    (digits fuel n).foldl (fun a d => a * 10 + (d.toNat - 48)) 0 = n ∧
    (∀ r, digits fuel n = 0x30 :: r → r = []) := by
  intro fuel
  induction fuel with
  | zero => intro n _ h; omega
  | succ fuel ih =>
    intro n hn _
    unfold digits
    by_cases h : n < 10
    · rw [if_pos h]
      obtain ⟨h1, h2⟩ := digit_ofNat h
      refine ⟨by rw [List.all_cons, h1]; rfl, by simp, ?_, ?_⟩
      · rw [List.foldl_cons, h2]; simp
      · intro r hr
        exact (List.cons.inj hr).2.symm
    · rw [if_neg h]
      have hp : 10 ^ (fuel + 1) = 10 ^ fuel * 10 := Nat.pow_succ 10 fuel
      have hf : 0 < fuel := by
        rcases Nat.eq_zero_or_pos fuel with rfl | h'
        · simp at hn; omega
        · exact h'
      obtain ⟨g1, g2, g3, g4⟩ := ih (n / 10) (by omega) hf
      obtain ⟨h1, h2⟩ := digit_ofNat (n := n % 10) (by omega)
      refine ⟨by rw [List.all_append, g1, List.all_cons, h1]; rfl, by simp, ?_, ?_⟩
      · rw [List.foldl_append, g3]
        simp only [List.foldl_cons, List.foldl_nil, h2]
        omega
      · intro r hr
        exfalso
        cases hd : digits fuel (n / 10) with
        | nil => exact g2 hd
        | cons b l =>
          rw [hd, List.cons_append] at hr
          obtain ⟨rfl, hr2⟩ := List.cons.inj hr
          have := g4 l hd
          subst this
          rw [hd] at g3
          simp at g3
          omega

theorem isUnsigned_digits {t : Bytes} (h1 : t.all isDigit = true) (h2 : t ≠ []) (h3 : ∀ r, t = 0x30 :: r → r = []) :
    isUnsignedNumber t = true := by
  cases t with
  | nil => exact absurd rfl h2
  | cons d r =>
    rw [List.all_cons, Bool.and_eq_true] at h1
    unfold isUnsignedNumber
    split
    · rename_i he
      have := h3 _ he
      subst this; rfl
    · rename_i he
      obtain ⟨rfl, rfl⟩ := List.cons.inj he
      have : r.dropWhile isDigit = [] := by
        have hr := h1.2
        generalize r = r at hr
        induction r with
        | nil => rfl
        | cons b r ih => rw [List.all_cons, Bool.and_eq_true] at hr; rw [List.dropWhile_cons, if_pos hr.1]; exact ih hr.2
      rw [this, h1.1]; rfl
    · rename_i he; cases he

theorem decimal_spec {i : Int} (h : i.natAbs < 10 ^ 20) : isNumber (decimal i) = true ∧ IntegerText (decimal i) i ∧
    NoEscapes (decimal i) := by
  obtain ⟨h1, h2, h3, h4⟩ := digits_spec 20 i.natAbs h (by omega)
  have hval : natValue (digits 20 i.natAbs) = some i.natAbs := by simp only [natValue, h1, h3]; simp [h2]
  have hesc : NoEscapes (digits 20 i.natAbs) := by
    intro b hb
    have := List.all_eq_true.mp h1 b hb
    simp only [isDigit, Bool.and_eq_true, decide_eq_true_eq] at this
    refine ⟨UInt8.le_trans (by decide) this.1, ?_, ?_⟩
    · rintro rfl; exact absurd this.1 (by decide)
    · rintro rfl; exact absurd this.2 (by decide)
  have hu := isUnsigned_digits h1 h2 h4
  unfold decimal
  split
  · rename_i hneg
    refine ⟨hu, ⟨?_, fun _ => by omega⟩, ?_⟩
    · unfold decimalValue
      split
      · rename_i he
        obtain ⟨_, rfl⟩ := List.cons.inj he
        rw [hval, Option.map_some]; congr 1; omega
      · rename_i hx
        exact absurd rfl (hx _)
    · intro b hb
      rcases List.mem_cons.mp hb with rfl | hb
      · decide
      · exact hesc b hb
  · have hhead : ∃ d r, digits 20 i.natAbs = d :: r ∧ isDigit d = true := by
      cases hd : digits 20 i.natAbs with
      | nil => exact absurd hd h2
      | cons d r => rw [hd, List.all_cons, Bool.and_eq_true] at h1; exact ⟨d, r, rfl, h1.1⟩
    obtain ⟨d, r, hd, hdig⟩ := hhead
    have hne : d ≠ 0x2d := by rintro rfl; exact absurd hdig (by decide)
    refine ⟨?_, ⟨?_, fun h => absurd (by rw [hd] at h; exact Option.some.inj h) hne⟩, hesc⟩
    · rw [hd] at hu ⊢
      unfold isNumber
      split
      · rename_i he; exact absurd (List.cons.inj he).1 hne
      · exact hu
    · rw [hd] at hval ⊢
      unfold decimalValue
      split
      · rename_i he; exact absurd (List.cons.inj he).1 hne
      · rw [hval, Option.map_some]; congr 1; omega

theorem toInt_lt32 (b : BitVec 32) : b.toInt.natAbs < 10 ^ 20 := by
  have := b.isLt; have h := BitVec.toInt_eq_toNat_cond b; split at h <;> omega
theorem toInt_lt64 (b : BitVec 64) : b.toInt.natAbs < 10 ^ 20 := by
  have := b.isLt; have h := BitVec.toInt_eq_toNat_cond b; split at h <;> omega
theorem toNat_lt32 (b : BitVec 32) : ((b.toNat : Int)).natAbs < 10 ^ 20 := by have := b.isLt; omega
theorem toNat_lt64 (b : BitVec 64) : ((b.toNat : Int)).natAbs < 10 ^ 20 := by have := b.isLt; omega

/-! ### Base64 -/

theorem base64Char_spec {n : Nat} (h : n < 64) : base64Value (base64Char n) = some n ∧ base64Char n ≠ 61 ∧
    0x20 ≤ base64Char n ∧ base64Char n ≠ 0x22 ∧ base64Char n ≠ 0x5c := by
  have : ∀ n : Fin 64, base64Value (base64Char n.1) = some n.1 ∧ base64Char n.1 ≠ 61 ∧
    0x20 ≤ base64Char n.1 ∧ base64Char n.1 ≠ 0x22 ∧ base64Char n.1 ≠ 0x5c := by decide
  exact this ⟨n, h⟩

theorem base64_roundtrip : ∀ b : Bytes, base64Decode (toBase64 b) = some b ∧ NoEscapes (toBase64 b)
  | [] => ⟨rfl, by intro x hx; cases hx⟩
  | [a] => by
    have ha := a.toNat_lt
    obtain ⟨p1, p2, p3⟩ := base64Char_spec (n := a.toNat / 4) (by omega)
    obtain ⟨q1, q2, q3⟩ := base64Char_spec (n := a.toNat % 4 * 16) (by omega)
    constructor
    · simp only [toBase64, base64Decode, p1, q1]
      rw [if_pos (by omega)]
      have : a.toNat / 4 * 4 + a.toNat % 4 * 16 / 16 = a.toNat := by omega
      rw [this]; simp
    · intro x hx
      simp only [toBase64, List.mem_cons, List.not_mem_nil, or_false] at hx
      rcases hx with rfl | rfl | rfl | rfl <;> first | assumption | decide
  | [a, b] => by
    have ha := a.toNat_lt
    have hb := b.toNat_lt
    obtain ⟨p1, p2, p3⟩ := base64Char_spec (n := a.toNat / 4) (by omega)
    obtain ⟨q1, q2, q3⟩ := base64Char_spec (n := a.toNat % 4 * 16 + b.toNat / 16) (by omega)
    obtain ⟨r1, r2, r3⟩ := base64Char_spec (n := b.toNat % 16 * 4) (by omega)
    constructor
    · simp only [toBase64]
      unfold base64Decode
      split
      · rename_i he; simp at he
      · rename_i he
        simp only [List.cons.injEq] at he
        exact absurd he.2.2.1 r2
      · rename_i he
        simp only [List.cons.injEq, and_true] at he
        obtain ⟨rfl, rfl, rfl⟩ := he
        simp only [p1, q1, r1]
        rw [if_pos (by omega)]
        have e1 : a.toNat / 4 * 4 + (a.toNat % 4 * 16 + b.toNat / 16) / 16 = a.toNat := by omega
        have e2 : (a.toNat % 4 * 16 + b.toNat / 16) % 16 * 16 + b.toNat % 16 * 4 / 4 = b.toNat := by omega
        rw [e1, e2]; simp
      · rename_i h1 h2 he
        simp only [List.cons.injEq] at he
        obtain ⟨rfl, rfl, rfl, rfl, rfl⟩ := he
        exact (h2 rfl rfl).elim
      · rename_i h1 h2 h3 h4
        exact absurd rfl (h4 _ _ _ _ _)
    · intro x hx
      simp only [toBase64, List.mem_cons, List.not_mem_nil, or_false] at hx
      rcases hx with rfl | rfl | rfl | rfl <;> first | assumption | decide
  | a :: b :: c :: r => by
    have ha := a.toNat_lt
    have hb := b.toNat_lt
    have hc := c.toNat_lt
    obtain ⟨p1, p2, p3⟩ := base64Char_spec (n := a.toNat / 4) (by omega)
    obtain ⟨q1, q2, q3⟩ := base64Char_spec (n := a.toNat % 4 * 16 + b.toNat / 16) (by omega)
    obtain ⟨r1, r2, r3⟩ := base64Char_spec (n := b.toNat % 16 * 4 + c.toNat / 64) (by omega)
    obtain ⟨s1, s2, s3⟩ := base64Char_spec (n := c.toNat % 64) (by omega)
    obtain ⟨ih1, ih2⟩ := base64_roundtrip r
    constructor
    · simp only [toBase64]
      unfold base64Decode
      split
      · rename_i he; simp at he
      · rename_i he
        simp only [List.cons.injEq] at he
        exact absurd he.2.2.1 r2
      · rename_i he
        simp only [List.cons.injEq] at he
        exact absurd he.2.2.2.1 s2
      · rename_i h1 h2 he
        simp only [List.cons.injEq] at he
        obtain ⟨rfl, rfl, rfl, rfl, rfl⟩ := he
        simp only [p1, q1, r1, s1, ih1]
        have e1 : a.toNat / 4 * 4 + (a.toNat % 4 * 16 + b.toNat / 16) / 16 = a.toNat := by omega
        have e2 : (a.toNat % 4 * 16 + b.toNat / 16) % 16 * 16 + (b.toNat % 16 * 4 + c.toNat / 64) / 4 = b.toNat := by omega
        have e3 : (b.toNat % 16 * 4 + c.toNat / 64) % 4 * 64 + c.toNat % 64 = c.toNat := by omega
        rw [e1, e2, e3]; simp
      · rename_i h1 h2 h3 h4
        exact absurd rfl (h4 _ _ _ _ _)
    · intro x hx
      simp only [toBase64, List.mem_cons] at hx
      rcases hx with rfl | rfl | rfl | rfl | hx <;> first | assumption | exact ih2 x hx

/-! ### Arrays and objects -/

/-- A text that the reader reads as `j` and that begins neither with white space nor with a closing bracket. -/
def Text (t : Bytes) (j : JVal) : Prop := (∃ b r, t = b :: r ∧ 0x20 < b ∧ b ≠ 0x5d) ∧ Reads t j

theorem text_raw {t : Bytes} (h : RawOk t) : Text (quote t) (.str t) :=
  ⟨⟨_, _, rfl, by decide, by decide⟩, reads_quote h⟩

theorem text_quote {t : Bytes} (h : NoEscapes t) : Text (quote t) (.str t) := text_raw (rawOk_clean h)

theorem text_bool (b : Bool) : Text (boolText b) (.bool b) :=
  ⟨by cases b <;> exact ⟨_, _, rfl, by decide, by decide⟩, reads_bool b⟩

theorem text_number {t : Bytes} (h : isNumber t = true) : Text t (.num t) := by
  refine ⟨?_, reads_number h⟩
  obtain ⟨_, d, r, rfl, hd⟩ := isNumber_all h
  refine ⟨d, r, rfl, ?_⟩
  rcases hd with hd | rfl
  · simp only [isDigit, Bool.and_eq_true, decide_eq_true_eq] at hd
    refine ⟨UInt8.lt_of_lt_of_le (by decide) hd.1, ?_⟩
    rintro rfl
    exact absurd hd.2 (by decide)
  · decide

/-- Texts with commas between them. -/
def joined : List Bytes → Bytes
  | [] => []
  | [t] => t
  | t :: ts => t ++ 44 :: joined ts

theorem joined_cons {t u : Bytes} {ts : List Bytes} : joined (t :: u :: ts) = t ++ 44 :: joined (u :: ts) := rfl

theorem withCommas_eq {t : Bytes} {ts : List Bytes} : withCommas (t :: ts) = joined (t :: ts) ++ [44] := by
  induction ts generalizing t with
  | nil => simp [withCommas, joined]
  | cons u ts ih => rw [withCommas, ih, joined_cons]; simp

theorem listText_eq (ts : List Bytes) : listText ts = 91 :: joined ts ++ [93] := by
  cases ts with
  | nil => rfl
  | cons t ts =>
    simp only [listText, withCommas_eq, List.length_cons]
    rw [if_pos (by omega), ← List.cons_append, List.dropLast_concat]

theorem closeWith_eq {c o : UInt8} (h : o ≠ 44) (ts : List Bytes) :
    closeWith c (o :: withCommas ts) = o :: joined ts ++ [c] := by
  cases ts with
  | nil => simp [closeWith, withCommas, joined, h]
  | cons t ts =>
    simp only [closeWith, withCommas_eq]
    rw [← List.cons_append, List.getLast?_concat, if_pos rfl, List.dropLast_concat]

theorem delim44 (r : Bytes) : Delim (44 :: r) := by
  rintro b r' h; obtain ⟨rfl, _⟩ := List.cons.inj h; decide
theorem delim93 (r : Bytes) : Delim (93 :: r) := by
  rintro b r' h; obtain ⟨rfl, _⟩ := List.cons.inj h; decide
theorem delim125 (r : Bytes) : Delim (125 :: r) := by
  rintro b r' h; obtain ⟨rfl, _⟩ := List.cons.inj h; decide

theorem readItems_joined {ts : List Bytes} {js : List JVal} (h : Elementwise Text ts js) (hne : ts ≠ []) (rest : Bytes) :
    ∀ n, (joined ts).length < n → readItems n (joined ts ++ 93 :: rest) = some (js, rest) := by
  induction h with
  | nil => exact absurd rfl hne
  | @cons t j ts js ht hts ih =>
    intro n hn
    cases n with
    | zero => omega
    | succ n =>
      cases hts with
      | nil =>
        rw [joined] at hn ⊢
        unfold readItems
        rw [ht.2 n _ (by omega) (delim93 rest)]
        simp only [skipWs_cons (show (0x20 : UInt8) < 93 by decide)]
      | @cons u k us ks hu hus =>
        rw [joined_cons] at hn ⊢
        rw [List.length_append, List.length_cons] at hn
        unfold readItems
        rw [List.append_assoc, ht.2 n _ (by omega) (by rw [List.cons_append]; exact delim44 _)]
        simp only [List.cons_append, skipWs_cons (show (0x20 : UInt8) < 44 by decide)]
        rw [ih (by simp) n (by omega)]
        rfl

theorem text_array {ts : List Bytes} {js : List JVal} (h : Elementwise Text ts js) : Text (91 :: joined ts ++ [93]) (.arr js) := by
  refine ⟨⟨_, _, rfl, by decide, by decide⟩, ?_⟩
  intro n rest hn hr
  simp only [List.length_append, List.length_cons, List.length_nil] at hn
  cases n with
  | zero => omega
  | succ n =>
    unfold readValue
    rw [List.append_assoc, List.cons_append, skipWs_cons (by decide)]
    cases h with
    | nil =>
      simp only [joined, List.nil_append, List.cons_append, skipWs_cons (show (0x20 : UInt8) < 93 by decide)]
    | @cons t j ts js ht hts =>
      have hr := readItems_joined (.cons ht hts) (by simp) rest n (by omega)
      obtain ⟨b, r, rfl, hb1, hb2⟩ := ht.1
      have hj : ∃ r', joined ((b :: r) :: ts) = b :: r' := by
        cases ts with
        | nil => exact ⟨_, rfl⟩
        | cons u us => exact ⟨_, joined_cons⟩
      obtain ⟨r', hj⟩ := hj
      rw [hj] at hr ⊢
      simp only [List.cons_append, List.nil_append] at hr ⊢
      rw [skipWs_cons hb1]
      split
      · rename_i he; exact absurd (List.cons.inj he).1 hb2
      · rw [hr]; rfl

/-- Text of a member of an object. -/
def memberText (p : Bytes × Bytes) : Bytes := quote p.1 ++ 58 :: p.2

/-- Member text and member: same name, and the value's text. -/
def MemberOk (p : Bytes × Bytes) (q : Bytes × JVal) : Prop := RawOk p.1 ∧ p.1 = q.1 ∧ Text p.2 q.2

theorem readMembers_joined {ps : List (Bytes × Bytes)} {ms : List (Bytes × JVal)} (h : Elementwise MemberOk ps ms) (hne : ps ≠ [])
    (rest : Bytes) : ∀ n, (joined (ps.map memberText)).length < n →
      readMembers n (joined (ps.map memberText) ++ 125 :: rest) = some (ms, rest) := by
  induction h with
  | nil => exact absurd rfl hne
  | @cons p q ps ms hp hps ih =>
    intro n hn
    obtain ⟨name, t⟩ := p
    obtain ⟨name', j⟩ := q
    obtain ⟨h1, h2, h3⟩ := hp
    simp only at h1 h2 h3
    subst h2
    cases n with
    | zero => omega
    | succ n =>
      cases hps with
      | nil =>
        simp only [List.map_cons, List.map_nil, joined, memberText] at hn ⊢
        rw [List.length_append, List.length_cons] at hn
        unfold readMembers
        have e : quote name ++ 58 :: t ++ 125 :: rest = 0x22 :: (name ++ 0x22 :: (58 :: (t ++ 125 :: rest))) := by simp [quote]
        rw [e, skipWs_cons (by decide)]
        simp only [h1 _, skipWs_cons (show (0x20 : UInt8) < 58 by decide)]
        rw [h3.2 n _ (by omega) (delim125 rest)]
        simp only [skipWs_cons (show (0x20 : UInt8) < 125 by decide)]
      | @cons u k us ks hu hus =>
        have ih' := ih (by simp) n
        simp only [List.map_cons, joined_cons] at hn ih' ⊢
        rw [List.length_append, List.length_cons] at hn
        have hm : memberText (name, t) = quote name ++ 58 :: t := rfl
        rw [hm] at hn ⊢
        rw [List.length_append, List.length_cons] at hn
        generalize hr : joined (memberText u :: us.map memberText) = r at hn ih' ⊢
        unfold readMembers
        have e : quote name ++ 58 :: t ++ 44 :: r ++ 125 :: rest
            = 0x22 :: (name ++ 0x22 :: (58 :: (t ++ 44 :: (r ++ 125 :: rest)))) := by simp [quote]
        rw [e, skipWs_cons (by decide)]
        simp only [h1 _, skipWs_cons (show (0x20 : UInt8) < 58 by decide)]
        rw [h3.2 n _ (by omega) (delim44 _)]
        simp only [skipWs_cons (show (0x20 : UInt8) < 44 by decide)]
        rw [ih' (by omega)]
        rfl

theorem text_object {ps : List (Bytes × Bytes)} {ms : List (Bytes × JVal)} (h : Elementwise MemberOk ps ms) :
    Text (123 :: joined (ps.map memberText) ++ [125]) (.obj ms) := by
  refine ⟨⟨_, _, rfl, by decide, by decide⟩, ?_⟩
  intro n rest hn hr
  simp only [List.length_append, List.length_cons, List.length_nil] at hn
  cases n with
  | zero => omega
  | succ n =>
    unfold readValue
    rw [List.append_assoc, List.cons_append, skipWs_cons (by decide)]
    cases h with
    | nil =>
      simp only [List.map_nil, joined, List.nil_append, List.cons_append, skipWs_cons (show (0x20 : UInt8) < 125 by decide)]
    | @cons p q ps ms hp hps =>
      have hr := readMembers_joined (.cons hp hps) (by simp) rest n (by omega)
      have hj : ∃ r', joined ((p :: ps).map memberText) = 34 :: r' := by
        cases ps with
        | nil => exact ⟨_, rfl⟩
        | cons u us => exact ⟨_, rfl⟩
      obtain ⟨r', hj⟩ := hj
      rw [hj] at hr ⊢
      simp only [List.cons_append, List.nil_append] at hr ⊢
      rw [skipWs_cons (by decide)]
      split
      · rename_i he; exact absurd (List.cons.inj he).1 (by decide)
      · rw [hr]; rfl

/-! ### Values -/

variable {env : JEnv}

theorem text_scalar (hq : QtNumbers env) {k : Kind} {s : Scalar} (hk : k.holds s = true) (hp : PlainScalar env k s) :
    ∃ j, Text (serializeScalar env k s) j ∧ ShowsScalar env k s j := by
  cases k <;> cases s <;> simp only [Kind.holds, Bool.false_eq_true] at hk
  case float.w32 b => exact ⟨_, text_number (hq.float32g b hp), rfl⟩
  case double.w64 b => exact ⟨_, text_number (hq.float64s b hp), rfl⟩
  case bool.bool b => exact ⟨_, text_bool b, rfl⟩
  case string.str s => exact ⟨_, text_quote hp, rfl⟩
  case bytes.bytes b => exact ⟨_, text_quote (base64_roundtrip _).2, (base64_roundtrip _).1⟩
  case int32.w32 b | sint32.w32 b | sfixed32.w32 b =>
    exact ⟨_, text_number (decimal_spec (toInt_lt32 b)).1, (decimal_spec (toInt_lt32 b)).2.1⟩
  case int64.w64 b | sint64.w64 b | sfixed64.w64 b =>
    exact ⟨_, text_number (decimal_spec (toInt_lt64 b)).1, (decimal_spec (toInt_lt64 b)).2.1⟩
  case uint32.w32 b | fixed32.w32 b =>
    exact ⟨_, text_number (decimal_spec (toNat_lt32 b)).1, (decimal_spec (toNat_lt32 b)).2.1⟩
  case uint64.w64 b | fixed64.w64 b =>
    exact ⟨_, text_number (decimal_spec (toNat_lt64 b)).1, (decimal_spec (toNat_lt64 b)).2.1⟩

theorem text_element (hq : QtNumbers env) {k : Kind} {s : Scalar} (hk : k.holds s = true) (hp : PlainScalar env k s) :
    ∃ j, Text (listElement env k s) j ∧ ShowsElement env k s j := by
  by_cases hd : k = .double
  · subst hd
    cases s <;> simp only [Kind.holds, Bool.false_eq_true] at hk
    case w64 b => exact ⟨_, text_number (hq.float64g b hp), rfl⟩
  · obtain ⟨j, h1, h2⟩ := text_scalar hq hk hp
    refine ⟨j, ?_, ?_⟩
    · cases k <;> first | exact absurd rfl hd | exact h1
    · cases k <;> first | exact absurd rfl hd | exact h2

theorem noEscapes_bool (b : Bool) : NoEscapes (boolText b) := by
  cases b <;> (intro x hx; simp only [boolText, List.mem_cons, List.not_mem_nil, or_false, if_true, Bool.false_eq_true, if_false] at hx)
  · rcases hx with rfl | rfl | rfl | rfl | rfl <;> decide
  · rcases hx with rfl | rfl | rfl | rfl <;> decide

theorem key_spec {k : Kind} {s : Scalar} (hkk : isKeyKind k = true) (hk : k.holds s = true) (hp : PlainScalar env k s) :
    NoEscapes (keyText env k s) ∧ ShowsKey env k s (keyText env k s) := by
  cases k <;> cases s <;> simp only [Kind.holds, Bool.false_eq_true] at hk <;> simp only [isKeyKind, Bool.false_eq_true] at hkk
  case bool.bool b => exact ⟨noEscapes_bool b, by cases b <;> (show boolText _ = _; decide +kernel)⟩
  case string.str s => exact ⟨hp, rfl⟩
  case int32.w32 b | sint32.w32 b | sfixed32.w32 b =>
    exact ⟨(decimal_spec (toInt_lt32 b)).2.2, (decimal_spec (toInt_lt32 b)).2.1⟩
  case int64.w64 b | sint64.w64 b | sfixed64.w64 b =>
    exact ⟨(decimal_spec (toInt_lt64 b)).2.2, (decimal_spec (toInt_lt64 b)).2.1⟩
  case uint32.w32 b | fixed32.w32 b =>
    exact ⟨(decimal_spec (toNat_lt32 b)).2.2, (decimal_spec (toNat_lt32 b)).2.1⟩
  case uint64.w64 b | fixed64.w64 b =>
    exact ⟨(decimal_spec (toNat_lt64 b)).2.2, (decimal_spec (toNat_lt64 b)).2.1⟩

theorem each_map {α : Type} {R : α → JVal → Prop} {f : α → Bytes} {l : List α}
    (h : ∀ a ∈ l, ∃ j, Text (f a) j ∧ R a j) : ∃ js, Elementwise Text (l.map f) js ∧ Elementwise R l js := by
  induction l with
  | nil => exact ⟨[], .nil, .nil⟩
  | cons a l ih =>
    obtain ⟨j, h1, h2⟩ := h a (by simp)
    obtain ⟨js, h3, h4⟩ := ih fun b hb => h b (by simp [hb])
    exact ⟨j :: js, .cons h1 h3, .cons h2 h4⟩

/-- What the induction over `Printable` gives for each value. -/
def Shown (env : JEnv) (m i : Nat) (ty : FieldTy) (v : Val) : Prop :=
  ∃ t j, Yields (fun n => serializeValue env (serializeObject env n) m i ty v) t ∧ Text t j ∧ Shows env m i ty v j

theorem shown_listObjects {m : Nat} {l : List Val} (hs : ∀ v ∈ l, v = .msgNull ∨ ∃ o, v = .msg o)
    (h : ∀ o, .msg o ∈ l → Shown env m 0 (.msg m) (.msg o)) :
    ∃ ts js, Yields (fun n => listObjects (serializeObject env n) m l) (withCommas ts) ∧ Elementwise Text ts js ∧
      ShowsList env m l js := by
  induction l with
  | nil => exact ⟨[], [], Yields.pure _, .nil, .nil m⟩
  | cons v l ih =>
    obtain ⟨ts, js, h1, h2, h3⟩ := ih (fun v hv => hs v (by simp [hv])) fun o ho => h o (List.mem_cons_of_mem _ ho)
    rcases hs v (by simp) with rfl | ⟨o, rfl⟩
    · exact ⟨ts, js, h1, h2, .null h3⟩
    · obtain ⟨t, j, g1, g2, g3⟩ := h o (by simp)
      exact ⟨t :: ts, j :: js, Yields.bind g1 (Yields.bind h1 (Yields.pure _)), .cons g2 h2, .cons g3 h3⟩

theorem shown_mapValue {m i : Nat} {vt : MapVal} {v : Val} (hv : v ≠ .msgNull)
    (hp : Printable env m i (MapVal.toTy vt) v) (n : Nat) :
    mapValue env (serializeObject env n) m i vt v = serializeValue env (serializeObject env n) m i (MapVal.toTy vt) v := by
  cases vt with
  | scalar k => cases hp; rfl
  | enum => cases hp; rfl
  | msg m' =>
    cases hp with
    | null => exact absurd rfl hv
    | msg => rfl

theorem mapPairs_cons {rec : Nat → Obj → Res Bytes} {m i : Nat} {kk : Kind} {vt : MapVal} {key : Scalar} {v : Val}
    {es : List (Scalar × Val)} (hv : v ≠ .msgNull) : mapPairs env rec m i kk vt ((key, v) :: es) =
      (mapValue env rec m i vt v >>= fun t => mapPairs env rec m i kk vt es >>= fun r =>
        .ok (memberText (keyText env kk key, t) ++ 44 :: r)) := by
  cases v <;> first | exact absurd rfl hv | rfl

theorem shown_mapPairs {m i : Nat} {kk : Kind} {vt : MapVal} (hkk : isKeyKind kk = true) {es : List (Scalar × Val)}
    (hk : ∀ e ∈ es, kk.holds e.1 = true ∧ PlainScalar env kk e.1)
    (hp : ∀ e ∈ es, e.2 ≠ .msgNull → Printable env m i (MapVal.toTy vt) e.2)
    (h : ∀ e ∈ es, e.2 ≠ .msgNull → Shown env m i (MapVal.toTy vt) e.2) :
    ∃ ps ms, Yields (fun n => mapPairs env (serializeObject env n) m i kk vt es) (withCommas (ps.map memberText)) ∧
      Elementwise MemberOk ps ms ∧ ShowsEntries env m i kk vt es ms := by
  induction es with
  | nil => exact ⟨[], [], Yields.pure _, .nil, .nil⟩
  | cons e es ih =>
    obtain ⟨ps, ms, h1, h2, h3⟩ := ih (fun e he => hk e (by simp [he])) (fun e he => hp e (by simp [he]))
      fun e he => h e (by simp [he])
    obtain ⟨key, v⟩ := e
    by_cases hv : v = .msgNull
    · subst hv
      exact ⟨ps, ms, h1, h2, .null h3⟩
    · obtain ⟨k1, k2⟩ := hk _ (List.mem_cons_self)
      obtain ⟨k3, k4⟩ := key_spec hkk k1 k2
      obtain ⟨t, j, g1, g2, g3⟩ := h _ (List.mem_cons_self) hv
      refine ⟨(keyText env kk key, t) :: ps, (keyText env kk key, j) :: ms, ?_, .cons ⟨rawOk_clean k3, rfl, g2⟩ h2, .cons hv k4 g3 h3⟩
      have e1 : (fun n => mapPairs env (serializeObject env n) m i kk vt ((key, v) :: es)) = fun n =>
          (serializeValue env (serializeObject env n) m i (MapVal.toTy vt) v >>= fun t =>
            mapPairs env (serializeObject env n) m i kk vt es >>= fun r =>
              .ok (memberText (keyText env kk key, t) ++ 44 :: r)) := by
        funext n
        rw [mapPairs_cons hv, shown_mapValue hv (hp _ (List.mem_cons_self) hv)]
      rw [e1]
      exact Yields.bind g1 (Yields.bind h1 (Yields.pure _))

theorem shown_members {m : Nat} {o : Obj} (hlen : o.length = (env.sch m).length)
    (hn : ∀ i, i < (env.sch m).length → NoEscapes (env.toUtf8 (env.jsonName m i)))
    (h : ∀ (i : Nat) (f : Field) (v : Val), (env.sch m)[i]? = some f → o[i]? = some v → Shown env m i f.ty v) :
    ∀ is : List Nat, (∀ i ∈ is, i < (env.sch m).length) →
    ∃ ps ms, Yields (fun n => members env (serializeObject env n) m o is) (withCommas (ps.map memberText)) ∧
      Elementwise MemberOk ps ms ∧ ps.length = is.length ∧ ms.map (·.1) = is.map (fun i => env.toUtf8 (env.jsonName m i)) ∧
      (∀ (p i : Nat) (f : Field) (v : Val) (name : Bytes) (j : JVal), is[p]? = some i →
        (env.sch m)[i]? = some f → o[i]? = some v → ms[p]? = some (name, j) → Shows env m i f.ty v j) := by
  intro is
  induction is with
  | nil =>
    intro _
    exact ⟨[], [], Yields.pure _, .nil, rfl, rfl, by intro p i f v name j hp; simp at hp⟩
  | cons i is ih =>
    intro hlt
    obtain ⟨ps, ms, h1, h2, h3, h4, h5⟩ := ih fun i hi => hlt i (by simp [hi])
    have hi := hlt i (by simp)
    have hf : (env.sch m)[i]? = some ((env.sch m)[i]) := List.getElem?_eq_getElem hi
    have hv : o[i]? = some (o[i]'(by omega)) := List.getElem?_eq_getElem (by omega)
    obtain ⟨t, j, g1, g2, g3⟩ := h i _ _ hf hv
    refine ⟨(env.toUtf8 (env.jsonName m i), t) :: ps, (env.toUtf8 (env.jsonName m i), j) :: ms, ?_, .cons ⟨rawOk_clean (hn i hi), rfl, g2⟩ h2,
      by simp [h3], by simp [h4], ?_⟩
    · simp only [members, hf, hv]
      exact Yields.bind (Yields.bind g1 (Yields.pure _)) (Yields.bind h1 (Yields.pure _))
    · intro p i' f v name j' hp hf' hv' hj
      cases p with
      | zero =>
        simp only [List.getElem?_cons_zero, Option.some.injEq] at hp hj
        subst hp
        rw [hf] at hf'; rw [hv] at hv'
        cases hf'; cases hv'; cases hj
        exact g3
      | succ p =>
        simp only [List.getElem?_cons_succ] at hp hj
        exact h5 p i' f v name j' hp hf' hv' hj

theorem shown_obj (ho : ValidOrder env.toEnv) {m : Nat} {o : Obj} (hne : env.sch m ≠ []) (hlen : o.length = (env.sch m).length)
    (hn : ∀ i, i < (env.sch m).length → NoEscapes (env.toUtf8 (env.jsonName m i)))
    (h : ∀ (i : Nat) (f : Field) (v : Val), (env.sch m)[i]? = some f → o[i]? = some v → Shown env m i f.ty v) :
    ∃ t ms, Yields (fun n => serializeObject env n m o) t ∧ Text t (.obj ms) ∧
      ∀ m0 i0, Shows env m0 i0 (.msg m) (.msg o) (.obj ms) := by
  obtain ⟨ps, ms, h1, h2, h3, h4, h5⟩ := shown_members hlen hn h (env.ord m) fun i hi => by
    have := (ho m).mem_iff.mp hi
    exact List.mem_range.mp this
  have hps : ps ≠ [] := by
    intro hp
    have := (ho m).length_eq
    rw [← h3, hp] at this
    simp at this
    exact hne (List.eq_nil_of_length_eq_zero this.symm)
  refine ⟨_, ms, ?_, text_object h2, fun _ _ => .msg h4 h5⟩
  have hb := Yields.bind (Q := fun _ t => Res.ok ((123 :: t).dropLast ++ [125])) h1 (Yields.pure _)
  have e : (123 :: withCommas (ps.map memberText)).dropLast ++ [125] = 123 :: joined (ps.map memberText) ++ [125] := by
    cases ps with
    | nil => exact absurd rfl hps
    | cons p ps => rw [List.map_cons, withCommas_eq, ← List.cons_append, List.dropLast_concat]
  rw [← e]
  exact hb.shift fun n => rfl

theorem printable_shown (ho : ValidOrder env.toEnv) (hq : QtNumbers env) {m i : Nat} {ty : FieldTy} {v : Val}
    (h : Printable env m i ty v) : Shown env m i ty v := by
  induction h with
  | sc h1 h2 =>
    obtain ⟨j, g1, g2⟩ := text_scalar hq h1 h2
    exact ⟨_, j, Yields.pure _, g1, .sc g2⟩
  | @scList m i k l h1 h2 =>
    obtain ⟨js, g1, g2⟩ := each_map (f := listElement env k) fun s hs => text_element hq (h2 s hs).1 (h2 s hs).2
    refine ⟨_, .arr js, Yields.pure _, ?_, .scList g2⟩
    simp only [serializeScalarList, if_neg h1, listText_eq]
    exact text_array g1
  | @enum m i e name h1 h2 =>
    refine ⟨_, .str name, Yields.pure _, ?_, .enum h1⟩
    simp only [serializeEnum, h1, Option.getD_some]
    exact text_quote h2
  | @enumList m i l h1 =>
    obtain ⟨js, g1, g2⟩ := each_map (l := l) (f := serializeEnum env m i)
      (R := fun e j => ∃ name, env.enumKey m i e = some name ∧ j = .str name) fun e he => by
      obtain ⟨name, a, b⟩ := h1 e he
      refine ⟨.str name, ?_, name, a, rfl⟩
      simp only [serializeEnum, a, Option.getD_some]
      exact text_quote b
    refine ⟨_, .arr js, Yields.pure _, ?_, .enumList g2⟩
    simp only [serializeEnumList, listText_eq]
    exact text_array g1
  | null _ ih =>
    obtain ⟨t, j, g1, g2, g3⟩ := ih
    exact ⟨t, j, g1, g2, .unset g3⟩
  | msg h1 h2 h3 _ ih =>
    obtain ⟨t, ms, g1, g2, g3⟩ := shown_obj ho h1 h2 h3 ih
    exact ⟨t, .obj ms, g1, g2, g3 _ _⟩
  | msgList h1 _ ih =>
    obtain ⟨ts, js, g1, g2, g3⟩ := shown_listObjects h1 ih
    refine ⟨_, .arr js, Yields.bind g1 (Yields.pure _), ?_, .msgList g3⟩
    rw [closeWith_eq (by decide)]
    exact text_array g2
  | map h1 h2 h3 ih =>
    obtain ⟨ps, ms, g1, g2, g3⟩ := shown_mapPairs h1 h2 h3 ih
    refine ⟨_, .obj ms, Yields.bind g1 (Yields.pure _), ?_, .map g3⟩
    rw [closeWith_eq (by decide)]
    exact text_object g2

theorem text_readJson {t : Bytes} {j : JVal} (h : Text t j) : readJson t = some j := by
  have := h.2 (t.length + 1) [] (by omega) (by intro b r h; cases h)
  rw [List.append_nil] at this
  simp [readJson, this, skipWs]

end QtPb.Json
