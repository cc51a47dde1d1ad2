import Verif.JsonLemmas
import Verif.Demo
/-
C47: what the JSON serializer writes is a JSON document that shows the message.
-/
namespace QtPb.Json
open Spec

variable {env : JEnv}

/-- **C47**, partial. For every message whose texts need no escaping, whose floating point numbers are finite and whose
enumeration values have names, with no repeated bool field and no message type without fields involved:
serialization returns, the output is a JSON document by the grammar of RFC 8259, and it shows the message, one member
per field. Missing: the messages of the `_violated` theorems below. -/
theorem C47_document_partial (ho : ValidOrder env.toEnv) (hq : QtNumbers env) {m : Nat} {o : Obj}
    (h : Printable env 0 0 (.msg m) (.msg o)) :
    ∃ (N : Nat) (bs : Bytes) (j : JVal), (∀ n, N ≤ n → serializeObject env n m o = .ok bs) ∧ readJson bs = some j ∧
      Shows env 0 0 (.msg m) (.msg o) j := by
  obtain ⟨t, j, ⟨N, hN⟩, h2, h3⟩ := printable_shown ho hq h
  exact ⟨N, t, j, hN, text_readJson h2, h3⟩

/-- **C47**, the value shown determines scalars: two different integers of one kind are never shown alike. -/
theorem C47_integers_injective {k : Kind} {a b : Scalar} {j : JVal} (hk : k ≠ .float ∧ k ≠ .double ∧ k ≠ .string ∧ k ≠ .bytes)
    (ha : k.holds a = true) (hb : k.holds b = true) (h1 : ShowsScalar env k a j) (h2 : ShowsScalar env k b j) : a = b := by
  cases k <;> first | exact absurd rfl hk.1 | exact absurd rfl hk.2.1 | exact absurd rfl hk.2.2.1 | exact absurd rfl hk.2.2.2 | skip
  all_goals
    cases a <;> simp only [Kind.holds, Bool.false_eq_true] at ha
    cases b <;> simp only [Kind.holds, Bool.false_eq_true] at hb
    cases j <;> simp only [ShowsScalar] at h1 h2
  case bool => rw [h1, h2]
  all_goals
    have h3 := h1.1.symm.trans h2.1
    have h3 := Option.some.inj h3
  case int32 | sint32 | sfixed32 => rw [BitVec.toInt_inj.mp h3]
  case int64 | sint64 | sfixed64 => rw [BitVec.toInt_inj.mp h3]
  case uint32 | fixed32 => rw [BitVec.eq_of_toNat_eq (Int.ofNat.inj h3)]
  case uint64 | fixed64 => rw [BitVec.eq_of_toNat_eq (Int.ofNat.inj h3)]

/-- **C47**, byte arrays: the text written for any byte array decodes, by RFC 4648, to that array. -/
theorem C47_base64 (b : Bytes) : serializeScalar env .bytes (.bytes (some b)) = 34 :: toBase64 b ++ [34] ∧
    base64Decode (toBase64 b) = some b ∧ NoEscapes (toBase64 b) :=
  ⟨rfl, base64_roundtrip b⟩

theorem finite32_zero : finite32 0 := by unfold finite32; decide
theorem finite64_zero : finite64 0 := by unfold finite64; decide

/-- Default constructed messages can be shown when singular message fields form no cycle and each enumeration has a
value 0. -/
theorem printable_default {rank : Nat → Nat} (hr : Acyclic env.toEnv rank) (hb : NoRepeatedBool env.toEnv)
    (hne : ∀ m, env.sch m ≠ []) (hn : ∀ m i, NoEscapes (env.toUtf8 (env.jsonName m i)))
    (hz : ∀ m i, ∃ name, env.enumKey m i 0 = some name ∧ NoEscapes name) (he : env.toUtf8 [] = [])
    (hk : ∀ m, ∀ f ∈ env.sch m, ∀ kk vt, f.ty = .map kk vt → isKeyKind kk = true) :
    ∀ (r m m0 i0 : Nat), rank m ≤ r → Printable env m0 i0 (.msg m) (.msg (defaultObj env.toEnv m)) := by
  intro r
  induction r with
  | zero =>
    intro m m0 i0 hm
    refine .msg (hne m) (by simp [defaultObj]) (fun i _ => hn m i) ?_
    intro i f v hf hv
    have hmem := List.mem_of_getElem? hf
    simp only [defaultObj, List.getElem?_map, hf, Option.map_some, Option.some.injEq] at hv
    subst hv
    cases hty : f.ty with
    | scalar k =>
      refine .sc (by cases k <;> rfl) ?_
      cases k <;> first | exact trivial | exact finite32_zero | exact finite64_zero | (intro b hb; rw [Option.getD_none, he] at hb; cases hb)
    | list k => exact .scList (by rintro rfl; exact hb m f hmem hty) (by simp)
    | enum => obtain ⟨name, a, b⟩ := hz m i; exact .enum a b
    | enumList => exact .enumList (by simp)
    | msg m' => have := hr m f hmem m' hty; omega
    | msgList m' => exact .msgList (by simp) (by simp)
    | map kk vt => exact .map (hk m f hmem kk vt hty) (by simp) (by simp)
  | succ r ih =>
    intro m m0 i0 hm
    refine .msg (hne m) (by simp [defaultObj]) (fun i _ => hn m i) ?_
    intro i f v hf hv
    have hmem := List.mem_of_getElem? hf
    simp only [defaultObj, List.getElem?_map, hf, Option.map_some, Option.some.injEq] at hv
    subst hv
    cases hty : f.ty with
    | scalar k =>
      refine .sc (by cases k <;> rfl) ?_
      cases k <;> first | exact trivial | exact finite32_zero | exact finite64_zero | (intro b hb; rw [Option.getD_none, he] at hb; cases hb)
    | list k => exact .scList (by rintro rfl; exact hb m f hmem hty) (by simp)
    | enum => obtain ⟨name, a, b⟩ := hz m i; exact .enum a b
    | enumList => exact .enumList (by simp)
    | msg m' => have := hr m f hmem m' hty; exact .null (ih m' _ _ (by omega))
    | msgList m' => exact .msgList (by simp) (by simp)
    | map kk vt => exact .map (hk m f hmem kk vt hty) (by simp) (by simp)

/-! ### A schema that meets the hypotheses -/

/-- Names `a`, `b`, ... for fields; enumeration values 0 and 1 have names; finite floating point numbers are printed as `1.5e+3`. -/
def demoJ : JEnv where
  toEnv := demoEnv
  jsonName _ i := [Char.ofNat (97 + i)]
  enumKey _ _ e := if e = 0 then some [90] else if e = 1 then some [79, 78] else none
  float32g b := if b.toNat % 2 ^ 31 < 0x7f800000 then [49, 46, 53, 101, 43, 51] else [110, 97, 110]
  float64g b := if b.toNat % 2 ^ 63 < 0x7ff0000000000000 then [49, 46, 53, 101, 43, 51] else [110, 97, 110]
  float64s b := if b.toNat % 2 ^ 63 < 0x7ff0000000000000 then [49, 46, 53, 101, 43, 51] else [110, 97, 110]

theorem demoJ_numbers : QtNumbers demoJ where
  float32g b h := by unfold finite32 at h; show isNumber (if _ then _ else _) = true; rw [if_pos h]; decide
  float64g b h := by unfold finite64 at h; show isNumber (if _ then _ else _) = true; rw [if_pos h]; decide
  float64s b h := by unfold finite64 at h; show isNumber (if _ then _ else _) = true; rw [if_pos h]; decide

theorem demoJ_order : ValidOrder demoJ.toEnv := fun _ => List.reverse_perm _

/-- A message of type 1: a float and a byte array. -/
theorem demoJ_leaf (b : BitVec 32) (hb : finite32 b) (d : Option Bytes) (m i : Nat) :
    Printable demoJ m i (.msg 1) (.msg [.sc (.w32 b), .sc (.bytes d)]) := by
  refine .msg (by decide) rfl ?_ ?_
  · intro i hi; have : i < 2 := hi
    have : i = 0 ∨ i = 1 := by omega
    rcases this with rfl | rfl <;> (intro x hx; revert x; decide)
  · intro i f v hf hv
    match i with
    | 0 =>
      simp only [List.getElem?_cons_zero, Option.some.injEq] at hv; subst hv
      have : f = ⟨1, .scalar .float⟩ := (Option.some.inj hf).symm
      subst this; exact .sc rfl hb
    | 1 =>
      simp only [List.getElem?_cons_succ, List.getElem?_cons_zero, Option.some.injEq] at hv; subst hv
      have : f = ⟨4, .scalar .bytes⟩ := (Option.some.inj hf).symm
      subst this; exact .sc rfl trivial
    | i + 2 => simp at hv

/-- A message of type 0 with a value in each field. -/
def demoMsg : Obj :=
  [.sc (.w32 5), .sc (.str (some ['h', 'i'])), .scList [.w32 1, .w32 (-1)], .enum 1, .msgNull,
    .msgList [.msg [.sc (.w32 0), .sc (.bytes (some [1, 2]))], .msgNull], .map [(.str (some ['k']), .sc (.w64 (-7)))],
    .map [(.w32 3, .msg [.sc (.w32 1), .sc (.bytes none)])], .scList [.str (some ['x'])], .enumList [0, 1], .sc (.w64 0)]

theorem demoMsg_printable : Printable demoJ 0 0 (.msg 0) (.msg demoMsg) := by
  refine .msg (by decide) rfl ?_ ?_
  · intro i hi; have : i < 11 := hi
    have : i = 0 ∨ i = 1 ∨ i = 2 ∨ i = 3 ∨ i = 4 ∨ i = 5 ∨ i = 6 ∨ i = 7 ∨ i = 8 ∨ i = 9 ∨ i = 10 := by omega
    rcases this with rfl | rfl | rfl | rfl | rfl | rfl | rfl | rfl | rfl | rfl | rfl <;> (intro x hx; revert x; decide)
  · intro i f v hf hv
    match i, hf, hv with
    | 0, hf, hv => cases hf; cases hv; exact .sc rfl trivial
    | 1, hf, hv => cases hf; cases hv; exact .sc rfl (by intro x hx; revert x; decide)
    | 2, hf, hv =>
      cases hf; cases hv
      refine .scList (by decide) ?_
      intro s hs
      simp only [List.mem_cons, List.not_mem_nil, or_false] at hs
      rcases hs with rfl | rfl <;> exact ⟨rfl, trivial⟩
    | 3, hf, hv => cases hf; cases hv; exact .enum (name := [79, 78]) rfl (by intro x hx; revert x; decide)
    | 4, hf, hv => cases hf; cases hv; exact .null (demoJ_leaf 0 finite32_zero none _ _)
    | 5, hf, hv =>
      cases hf; cases hv
      refine .msgList (by intro v hv; simp only [List.mem_cons, List.not_mem_nil, or_false] at hv
                          rcases hv with rfl | rfl; exact .inr ⟨_, rfl⟩; exact .inl rfl) ?_
      intro o ho
      simp only [List.mem_cons, List.not_mem_nil, or_false, Val.msg.injEq, reduceCtorEq] at ho
      subst ho
      exact demoJ_leaf 0 finite32_zero _ _ _
    | 6, hf, hv =>
      cases hf; cases hv
      refine .map rfl ?_ ?_
      · intro e he; simp only [List.mem_cons, List.not_mem_nil, or_false] at he; subst he
        exact ⟨rfl, by intro x hx; revert x; decide⟩
      · intro e he _; simp only [List.mem_cons, List.not_mem_nil, or_false] at he; subst he
        exact .sc rfl trivial
    | 7, hf, hv =>
      cases hf; cases hv
      refine .map rfl ?_ ?_
      · intro e he; simp only [List.mem_cons, List.not_mem_nil, or_false] at he; subst he
        exact ⟨rfl, trivial⟩
      · intro e he _; simp only [List.mem_cons, List.not_mem_nil, or_false] at he; subst he
        exact demoJ_leaf 1 (by unfold finite32; decide) _ _ _
    | 8, hf, hv =>
      cases hf; cases hv
      refine .scList (by decide) ?_
      intro s hs
      simp only [List.mem_cons, List.not_mem_nil, or_false] at hs
      subst hs
      exact ⟨rfl, by intro x hx; revert x; decide⟩
    | 9, hf, hv =>
      cases hf; cases hv
      refine .enumList ?_
      intro e he
      simp only [List.mem_cons, List.not_mem_nil, or_false] at he
      rcases he with rfl | rfl
      · exact ⟨[90], rfl, by intro x hx; revert x; decide⟩
      · exact ⟨[79, 78], rfl, by intro x hx; revert x; decide⟩
    | 10, hf, hv => cases hf; cases hv; exact .sc rfl finite64_zero
    | i + 11, hf, hv => simp [demoMsg] at hv

example : ∃ (N : Nat) (bs : Bytes) (j : JVal), (∀ n, N ≤ n → serializeObject demoJ n 0 demoMsg = .ok bs) ∧
    readJson bs = some j ∧ Shows demoJ 0 0 (.msg 0) (.msg demoMsg) j :=
  C47_document_partial demoJ_order demoJ_numbers demoMsg_printable

/-- The output for `demoMsg`, and that for the leaf it contains. -/
example : serializeObject demoJ 2 1 [.sc (.w32 0), .sc (.bytes (some [1, 2]))]
    = .ok "{\"b\":\"AQI=\",\"a\":1.5e+3}".toUTF8.toList := by decide +kernel
example : ∃ bs, serializeObject demoJ 3 0 demoMsg = .ok bs ∧ (readJson bs).isSome = true := ⟨_, rfl, by decide +kernel⟩

example : ShowsScalar demoJ .int32 (.w32 (-7)) (.num [45, 55]) := by
  show IntegerText _ _; exact ⟨by decide +kernel, by decide +kernel⟩

/-! ### Where the full property fails -/

/-- Message type with a single string field named `f`. -/
def textJ : JEnv :=
  { demoJ with
    sch := fun m => if m = 0 then [⟨1, .scalar .string⟩] else []
    ord := fun m => if m = 0 then [0] else []
    jsonName := fun _ _ => ['f'] }

theorem textJ_order : ValidOrder textJ.toEnv := by
  intro m
  by_cases h : m = 0
  · subst h; exact List.Perm.refl _
  · simp [textJ, h]

theorem textJ_serialize (n : Nat) (s : List Char) : serializeObject textJ (n + 1) 0 [.sc (.str (some s))]
    = .ok (123 :: quote [102] ++ 58 :: quote (s.map fun c => UInt8.ofNat c.toNat) ++ [125]) := by
  have hm : members textJ (serializeObject textJ n) 0 [.sc (.str (some s))] [0]
      = .ok ((quote [102] ++ 58 :: quote (s.map fun c => UInt8.ofNat c.toNat)) ++ [44]) := rfl
  have ho : textJ.ord 0 = [0] := rfl
  rw [serializeObject, ho, hm, Res.bind_eq, Res.bind, ← List.cons_append, List.dropLast_concat]
  rfl

/-- **C47 violated**: a quote in a text is not escaped, and the output is not a JSON document. -/
theorem C47_quote_violated : ∃ (env : JEnv) (o : Obj), ValidOrder env.toEnv ∧ QtNumbers env ∧ WellTyped env.toEnv 0 o ∧
    ∃ bs, (∀ n, serializeObject env (n + 1) 0 o = .ok bs) ∧ readJson bs = none := by
  refine ⟨textJ, [.sc (.str (some ['a', '"', 'b']))], textJ_order, ⟨demoJ_numbers.1, demoJ_numbers.2, demoJ_numbers.3⟩, ?_,
    _, fun n => textJ_serialize n _, by decide +kernel⟩
  refine .msg rfl ?_
  intro i f v hf hv
  match i, hf, hv with
  | 0, hf, hv => cases hf; cases hv; exact .sc rfl
  | i + 1, hf, hv => simp at hv

/-- **C47 violated**: a text can add members of the sender's choice to the document. For all texts `a`, `b`, `c`
without special characters, a message whose one string field holds `a","b":"c` is written as a document with two
members. -/
theorem C47_injection_violated {a b c : List Char} (ha : NoEscapes (textJ.toUtf8 a)) (hb : NoEscapes (textJ.toUtf8 b))
    (hc : NoEscapes (textJ.toUtf8 c)) (n : Nat) :
    ∃ bs, serializeObject textJ (n + 1) 0 [.sc (.str (some (a ++ ['"', ',', '"'] ++ b ++ ['"', ':', '"'] ++ c)))] = .ok bs ∧
      readJson bs = some (.obj [([102], .str (textJ.toUtf8 a)), (textJ.toUtf8 b, .str (textJ.toUtf8 c))]) := by
  refine ⟨_, textJ_serialize n _, ?_⟩
  have hf : NoEscapes [102] := by intro x hx; revert x; decide
  have h := text_readJson (text_object (ps := [([102], quote (textJ.toUtf8 a)), (textJ.toUtf8 b, quote (textJ.toUtf8 c))])
    (ms := [([102], .str (textJ.toUtf8 a)), (textJ.toUtf8 b, .str (textJ.toUtf8 c))])
    (.cons ⟨rawOk_clean hf, rfl, text_quote ha⟩ (.cons ⟨rawOk_clean hb, rfl, text_quote hc⟩ .nil)))
  rw [← h]
  congr 1
  simp [joined, memberText, quote, textJ, demoJ, demoEnv]

example : NoEscapes (textJ.toUtf8 ['x']) := by intro x hx; revert x; decide

/-- **C47 violated**: for every message type without fields the output is a closing brace. -/
theorem C47_empty_message_violated (ho : ValidOrder env.toEnv) {m : Nat} (hm : env.sch m = []) (o : Obj) (n : Nat) :
    serializeObject env (n + 1) m o = .ok [125] ∧ readJson [125] = none := by
  have : env.ord m = [] := by
    have := (ho m).length_eq
    rw [hm] at this
    exact List.eq_nil_of_length_eq_zero this
  refine ⟨?_, by decide +kernel⟩
  rw [serializeObject, this]
  rfl

example : ValidOrder demoJ.toEnv ∧ demoJ.sch 7 = [] := ⟨demoJ_order, rfl⟩

/-- **C47 violated**: a repeated bool field is written as a name without value, whatever it contains. -/
theorem C47_bool_list_violated : ∃ env : JEnv, ValidOrder env.toEnv ∧ ∀ (l : List Scalar) (n : Nat),
    ∃ bs, serializeObject env (n + 1) 0 [.scList l] = .ok bs ∧ readJson bs = none := by
  refine ⟨{ textJ with sch := fun m => if m = 0 then [⟨1, .list .bool⟩] else [] }, ?_, ?_⟩
  · intro m
    by_cases h : m = 0
    · subst h; exact List.Perm.refl _
    · simp [textJ, h]
  · intro l n
    exact ⟨[123, 34, 102, 34, 58, 125], rfl, by decide +kernel⟩

/-- **C47 violated**: an infinite number or NaN, which Qt prints with letters, is written as it is. -/
theorem C47_nan_violated : ∃ (env : JEnv) (o : Obj), ValidOrder env.toEnv ∧ QtNumbers env ∧ WellTyped env.toEnv 1 o ∧
    ∃ bs, (∀ n, serializeObject env (n + 1) 1 o = .ok bs) ∧ readJson bs = none := by
  refine ⟨demoJ, [.sc (.w32 0x7fc00000), .sc (.bytes none)], demoJ_order, demoJ_numbers, ?_, _, fun n => rfl, by decide +kernel⟩
  refine .msg rfl ?_
  intro i f v hf hv
  match i, hf, hv with
  | 0, hf, hv => cases hf; cases hv; exact .sc rfl
  | 1, hf, hv => cases hf; cases hv; exact .sc rfl
  | i + 2, hf, hv => simp at hv

/-- **C47 violated**: enumeration values without a name are all written as the empty text, so that different messages
have the same output. -/
theorem C47_enum_violated {m i : Nat} {a b : BitVec 32} (ha : env.enumKey m i a = none) (hb : env.enumKey m i b = none) :
    serializeEnum env m i a = [34, 34] ∧ serializeEnum env m i b = serializeEnum env m i a := by
  simp [serializeEnum, ha, hb, quote]

example : demoJ.enumKey 0 3 7 = none ∧ demoJ.enumKey 0 3 8 = none := ⟨rfl, rfl⟩

theorem members_mem {rec : Nat → Obj → Res Bytes} {m : Nat} {o : Obj} {i : Nat} {f : Field} {v : Val}
    (hf : (env.sch m)[i]? = some f) (hv : o[i]? = some v) :
    ∀ {is : List Nat} {t : Bytes}, i ∈ is → members env rec m o is = .ok t → ∃ t', serializeValue env rec m i f.ty v = .ok t' := by
  intro is
  induction is with
  | nil => intro t h; cases h
  | cons k is ih =>
    intro t h ht
    unfold members at ht
    rcases List.mem_cons.mp h with rfl | h
    · rw [hf, hv] at ht
      simp only [Res.bind_eq, Res.bind_eq_ok] at ht
      obtain ⟨x, hx, _⟩ := ht
      simp only [serializeProperty, Res.bind_eq, Res.bind_eq_ok] at hx
      obtain ⟨y, hy, _⟩ := hx
      exact ⟨y, hy⟩
    · split at ht
      · simp only [Res.bind_eq, Res.bind_eq_ok] at ht
        obtain ⟨x, _, y, hy, _⟩ := ht
        exact ih h hy
      · exact ih h ht

/-- **C47 violated**: when each type of a set has a singular field of a type of the set, serialization of a message of
such a type never returns. -/
theorem C47_recursive_violated (ho : ValidOrder env.toEnv) {S : Nat → Prop}
    (hS : ∀ m, S m → ∃ f ∈ env.sch m, ∃ m', f.ty = .msg m' ∧ S m') (n : Nat) :
    ∀ {m : Nat} {o : Obj}, S m → WellTyped env.toEnv m o → ∀ b, serializeObject env n m o ≠ .ok b := by
  induction n with
  | zero => intro m o _ _ b; simp [serializeObject]
  | succ n ih =>
    intro m o hm hw b hb
    obtain ⟨f, hf, m', hty, hm'⟩ := hS m hm
    obtain ⟨i, hi⟩ := List.mem_iff_getElem?.mp hf
    cases hw with
    | msg hl hh =>
      have hio : i < (env.sch m).length := (List.getElem?_eq_some_iff.mp hi).1
      have hv : o[i]? = some (o[i]'(by omega)) := List.getElem?_eq_getElem (by omega)
      have hmem : i ∈ env.ord m := (ho m).mem_iff.mpr (List.mem_range.mpr hio)
      simp only [serializeObject, Res.bind_eq, Res.bind_eq_ok] at hb
      obtain ⟨t, ht, _⟩ := hb
      obtain ⟨t', ht'⟩ := members_mem hi hv hmem ht
      have hv' := hh i f _ hi hv
      rw [hty] at hv' ht'
      generalize o[i] = v at hv' ht'
      have hmat : WellTyped env.toEnv m' (materialize env.toEnv m' v) := by
        cases hv' with
        | null => exact default_hasTy env.toEnv m'
        | msg h1 h2 => exact .msg h1 h2
      exact ih hm' hmat t' ht'

example : ∀ m, m = 2 → ∃ f ∈ demoJ.sch m, ∃ m', f.ty = .msg m' ∧ m' = 2 := by
  rintro m rfl; exact ⟨⟨2, .msg 2⟩, by decide, 2, rfl, rfl⟩

end QtPb.Json
