import Verif.SpecJsonRead
import Verif.JsonLemmas
import Verif.KeyLemmas
import Verif.DecodeLemmas
/-
Lemmas for C64: the deserializer reads documents as the specification does.
-/
namespace QtPb.Json
open Spec

/-! ### Base64 -/

theorem base64Digit_eq (b : UInt8) : base64Digit b = base64Value b := by
  simp only [base64Digit, base64Value, Bool.and_eq_true, decide_eq_true_eq]

theorem loop_none {b : UInt8} (h : base64Value b = none) (buf nbits : Nat) (r : Bytes) :
    fromBase64Loop buf nbits (b :: r) = fromBase64Loop buf nbits r := by
  rw [fromBase64Loop, base64Digit_eq, h]

theorem loop_some {b : UInt8} {d : Nat} (h : base64Value b = some d) (buf nbits : Nat) (r : Bytes) :
    fromBase64Loop buf nbits (b :: r) =
      if nbits + 6 ≥ 8 then
        UInt8.ofNat ((buf * 64 + d) / 2 ^ (nbits + 6 - 8)) :: fromBase64Loop ((buf * 64 + d) % 2 ^ (nbits + 6 - 8)) (nbits + 6 - 8) r
      else fromBase64Loop (buf * 64 + d) (nbits + 6) r := by
  rw [fromBase64Loop, base64Digit_eq, h]

theorem loop0 {b : UInt8} {x : Nat} (h : base64Value b = some x) (r : Bytes) :
    fromBase64Loop 0 0 (b :: r) = fromBase64Loop x 6 r := by
  rw [loop_some h, if_neg (by omega)]; simp

theorem loop6 {b : UInt8} {y : Nat} (h : base64Value b = some y) (x : Nat) (r : Bytes) :
    fromBase64Loop x 6 (b :: r) = UInt8.ofNat (x * 4 + y / 16) :: fromBase64Loop (y % 16) 4 r := by
  rw [loop_some h, if_pos (by omega)]
  have e1 : (x * 64 + y) / 2 ^ (6 + 6 - 8) = x * 4 + y / 16 := by simp; omega
  have e2 : (x * 64 + y) % 2 ^ (6 + 6 - 8) = y % 16 := by simp; omega
  rw [e1, e2]

theorem loop4 {b : UInt8} {z : Nat} (h : base64Value b = some z) (x : Nat) (r : Bytes) :
    fromBase64Loop x 4 (b :: r) = UInt8.ofNat (x * 16 + z / 4) :: fromBase64Loop (z % 4) 2 r := by
  rw [loop_some h, if_pos (by omega)]
  have e1 : (x * 64 + z) / 2 ^ (4 + 6 - 8) = x * 16 + z / 4 := by simp; omega
  have e2 : (x * 64 + z) % 2 ^ (4 + 6 - 8) = z % 4 := by simp; omega
  rw [e1, e2]

theorem loop2 {b : UInt8} {w : Nat} (h : base64Value b = some w) (x : Nat) (r : Bytes) :
    fromBase64Loop x 2 (b :: r) = UInt8.ofNat (x * 64 + w) :: fromBase64Loop 0 0 r := by
  rw [loop_some h, if_pos (by omega)]
  simp [Nat.mod_one]

theorem fromBase64_eq {t b : Bytes} (h : base64Decode t = some b) : fromBase64 t = b := by
  unfold fromBase64
  have pad : base64Value 61 = none := by decide
  fun_induction base64Decode t generalizing b with
  | case2 a b' x y hy hx hm =>
    cases h
    rw [loop0 hx, loop6 hy, loop_none pad, loop_none pad]
    rfl
  | case5 a b' c _ x y z hz hy hx hm =>
    cases h
    rw [loop0 hx, loop6 hy, loop4 hz, loop_none pad]
    rfl
  | case8 a b' c d r h1 h2 x y z w l hl hw hz hy hx ih =>
    cases h
    rw [loop0 hx, loop6 hy, loop4 hz, loop2 hw, ih hl]
  | case1 => cases h; rfl
  | _ => cases h

/-! ### Scalars -/

variable {env : REnv}

theorem replaceQuotes_id : ∀ {s : List Char}, '"' ∉ s → replaceQuotes s = s
  | [], _ => rfl
  | c :: r, h => by
    have hr : '"' ∉ r := fun hm => h (List.mem_cons_of_mem _ hm)
    unfold replaceQuotes
    split
    · rename_i hs
      simp only [List.cons.injEq] at hs
      rw [hs.2] at hr
      exact absurd (List.mem_cons_self ..) hr
    · rename_i hs
      simp only [List.cons.injEq] at hs
      rw [← hs.1, ← hs.2, replaceQuotes_id hr]
    · rename_i hs; cases hs

theorem noEscapes_quote {raw : Bytes} (h : NoEscapes raw) : 0x22 ∉ raw := fun hm => (h _ hm).2.1 rfl

theorem numberText_content {j : JVal} {x c : Bytes} {t : JType} (h : isNumberText j x) (hc : Content j t c) : c = x := by
  rcases h with rfl | rfl <;> exact hc.2

theorem isNumber_finite {x : Bytes} (h : isNumber x = true) : x ∉ notFinite := by
  intro hm
  simp only [notFinite, List.mem_cons, List.not_mem_nil, or_false] at hm
  rcases hm with rfl | rfl | rfl <;> revert h <;> decide

theorem replaceQuotes_append : ∀ {l : List Char} (_ : '\\' ∉ l) (r : List Char), replaceQuotes (l ++ r) = l ++ replaceQuotes r
  | [], _, r => rfl
  | c :: l, h, r => by
    have hl : '\\' ∉ l := fun hm => h (List.mem_cons_of_mem _ hm)
    have hc : c ≠ '\\' := fun e => h (by rw [e]; exact List.mem_cons_self)
    rw [List.cons_append, List.cons_append]
    conv => lhs; unfold replaceQuotes
    split
    · rename_i hs
      simp only [List.cons.injEq] at hs
      exact absurd hs.1 hc
    · rename_i hs
      simp only [List.cons.injEq] at hs
      rw [← hs.1, ← hs.2, replaceQuotes_append hl]
    · rename_i hs; cases hs

/-- A text without escapes, or the first of them. -/
theorem unescape_split {raw s : Bytes} (h : Unescape quoteEscape raw s) : (NoEscapes raw ∧ s = raw) ∨
    ∃ a raw' s', NoEscapes a ∧ raw = a ++ 0x5c :: 0x22 :: raw' ∧ s = a ++ 0x22 :: s' ∧ Unescape quoteEscape raw' s' := by
  induction h with
  | nil => exact Or.inl ⟨by simp [NoEscapes], rfl⟩
  | @plain b raw s h1 h2 h3 _ ih =>
    rcases ih with ⟨g1, rfl⟩ | ⟨a, raw', s', g1, rfl, rfl, g2⟩
    · refine Or.inl ⟨?_, rfl⟩
      intro x hx
      rcases List.mem_cons.mp hx with rfl | hx
      · exact ⟨h1, h2, h3⟩
      · exact g1 x hx
    · refine Or.inr ⟨b :: a, raw', s', ?_, rfl, rfl, g2⟩
      intro x hx
      rcases List.mem_cons.mp hx with rfl | hx
      · exact ⟨h1, h2, h3⟩
      · exact g1 x hx
  | @escape b c raw s h1 h2 _ =>
    unfold quoteEscape at h1
    by_cases hb : b = 0x22
    · rw [if_pos hb] at h1
      cases h1
      subst hb
      exact Or.inr ⟨[], raw, s, by simp [NoEscapes], rfl, rfl, h2⟩
    · rw [if_neg hb] at h1
      cases h1

theorem replaceQuotes_step {g dec : Bytes → List Char} (hg : Decodes g dec) (hd : Decodes dec dec) (h0 : dec [] = []) {raw s : Bytes}
    (h : Unescape quoteEscape raw s) (ih : ∀ raw' s', raw'.length < raw.length → Unescape quoteEscape raw' s' →
      replaceQuotes (dec raw') = dec s') : replaceQuotes (g raw) = g s := by
  rcases unescape_split h with ⟨h1, rfl⟩ | ⟨a, raw', s', h1, rfl, rfl, h2⟩
  · exact replaceQuotes_id (hg.quote _ (noEscapes_quote h1))
  · have e1 := hg.append a 0x5c (0x22 :: raw') (by decide)
    have e2 := hd.append [] 0x22 raw' (by decide)
    rw [List.nil_append, h0, List.nil_append] at e2
    rw [e1, e2, hg.append a 0x22 s' (by decide), replaceQuotes_append (hg.backslash a fun hm => (h1 _ hm).2.2 rfl)]
    have e3 : Char.ofNat (0x5c : UInt8).toNat = '\\' := by decide
    have e4 : Char.ofNat (0x22 : UInt8).toNat = '"' := by decide
    rw [e3, e4, replaceQuotes, ih raw' s' (by simp; omega) h2]

theorem replaceQuotes_dec {dec : Bytes → List Char} (hd : Decodes dec dec) (h0 : dec [] = []) : ∀ (n : Nat) (raw s : Bytes),
    raw.length < n → Unescape quoteEscape raw s → replaceQuotes (dec raw) = dec s
  | 0, _, _, h, _ => absurd h (Nat.not_lt_zero _)
  | n + 1, raw, _, h, hu => replaceQuotes_step hd hd h0 hu fun raw' s' hl hu' => replaceQuotes_dec hd h0 n raw' s' (by omega) hu'

theorem text_read (hq : QtReads env) {raw : Bytes} {s : List Char} (h : TextOf env quoteEscape raw s) :
    replaceQuotes (env.fromUtf8 raw) = s := by
  obtain ⟨b, h1, rfl⟩ := h
  obtain ⟨dec, h0, hg, hd⟩ := hq.text
  exact replaceQuotes_step hg hd h0 h1 fun raw' s' _ hu => replaceQuotes_dec hd h0 _ raw' s' (Nat.lt_succ_self _) hu

theorem integer_read (hq : QtReads env) {lo hi x : Int} {j : JVal} {c : Bytes} {t : JType} (h : ∃ y, isNumberText j y ∧ IntegerText y x)
    (hc : Content j t c) (h1 : lo ≤ x) (h2 : x ≤ hi) : deserializeInteger env lo hi t c = (x, true) := by
  obtain ⟨y, hy, hx⟩ := h
  rw [numberText_content hy hc, deserializeInteger, hq.integer lo hi y x hx h1 h2]
  rfl

theorem range32 (b : BitVec 32) : -2 ^ 31 ≤ b.toInt ∧ b.toInt ≤ 2 ^ 31 - 1 := by
  have h1 := BitVec.le_toInt b
  have h2 := BitVec.toInt_lt (x := b)
  omega

theorem range64 (b : BitVec 64) : -2 ^ 63 ≤ b.toInt ∧ b.toInt ≤ 2 ^ 63 - 1 := by
  have h1 := BitVec.le_toInt b
  have h2 := BitVec.toInt_lt (x := b)
  omega

theorem urange32 (b : BitVec 32) : 0 ≤ (b.toNat : Int) ∧ (b.toNat : Int) ≤ 2 ^ 32 - 1 := by
  have := b.isLt
  omega

theorem urange64 (b : BitVec 64) : 0 ≤ (b.toNat : Int) ∧ (b.toNat : Int) ≤ 2 ^ 64 - 1 := by
  have := b.isLt
  omega

/-- A scalar is read as the specification says. -/
theorem scalar_read (hq : QtReads env) {k : Kind} {j : JVal} {s : Scalar} (h : MeansScalar env quoteEscape k j s) {t : JType} {c : Bytes}
    (hc : Content j t c) : deserializeScalar env k t c = (some s, true) := by
  cases k <;> cases s <;> simp only [MeansScalar] at h
  case int32.w32 b | sint32.w32 b | sfixed32.w32 b =>
    simp only [deserializeScalar, integer_read hq h hc (range32 b).1 (range32 b).2, BitVec.ofInt_toInt]
  case int64.w64 b | sint64.w64 b | sfixed64.w64 b =>
    simp only [deserializeScalar, integer_read hq h hc (range64 b).1 (range64 b).2, BitVec.ofInt_toInt]
  case uint32.w32 b | fixed32.w32 b =>
    simp only [deserializeScalar, integer_read hq h hc (urange32 b).1 (urange32 b).2, BitVec.ofInt_natCast, BitVec.ofNat_toNat, BitVec.setWidth_eq]
  case uint64.w64 b | fixed64.w64 b =>
    simp only [deserializeScalar, integer_read hq h hc (urange64 b).1 (urange64 b).2, BitVec.ofInt_natCast, BitVec.ofNat_toNat, BitVec.setWidth_eq]
  case float.w32 b =>
    obtain ⟨x, h1, h2, h3⟩ := h
    rw [numberText_content h1 hc]
    simp [deserializeScalar, isNumber_finite h2, h3]
  case double.w64 b =>
    obtain ⟨x, h1, h2, h3⟩ := h
    rw [numberText_content h1 hc]
    simp [deserializeScalar, isNumber_finite h2, h3]
  case bool.bool b =>
    subst h
    obtain ⟨rfl, rfl⟩ := hc
    cases b <;> rfl
  case string.str s =>
    obtain ⟨raw, text, rfl, rfl, h⟩ := h
    obtain ⟨rfl, rfl⟩ := hc
    simp [deserializeScalar, text_read hq h]
  case bytes.bytes s =>
    obtain ⟨raw, b, rfl, rfl, h⟩ := h
    obtain ⟨rfl, rfl⟩ := hc
    simp [deserializeScalar, fromBase64_eq h]

/-- So is the key of a map, other than bool. -/
theorem key_read (hq : QtReads env) {k : Kind} {name : Bytes} {s : Scalar} (hk : k ≠ .bool) (h : MeansKey env quoteEscape k name s) :
    deserializeScalar env k .string name = (some s, true) := by
  have : MeansScalar env quoteEscape k (.str name) s := by
    cases k <;> first | exact absurd rfl hk | exact h | exact h.elim
  exact scalar_read hq this ⟨rfl, rfl⟩

/-! ### Lists -/

theorem elementwise_map {α β γ : Type} {R : α → β → Prop} {S : β → γ → Prop} {f : α → γ} (hf : ∀ a b c, R a b → S b c → f a = c) :
    ∀ {as : List α} {bs : List β} {cs : List γ}, Elementwise R as bs → Elementwise S bs cs → as.map f = cs
  | _, _, _, .nil, .nil => rfl
  | _, _, _, .cons h1 t1, .cons h2 t2 => by rw [List.map_cons, hf _ _ _ h1 h2, elementwise_map hf t1 t2]

theorem elementwise_length {α β : Type} {R : α → β → Prop} : ∀ {as : List α} {bs : List β}, Elementwise R as bs → as.length = bs.length
  | _, _, .nil => rfl
  | _, _, .cons _ t => by rw [List.length_cons, List.length_cons, elementwise_length t]

theorem elementwise_get {α β : Type} {R : α → β → Prop} : ∀ {as : List α} {bs : List β}, Elementwise R as bs →
    ∀ {p : Nat} {a : α}, as[p]? = some a → ∃ b, bs[p]? = some b ∧ R a b
  | _, _, .nil, p, a, h => by simp at h
  | _, _, .cons h0 t, 0, a, h => by
    rw [List.getElem?_cons_zero, Option.some.injEq] at h
    subst h
    exact ⟨_, List.getElem?_cons_zero, h0⟩
  | _, _, .cons _ t, p + 1, a, h => by
    rw [List.getElem?_cons_succ] at h
    obtain ⟨b, h1, h2⟩ := elementwise_get t h
    exact ⟨b, by rwa [List.getElem?_cons_succ], h2⟩

/-- Result of a message: for all large bounds. -/
def Fills (P : Nat → MsgResult) (o : Obj) : Prop := ∃ N, ∀ n, N ≤ n → P n = (.ok (), o)

theorem Fills.readMessage {P : Nat → Nat → Bytes → MsgResult} {m : Nat} {c : Bytes} {o : Obj} (h : Fills (fun n => P n m c) o) :
    Yields (fun n => readMessage (P n) m c) o := by
  obtain ⟨N, hN⟩ := h
  refine ⟨N, fun n hn => ?_⟩
  have := hN n hn
  simp only at this
  simp only [Json.readMessage, this]

theorem readMessages_yields {P : Nat → Nat → Bytes → MsgResult} {m : Nat} : ∀ {es : List (JType × Bytes)} {l : List Val},
    Elementwise (fun e v => ∃ o, v = .msg o ∧ Fills (fun n => P n m e.2) o) es l → Yields (fun n => readMessages (P n) m es) l
  | _, _, .nil => Yields.pure _
  | _, _, .cons (b := v) ⟨o, ho, h⟩ t => by
    subst ho
    exact Yields.bind h.readMessage (Yields.bind (readMessages_yields t) (Yields.pure _))

/-! ### Maps -/

theorem readEntries_yields {P : Nat → Nat → Bytes → MsgResult} {m i : Nat} {kk : Kind} {vt : MapVal} :
    ∀ {ps : List (Bytes × JType × Bytes)} {es : List (Scalar × Val)},
    Elementwise (fun p e => deserializeScalar env kk .string p.1 = (some e.1, true) ∧
      Yields (fun n => mapValueOf env (P n) m i vt p.2.1 p.2.2) e.2) ps es →
    ∀ out, Yields (fun n => readEntries env (P n) m i kk vt ps out) (es.foldl (fun a e => mapInsert kk e.1 e.2 a) out)
  | _, _, .nil, out => Yields.pure _
  | _, _, .cons ⟨h1, h2⟩ t, out => by
    simp only [readEntries, List.foldl_cons]
    refine Yields.bind h2 ?_
    rw [h1]
    exact readEntries_yields t _

theorem mapInsert_perm {kk : Kind} {key : Scalar} {v : Val} : ∀ {es : List (Scalar × Val)},
    (∀ e ∈ es, keyLt kk e.1 key = true ∨ keyLt kk key e.1 = true) → es.Pairwise (fun a b => keyLt kk a.1 b.1 = true) →
    (mapInsert kk key v es).Perm ((key, v) :: es) ∧ (mapInsert kk key v es).Pairwise (fun a b => keyLt kk a.1 b.1 = true)
  | [], _, _ => ⟨List.Perm.refl _, by simp [mapInsert]⟩
  | (k', v') :: es, hd, hs => by
    have hp := List.pairwise_cons.mp hs
    unfold mapInsert
    by_cases h1 : keyLt kk k' key = true
    · rw [if_pos h1]
      obtain ⟨g1, g2⟩ := mapInsert_perm (v := v) (fun e he => hd e (List.mem_cons_of_mem _ he)) hp.2
      refine ⟨(List.Perm.cons _ g1).trans (List.Perm.swap ..), List.pairwise_cons.mpr ⟨fun e he => ?_, g2⟩⟩
      rcases List.mem_cons.mp (g1.mem_iff.mp he) with rfl | he
      · exact h1
      · exact hp.1 e he
    · rw [if_neg h1]
      have h2 : keyLt kk key k' = true := (hd (k', v') List.mem_cons_self).resolve_left h1
      rw [if_pos h2]
      refine ⟨List.Perm.refl _, List.pairwise_cons.mpr ⟨fun e he => ?_, hs⟩⟩
      rcases List.mem_cons.mp he with rfl | he
      · exact h2
      · exact keyLt_trans h2 (hp.1 e he)

theorem foldl_perm {kk : Kind} : ∀ {es out : List (Scalar × Val)}, es.Pairwise (fun a b => keyLt kk a.1 b.1 = true ∨ keyLt kk b.1 a.1 = true) →
    (∀ e ∈ es, ∀ a ∈ out, keyLt kk a.1 e.1 = true ∨ keyLt kk e.1 a.1 = true) → out.Pairwise (fun a b => keyLt kk a.1 b.1 = true) →
    (es.foldl (fun a e => mapInsert kk e.1 e.2 a) out).Perm (es ++ out) ∧
      (es.foldl (fun a e => mapInsert kk e.1 e.2 a) out).Pairwise (fun a b => keyLt kk a.1 b.1 = true)
  | [], out, _, _, hs => ⟨List.Perm.refl _, hs⟩
  | e :: es, out, hd, hx, hs => by
    have hp := List.pairwise_cons.mp hd
    obtain ⟨g1, g2⟩ := mapInsert_perm (v := e.2) (hx e List.mem_cons_self) hs
    obtain ⟨g3, g4⟩ := foldl_perm (out := mapInsert kk e.1 e.2 out) hp.2 (fun e' he' a ha => by
      rcases List.mem_cons.mp (g1.mem_iff.mp ha) with rfl | ha
      · exact hp.1 e' he'
      · exact hx e' (List.mem_cons_of_mem _ he') a ha) g2
    refine ⟨(g3.trans (List.Perm.append_left _ g1)).trans ?_, g4⟩
    exact List.perm_middle

/-- Entries with different keys give the sorted list of them. -/
theorem entries_sorted {kk : Kind} {es r : List (Scalar × Val)}
    (hd : es.Pairwise (fun a b => keyLt kk a.1 b.1 = true ∨ keyLt kk b.1 a.1 = true)) (hp : r.Perm es)
    (hs : r.Pairwise (fun a b => keyLt kk a.1 b.1 = true)) : es.foldl (fun a e => mapInsert kk e.1 e.2 a) [] = r := by
  obtain ⟨h1, h2⟩ := foldl_perm (out := []) hd (by simp) List.Pairwise.nil
  rw [List.append_nil] at h1
  refine (h1.trans hp.symm).eq_of_pairwise (fun a b _ _ h3 h4 => ?_) h2 hs
  rw [keyLt_asymm h3] at h4
  cases h4

theorem mapValue_read {P : Nat → Nat → Bytes → MsgResult} {m i : Nat} {vt : MapVal} {t : JType} {c : Bytes} {v : Val}
    (h : Yields (fun n => deserializeValue env (P n) m i (MapVal.toTy vt) t c) (v, true)) :
    Yields (fun n => mapValueOf env (P n) m i vt t c) v := by
  obtain ⟨N, hN⟩ := h
  refine ⟨N, fun n hn => ?_⟩
  have h := hN n hn
  cases vt with
  | scalar k =>
    simp only [MapVal.toTy, deserializeValue, Res.ok.injEq, Prod.mk.injEq] at h
    simp only [mapValueOf, h.2, if_true, h.1]
  | enum =>
    simp only [MapVal.toTy, deserializeValue] at h
    simp only [mapValueOf]
    by_cases hc : c = []
    · rw [if_pos hc] at h; simp at h
    · rw [if_neg hc] at h ⊢
      simp only [Res.ok.injEq, Prod.mk.injEq, and_true] at h
      rw [h]
  | msg m' =>
    simp only [MapVal.toTy, deserializeValue] at h
    simp only [mapValueOf]
    by_cases hc : c = []
    · rw [if_pos hc] at h; simp at h
    · rw [if_neg hc] at h ⊢
      cases hr : readMessage (P n) m' c <;> rw [hr] at h <;> simp [Res.bind_eq, Res.bind] at h ⊢
      exact h

/-! ### Messages -/

theorem findName_iff (ho : ValidOrder env.toEnv) (hn : DistinctNames env.toJEnv) {m i : Nat} {name : Bytes} :
    findName env m name = some i ↔ i < (env.sch m).length ∧ env.fromUtf8 name = env.jsonName m i := by
  constructor
  · intro h
    have h1 := List.find?_some h
    have h2 := List.mem_of_find?_eq_some h
    exact ⟨List.mem_range.mp ((ho m).mem_iff.mp h2), (by simpa using h1 : env.jsonName m i = env.fromUtf8 name).symm⟩
  · rintro ⟨h1, h2⟩
    cases h : findName env m name with
    | none =>
      have := List.find?_eq_none.mp h i ((ho m).mem_iff.mpr (List.mem_range.mpr h1))
      simp [h2] at this
    | some j =>
      have h3 := List.find?_some h
      have h4 := List.mem_of_find?_eq_some h
      have h5 := List.mem_range.mp ((ho m).mem_iff.mp h4)
      rw [hn m i j h1 h5 (by rw [← h2]; simpa using (Eq.symm (by simpa using h3 : env.jsonName m j = env.fromUtf8 name)))]

theorem nulled_default (ty : FieldTy) : nulled ty (defaultVal ty) = writeVal ty (defaultVal ty) (defaultVal ty) := by
  cases ty <;> rfl

/-- What one member does to a field that still has its default value. -/
def Effect (env : REnv) (P : Nat → Nat → Bytes → MsgResult) (m i : Nat) (f : Field) (e : Bytes × JType × Bytes) (w : Val) : Prop :=
  (e.2.2 = kNull ∧ e.2.1 = .object ∧ w = nulled f.ty (defaultVal f.ty)) ∨
  (¬ (e.2.2 = kNull ∧ e.2.1 = .object) ∧ ∃ v, w = writeVal f.ty (defaultVal f.ty) v ∧
    Yields (fun n => deserializeValue env (P n) m i f.ty e.2.1 e.2.2) (v, true))

theorem readMembers_fills {P : Nat → Nat → Bytes → MsgResult} {m : Nat} {eff : Nat → Val} :
    ∀ {es : List (Bytes × JType × Bytes)} {obj : Obj}, obj.length = (env.sch m).length →
    (∀ e ∈ es, ∀ (i : Nat), findName env m e.1 = some i → ∃ f, (env.sch m)[i]? = some f ∧ obj[i]? = some (defaultVal f.ty) ∧
      Effect env P m i f e (eff i)) →
    es.Pairwise (fun a b => ∀ i, findName env m a.1 = some i → findName env m b.1 ≠ some i) →
    ∃ o, Fills (fun n => readMembers env (P n) m es obj) o ∧ o.length = obj.length ∧
      (∀ (i : Nat), (∃ e ∈ es, findName env m e.1 = some i) → o[i]? = some (eff i)) ∧
      (∀ (i : Nat), (∀ e ∈ es, findName env m e.1 ≠ some i) → o[i]? = obj[i]?)
  | [], obj, _, _, _ => ⟨obj, ⟨0, fun _ _ => rfl⟩, rfl, by simp, by simp⟩
  | e :: es, obj, hl, he, hd => by
    have hp := List.pairwise_cons.mp hd
    cases hf : findName env m e.1 with
    | none =>
      obtain ⟨o, ⟨N, hN⟩, h2, h3, h4⟩ := readMembers_fills (P := P) (eff := eff) hl (fun e' he' => he e' (List.mem_cons_of_mem _ he')) hp.2
      refine ⟨o, ⟨N, fun n hn => ?_⟩, h2, ?_, ?_⟩
      · simp only [readMembers, hf]
        exact hN n hn
      · rintro i ⟨e', he', hi⟩
        rcases List.mem_cons.mp he' with rfl | he'
        · rw [hf] at hi; cases hi
        · exact h3 i ⟨e', he', hi⟩
      · intro i hi
        exact h4 i fun e' he' => hi e' (List.mem_cons_of_mem _ he')
    | some i =>
      obtain ⟨f, g1, g2, g3⟩ := he e List.mem_cons_self i hf
      have hi : i < obj.length := by
        rcases Nat.lt_or_ge i obj.length with h | h
        · exact h
        · rw [List.getElem?_eq_none h] at g2; cases g2
      obtain ⟨o, ⟨N, hN⟩, h2, h3, h4⟩ := readMembers_fills (P := P) (eff := eff) (m := m) (es := es) (obj := obj.set i (eff i))
        (by rw [List.length_set]; exact hl) (fun e' he' i' hi' => by
          obtain ⟨f', k1, k2, k3⟩ := he e' (List.mem_cons_of_mem _ he') i' hi'
          have hne : i ≠ i' := by
            rintro rfl
            exact hp.1 e' he' i hf hi'
          exact ⟨f', k1, by rw [List.getElem?_set_ne hne]; exact k2, k3⟩) hp.2
      refine ⟨o, ?_, by rw [h2, List.length_set], ?_, ?_⟩
      · rcases g3 with ⟨e1, e2, e3⟩ | ⟨e1, v, e2, M, hM⟩
        · refine ⟨N, fun n hn => ?_⟩
          simp only [readMembers, hf, g1, g2]
          rw [if_pos ⟨e1, e2⟩, ← e3]
          exact hN n hn
        · refine ⟨max N M, fun n hn => ?_⟩
          simp only [readMembers, hf, g1, g2]
          have := hM n (by omega)
          simp only at this
          rw [if_neg e1, this]
          simp only
          rw [← e2]
          exact hN n (by omega)
      · rintro i' ⟨e', he', hi'⟩
        rcases List.mem_cons.mp he' with rfl | he'
        · rw [hf, Option.some.injEq] at hi'
          subst hi'
          rw [h4 i fun e'' he'' => hp.1 e'' he'' i hf, List.getElem?_set_self hi]
        · exact h3 i' ⟨e', he', hi'⟩
      · intro i' hi'
        rw [h4 i' fun e' he' => hi' e' (List.mem_cons_of_mem _ he')]
        have hne : i ≠ i' := by
          rintro rfl
          exact hi' e List.mem_cons_self hf
        rw [List.getElem?_set_ne hne]

theorem readJson_null : readJson [110, 117, 108, 108] = some .null := by with_unfolding_all rfl
theorem readJson_nil : readJson [] = none := by with_unfolding_all rfl

theorem content_not_null {j : JVal} {t : JType} {c : Bytes} (hc : Content j t c) (hj : j ≠ .null) : ¬ (c = kNull ∧ t = .object) := by
  rintro ⟨rfl, rfl⟩
  cases j with
  | null => exact hj rfl
  | obj ms =>
    have := hc.2
    rw [kNull, readJson_null] at this
    cases this
  | _ => exact absurd hc.1 (by decide)

theorem defaultObj_get {m i : Nat} {f : Field} (h : (env.sch m)[i]? = some f) : (defaultObj env.toEnv m)[i]? = some (defaultVal f.ty) := by
  simp [defaultObj, h]

theorem get_lt {α : Type} {l : List α} {i : Nat} {a : α} (h : l[i]? = some a) : i < l.length := by
  rcases Nat.lt_or_ge i l.length with h' | h'
  · exact h'
  · rw [List.getElem?_eq_none h'] at h; cases h

theorem store_default (ty : FieldTy) : store ty (defaultVal ty) (defaultVal ty) = defaultVal ty := by
  rw [store_eq]
  cases ty with
  | map kk vt =>
    cases vt <;> simp [writeVal, defaultVal]
  | _ => simp [writeVal, defaultVal]

/-- What the induction over `Means` gives for each value. -/
def Reading (env : REnv) (m i : Nat) (ty : FieldTy) (j : JVal) (v : Val) : Prop :=
  j ≠ .null ∧ ∀ t c, Content j t c → Yields (fun n => deserializeValue env (deserializeMessage env n) m i ty t c) (v, true)

theorem message_read (hm : ReadsJson env) (ho : ValidOrder env.toEnv) (hn : DistinctNames env.toJEnv) {m : Nat}
    {ms : List (Bytes × JVal)} {o : Obj} {vs : Nat → Val}
    (h1 : ms.Pairwise (fun a b => env.fromUtf8 a.1 ≠ env.fromUtf8 b.1)) (h3 : o.length = (env.sch m).length)
    (h4 : ∀ (i : Nat) (f : Field), (env.sch m)[i]? = some f → (∀ q ∈ ms, env.fromUtf8 q.1 ≠ env.jsonName m i) →
      o[i]? = some (defaultVal f.ty))
    (h5 : ∀ (i : Nat) (f : Field) (name : Bytes), (env.sch m)[i]? = some f → (name, JVal.null) ∈ ms →
      env.fromUtf8 name = env.jsonName m i → o[i]? = some (defaultVal f.ty))
    (h6 : ∀ (i : Nat) (f : Field) (name : Bytes) (j : JVal), (env.sch m)[i]? = some f → (name, j) ∈ ms →
      env.fromUtf8 name = env.jsonName m i → j ≠ .null → Reading env m i f.ty j (vs i))
    (h7 : ∀ (i : Nat) (f : Field) (name : Bytes) (j : JVal), (env.sch m)[i]? = some f → (name, j) ∈ ms →
      env.fromUtf8 name = env.jsonName m i → j ≠ .null → o[i]? = some (store f.ty (defaultVal f.ty) (vs i)))
    {t : Bytes} (ht : readJson t = some (.obj ms)) : Fills (fun n => deserializeMessage env n m t) o := by
  have hnd : (ms.map (·.1)).Nodup := by
    rw [List.Nodup, List.pairwise_map]
    exact h1.imp fun h e => h (by rw [e])
  obtain ⟨ps, ps', k1, k2, k3⟩ := hm.object t ms ht hnd
  have hmem : ∀ p ∈ ps, ∃ j, (p.1, j) ∈ ms ∧ Content j p.2.1 p.2.2 := by
    intro p hp
    obtain ⟨n, hn⟩ := List.mem_iff_getElem?.mp (k2.mem_iff.mp hp)
    obtain ⟨q, q1, q2, q3⟩ := elementwise_get k3 hn
    exact ⟨q.2, by rw [q2]; exact List.mem_of_getElem? q1, q3⟩
  have hpw : ps.Pairwise (fun a b => env.fromUtf8 a.1 ≠ env.fromUtf8 b.1) := by
    have e : ps'.map (·.1) = ms.map (·.1) := by
      clear k2 hmem ht hnd h1 h4 h5 h6 h7
      induction k3 with
      | nil => rfl
      | cons h _ ih => rw [List.map_cons, List.map_cons, ih, h.1]
    have h1' : (ms.map (·.1)).Pairwise (fun a b => env.fromUtf8 a ≠ env.fromUtf8 b) := List.pairwise_map.mpr h1
    rw [← e, List.pairwise_map] at h1'
    exact k2.symm.pairwise h1' fun h => fun e => h e.symm
  obtain ⟨o', ⟨N, hN⟩, l1, l2, l3⟩ := readMembers_fills (env := env) (P := deserializeMessage env) (m := m) (es := ps)
    (obj := defaultObj env.toEnv m) (eff := fun i => o[i]?.getD .msgNull) (by simp [defaultObj]) (fun e he i hi => by
      obtain ⟨g1, g2⟩ := (findName_iff ho hn).mp hi
      obtain ⟨j, q1, q2⟩ := hmem e he
      have hf : (env.sch m)[i]? = some ((env.sch m)[i]) := List.getElem?_eq_getElem g1
      refine ⟨_, hf, defaultObj_get hf, ?_⟩
      by_cases hj : j = .null
      · subst hj
        obtain ⟨c1, c2⟩ := q2
        refine Or.inl ⟨c2, c1, ?_⟩
        simp only [h5 i _ e.1 hf q1 g2, Option.getD_some]
        rw [nulled_default, ← store_eq, store_default]
      · obtain ⟨_, hy⟩ := h6 i _ e.1 j hf q1 g2 hj
        refine Or.inr ⟨content_not_null q2 hj, vs i, ?_, hy _ _ q2⟩
        simp only [h7 i _ e.1 j hf q1 g2 hj, Option.getD_some]
        rw [store_eq])
    (hpw.imp (by
      intro a b h i ha hb
      exact h (((findName_iff ho hn).mp ha).2.trans ((findName_iff ho hn).mp hb).2.symm)))
  have : o' = o := by
    apply List.ext_getElem?
    intro i
    by_cases hi : i < (env.sch m).length
    · have hf : (env.sch m)[i]? = some ((env.sch m)[i]) := List.getElem?_eq_getElem hi
      by_cases hx : ∃ e ∈ ps, findName env m e.1 = some i
      · rw [l2 i hx]
        have hoi : o[i]? = some (o[i]'(by omega)) := List.getElem?_eq_getElem (by omega)
        rw [hoi, Option.getD_some]
      · rw [l3 i fun e he hi => hx ⟨e, he, hi⟩, defaultObj_get hf]
        refine (h4 i _ hf fun q hq hqn => ?_).symm
        obtain ⟨n, hqn'⟩ := List.mem_iff_getElem?.mp hq
        have hlen := elementwise_length k3
        have hps : ps'[n]? = some (ps'[n]'(by have := get_lt hqn'; omega)) := List.getElem?_eq_getElem _
        obtain ⟨q', q1, q2, q3⟩ := elementwise_get k3 hps
        rw [hqn'] at q1
        cases q1
        refine hx ⟨_, k2.mem_iff.mpr (List.mem_of_getElem? hps), (findName_iff ho hn).mpr ⟨hi, ?_⟩⟩
        rw [q2]
        exact hqn
    · have hlen : o'.length = (env.sch m).length := by rw [l1]; simp [defaultObj]
      rw [List.getElem?_eq_none (by omega), List.getElem?_eq_none (by omega)]
  subst this
  refine ⟨N + 1, fun n hn => ?_⟩
  cases n with
  | zero => omega
  | succ n =>
    simp only [deserializeMessage, k1]
    exact hN n (by omega)

theorem readJson_ne_nil {c : Bytes} {j : JVal} (h : readJson c = some j) : c ≠ [] := by
  rintro rfl
  rw [readJson_nil] at h
  cases h

/-- Types of fields that are read. -/
def ReadTy (ty : FieldTy) : Prop := ty ≠ .list .bool ∧ ∀ vt, ty ≠ .map .bool vt

theorem readTy_map (vt : MapVal) : ReadTy (MapVal.toTy vt) := by
  cases vt <;> simp [ReadTy, MapVal.toTy]

theorem fills_of_value {P : Nat → Nat → Bytes → MsgResult} {m i m' : Nat} {t : JType} {c : Bytes} {v : Val}
    (h : Yields (fun n => deserializeValue env (P n) m i (.msg m') t c) (v, true)) : ∃ o, v = .msg o ∧ Fills (fun n => P n m' c) o := by
  obtain ⟨N, hN⟩ := h
  have key : ∀ n, N ≤ n → ∃ o, v = .msg o ∧ P n m' c = (.ok (), o) := by
    intro n hn
    have h := hN n hn
    simp only [deserializeValue] at h
    by_cases hc : c = []
    · rw [if_pos hc] at h; simp at h
    · rw [if_neg hc] at h
      simp only [readMessage] at h
      rcases hp : P n m' c with ⟨r, o⟩
      rw [hp] at h
      cases r <;> simp [Res.bind_eq, Res.bind] at h
      exact ⟨o, h.symm, rfl⟩
  obtain ⟨o, ho, _⟩ := key N (Nat.le_refl _)
  refine ⟨o, ho, N, fun n hn => ?_⟩
  obtain ⟨o', ho', h'⟩ := key n hn
  rw [ho] at ho'
  cases ho'
  exact h'

theorem elementwise_of_get {α β : Type} {R : α → β → Prop} : ∀ {as : List α} {bs : List β}, as.length = bs.length →
    (∀ (p : Nat) (a : α) (b : β), as[p]? = some a → bs[p]? = some b → R a b) → Elementwise R as bs
  | [], [], _, _ => .nil
  | [], _ :: _, h, _ => by simp at h
  | _ :: _, [], h, _ => by simp at h
  | a :: as, b :: bs, h, hr => .cons (hr 0 a b rfl rfl) (elementwise_of_get (by simpa using h) fun p x y hx hy =>
      hr (p + 1) x y (by rwa [List.getElem?_cons_succ]) (by rwa [List.getElem?_cons_succ]))

theorem means_read (hm : ReadsJson env) (hq : QtReads env) (ho : ValidOrder env.toEnv) (hn : DistinctNames env.toJEnv)
    (hty : ∀ m, ∀ f ∈ env.sch m, ReadTy f.ty) (hnull : NoNullName env) {m i : Nat} {ty : FieldTy} {j : JVal} {v : Val}
    (h : Means env quoteEscape m i ty j v) : ReadTy ty → Reading env m i ty j v := by
  induction h with
  | @sc m i k j s h =>
    intro _
    refine ⟨?_, fun t c hc => ?_⟩
    · rintro rfl
      cases k <;> cases s <;> simp [MeansScalar, isNumberText] at h
    · refine ⟨0, fun n _ => ?_⟩
      simp only [deserializeValue, scalar_read hq h hc, scalarOf, Option.getD_some]
  | @scList m i k js l h =>
    intro hr
    refine ⟨by simp, fun t c hc => ?_⟩
    obtain ⟨rfl, hc⟩ := hc
    obtain ⟨es, h1, h2⟩ := hm.array c js hc
    refine ⟨0, fun n _ => ?_⟩
    have hk : ¬ (k = .bool ∨ JType.array ≠ .array) := by
      rintro (rfl | h)
      · exact hr.1 rfl
      · exact h rfl
    simp only [deserializeValue]
    rw [if_neg hk, h1]
    show Res.ok _ = _
    rw [elementwise_map (f := fun e : JType × Bytes => scalarOf k (deserializeScalar env k e.1 e.2))
      (fun a b c hab hbc => by simp only [scalar_read hq hbc hab, scalarOf, Option.getD_some]) h2 h]
  | @enum m i name e h1 h2 =>
    intro _
    refine ⟨by simp, fun t c hc => ?_⟩
    obtain ⟨rfl, rfl⟩ := hc
    refine ⟨0, fun n _ => ?_⟩
    simp only [deserializeValue, if_neg h1, enumOfKey, h2, Option.getD_some]
  | @enumList m i js l h =>
    intro _
    refine ⟨by simp, fun t c hc => ?_⟩
    obtain ⟨rfl, hc⟩ := hc
    obtain ⟨es, h1, h2⟩ := hm.array c js hc
    refine ⟨0, fun n _ => ?_⟩
    simp only [deserializeValue]
    rw [if_neg (readJson_ne_nil hc), h1]
    show Res.ok _ = _
    rw [elementwise_map (f := enumOfElement env m i) (fun a b c hab hbc => by
      obtain ⟨name, rfl, hv⟩ := hbc
      obtain ⟨ht, hx⟩ := hab
      have : name ≠ kNull := by
        rintro rfl
        have := hnull m i
        rw [kNull] at hv
        rw [this] at hv
        cases hv
      simp only [enumOfElement, hx, if_neg this, enumOfKey, hv, Option.getD_some]) h2 h]
  | @msg m i m' ms o vs h1 h2 h3 h4 h5 h6 h7 ih =>
    intro _
    refine ⟨by simp, fun t c hc => ?_⟩
    obtain ⟨rfl, hc⟩ := hc
    have := message_read hm ho hn h1 h3 h4 h5 (fun i' f name j g1 g2 g3 g4 => ih i' f name j g1 g2 g3 g4
      (hty m' f (List.mem_of_getElem? g1))) h7 hc
    simp only [deserializeValue, if_neg (readJson_ne_nil hc)]
    exact Yields.bind this.readMessage (Yields.pure _)
  | @msgList m i m' js l h1 h2 ih =>
    intro _
    refine ⟨by simp, fun t c hc => ?_⟩
    obtain ⟨rfl, hc⟩ := hc
    obtain ⟨es, g1, g2⟩ := hm.elements c js hc
    simp only [deserializeValue, if_neg (readJson_ne_nil hc), g1]
    have : Yields (fun n => readMessages (deserializeMessage env n) m' es) l := by
      refine readMessages_yields (elementwise_of_get ((elementwise_length g2).trans h1) fun p e v he hv => ?_)
      obtain ⟨j, k1, k2⟩ := elementwise_get g2 he
      obtain ⟨_, hy⟩ := ih p j v k1 hv ⟨by simp, by simp⟩
      exact fills_of_value (hy _ _ k2)
    exact Yields.bind (Yields.pure _) (Yields.bind this (Yields.pure _))
  | @map m i kk vt ms es r h1 h2 h3 h4 h5 h6 ih =>
    intro hr
    refine ⟨by simp, fun t c hc => ?_⟩
    obtain ⟨rfl, hc⟩ := hc
    obtain ⟨ps, g1, g2⟩ := hm.entries c ms hc
    simp only [deserializeValue, if_neg (readJson_ne_nil hc), g1]
    have : Yields (fun n => readEntries env (deserializeMessage env n) m i kk vt ps []) r := by
      rw [← entries_sorted h4 h5 h6]
      refine readEntries_yields (elementwise_of_get ((elementwise_length g2).trans h1) fun p a e ha he => ?_) []
      obtain ⟨q, k1, k2, k3⟩ := elementwise_get g2 ha
      refine ⟨?_, mapValue_read ((ih p q e k1 he (readTy_map vt)).2 _ _ k3)⟩
      rw [k2]
      refine key_read hq ?_ (h2 p q e k1 he)
      rintro rfl
      exact hr.2 vt rfl
    exact Yields.bind (Yields.pure _) (Yields.bind this (Yields.pure _))

end QtPb.Json
