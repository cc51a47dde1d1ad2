import Verif.EncodeLemmas
import Verif.Demo
/-
Property theorems about single values: C02, C03, C04, C05, C13, C22.

`It.mk (pre ++ bs ++ post) pre.length` is an iterator over a buffer that stands in front of `bs`.
Qt byte arrays hold less than 2^31 bytes, hence the length hypotheses.
-/
namespace QtPb
open Spec

/-! ### Helpers -/

theorem At.mk' (pre bs post : Bytes) (h : (pre ++ bs ++ post).length < 2 ^ 31) :
    At ⟨pre ++ bs ++ post, pre.length⟩ (bs ++ post) :=
  ⟨h, by simp, by simp [It.rest]⟩

theorem packedElem_eq (env : Env) (k : Kind) (s : Scalar) : serializePackedElems env k [s] =
    if (serializeBasic env k s notUsed).1.isEmpty then [0] else (serializeBasic env k s notUsed).1 := by
  simp [serializePackedElems]

theorem serializeUnsigned_or (w v : Nat) (hw : 0 < w) (idx : Int) :
    (if (serializeUnsigned w v idx).1.isEmpty then [0] else (serializeUnsigned w v idx).1)
      = serializeVarintCommon w v := by
  by_cases h : v = 0
  · subst h
    simp [serializeUnsigned_zero, serializeVarintCommon, varintGroups_zero, clearLastMsb]
  · rw [serializeUnsigned_ne hw h]
    have hne : serializeVarintCommon w v ≠ [] := by
      rw [serializeVarintCommon_of_ne hw h]
      have := varintGroups_ne_nil hw h
      intro hc
      have := clearLastMsb_length (varintGroups w v)
      rw [hc] at this
      simp at this
      exact absurd this.symm (by simpa using ‹varintGroups w v ≠ []›)
    simp [hne]

theorem varintGroups_ge (n v : Nat) (hv : v ≠ 0) :
    2 ^ (7 * ((varintGroups n v).length - 1)) ≤ v := by
  induction n generalizing v with
  | zero => simp [varintGroups]; omega
  | succ n ih =>
    simp only [varintGroups, hv, if_false, List.length_cons, Nat.add_sub_cancel, shr7]
    by_cases h : v / 128 = 0
    · rw [h, varintGroups_zero]; simp; omega
    · have := ih _ h
      cases hl : (varintGroups n (v / 128)).length with
      | zero => simp; omega
      | succ l =>
        rw [hl] at this
        simp only [Nat.add_sub_cancel] at this
        rw [Nat.mul_add, Nat.pow_add]
        omega

/-- Number of bytes of a shortest varint: no other varint of the same number is shorter. -/
def Spec.Shortest (bs : Bytes) : Prop :=
  ∀ bs' n, IsVarint bs n → IsVarint bs' n → bs.length ≤ bs'.length

theorem serializeVarintCommon_shortest {w v : Nat} (hw : 0 < w) (hv : v < 2 ^ w) :
    Shortest (serializeVarintCommon w v) := by
  intro bs' n h h'
  have e := h.unique (serializeVarintCommon_isVarint hw hv)
  subst e
  by_cases hz : n = 0
  · subst hz
    have : (serializeVarintCommon w 0).length = 1 := by
      simp [serializeVarintCommon, varintGroups_zero, clearLastMsb]
    rw [this]; exact h'.length_pos
  · rw [serializeVarintCommon_of_ne hw hz, clearLastMsb_length]
    have h1 := varintGroups_ge w n hz
    have h2 := h'.lt
    have h3 := (Nat.pow_lt_pow_iff_right (a := 2) (by omega)).mp (Nat.lt_of_le_of_lt h1 h2)
    omega

/-! ### C02 -/

/-- Kinds written as plain varints. -/
def Spec.plainVarint (k : Kind) : Prop :=
  k = .int32 ∨ k = .int64 ∨ k = .uint32 ∨ k = .uint64 ∨ k = .bool

/-- The number a plain varint field puts on the wire: the unsigned value of its bits. -/
def Spec.plainNumber : Scalar → Nat
  | .w32 b => b.toNat
  | .w64 b => b.toNat
  | .bool b => if b then 1 else 0
  | _ => 0

/-- Greatest number of bytes of a varint of this kind. -/
def Spec.maxVarint : Kind → Nat
  | .int64 | .uint64 | .sint64 => 10
  | _ => 5

theorem packed_plain (env : Env) {k : Kind} (hk : plainVarint k) {s : Scalar} (hs : k.holds s) :
    ∃ w, 0 < w ∧ w ≤ 64 ∧ w ≤ 7 * maxVarint k ∧ plainNumber s < 2 ^ w ∧
      serializePackedElems env k [s] = serializeVarintCommon w (plainNumber s) ∧
      ∀ idx, serializeBasic env k s idx = serializeUnsigned w (plainNumber s) idx := by
  rcases hk with rfl | rfl | rfl | rfl | rfl <;> cases s <;>
    simp only [Kind.holds, Bool.false_eq_true] at hs
  all_goals rename_i b
  · exact ⟨32, by omega, by omega, by simp [maxVarint], b.isLt, by
      rw [packedElem_eq]; exact serializeUnsigned_or 32 _ (by omega) _, fun _ => rfl⟩
  · exact ⟨64, by omega, by omega, by simp [maxVarint], b.isLt, by
      rw [packedElem_eq]; exact serializeUnsigned_or 64 _ (by omega) _, fun _ => rfl⟩
  · exact ⟨32, by omega, by omega, by simp [maxVarint], b.isLt, by
      rw [packedElem_eq]; exact serializeUnsigned_or 32 _ (by omega) _, fun _ => rfl⟩
  · exact ⟨64, by omega, by omega, by simp [maxVarint], b.isLt, by
      rw [packedElem_eq]; exact serializeUnsigned_or 64 _ (by omega) _, fun _ => rfl⟩
  · exact ⟨32, by omega, by omega, by simp [maxVarint], by cases b <;> simp [plainNumber], by
      rw [packedElem_eq]; exact serializeUnsigned_or 32 _ (by omega) _, fun _ => rfl⟩

/-- C02: the encoding of an int32, int64, uint32, uint64 or bool value is the shortest varint of its
bits, of at most 5 (32 bit kinds) or 10 bytes. -/
theorem C02_varint_canonical (env : Env) {k : Kind} (hk : plainVarint k) {s : Scalar}
    (hs : k.holds s) :
    IsVarint (serializePackedElems env k [s]) (plainNumber s) ∧
    Shortest (serializePackedElems env k [s]) ∧
    (serializePackedElems env k [s]).length ≤ maxVarint k := by
  obtain ⟨w, hw, hw', hm, hlt, e, -⟩ := packed_plain env hk hs
  rw [e]
  refine ⟨serializeVarintCommon_isVarint hw hlt, serializeVarintCommon_shortest hw hlt,
    serializeVarintCommon_length ?_ (Nat.lt_of_lt_of_le hlt (Nat.pow_le_pow_right (by omega) hm))⟩
  cases k <;> simp [maxVarint]

/-- C02: reading it back at any position of any buffer gives exactly the value and stops exactly
behind it. -/
theorem C02_varint_roundtrip (env : Env) {k : Kind} (hk : plainVarint k) {s : Scalar}
    (hs : k.holds s) (pre post : Bytes)
    (hlen : (pre ++ serializePackedElems env k [s] ++ post).length < 2 ^ 31) :
    deserializeBasic env k ⟨pre ++ serializePackedElems env k [s] ++ post, pre.length⟩
      = .ok (s, ⟨pre ++ serializePackedElems env k [s] ++ post,
          pre.length + (serializePackedElems env k [s]).length⟩) := by
  have h := packedElems_of env (k := k) (l := [s]) (by simpa using hs) (by simp at hlen; omega)
  have ht : transmitted env s = s := by
    rcases hk with rfl | rfl | rfl | rfl | rfl <;> cases s <;>
      simp only [Kind.holds, Bool.false_eq_true] at hs <;> rfl
  simp only [List.map_cons, List.map_nil, ht] at h
  generalize serializePackedElems env k [s] = bs at *
  cases h with
  | cons h1 h2 =>
    cases h2
    simp only [List.append_nil] at *
    exact deserializeBasic_of_reads h1 (At.mk' pre _ post hlen)

/-- C02: a singular field writes the same bytes, or nothing at all when the value is zero. -/
theorem C02_singular_field (env : Env) {k : Kind} (hk : plainVarint k) {s : Scalar}
    (hs : k.holds s) (idx : Int) :
    serializeWrapper env k s idx =
      if plainNumber s = 0 then ([], notUsed) else (serializePackedElems env k [s], idx) := by
  obtain ⟨w, hw, hw', hm, hlt, e, e'⟩ := packed_plain env hk hs
  have hn : s.isNull = false := by
    rcases hk with rfl | rfl | rfl | rfl | rfl <;> cases s <;>
      simp only [Kind.holds, Bool.false_eq_true] at hs <;> rfl
  simp only [serializeWrapper, hn, Bool.false_eq_true, if_false, e', e]
  split
  · rename_i h; rw [h, serializeUnsigned_zero]
  · rename_i h; rw [serializeUnsigned_ne hw h]

-- int32 -1 takes five bytes, between two other bytes
example : serializePackedElems demoEnv .int32 [.w32 (-1)] = [0xff, 0xff, 0xff, 0xff, 0x0f] := by
  decide
example : plainVarint .int32 ∧ Kind.int32.holds (.w32 (-1)) ∧
    ([7] ++ serializePackedElems demoEnv .int32 [.w32 (-1)] ++ [9]).length < 2 ^ 31 := by
  refine ⟨Or.inl rfl, rfl, by decide⟩

/-! ### C03 -/

/-- The number a ZigZag field puts on the wire. -/
def Spec.zigzagNumber (v : Int) : Int := if 0 ≤ v then 2 * v else -2 * v - 1

theorem packed_sint32 (env : Env) (v : BitVec 32) :
    serializePackedElems env .sint32 [.w32 v] = serializeVarintCommon 32 (zigzag v).toNat := by
  rw [packedElem_eq]; exact serializeUnsigned_or 32 _ (by omega) _

theorem packed_sint64 (env : Env) (v : BitVec 64) :
    serializePackedElems env .sint64 [.w64 v] = serializeVarintCommon 64 (zigzag v).toNat := by
  rw [packedElem_eq]; exact serializeUnsigned_or 64 _ (by omega) _

/-- C03: a sint32 value `v` is written as the varint of 2v or -2v-1. -/
theorem C03_sint32_wire (env : Env) (v : BitVec 32) :
    ∃ n : Nat, (n : Int) = zigzagNumber v.toInt ∧
      IsVarint (serializePackedElems env .sint32 [.w32 v]) n ∧
      (serializePackedElems env .sint32 [.w32 v]).length ≤ 5 := by
  refine ⟨(zigzag v).toNat, zigzag_toNat (by omega) v, ?_, ?_⟩
  · rw [packed_sint32]; exact serializeVarintCommon_isVarint (by omega) (zigzag v).isLt
  · rw [packed_sint32]
    exact serializeVarintCommon_length (by omega) (Nat.lt_of_lt_of_le (zigzag v).isLt (by decide))

/-- C03: a sint64 value `v` is written as the varint of 2v or -2v-1. -/
theorem C03_sint64_wire (env : Env) (v : BitVec 64) :
    ∃ n : Nat, (n : Int) = zigzagNumber v.toInt ∧
      IsVarint (serializePackedElems env .sint64 [.w64 v]) n ∧
      (serializePackedElems env .sint64 [.w64 v]).length ≤ 10 := by
  refine ⟨(zigzag v).toNat, zigzag_toNat (by omega) v, ?_, ?_⟩
  · rw [packed_sint64]; exact serializeVarintCommon_isVarint (by omega) (zigzag v).isLt
  · rw [packed_sint64]
    exact serializeVarintCommon_length (by omega) (Nat.lt_of_lt_of_le (zigzag v).isLt (by decide))

/-- C03: reading a ZigZag field back at any position gives the same value. -/
theorem C03_sint_roundtrip (env : Env) {k : Kind} (hk : k = .sint32 ∨ k = .sint64) {s : Scalar}
    (hs : k.holds s) (pre post : Bytes)
    (hlen : (pre ++ serializePackedElems env k [s] ++ post).length < 2 ^ 31) :
    deserializeBasic env k ⟨pre ++ serializePackedElems env k [s] ++ post, pre.length⟩
      = .ok (s, ⟨pre ++ serializePackedElems env k [s] ++ post,
          pre.length + (serializePackedElems env k [s]).length⟩) := by
  have h := packedElems_of env (k := k) (l := [s]) (by simpa using hs) (by simp at hlen; omega)
  have ht : transmitted env s = s := by
    rcases hk with rfl | rfl <;> cases s <;>
      simp only [Kind.holds, Bool.false_eq_true] at hs <;> rfl
  simp only [List.map_cons, List.map_nil, ht] at h
  generalize serializePackedElems env k [s] = bs at *
  cases h with
  | cons h1 h2 =>
    cases h2
    simp only [List.append_nil] at *
    exact deserializeBasic_of_reads h1 (At.mk' pre _ post hlen)

/-- C03: the same for a varint of a ZigZag number written by any other encoder. -/
theorem C03_sint32_decode (env : Env) {bs : Bytes} {n : Nat} (h : Varint bs n) (hn : n < 2 ^ 32)
    (pre post : Bytes) (hlen : (pre ++ bs ++ post).length < 2 ^ 31) (v : BitVec 32)
    (hv : zigzagNumber v.toInt = n) :
    deserializeBasic env .sint32 ⟨pre ++ bs ++ post, pre.length⟩
      = .ok (.w32 v, ⟨pre ++ bs ++ post, pre.length + bs.length⟩) := by
  have := deserializeBasic_of_reads (.sint32 h hn : Reads env .sint32 bs _) (At.mk' pre bs post hlen)
  rw [this]
  have e : (zigzag v).toNat = n := by
    have := zigzag_toNat (by omega) v
    rw [show (if 0 ≤ v.toInt then 2 * v.toInt else -2 * v.toInt - 1) = zigzagNumber v.toInt from rfl,
      hv] at this
    exact_mod_cast this
  rw [← e, zigzagInt_zigzag (by omega)]
  simp

-- the minimum sint32 value is written as 2^32 - 1
example : zigzagNumber (BitVec.toInt (0x80000000#32)) = 4294967295 := by decide
example :
    serializePackedElems demoEnv .sint32 [.w32 0x80000000#32] = [0xff, 0xff, 0xff, 0xff, 0x0f] := by decide
example : Varint [0xff, 0xff, 0xff, 0xff, 0x0f] 4294967295 :=
  ⟨.more 0xff _ 33554431 (by decide) (.more 0xff _ 262143 (by decide) (.more 0xff _ 2047 (by decide)
    (.more 0xff _ 15 (by decide) (.last 0x0f (by decide))))), by decide⟩

/-! ### C04 -/

/-- C04: 32 bit fixed width kinds are written as their 4 bytes, least significant first, never
suppressed. -/
theorem C04_fixed32_bytes (env : Env) {k : Kind} (hk : k = .float ∨ k = .fixed32 ∨ k = .sfixed32)
    (b : BitVec 32) (idx : Int) :
    serializeWrapper env k (.w32 b) idx =
      ([.ofNat (b.toNat % 256), .ofNat (b.toNat / 2 ^ 8 % 256), .ofNat (b.toNat / 2 ^ 16 % 256),
        .ofNat (b.toNat / 2 ^ 24 % 256)], idx) := by
  have e : leBytes 4 b.toNat = [.ofNat (b.toNat % 256), .ofNat (b.toNat / 2 ^ 8 % 256),
      .ofNat (b.toNat / 2 ^ 16 % 256), .ofNat (b.toNat / 2 ^ 24 % 256)] := by
    simp [leBytes, Nat.div_div_eq_div_mul]
  rcases hk with rfl | rfl | rfl <;> simp [serializeWrapper, Scalar.isNull, serializeBasic, e]

/-- C04: 64 bit fixed width kinds are written as their 8 bytes, least significant first, never
suppressed. -/
theorem C04_fixed64_bytes (env : Env) {k : Kind} (hk : k = .double ∨ k = .fixed64 ∨ k = .sfixed64)
    (b : BitVec 64) (idx : Int) :
    serializeWrapper env k (.w64 b) idx =
      ([.ofNat (b.toNat % 256), .ofNat (b.toNat / 2 ^ 8 % 256), .ofNat (b.toNat / 2 ^ 16 % 256),
        .ofNat (b.toNat / 2 ^ 24 % 256), .ofNat (b.toNat / 2 ^ 32 % 256),
        .ofNat (b.toNat / 2 ^ 40 % 256), .ofNat (b.toNat / 2 ^ 48 % 256),
        .ofNat (b.toNat / 2 ^ 56 % 256)], idx) := by
  have e : leBytes 8 b.toNat = [.ofNat (b.toNat % 256), .ofNat (b.toNat / 2 ^ 8 % 256),
      .ofNat (b.toNat / 2 ^ 16 % 256), .ofNat (b.toNat / 2 ^ 24 % 256),
      .ofNat (b.toNat / 2 ^ 32 % 256), .ofNat (b.toNat / 2 ^ 40 % 256),
      .ofNat (b.toNat / 2 ^ 48 % 256), .ofNat (b.toNat / 2 ^ 56 % 256)] := by
    simp [leBytes, Nat.div_div_eq_div_mul]
  rcases hk with rfl | rfl | rfl <;> simp [serializeWrapper, Scalar.isNull, serializeBasic, e]

/-- Kinds of fixed width. -/
def Spec.fixedWidth (k : Kind) : Prop :=
  (k = .float ∨ k = .fixed32 ∨ k = .sfixed32) ∨ (k = .double ∨ k = .fixed64 ∨ k = .sfixed64)

/-- C04: every bit pattern is read back unchanged at every position of every buffer. -/
theorem C04_fixed_roundtrip (env : Env) {k : Kind} (hk : fixedWidth k) {s : Scalar} (hs : k.holds s)
    (idx : Int) (pre post : Bytes)
    (hlen : (pre ++ (serializeWrapper env k s idx).1 ++ post).length < 2 ^ 31) :
    deserializeBasic env k ⟨pre ++ (serializeWrapper env k s idx).1 ++ post, pre.length⟩
      = .ok (s, ⟨pre ++ (serializeWrapper env k s idx).1 ++ post,
          pre.length + (serializeWrapper env k s idx).1.length⟩) := by
  have h : Reads env k (serializeWrapper env k s idx).1 s := by
    rcases hk with hk | hk
    · have hk' := hk
      rcases hk with rfl | rfl | rfl <;> cases s <;>
        simp only [Kind.holds, Bool.false_eq_true] at hs <;> exact reads_le4 hk' _
    · have hk' := hk
      rcases hk with rfl | rfl | rfl <;> cases s <;>
        simp only [Kind.holds, Bool.false_eq_true] at hs <;> exact reads_le8 hk' _
  exact deserializeBasic_of_reads h (At.mk' pre _ post hlen)

-- a NaN with payload and negative zero
example : fixedWidth .float ∧ Kind.float.holds (.w32 0x7fc12345#32) ∧
    (serializeWrapper demoEnv .float (.w32 0x7fc12345#32) 1).1 = [0x45, 0x23, 0xc1, 0x7f] ∧
    (serializeWrapper demoEnv .double (.w64 0x8000000000000000#64) 1).1 = [0, 0, 0, 0, 0, 0, 0, 0x80] := by
  refine ⟨Or.inl (Or.inl rfl), rfl, by decide, by decide⟩

/-! ### C05 -/

/-- C05: the tag of every legal field number and wire type decodes to the same pair. -/
theorem C05_header_roundtrip {num wt : Nat} (h1 : 1 ≤ num) (h2 : num ≤ 2 ^ 29 - 1)
    (hwt : wt = 0 ∨ wt = 1 ∨ wt = 2 ∨ wt = 5) (pre post : Bytes) :
    decodeHeader ⟨pre ++ encodeHeader num wt ++ post, pre.length⟩
      = .ok (⟨true, num, wt⟩,
          ⟨pre ++ encodeHeader num wt ++ post, pre.length + (encodeHeader num wt).length⟩) :=
  decodeHeader_of (encodeHeader_tag h1 (by omega) (by omega)) hwt
    (rest := post) (by simp [It.rest])

/-- C05: the bytes of a tag are the shortest varint of 8 * number + wire type. -/
theorem C05_header_bytes {num wt : Nat} (h2 : num ≤ 2 ^ 29 - 1) (hwt : wt < 8) :
    IsVarint (encodeHeader num wt) (num * 8 + wt) ∧ Shortest (encodeHeader num wt) := by
  unfold encodeHeader
  rw [shl3_or _ _ hwt, Nat.mod_eq_of_lt (by omega)]
  exact ⟨serializeVarintCommon_isVarint (by omega) (by omega),
    serializeVarintCommon_shortest (by omega) (by omega)⟩

/-- C05: a tag `t` (any varint of at most 10 bytes, of which the reader uses the low 32 bits) is split
into `t / 8` and `t % 8` and accepted if and only if the field number is at least 1 and the wire type
one of 0, 1, 2, 5. -/
theorem C05_header_accept {bs : Bytes} {t : Nat} (h : Varint bs t) (pre post : Bytes) :
    ∃ v : Bool, decodeHeader ⟨pre ++ bs ++ post, pre.length⟩
      = .ok (⟨v, t % 2 ^ 32 / 8, t % 8⟩, ⟨pre ++ bs ++ post, pre.length + bs.length⟩) ∧
      (v = true ↔ 1 ≤ t % 2 ^ 32 / 8 ∧ (t % 8 = 0 ∨ t % 8 = 1 ∨ t % 8 = 2 ∨ t % 8 = 5)) := by
  have hr : (It.mk (pre ++ bs ++ post) pre.length).rest = bs ++ post := by simp [It.rest]
  have hd : t % 2 ^ 32 = t % 2 ^ 32 / 8 * 8 + t % 8 := by omega
  refine ⟨(splitHeader (t % 2 ^ 32)).valid, ?_, ?_⟩
  · simp only [decodeHeader]
    rw [deserializeVarint_of (by omega) h hr]
    simp only [Res.bind_eq, Res.bind]
    congr 2
    rw [hd, splitHeader_of (by omega)]
    congr 1 <;> omega
  · rw [hd, splitHeader_of (by omega)]
    simp only [Bool.and_eq_true, Bool.or_eq_true, decide_eq_true_eq, beq_iff_eq]
    omega

-- the greatest legal tag, and a rejected tag with wire type 3
example : encodeHeader (2 ^ 29 - 1) 5 = [0xfd, 0xff, 0xff, 0xff, 0x0f] := by decide
example : Varint [0x0b] 11 ∧ ¬ (11 % 8 = 0 ∨ 11 % 8 = 1 ∨ 11 % 8 = 2 ∨ 11 % 8 = 5) :=
  ⟨⟨.last 0x0b (by decide), by decide⟩, by decide⟩

/-! ### C13 -/

/-- C13: a singular enumeration field is its tag and the varint of the number sign extended to 64
bits; zero is not written. -/
theorem C13_enum_wire (e : BitVec 32) {num : Nat} (h1 : 1 ≤ num) (h2 : num < 2 ^ 29) :
    (e = 0 ∧ serializeEnumField num e = []) ∨
    (e ≠ 0 ∧ ∃ hdr payload n, serializeEnumField num e = hdr ++ payload ∧ Tag hdr num 0 ∧
      Varint payload n ∧ (n : Int) = e.toInt % 2 ^ 64) := by
  by_cases h : e = 0
  · left; refine ⟨h, ?_⟩; subst h
    simp [serializeEnumField, enumToInt64, serializeUnsigned_zero, withHeader]
  · right
    refine ⟨h, ?_⟩
    have hne : (enumToInt64 e).toNat ≠ 0 := fun hc => h (enumToInt64_eq_zero hc)
    refine ⟨encodeHeader num 0, serializeVarintCommon 64 (enumToInt64 e).toNat,
      (enumToInt64 e).toNat, ?_, encodeHeader_tag h1 h2 (by omega),
      serializeVarintCommon_varint (by omega) (by omega) (enumToInt64 e).isLt, ?_⟩
    · have hu := serializeUnsigned_ne (w := 64) (by omega) hne (num : Int)
      have := natCast_ne_notUsed num
      simp [serializeEnumField, hu, withHeader, this, wtVarint]
    · have h1 : (enumToInt64 e).toInt = e.toInt := by
        unfold enumToInt64; exact BitVec.toInt_signExtend_of_le (by omega)
      have h2 := BitVec.toInt_eq_toNat_bmod (enumToInt64 e)
      rw [h1] at h2
      rw [h2]
      have := (enumToInt64 e).isLt
      simp only [Int.bmod_def]
      split <;> omega

/-- C13: every enumeration number, negative and undeclared ones included, is read back unchanged from
the varint of its sign extension. -/
theorem C13_enum_decode (e : BitVec 32) {bs : Bytes} {n : Nat} (h : Varint bs n)
    (hn : (n : Int) = e.toInt % 2 ^ 64) (pre post : Bytes) :
    deserializeEnum ⟨pre ++ bs ++ post, pre.length⟩
      = .ok (e, ⟨pre ++ bs ++ post, pre.length + bs.length⟩) := by
  refine deserializeEnum_of (rest := post) ⟨n, h, ?_⟩ (by simp [It.rest])
  apply BitVec.eq_of_toNat_eq
  have := e.isLt
  have h2 := BitVec.toInt_eq_toNat_bmod e
  simp only [BitVec.toNat_ofNat]
  rw [h2] at hn
  simp only [Int.bmod_def] at hn
  split at hn <;> omega

/-- C13: lists of enumeration numbers: the packed elements are read back one by one. -/
theorem C13_enum_list (env : Env) (l : List (BitVec 32)) (pre post : Bytes) (prev : List (BitVec 32))
    (n : Nat)
    (hlen : (pre ++ (prependLengthDelimitedSize
      (serializePackedElems env .int64 (l.map fun e => .w64 (enumToInt64 e)))) ++ post).length < 2 ^ 31)
    (hn : (serializePackedElems env .int64 (l.map fun e => .w64 (enumToInt64 e))).length < n) :
    ∃ it', deserializeEnumList env n prev ⟨pre ++ prependLengthDelimitedSize
      (serializePackedElems env .int64 (l.map fun e => .w64 (enumToInt64 e))) ++ post, pre.length⟩
      = .ok (prev ++ l, it') ∧ it'.rest = post := by
  obtain ⟨vs, hvs, hvm⟩ := ReadsEnums.toReadsAll (env := env) (enumElems_of env l)
  generalize hb : serializePackedElems env .int64 (l.map fun e => .w64 (enumToInt64 e)) = body at *
  have hat := At.mk' pre (prependLengthDelimitedSize body) post hlen
  have hl : body.length < 2 ^ 32 := by
    simp [prependLengthDelimitedSize] at hlen; omega
  have hat' : At ⟨pre ++ prependLengthDelimitedSize body ++ post, pre.length⟩
      (serializeVarintCommon 32 body.length ++ body ++ post) := hat
  have := deserializePacked_of (prepend_varint hl) hvs hat' hn
  refine ⟨_, by simp only [deserializeEnumList, this, Res.bind_eq, Res.bind, hvm]; rfl, ?_⟩
  exact (hat'.adv).2.2

-- enumeration number -2
example : serializeEnumField 3 (-2) = [0x18, 0xfe, 0xff, 0xff, 0xff, 0xff, 0xff, 0xff, 0xff, 0xff, 0x01] := by
  decide

/-! ### C22 -/

/-- C22: an int32 value that a peer wrote as a varint of its sign extension to 64 bits (10 bytes for
negative values) is read as the same value. -/
theorem C22_int32_sign_extended (env : Env) (v : BitVec 32) {bs : Bytes} {n : Nat} (h : Varint bs n)
    (hn : (n : Int) = v.toInt % 2 ^ 64) (pre post : Bytes)
    (hlen : (pre ++ bs ++ post).length < 2 ^ 31) :
    deserializeBasic env .int32 ⟨pre ++ bs ++ post, pre.length⟩
      = .ok (.w32 v, ⟨pre ++ bs ++ post, pre.length + bs.length⟩) := by
  rw [deserializeBasic_of_reads (.int32 h : Reads env .int32 bs _) (At.mk' pre bs post hlen)]
  have : BitVec.ofNat 32 n = v := by
    apply BitVec.eq_of_toNat_eq
    have := v.isLt
    have h2 := BitVec.toInt_eq_toNat_bmod v
    simp only [BitVec.toNat_ofNat]
    rw [h2] at hn
    simp only [Int.bmod_def] at hn
    split at hn <;> omega
  rw [this]

/-- C22: every varint of at most 10 bytes with the number of a value, redundant zero groups or not, is
read as that value. -/
theorem C22_any_varint (env : Env) {k : Kind} (hk : plainVarint k) {s : Scalar} (hs : k.holds s)
    {bs : Bytes} (h : Varint bs (plainNumber s)) (pre post : Bytes)
    (hlen : (pre ++ bs ++ post).length < 2 ^ 31) :
    deserializeBasic env k ⟨pre ++ bs ++ post, pre.length⟩
      = .ok (s, ⟨pre ++ bs ++ post, pre.length + bs.length⟩) := by
  have hr : Reads env k bs s := by
    rcases hk with rfl | rfl | rfl | rfl | rfl <;> cases s <;>
      simp only [Kind.holds, Bool.false_eq_true] at hs
    all_goals rename_i b
    · simpa [plainNumber] using (Reads.int32 h : Reads env _ _ _)
    · simpa [plainNumber] using (Reads.int64 h : Reads env _ _ _)
    · simpa [plainNumber] using (Reads.uint32 h : Reads env _ _ _)
    · simpa [plainNumber] using (Reads.uint64 h : Reads env _ _ _)
    · have := (Reads.bool h (by cases b <;> simp [plainNumber]) : Reads env _ _ _)
      cases b <;> simpa [plainNumber] using this
  exact deserializeBasic_of_reads hr (At.mk' pre bs post hlen)

/-- A varint with `j + 1` redundant zero groups appended. -/
def Spec.padded (j : Nat) : Bytes → Bytes
  | [] => []
  | [b] => UInt8.ofNat (b.toNat + 128) :: (List.replicate j 128 ++ [0])
  | b :: c :: bs => b :: padded j (c :: bs)

theorem zeros_isVarint (j : Nat) : IsVarint (List.replicate j 128 ++ [0]) 0 := by
  induction j with
  | zero => exact .last 0 (by decide)
  | succ j ih => exact .more 128 _ 0 (by decide) ih

/-- C22: appending redundant zero groups to a varint keeps its number, so together with
`C22_any_varint` all paddings up to 10 bytes are accepted. -/
theorem C22_padding {bs : Bytes} {n : Nat} (h : IsVarint bs n) (j : Nat) :
    IsVarint (padded j bs) n ∧ (padded j bs).length = bs.length + j + 1 := by
  induction h with
  | last b hb =>
    refine ⟨?_, by simp [padded]; omega⟩
    have e : (UInt8.ofNat (b.toNat + 128)).toNat = b.toNat + 128 := u8_ofNat _ (by omega)
    have := IsVarint.more (UInt8.ofNat (b.toNat + 128)) _ 0 (by omega) (zeros_isVarint j)
    rw [e] at this
    simpa [padded] using this
  | more b bs n hb h ih =>
    cases bs with
    | nil => exact absurd rfl h.ne_nil
    | cons c cs => exact ⟨.more b _ n hb ih.1, by simp [padded, ih.2]; omega⟩

-- int32 -1 as ten bytes, and 1 padded to four bytes
example : Varint [0xff, 0xff, 0xff, 0xff, 0xff, 0xff, 0xff, 0xff, 0xff, 0x01] (2 ^ 64 - 1) ∧
    ((2 ^ 64 - 1 : Nat) : Int) = BitVec.toInt (-1#32) % 2 ^ 64 := by
  refine ⟨⟨?_, by decide⟩, by decide⟩
  have := serializeVarintCommon_isVarint (w := 64) (v := 2 ^ 64 - 1) (by omega) (by decide)
  have e : serializeVarintCommon 64 (2 ^ 64 - 1)
    = [0xff, 0xff, 0xff, 0xff, 0xff, 0xff, 0xff, 0xff, 0xff, 0x01] := by decide
  rwa [e] at this
example : padded 2 [0x01] = [0x81, 0x80, 0x80, 0x00] := by decide

end QtPb
