import Verif.Spec
/-
Helper lemmas about the scalar layer.
-/
namespace QtPb
open Spec

/-! ### Bit facts -/

theorem and7f (x : Nat) : x &&& 0x7f = x % 128 := Nat.and_two_pow_sub_one_eq_mod x 7
theorem and7 (x : Nat) : x &&& 7 = x % 8 := Nat.and_two_pow_sub_one_eq_mod x 3
theorem shr7 (x : Nat) : x >>> 7 = x / 128 := by simp [Nat.shiftRight_eq_div_pow]
theorem shr3 (x : Nat) : x >>> 3 = x / 8 := by simp [Nat.shiftRight_eq_div_pow]

set_option maxRecDepth 2000 in
theorem or80 (x : Nat) (h : x < 128) : x ||| 0x80 = x + 128 := by
  have : ∀ y : Fin 128, y.val ||| 0x80 = y.val + 128 := by decide
  exact this ⟨x, h⟩

set_option maxRecDepth 2000 in
theorem and80 (x : Nat) (h : x < 256) : x &&& 0x80 = if x < 128 then 0 else 128 := by
  have : ∀ y : Fin 256, y.val &&& 0x80 = if y.val < 128 then 0 else 128 := by decide
  exact this ⟨x, h⟩

theorem shl3_or (x y : Nat) (h : y < 8) : (x <<< 3) ||| y = x * 8 + y := by
  rw [← Nat.shiftLeft_add_eq_or_of_lt (by simpa using h), Nat.shiftLeft_eq]

theorem u8_lt (b : UInt8) : b.toNat < 256 := b.toNat_lt

theorem u8_and7f (b : UInt8) : (b &&& 0x7f).toNat = b.toNat % 128 := by
  rw [UInt8.toNat_and]; exact and7f _

theorem u8_ofNat (n : Nat) (h : n < 256) : (UInt8.ofNat n).toNat = n := by
  simp [UInt8.toNat_ofNat']; omega

/-! ### Varints -/

theorem Spec.IsVarint.ne_nil {bs : Bytes} {n : Nat} (h : IsVarint bs n) : bs ≠ [] := by
  cases h <;> simp

theorem Spec.IsVarint.length_pos {bs : Bytes} {n : Nat} (h : IsVarint bs n) : 0 < bs.length := by
  cases h <;> simp

theorem Spec.IsVarint.unique {bs : Bytes} {n m : Nat} (h : IsVarint bs n) (h' : IsVarint bs m) :
    n = m := by
  induction h generalizing m with
  | last b hb => cases h' with
    | last => rfl
    | more _ bs _ _ h => exact absurd rfl h.ne_nil
  | more b bs n hb h ih => cases h' with
    | last => exact absurd rfl h.ne_nil
    | more _ _ _ _ h' => rw [ih h']

/-- Value bound from the number of groups. -/
theorem Spec.IsVarint.lt {bs : Bytes} {n : Nat} (h : IsVarint bs n) : n < 2 ^ (7 * bs.length) := by
  induction h with
  | last b hb => simpa using hb
  | more b bs n hb h ih =>
    have := u8_lt b
    have e : 2 ^ (7 * (b :: bs).length) = 128 * 2 ^ (7 * bs.length) := by
      rw [List.length_cons, Nat.mul_add, Nat.pow_add]; omega
    rw [e]
    omega

theorem mod64_mod (x w : Nat) (h : w ≤ 64) : x % 2 ^ 64 % 2 ^ w = x % 2 ^ w :=
  Nat.mod_mod_of_dvd _ (Nat.pow_dvd_pow 2 h)

/-- The reader's loop on a varint of `n`. -/
theorem varintLoop_of_isVarint {w : Nat} (hw : w ≤ 64) {bs : Bytes} {n : Nat}
    (h : IsVarint bs n) (rest : Bytes) (acc k : Nat) (hk : k + 7 * (bs.length - 1) < 64) :
    varintLoop w (bs ++ rest) acc k = .ok ((acc + n * 2 ^ k) % 2 ^ w, bs.length) := by
  induction h generalizing acc k with
  | last b hb =>
    have h1 : ¬ k ≥ 64 := by omega
    have h2 : b.toNat &&& 0x80 = 0 := by rw [and80 _ (u8_lt b), if_pos hb]
    simp only [List.cons_append, List.nil_append, varintLoop, h1, if_false, h2, if_true,
      List.length_cons, List.length_nil]
    rw [and7f, Nat.mod_eq_of_lt hb, Nat.shiftLeft_eq]
    congr 2
    rw [Nat.add_mod, mod64_mod _ _ hw, ← Nat.add_mod]
  | more b bs n hb h ih =>
    have hl := h.length_pos
    have h1 : ¬ k ≥ 64 := by omega
    have hb' := u8_lt b
    have h2 : ¬ (b.toNat &&& 0x80 = 0) := by
      rw [and80 _ hb', if_neg (by omega)]; omega
    simp only [List.length_cons] at hk
    simp only [List.cons_append, varintLoop, h1, if_false, h2, List.length_cons]
    rw [ih _ _ (by omega)]
    simp only [Res.bind_eq, Res.bind]
    have hb7 : b.toNat &&& 0x7f = b.toNat - 128 := by rw [and7f]; omega
    rw [hb7, Nat.shiftLeft_eq]
    congr 2
    rw [Nat.add_mod ((acc + _) % _), Nat.mod_mod, ← Nat.add_mod,
      Nat.add_right_comm, Nat.add_mod _ (_ % 2 ^ 64), mod64_mod _ _ hw, ← Nat.add_mod]
    congr 1
    rw [Nat.pow_add, show 2 ^ 7 = 128 from rfl, Nat.add_mul]
    have : n * (2 ^ k * 128) = 128 * n * 2 ^ k := by
      rw [Nat.mul_comm 128, Nat.mul_assoc, Nat.mul_comm 128]
    omega

theorem drop_pos_add {α : Type} {l a b : List α} {p : Nat} (h : l.drop p = a ++ b) :
    l.drop (p + a.length) = b := by
  rw [← List.drop_drop, h, List.drop_left]

/-- Reading a varint at the iterator's position. -/
theorem deserializeVarint_of {w : Nat} (hw : w ≤ 64) {bs : Bytes} {n : Nat} (h : Varint bs n)
    {it : It} {rest : Bytes} (hr : it.rest = bs ++ rest) :
    deserializeVarint w it = .ok (n % 2 ^ w, ⟨it.data, it.pos + bs.length⟩) := by
  have hl := h.2
  simp only [deserializeVarint, hr, Res.bind_eq]
  rw [varintLoop_of_isVarint hw h.1 rest 0 0 (by omega)]
  simp

theorem rest_adv {it : It} {a b : Bytes} (hr : it.rest = a ++ b) :
    (It.mk it.data (it.pos + a.length)).rest = b := drop_pos_add hr

/-! ### Varint writer -/

theorem varintGroups_zero (n : Nat) : varintGroups n 0 = [] := by cases n <;> simp [varintGroups]

theorem clearLastMsb_cons {b : UInt8} {bs : Bytes} (h : bs ≠ []) :
    clearLastMsb (b :: bs) = b :: clearLastMsb bs := by
  cases bs with
  | nil => exact absurd rfl h
  | cons c cs => rfl

theorem varintGroups_ne_nil {n v : Nat} (hn : 0 < n) (hv : v ≠ 0) : varintGroups n v ≠ [] := by
  cases n with
  | zero => omega
  | succ n => simp [varintGroups, hv]

theorem groupByte (v : Nat) : (UInt8.ofNat ((v &&& 0x7f) ||| 0x80)).toNat = v % 128 + 128 := by
  rw [and7f, or80 _ (Nat.mod_lt _ (by omega)), u8_ofNat]; omega

theorem groups_isVarint (n v : Nat) (hv : v ≠ 0) (hlt : v < 2 ^ (7 * n)) :
    IsVarint (clearLastMsb (varintGroups n v)) v := by
  induction n generalizing v with
  | zero => simp at hlt; omega
  | succ n ih =>
    have hb := groupByte v
    simp only [varintGroups, hv, if_false]
    by_cases h : v / 128 = 0
    · have hb2 : (UInt8.ofNat ((v &&& 0x7f) ||| 0x80) &&& 0x7f).toNat = v := by
        rw [u8_and7f, hb]; omega
      rw [shr7, h, varintGroups_zero]
      have := IsVarint.last (UInt8.ofNat ((v &&& 0x7f) ||| 0x80) &&& 0x7f) (by omega)
      rw [hb2] at this
      exact this
    · have hlt' : v / 128 < 2 ^ (7 * n) := by
        rw [Nat.mul_add, Nat.pow_add, show 2 ^ (7 * 1) = 128 from rfl] at hlt
        exact Nat.div_lt_of_lt_mul (by rw [Nat.mul_comm]; exact hlt)
      have hn : 0 < n := by
        cases n with
        | zero => simp at hlt'; omega
        | succ n => omega
      rw [shr7, clearLastMsb_cons (varintGroups_ne_nil hn h)]
      have := IsVarint.more _ _ _ (by rw [hb]; omega) (ih _ h hlt')
      have e : (UInt8.ofNat ((v &&& 0x7f) ||| 0x80)).toNat - 128 + 128 * (v / 128) = v := by
        rw [hb]; omega
      rwa [e] at this

theorem clearLastMsb_length (bs : Bytes) : (clearLastMsb bs).length = bs.length := by
  induction bs with
  | nil => rfl
  | cons b bs ih =>
    cases bs with
    | nil => rfl
    | cons c cs => simp [clearLastMsb] at ih ⊢; exact ih

theorem varintGroups_length (n v j : Nat) (h : v < 2 ^ (7 * j)) : (varintGroups n v).length ≤ j := by
  induction n generalizing v j with
  | zero => simp [varintGroups]
  | succ n ih =>
    unfold varintGroups
    split
    · simp
    · cases j with
      | zero => simp at h; omega
      | succ j =>
        rw [Nat.mul_add, Nat.pow_add, show 2 ^ (7 * 1) = 128 from rfl] at h
        have := ih (v >>> 7) j (by
          rw [shr7]; exact Nat.div_lt_of_lt_mul (by rw [Nat.mul_comm]; exact h))
        simp only [List.length_cons]; omega

theorem serializeVarintCommon_of_ne {w v : Nat} (hw : 0 < w) (hv : v ≠ 0) :
    serializeVarintCommon w v = clearLastMsb (varintGroups w v) := by
  have := varintGroups_ne_nil hw hv
  simp [serializeVarintCommon, this]

theorem lt_pow7 {v w : Nat} (h : v < 2 ^ w) : v < 2 ^ (7 * w) :=
  Nat.lt_of_lt_of_le h (Nat.pow_le_pow_right (by omega) (by omega))

theorem serializeVarintCommon_isVarint {w v : Nat} (hw : 0 < w) (hv : v < 2 ^ w) :
    IsVarint (serializeVarintCommon w v) v := by
  by_cases h : v = 0
  · subst h
    have e : serializeVarintCommon w 0 = [0] := by
      simp [serializeVarintCommon, varintGroups_zero, clearLastMsb]
    rw [e]
    exact IsVarint.last 0 (by decide)
  · rw [serializeVarintCommon_of_ne hw h]
    exact groups_isVarint w v h (lt_pow7 hv)

theorem serializeVarintCommon_length {w v j : Nat} (hj : 0 < j) (h : v < 2 ^ (7 * j)) :
    (serializeVarintCommon w v).length ≤ j := by
  unfold serializeVarintCommon
  rw [clearLastMsb_length]
  have := varintGroups_length w v j h
  split
  · simpa using Nat.succ_le_of_lt hj
  · exact this

theorem serializeVarintCommon_varint {w v : Nat} (hw : 0 < w) (hw' : w ≤ 64) (hv : v < 2 ^ w) :
    Varint (serializeVarintCommon w v) v :=
  ⟨serializeVarintCommon_isVarint hw hv,
   serializeVarintCommon_length (by omega)
     (Nat.lt_of_lt_of_le hv (Nat.pow_le_pow_right (by omega) (by omega)))⟩

theorem serializeUnsigned_zero (w : Nat) (idx : Int) : serializeUnsigned w 0 idx = ([], notUsed) := by
  simp [serializeUnsigned, varintGroups_zero]

theorem serializeUnsigned_ne {w v : Nat} (hw : 0 < w) (hv : v ≠ 0) (idx : Int) :
    serializeUnsigned w v idx = (serializeVarintCommon w v, idx) := by
  have := varintGroups_ne_nil hw hv
  simp [serializeUnsigned, serializeVarintCommon, this]

/-! ### Iterator moves -/

theorem It.left_eq (it : It) : it.left = it.rest.length := by simp [It.left, It.rest]

theorem It.pos_le_of_rest {it : It} {a : Bytes} (h : it.rest = a) (hpos : it.pos ≤ it.data.length) :
    it.pos + a.length = it.data.length := by
  have := congrArg List.length h
  simp [It.rest] at this
  omega

/-- Moving forward within the container. -/
theorem It.add_ok {it : It} {a b : Bytes} (hlen : it.data.length < 2 ^ 31)
    (hpos : it.pos ≤ it.data.length) (hr : it.rest = a ++ b) :
    it.add a.length = .ok ⟨it.data, it.pos + a.length⟩ := by
  have h := congrArg List.length hr
  simp only [It.rest, List.length_drop, List.length_append] at h
  simp only [It.add]
  rw [if_neg (by omega), if_neg (by omega), if_neg (by omega)]
  congr 2

theorem toInt32_of_lt {n : Nat} (h : n < 2 ^ 31) : toInt32 n = n := by
  simp [toInt32]; omega

/-! ### Fixed width -/

theorem leBytes_length (n v : Nat) : (leBytes n v).length = n := by
  induction n generalizing v with
  | zero => rfl
  | succ n ih => simp [leBytes, ih]

theorem ofLe_leBytes (n v : Nat) (h : v < 256 ^ n) : ofLe (leBytes n v) = v := by
  induction n generalizing v with
  | zero => simp at h; simp [leBytes, ofLe, h]
  | succ n ih =>
    have : v / 256 < 256 ^ n := by
      rw [Nat.pow_succ, Nat.mul_comm] at h
      exact Nat.div_lt_of_lt_mul h
    simp only [leBytes, ofLe, ih _ this]
    rw [u8_ofNat _ (Nat.mod_lt _ (by omega))]
    omega

theorem deserializeFixed_of {it : It} {a b : Bytes} {n : Nat} (hn : a.length = n)
    (hlen : it.data.length < 2 ^ 31) (hpos : it.pos ≤ it.data.length) (hr : it.rest = a ++ b) :
    deserializeFixed n it = .ok (ofLe a, ⟨it.data, it.pos + n⟩) := by
  subst hn
  have h : it.left = a.length + b.length := by rw [It.left_eq, hr]; simp
  simp only [deserializeFixed]
  rw [if_neg (by omega), It.add_ok hlen hpos hr]
  simp [hr]

/-! ### Length delimited -/

theorem deserializeLengthDelimited_of {it : It} {l body b : Bytes} (hl : Varint l body.length)
    (hlen : it.data.length < 2 ^ 31) (hpos : it.pos ≤ it.data.length)
    (hr : it.rest = l ++ body ++ b) :
    deserializeLengthDelimited it = .ok (body, ⟨it.data, it.pos + (l ++ body).length⟩) := by
  have hsz := congrArg List.length hr
  simp only [It.rest, List.length_drop, List.length_append] at hsz
  rw [List.append_assoc] at hr
  have hb : body.length < 2 ^ 31 := by omega
  simp only [deserializeLengthDelimited]
  rw [deserializeVarint_of (by omega) hl hr]
  simp only [Res.bind_eq, Res.bind]
  have h32 : body.length % 2 ^ 32 = body.length := Nat.mod_eq_of_lt (by omega)
  rw [h32, toInt32_of_lt hb, if_neg (by omega)]
  have hr' := rest_adv hr
  have hle : (It.mk it.data (it.pos + l.length)).left = body.length + b.length := by
    rw [It.left_eq, hr']; simp
  rw [if_neg (by omega), It.add_ok (it := ⟨it.data, it.pos + l.length⟩) hlen (by simp; omega) hr']
  simp [hr', Nat.add_assoc]

/-! ### Headers -/

theorem splitHeader_of {num wt : Nat} (hwt : wt < 8) :
    splitHeader (num * 8 + wt) = ⟨decide (num ≤ 536870911) && decide (num > 0) &&
      (wt == 0 || wt == 1 || wt == 5 || wt == 2), num, wt⟩ := by
  have h1 : (num * 8 + wt) &&& 7 = wt := by rw [and7]; omega
  have h2 : (num * 8 + wt) >>> 3 = num := by rw [shr3]; omega
  simp only [splitHeader, h1, h2, wtVarint, wtFixed64, wtFixed32, wtLengthDelimited]

theorem decodeHeader_of {hdr : Bytes} {num wt : Nat} (ht : Tag hdr num wt)
    (hwt : wt = 0 ∨ wt = 1 ∨ wt = 2 ∨ wt = 5) {it : It} {rest : Bytes} (hr : it.rest = hdr ++ rest) :
    decodeHeader it = .ok (⟨true, num, wt⟩, ⟨it.data, it.pos + hdr.length⟩) := by
  obtain ⟨hv, h1, h2⟩ := ht
  have hwt8 : wt < 8 := by omega
  simp only [decodeHeader]
  rw [deserializeVarint_of (by omega) hv hr]
  simp only [Res.bind_eq, Res.bind]
  rw [Nat.mod_eq_of_lt (by omega), splitHeader_of hwt8]
  have h3 : num ≤ 536870911 := by omega
  have h4 : num > 0 := by omega
  rcases hwt with h | h | h | h <;> subst h <;> simp [h3, h4]

theorem encodeHeader_tag {num wt : Nat} (h1 : 1 ≤ num) (h2 : num < 2 ^ 29) (hwt : wt < 8) :
    Tag (encodeHeader num wt) num wt := by
  refine ⟨?_, h1, h2⟩
  unfold encodeHeader
  rw [shl3_or _ _ hwt, Nat.mod_eq_of_lt (by omega)]
  exact serializeVarintCommon_varint (by omega) (by omega) (by omega)

theorem prepend_varint {data : Bytes} (h : data.length < 2 ^ 32) :
    Varint (serializeVarintCommon 32 data.length) data.length :=
  serializeVarintCommon_varint (by omega) (by omega) h

/-! ### Skipping -/

theorem skipVarintLoop_of {bs : Bytes} {n : Nat} (h : IsVarint bs n) (rest : Bytes) :
    skipVarintLoop (bs ++ rest) = .ok bs.length := by
  induction h with
  | last b hb =>
    have h2 : b.toNat &&& 0x80 = 0 := by rw [and80 _ (u8_lt b), if_pos hb]
    simp [skipVarintLoop, h2]
  | more b bs n hb h ih =>
    have hb' := u8_lt b
    have h2 : ¬ (b.toNat &&& 0x80 = 0) := by
      rw [and80 _ hb', if_neg (by omega)]; omega
    simp only [List.cons_append, skipVarintLoop, h2, if_false, ih]
    simp

theorem skipField_of {wt : Nat} {payload rest : Bytes} (h : Skippable wt payload) {it : It}
    (hlen : it.data.length < 2 ^ 31) (hpos : it.pos ≤ it.data.length)
    (hr : it.rest = payload ++ rest) :
    skipField it wt = .ok ⟨it.data, it.pos + payload.length⟩ := by
  cases h with
  | varint h =>
    simp only [skipField, wtVarint, if_true, skipVarint, hr, skipVarintLoop_of h]
    simp
  | fixed32 h =>
    have := It.add_ok hlen hpos hr
    rw [h] at this
    simpa [skipField, wtVarint, wtFixed32, h] using this
  | fixed64 h =>
    have := It.add_ok hlen hpos hr
    rw [h] at this
    simpa [skipField, wtVarint, wtFixed32, wtFixed64, h] using this
  | delimited hl =>
    rename_i l body
    have hsz := congrArg List.length hr
    simp only [It.rest, List.length_drop, List.length_append] at hsz
    rw [List.append_assoc] at hr
    simp only [skipField, wtVarint, wtFixed32, wtFixed64, wtLengthDelimited, skipLengthDelimited]
    rw [deserializeVarint_of (by omega) hl hr]
    have h32 : body.length % 2 ^ 32 = body.length := Nat.mod_eq_of_lt (by omega)
    simp only [Res.bind_eq, Res.bind, h32, toInt32_of_lt (show body.length < 2 ^ 31 by omega)]
    have := It.add_ok (it := ⟨it.data, it.pos + l.length⟩) hlen (by simp; omega) (rest_adv hr)
    simp [this, Nat.add_assoc]

theorem skippable_wt {wt : Nat} {payload : Bytes} (h : Skippable wt payload) :
    wt = 0 ∨ wt = 1 ∨ wt = 2 ∨ wt = 5 := by
  cases h <;> simp

/-! ### ZigZag -/

theorem sshiftRight_all {w : Nat} (v : BitVec w) :
    v.sshiftRight (w - 1) = if v.msb then BitVec.allOnes w else 0#w := by
  apply BitVec.eq_of_getElem_eq
  intro i hi
  rw [BitVec.getElem_sshiftRight]
  split
  · have : i = 0 := by omega
    subst this
    have hm : v.msb = v[w - 1] := by
      rw [BitVec.msb_eq_getLsbD_last, BitVec.getLsbD_eq_getElem]
    split <;> simp_all
  · split <;> simp_all

/-- ZigZag encoding of a signed number. -/
theorem zigzag_toNat {w : Nat} (hw : 0 < w) (v : BitVec w) :
    ((zigzag v).toNat : Int) = if 0 ≤ v.toInt then 2 * v.toInt else -2 * v.toInt - 1 := by
  have hlt := v.isLt
  have hp : (2 : Nat) ^ w = 2 * 2 ^ (w - 1) := by
    rw [← Nat.pow_succ']; congr 1; omega
  have hm : v.msb = decide (2 ^ (w - 1) ≤ v.toNat) := BitVec.msb_eq_decide v
  have hi : v.toInt = if 2 * v.toNat < 2 ^ w then (v.toNat : Int) else v.toNat - (2 ^ w : Nat) :=
    BitVec.toInt_eq_toNat_cond v
  unfold zigzag
  rw [sshiftRight_all]
  by_cases h : 2 ^ (w - 1) ≤ v.toNat
  · have hm' : v.msb = true := by simp [hm, h]
    rw [hm', if_pos rfl, BitVec.xor_allOnes, BitVec.toNat_not, BitVec.toNat_shiftLeft,
      Nat.shiftLeft_eq]
    have e : v.toNat * 2 ^ 1 % 2 ^ w = 2 * v.toNat - 2 ^ w := by
      rw [Nat.mod_eq_sub_mod (by omega), Nat.mod_eq_of_lt (by omega)]; omega
    have hi' : v.toInt = (v.toNat : Int) - (2 ^ w : Nat) := by rw [hi, if_neg (by omega)]
    rw [e, hi', if_neg (by omega)]
    omega
  · have hm' : v.msb = false := by simp [hm, h]
    rw [hm', if_neg (by simp), BitVec.xor_zero, BitVec.toNat_shiftLeft, Nat.shiftLeft_eq,
      Nat.mod_eq_of_lt (by omega), hi, if_pos (by omega), if_pos (by omega)]
    omega

theorem zigzagInt_zigzag {w : Nat} (hw : 0 < w) (v : BitVec w) :
    zigzagInt (zigzag v).toNat = v.toInt := by
  have h := zigzag_toNat hw v
  unfold zigzagInt
  split at h <;> split <;> omega

/-- ZigZag decoding. -/
theorem unzigzag_eq {w : Nat} (hw : 0 < w) (u : BitVec w) :
    unzigzag u = BitVec.ofInt w (zigzagInt u.toNat) := by
  have hand : u &&& 1#w = BitVec.ofNat w (u.toNat % 2) := by
    apply BitVec.eq_of_toNat_eq
    have hp : 2 ≤ 2 ^ w := by
      calc 2 = 2 ^ 1 := rfl
        _ ≤ 2 ^ w := Nat.pow_le_pow_right (by omega) hw
    rw [BitVec.toNat_and, BitVec.toNat_ofNat, BitVec.toNat_ofNat, Nat.mod_eq_of_lt (a := 1) (by omega),
      Nat.mod_eq_of_lt (a := u.toNat % 2) (by omega), Nat.and_one_is_mod]
  unfold unzigzag zigzagInt
  rw [hand]
  have hlt := u.isLt
  by_cases h : u.toNat % 2 = 0
  · rw [h, if_pos rfl]
    simp only [BitVec.mul_zero, BitVec.xor_zero]
    apply BitVec.eq_of_toNat_eq
    rw [BitVec.toNat_ushiftRight, Nat.shiftRight_eq_div_pow, BitVec.toNat_ofInt,
      Int.emod_eq_of_lt (by omega) (by omega)]
    omega
  · have h1 : u.toNat % 2 = 1 := by omega
    rw [h1, if_neg (by omega)]
    have e : -1#w * BitVec.ofNat w 1 = BitVec.allOnes w := by
      rw [BitVec.mul_one, BitVec.neg_one_eq_allOnes]
    rw [e, BitVec.xor_allOnes]
    have e2 : (-((u.toNat / 2 : Nat) : Int) - 1) = -1 - ((u.toNat / 2 : Nat) : Int) := by omega
    apply BitVec.eq_of_toNat_eq
    rw [BitVec.toNat_not, BitVec.toNat_ushiftRight, Nat.shiftRight_eq_div_pow, BitVec.toNat_ofInt]
    have : (-((u.toNat / 2 : Nat) : Int) - 1) % ((2 ^ w : Nat) : Int)
        = ((2 ^ w : Nat) : Int) - ((u.toNat / 2 : Nat) : Int) - 1 := by
      rw [← Int.add_emod_right, Int.emod_eq_of_lt] <;> omega
    rw [this]
    omega

theorem unzigzag_zigzag {w : Nat} (hw : 0 < w) (v : BitVec w) : unzigzag (zigzag v) = v := by
  rw [unzigzag_eq hw, zigzagInt_zigzag hw, BitVec.ofInt_toInt]

end QtPb
