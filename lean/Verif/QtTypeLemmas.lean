import Verif.SpecQtTypes
import Verif.PropsMessage
/-
Lemmas for C45.
-/
namespace QtPb.Qt
open Spec

variable {env : Env}

/-! ### Conversions without transport -/

theorem int32_ok {v : Int} (h : -2 ^ 31 ≤ v ∧ v < 2 ^ 31) : int32 v = .ok (BitVec.ofInt 32 v) ∧ (BitVec.ofInt 32 v).toInt = v := by
  refine ⟨if_pos h, ?_⟩
  rw [BitVec.toInt_ofInt]
  simp only [Int.bmod]
  split <;> omega

theorem extent_farEnd {a b : BitVec 32} (h : Fits a b) :
    ∃ w, extent a b = .ok w ∧ farEnd a w = .ok b ∧ w.toInt = b.toInt - a.toInt + 1 := by
  obtain ⟨h1, h2, h3⟩ := h
  have ha := BitVec.toInt_lt (x := a)
  have ha' := BitVec.le_toInt (x := a)
  have hb := BitVec.toInt_lt (x := b)
  have hb' := BitVec.le_toInt (x := b)
  obtain ⟨g1, g2⟩ := int32_ok (v := b.toInt - a.toInt) ⟨h1, by omega⟩
  obtain ⟨g3, g4⟩ := int32_ok (v := b.toInt - a.toInt + 1) ⟨by omega, h2⟩
  refine ⟨_, ?_, ?_, g4⟩
  · simp only [extent, g1, Res.bind_eq, Res.bind, g2, g3]
  · obtain ⟨g5, g6⟩ := int32_ok (v := b.toInt + 1) ⟨by omega, h3⟩
    obtain ⟨g7, g8⟩ := int32_ok (v := b.toInt) ⟨by omega, by omega⟩
    have e1 : a.toInt + (b.toInt - a.toInt + 1) = b.toInt + 1 := by omega
    have e2 : b.toInt + 1 - 1 = b.toInt := by omega
    simp only [farEnd, g4, e1, g5, Res.bind_eq, Res.bind, g6, e2, g7]
    rw [BitVec.ofInt_toInt]

theorem hex_spec {n : Nat} (h : n < 16) : hexValue (hexChar n) = some n := by
  have : ∀ n : Fin 16, hexValue (hexChar n.1) = some n.1 := by decide
  exact this ⟨n, h⟩

theorem unhex_hexBytes (l : List UInt8) : unhex (hexBytes l) = some l := by
  induction l with
  | nil => rfl
  | cons b l ih =>
    have hb := b.toNat_lt
    have e : 16 * (b.toNat / 16) + b.toNat % 16 = b.toNat := by omega
    simp only [hexBytes, unhex, hex_spec (show b.toNat / 16 < 16 by omega), hex_spec (show b.toNat % 16 < 16 by omega), ih, e]
    simp

theorem uuid_roundtrip (u : QUuid) : QUuid.ofText u.text = u := by
  obtain ⟨b⟩ := u
  have hl : List.ofFn b = [b 0, b 1, b 2, b 3, b 4, b 5, b 6, b 7, b 8, b 9, b 10, b 11, b 12, b 13, b 14, b 15] := by
    simp [List.ofFn_succ]
  have hu := unhex_hexBytes (List.ofFn b)
  rw [hl] at hu
  simp only [hexBytes] at hu
  unfold QUuid.ofText QUuid.text
  simp only [hl]
  simp only [List.take_succ_cons, List.take_zero, List.drop_succ_cons, List.drop_zero, hexBytes, List.cons_append, List.nil_append,
    List.length_cons, List.length_nil, List.getElem?_cons_zero, List.getElem?_cons_succ, and_self, if_true]
  rw [hu]
  simp only [QUuid.mk.injEq]
  funext i
  match i with
  | ⟨0, _⟩ | ⟨1, _⟩ | ⟨2, _⟩ | ⟨3, _⟩ | ⟨4, _⟩ | ⟨5, _⟩ | ⟨6, _⟩ | ⟨7, _⟩ | ⟨8, _⟩ | ⟨9, _⟩ | ⟨10, _⟩ | ⟨11, _⟩ | ⟨12, _⟩
  | ⟨13, _⟩ | ⟨14, _⟩ | ⟨15, _⟩ => rfl
  | ⟨n + 16, h⟩ => exact absurd h (by omega)

theorem char_roundtrip (c : BitVec 16) : charOf (charBytes c) = c := by
  simp only [charBytes, charOf]
  apply BitVec.eq_of_getLsbD_eq
  intro i hi
  simp only [BitVec.getLsbD_append, BitVec.getLsbD_extractLsb']
  split
  · rename_i h; simp [h]
  · rw [show 8 + (i - 8) = i by omega, decide_eq_true (by omega : i - 8 < 8), Bool.true_and]

theorem wide_byte {b : BitVec 8} : (b ++ b : BitVec 16).extractLsb' 8 8 = b := by
  apply BitVec.eq_of_getLsbD_eq
  intro i hi
  simp only [BitVec.getLsbD_extractLsb', BitVec.getLsbD_append]
  rw [if_neg (by omega), show 8 + i - 8 = i by omega]
  simp [hi]

theorem rgba_bytes (a r g b : BitVec 8) : (a ++ r ++ g ++ b : BitVec 32).extractLsb' 24 8 = a ∧
    (a ++ r ++ g ++ b : BitVec 32).extractLsb' 16 8 = r ∧ (a ++ r ++ g ++ b : BitVec 32).extractLsb' 8 8 = g ∧
    (a ++ r ++ g ++ b : BitVec 32).extractLsb' 0 8 = b := by
  refine ⟨?_, ?_, ?_, ?_⟩ <;> apply BitVec.eq_of_getLsbD_eq <;> intro i hi <;>
    simp only [BitVec.getLsbD_extractLsb', BitVec.getLsbD_append, decide_eq_true hi, Bool.true_and]
  · rw [if_neg (by omega), if_neg (by omega), if_neg (by omega)]; congr 1; omega
  · rw [if_neg (by omega), if_neg (by omega), if_pos (by omega)]; congr 1; omega
  · rw [if_neg (by omega), if_pos (by omega)]; congr 1; omega
  · rw [if_pos (by omega)]; congr 1; omega

theorem color_roundtrip {c : QColor} (h : Faithful (.color c)) : QColor.fromRgba c.rgba = c := by
  obtain ⟨s, a, r, g, b⟩ := c
  obtain ⟨h0, ⟨a', rfl⟩, ⟨r', rfl⟩, ⟨g', rfl⟩, ⟨b', rfl⟩⟩ := h
  simp only at h0
  subst h0
  simp only [QColor.rgba, wide_byte, QColor.fromRgba]
  obtain ⟨h1, h2, h3, h4⟩ := rgba_bytes a' r' g' b'
  rw [h1, h2, h3, h4]

theorem isLeap_iff {y : Int} (hy : y ≠ 0) : isLeap y = true ↔ LeapYear y := by
  simp only [isLeap, LeapYear]
  split
  · rename_i h
    simp only [Bool.and_eq_true, Bool.or_eq_true, decide_eq_true_eq, ne_eq, decide_not, Bool.not_eq_true',
      decide_eq_false_iff_not]
    constructor
    · rintro ⟨h1, h2⟩
      exact ⟨y + 1, by omega, by omega, by omega, by omega⟩
    · rintro ⟨a, h1, h2, h3, h4⟩
      have := h2 (by omega)
      subst this
      refine ⟨by omega, ?_⟩
      by_cases h5 : (100 : Int) ∣ y + 1
      · right; have := h4 h5; omega
      · left; omega
  · rename_i h
    simp only [Bool.and_eq_true, Bool.or_eq_true, decide_eq_true_eq, ne_eq, decide_not, Bool.not_eq_true',
      decide_eq_false_iff_not]
    constructor
    · rintro ⟨h1, h2⟩
      exact ⟨y, by omega, by omega, by omega, by omega⟩
    · rintro ⟨a, h1, h2, h3, h4⟩
      have := h1 (by omega)
      subst this
      refine ⟨by omega, ?_⟩
      by_cases h5 : (100 : Int) ∣ a
      · right; have := h4 h5; omega
      · left; omega

theorem validDate_iff (y m d : Int) : validDate y m d = true ↔ CalendarDay y m d := by
  by_cases hy : y = 0
  · subst hy; simp [validDate, CalendarDay]
  · have hl := isLeap_iff hy
    simp only [validDate, CalendarDay, monthDays, Bool.and_eq_true, decide_eq_true_eq, ne_eq, decide_not,
      Bool.not_eq_true', decide_eq_false_iff_not]
    by_cases h2 : m = 2
    · subst h2
      by_cases hleap : isLeap y = true
      · have := hl.mp hleap
        simp only [hleap, if_true, this]
        simp; omega
      · have hn : ¬ LeapYear y := fun h => hleap (hl.mpr h)
        simp only [hleap, if_true, hn]
        simp; omega
    · simp only [h2, if_false, false_and, or_false]
      rw [decide_eq_true_iff]
      split <;> omega

theorem isValid_iff (t : QTime) : t.isValid = true ↔ t.OfDay := by
  simp [QTime.isValid, QTime.OfDay]

theorem date_roundtrip {d : QDate} (h : d.Valid) : QDate.of d.year d.month d.day = d := by
  obtain ⟨ymd⟩ := d
  cases ymd with
  | none => simp [QDate.of, QDate.year, QDate.month, QDate.day, validDate]
  | some t =>
    obtain ⟨y, m, d⟩ := t
    have := (validDate_iff _ _ _).mpr (h y m d rfl)
    simp [QDate.of, QDate.year, QDate.month, QDate.day, this]

theorem derefAll_map {α β : Type} {f : Obj → α} {g : β → Obj} {h : β → α} (hfg : ∀ b, f (g b) = h b) (l : List β) :
    derefAll f (l.map fun b => .msg (g b)) = .ok (l.map h) := by
  induction l with
  | nil => rfl
  | cons b l ih => simp only [List.map_cons, derefAll, ih, Res.bind_eq, Res.bind, hfg]

theorem matrix_roundtrip (q : QMatrix4x4) : matrixFrom (matrixTo q) = q := by
  obtain ⟨m⟩ := q
  unfold matrixFrom QMatrix4x4.of
  congr 1
  funext i
  match i with
  | ⟨0, _⟩ | ⟨1, _⟩ | ⟨2, _⟩ | ⟨3, _⟩ | ⟨4, _⟩ | ⟨5, _⟩ | ⟨6, _⟩ | ⟨7, _⟩ | ⟨8, _⟩ | ⟨9, _⟩ | ⟨10, _⟩ | ⟨11, _⟩ | ⟨12, _⟩
  | ⟨13, _⟩ | ⟨14, _⟩ | ⟨15, _⟩ => simp [int32At, matrixTo, int32s]; try rfl
  | ⟨n + 16, h⟩ => exact absurd h (by omega)

theorem convert_roundtrip {q : QtVal} (h : Faithful q) : ∃ o, toMessage q = .ok o ∧ fromMessage env q.msg o = .ok q := by
  cases q with
  | char c => exact ⟨_, rfl, by show Res.ok (QtVal.char (charOf (charBytes c))) = _; rw [char_roundtrip]⟩
  | uuid u => exact ⟨_, rfl, by show Res.ok (QtVal.uuid (QUuid.ofText u.text)) = _; rw [uuid_roundtrip]⟩
  | time t =>
    refine ⟨_, rfl, ?_⟩
    have h : t.mds ≠ -1 := h
    show Res.ok (QtVal.time ⟨t.msecs⟩) = _
    rw [QTime.msecs, if_neg h]
  | date d => exact ⟨_, rfl, by show Res.ok (QtVal.date (QDate.of d.year d.month d.day)) = _; rw [date_roundtrip h]⟩
  | dateTime d =>
    refine ⟨_, rfl, ?_⟩
    obtain ⟨h1, h2, h3, h4⟩ := h
    show Res.ok (QtVal.dateTime (QDateTime.of (QDate.of d.date.year d.date.month d.date.day) ⟨d.time.msecs⟩)) = _
    rw [date_roundtrip h2, QTime.msecs, if_neg h3]
    obtain ⟨dd, dt, dz⟩ := d
    simp only at h1 h2 h3 h4
    subst h1
    simp only [QDateTime.of]
    rw [if_neg]
    intro hc
    simp only [Bool.and_eq_true, Bool.not_eq_true'] at hc
    rw [(isValid_iff _).mpr (h4 hc.1)] at hc
    exact absurd hc.2 (by decide)
  | rect r =>
    obtain ⟨h1, h2⟩ := h
    obtain ⟨w, g1, g2, _⟩ := extent_farEnd h1
    obtain ⟨k, g3, g4, _⟩ := extent_farEnd h2
    refine ⟨[.msg (pointTo ⟨r.x1, r.y1⟩), .msg (sizeTo ⟨w, k⟩)], ?_, ?_⟩
    · simp only [toMessage, rectTo, g1, g3, Res.bind_eq, Res.bind]
    · show (rectFrom env _ >>= fun r => Res.ok (QtVal.rect r)) = _
      have : rectFrom env [.msg (pointTo ⟨r.x1, r.y1⟩), .msg (sizeTo ⟨w, k⟩)]
          = (farEnd r.x1 w >>= fun x2 => farEnd r.y1 k >>= fun y2 => Res.ok ⟨r.x1, r.y1, x2, y2⟩) := rfl
      rw [this]
      simp only [g2, g4, Res.bind_eq, Res.bind]
  | polygon l =>
    refine ⟨_, rfl, ?_⟩
    show (derefAll pointFrom (l.map fun p => .msg (pointTo p)) >>= fun l => Res.ok (QtVal.polygon l)) = _
    rw [derefAll_map (f := pointFrom) (g := pointTo) (h := id) (fun p => rfl)]
    simp [Res.bind_eq, Res.bind]
  | polygonF l =>
    refine ⟨_, rfl, ?_⟩
    show (derefAll pointFFrom (l.map fun p => .msg (pointFTo p)) >>= fun l => Res.ok (QtVal.polygonF l)) = _
    rw [derefAll_map (f := pointFFrom) (g := pointFTo) (h := id) (fun p => rfl)]
    simp [Res.bind_eq, Res.bind]
  | color c => exact ⟨_, rfl, by show Res.ok (QtVal.color (QColor.fromRgba c.rgba)) = _; rw [color_roundtrip h]⟩
  | matrix m => exact ⟨_, rfl, by show Res.ok (QtVal.matrix (matrixFrom (matrixTo m))) = _; rw [matrix_roundtrip]⟩
  | _ => exact ⟨_, rfl, rfl⟩

/-! ### Transport -/

/-- `Carried ty v v'`: a value without text, byte arrays of length 0, null pointers, maps and packed lists that arrives
as `v'`. -/
inductive Carried (env : Env) : FieldTy → Val → Val → Prop
  | sc {k : Kind} {s s' : Scalar} : fieldScalar env k s = s' → Carried env (.scalar k) (.sc s) (.sc s')
  | msg {m : Nat} {o o' : Obj} : o.length = (env.sch m).length → o'.length = (env.sch m).length →
      (∀ (i : Nat) (f : Field) (v v' : Val), (env.sch m)[i]? = some f → o[i]? = some v → o'[i]? = some v' →
        Carried env f.ty v v') → Carried env (.msg m) (.msg o) (.msg o')
  | msgList {m : Nat} {l l' : List Obj} : l.length = l'.length →
      (∀ (i : Nat) (o o' : Obj), l[i]? = some o → l'[i]? = some o' → Carried env (.msg m) (.msg o) (.msg o')) →
      Carried env (.msgList m) (.msgList (l.map .msg)) (.msgList (l'.map .msg))

theorem carried_list {m : Nat} : ∀ {l l' : List Obj} {vs : List Val}, l.length = l'.length →
    (∀ (i : Nat) (o o' : Obj), l[i]? = some o → l'[i]? = some o' → ∀ w, Arrives env (.msg m) (.msg o) w → w = .msg o') →
    ArrivesList env m (l.map .msg) vs → vs = l'.map .msg := by
  intro l
  induction l with
  | nil =>
    intro l' vs hl _ h
    cases l' with
    | nil => cases h; rfl
    | cons _ _ => cases hl
  | cons o l ih =>
    intro l' vs hl hh h
    cases l' with
    | nil => cases hl
    | cons o' l' =>
      cases h with
      | cons h1 h2 =>
        have e1 := hh 0 o o' rfl rfl _ h1
        have e2 := ih (by simpa using hl) (fun i a b ha hb => hh (i + 1) a b ha hb) h2
        rw [e2, List.map_cons, e1]

theorem carried_arrives {ty : FieldTy} {v v' : Val} (h : Carried env ty v v') : ∀ w, Arrives env ty v w → w = v' := by
  induction h with
  | sc h => intro w hw; cases hw; rw [h]
  | @msg m o o' hl hl' hh ih =>
    intro w hw
    cases hw with
    | @msg _ _ o2 hl2 hh2 =>
      congr 1
      apply List.ext_getElem? 
      intro i
      by_cases hi : i < (env.sch m).length
      · have e0 := List.getElem?_eq_getElem hi
        have e1 : o[i]? = some (o[i]'(by omega)) := List.getElem?_eq_getElem (by omega)
        have e2 : o'[i]? = some (o'[i]'(by omega)) := List.getElem?_eq_getElem (by omega)
        have e3 : o2[i]? = some (o2[i]'(by omega)) := List.getElem?_eq_getElem (by omega)
        rw [e2, e3, ih i _ _ _ e0 e1 e2 _ (hh2 i _ _ _ e0 e1 e3)]
      · rw [List.getElem?_eq_none (by omega), List.getElem?_eq_none (by omega)]
  | msgList hl _ ih =>
    intro w hw
    cases hw with
    | msgList hh => rw [carried_list hl ih hh]

theorem carried_row {m n : Nat} {k : Kind} {l l' : List Scalar} (hm : env.sch m = row n k) (hl : l.length = n) (hl' : l'.length = n)
    (h : ∀ (i : Nat) (s s' : Scalar), l[i]? = some s → l'[i]? = some s' → fieldScalar env k s = s') :
    Carried env (.msg m) (.msg (l.map .sc)) (.msg (l'.map .sc)) := by
  refine .msg (by simp [hm, row, hl]) (by simp [hm, row, hl']) ?_
  intro i f v v' hf hv hv'
  rw [hm] at hf
  simp only [row, List.getElem?_map, Option.map_eq_some_iff] at hf hv hv'
  obtain ⟨_, _, rfl⟩ := hf
  obtain ⟨s, hs, rfl⟩ := hv
  obtain ⟨s', hs', rfl⟩ := hv'
  exact .sc (h i s s' hs hs')

theorem hasTy_row {m n : Nat} {k : Kind} {l : List Scalar} (hm : env.sch m = row n k) (hl : l.length = n)
    (h : ∀ s ∈ l, k.holds s = true) : WellTyped env m (l.map .sc) := by
  refine .msg (by simp [hm, row, hl]) ?_
  intro i f v hf hv
  rw [hm] at hf
  simp only [row, List.getElem?_map, Option.map_eq_some_iff] at hf hv
  obtain ⟨_, _, rfl⟩ := hf
  obtain ⟨s, hs, rfl⟩ := hv
  exact .sc (h s (List.mem_of_getElem? hs))

theorem hasTy_pair {m m1 m2 a b : Nat} {o1 o2 : Obj} (hm : env.sch m = [⟨a, .msg m1⟩, ⟨b, .msg m2⟩]) (h1 : WellTyped env m1 o1)
    (h2 : WellTyped env m2 o2) : WellTyped env m [.msg o1, .msg o2] := by
  refine .msg (by simp [hm]) ?_
  intro i f v hf hv
  rw [hm] at hf
  match i with
  | 0 => cases hf; cases hv; exact h1
  | 1 => cases hf; cases hv; exact h2
  | i + 2 => simp at hv

theorem carried_pair {m m1 m2 a b : Nat} {o1 o2 p1 p2 : Obj} (hm : env.sch m = [⟨a, .msg m1⟩, ⟨b, .msg m2⟩])
    (h1 : Carried env (.msg m1) (.msg o1) (.msg p1)) (h2 : Carried env (.msg m2) (.msg o2) (.msg p2)) :
    Carried env (.msg m) (.msg [.msg o1, .msg o2]) (.msg [.msg p1, .msg p2]) := by
  refine .msg (by simp [hm]) (by simp [hm]) ?_
  intro i f v v' hf hv hv'
  rw [hm] at hf
  match i with
  | 0 => cases hf; cases hv; cases hv'; exact h1
  | 1 => cases hf; cases hv; cases hv'; exact h2
  | i + 2 => simp at hv

theorem field_sint32 (b : BitVec 32) : fieldScalar env .sint32 (.w32 b) = .w32 b := by
  simp only [fieldScalar, isAbsent, Bool.false_eq_true, if_false, transmitted, defaultScalar, scalarEq, beq_iff_eq]
  split
  · assumption
  · rfl

theorem field_uint32 (b : BitVec 32) : fieldScalar env .uint32 (.w32 b) = .w32 b := by
  simp only [fieldScalar, isAbsent, Bool.false_eq_true, if_false, transmitted, defaultScalar, scalarEq, beq_iff_eq]
  split
  · assumption
  · rfl

theorem field_float (b : BitVec 32) : fieldScalar env .float (.w32 b) = .w32 (pz32 b) := by
  show (if f32Eq 0 b = true then Scalar.w32 0 else Scalar.w32 b) = _
  have hb := b.isLt
  by_cases h0 : b.toNat % 2 ^ 31 = 0
  · have : b.toNat = 0 ∨ b.toNat = 2 ^ 31 := by omega
    rcases this with h | h
    · have : b = 0 := BitVec.eq_of_toNat_eq h
      subst this; rfl
    · have : b = 0x80000000#32 := BitVec.eq_of_toNat_eq h
      subst this; rfl
  · rw [if_neg]
    · rw [pz32, if_neg]
      rintro rfl; exact h0 rfl
    · intro h
      simp only [f32Eq, Bool.and_eq_true, Bool.or_eq_true, beq_iff_eq] at h
      rcases h.2 with h | h
      · rw [← h] at h0; exact h0 rfl
      · exact h0 h.2

theorem field_double (b : BitVec 64) : fieldScalar env .double (.w64 b) = .w64 (pz64 b) := by
  show (if f64Eq 0 b = true then Scalar.w64 0 else Scalar.w64 b) = _
  have hb := b.isLt
  by_cases h0 : b.toNat % 2 ^ 63 = 0
  · have : b.toNat = 0 ∨ b.toNat = 2 ^ 63 := by omega
    rcases this with h | h
    · have : b = 0 := BitVec.eq_of_toNat_eq h
      subst this; rfl
    · have : b = 0x8000000000000000#64 := BitVec.eq_of_toNat_eq h
      subst this; rfl
  · rw [if_neg]
    · rw [pz64, if_neg]
      rintro rfl; exact h0 rfl
    · intro h
      simp only [f64Eq, Bool.and_eq_true, Bool.or_eq_true, beq_iff_eq] at h
      rcases h.2 with h | h
      · rw [← h] at h0; exact h0 rfl
      · exact h0 h.2

theorem int32s_eq (l : List (BitVec 32)) : int32s l = (l.map Scalar.w32).map Val.sc := by simp [int32s]
theorem doubles_eq (l : List (BitVec 64)) : doubles l = (l.map Scalar.w64).map Val.sc := by simp [doubles]

theorem carried_int32s {m n : Nat} {k : Kind} {g : BitVec 32 → BitVec 32} (hk : ∀ b, fieldScalar env k (.w32 b) = .w32 (g b))
    {l : List (BitVec 32)} (hm : env.sch m = row n k) (hl : l.length = n) :
    Carried env (.msg m) (.msg (int32s l)) (.msg (int32s (l.map g))) := by
  rw [int32s_eq, int32s_eq]
  refine carried_row hm (by simp [hl]) (by simp [hl]) ?_
  intro i s s' hs hs'
  simp only [List.getElem?_map, Option.map_eq_some_iff] at hs hs'
  obtain ⟨b, hb, rfl⟩ := hs
  obtain ⟨c, ⟨b', hb', rfl⟩, rfl⟩ := hs'
  rw [hb] at hb'
  cases hb'
  exact hk b

theorem carried_doubles {m n : Nat} {l : List (BitVec 64)} (hm : env.sch m = row n .double) (hl : l.length = n) :
    Carried env (.msg m) (.msg (doubles l)) (.msg (doubles (l.map pz64))) := by
  rw [doubles_eq, doubles_eq]
  refine carried_row hm (by simp [hl]) (by simp [hl]) ?_
  intro i s s' hs hs'
  simp only [List.getElem?_map, Option.map_eq_some_iff] at hs hs'
  obtain ⟨b, hb, rfl⟩ := hs
  obtain ⟨c, ⟨b', hb', rfl⟩, rfl⟩ := hs'
  rw [hb] at hb'
  cases hb'
  exact field_double b

theorem hasTy_int32s {m n : Nat} {k : Kind} (hk : ∀ b, k.holds (.w32 b) = true) {l : List (BitVec 32)} (hm : env.sch m = row n k)
    (hl : l.length = n) : WellTyped env m (int32s l) := by
  rw [int32s_eq]
  refine hasTy_row hm (by simp [hl]) ?_
  intro s hs
  obtain ⟨b, _, rfl⟩ := List.mem_map.mp hs
  exact hk b

theorem hasTy_doubles {m n : Nat} {l : List (BitVec 64)} (hm : env.sch m = row n .double)
    (hl : l.length = n) : WellTyped env m (doubles l) := by
  rw [doubles_eq]
  refine hasTy_row hm (by simp [hl]) ?_
  intro s hs
  obtain ⟨b, _, rfl⟩ := List.mem_map.mp hs
  rfl

theorem carried_points {m m1 a : Nat} {α : Type} {g g' : α → Obj} (hm : env.sch m = [⟨a, .msgList m1⟩])
    (h : ∀ p, Carried env (.msg m1) (.msg (g p)) (.msg (g' p))) (l : List α) :
    Carried env (.msg m) (.msg [.msgList (l.map fun p => .msg (g p))]) (.msg [.msgList (l.map fun p => .msg (g' p))]) := by
  refine .msg (by simp [hm]) (by simp [hm]) ?_
  intro i f v v' hf hv hv'
  rw [hm] at hf
  match i with
  | 0 =>
    cases hf; cases hv; cases hv'
    have e1 : (l.map fun p => Val.msg (g p)) = (l.map g).map Val.msg := by simp
    have e2 : (l.map fun p => Val.msg (g' p)) = (l.map g').map Val.msg := by simp
    rw [e1, e2]
    refine .msgList (by simp) ?_
    intro i o o' ho ho'
    simp only [List.getElem?_map, Option.map_eq_some_iff] at ho ho'
    obtain ⟨p, hp, rfl⟩ := ho
    obtain ⟨p', hp', rfl⟩ := ho'
    rw [hp] at hp'
    cases hp'
    exact h p
  | i + 1 => simp at hv

theorem hasTy_points {m m1 a : Nat} {α : Type} {g : α → Obj} (hm : env.sch m = [⟨a, .msgList m1⟩])
    (h : ∀ p, WellTyped env m1 (g p)) (l : List α) : WellTyped env m [.msgList (l.map fun p => .msg (g p))] := by
  refine .msg (by simp [hm]) ?_
  intro i f v hf hv
  rw [hm] at hf
  match i with
  | 0 =>
    cases hf; cases hv
    refine .msgList ?_
    intro v hv
    obtain ⟨p, _, rfl⟩ := List.mem_map.mp hv
    exact h p
  | i + 1 => simp at hv

theorem qtSch_all {P : Nat → List Field → Prop} (h : ∀ m : Fin 20, P m.1 (qtSch m.1)) (h0 : ∀ m, P m []) : ∀ m, P m (qtSch m) := by
  intro m
  by_cases hm : m < 20
  · exact h ⟨m, hm⟩
  · have : qtSch m = [] := by
      match m, hm with
      | m + 20, _ => rfl
    rw [this]
    exact h0 m

theorem qtSch_valid (hs : env.sch = qtSch) : ValidSchema env := by
  intro m
  rw [hs]
  exact qtSch_all (P := fun _ l => (l.map (·.num)).Nodup ∧ ∀ f ∈ l, 1 ≤ f.num ∧ f.num < 2 ^ 29) (by decide +kernel) (by simp) m

theorem qtSch_noBool (hs : env.sch = qtSch) : NoRepeatedBool env := by
  intro m
  rw [hs]
  exact qtSch_all (P := fun _ l => ∀ f ∈ l, f.ty ≠ .list .bool) (by decide +kernel) (by simp) m

theorem qtSch_acyclic (hs : env.sch = qtSch) : Acyclic env (fun m => m) := by
  intro m
  rw [hs]
  refine qtSch_all (P := fun m l => ∀ f ∈ l, ∀ m', f.ty = .msg m' → m' < m) ?_ (by simp) m
  intro m f hf m' hm'
  have : ∀ m : Fin 20, ∀ f ∈ qtSch m.1, (match f.ty with | .msg m' => decide (m' < m.1) | _ => true) = true := by decide +kernel
  have := this m f hf
  rw [hm'] at this
  simpa using this

/-- Each converted value is an object of its message type and arrives as the conversion of the value without negative zeros. -/
theorem toMessage_carried (hs : env.sch = qtSch) (ha : ∀ u : QUuid, env.fromUtf8 (env.toUtf8 u.text) = u.text) {q : QtVal} {o : Obj}
    (h : toMessage q = .ok o) : WellTyped env q.msg o ∧ ∃ o', toMessage (plusZero q) = .ok o' ∧
      Carried env (.msg q.msg) (.msg o) (.msg o') := by
  have sch : ∀ m, env.sch m = qtSch m := fun m => congrFun hs m
  have si : ∀ {m n} {l : List (BitVec 32)}, qtSch m = row n .sint32 → l.length = n →
      Carried env (.msg m) (.msg (int32s l)) (.msg (int32s l)) := by
    intro m n l hm hl
    have := carried_int32s (env := env) (m := m) (n := n) (g := id) field_sint32 (by rw [sch, hm]) hl
    rwa [List.map_id] at this
  have st : ∀ {m n} {l : List (BitVec 32)}, qtSch m = row n .sint32 → l.length = n → WellTyped env m (int32s l) :=
    fun hm hl => hasTy_int32s (fun _ => rfl) (by rw [sch, hm]) hl
  have fi : ∀ {m n} {l : List (BitVec 32)}, qtSch m = row n .float → l.length = n →
      Carried env (.msg m) (.msg (int32s l)) (.msg (int32s (l.map pz32))) :=
    fun hm hl => carried_int32s field_float (by rw [sch, hm]) hl
  have ft : ∀ {m n} {l : List (BitVec 32)}, qtSch m = row n .float → l.length = n → WellTyped env m (int32s l) :=
    fun hm hl => hasTy_int32s (fun _ => rfl) (by rw [sch, hm]) hl
  have di : ∀ {m n} {l : List (BitVec 64)}, qtSch m = row n .double → l.length = n →
      Carried env (.msg m) (.msg (doubles l)) (.msg (doubles (l.map pz64))) :=
    fun hm hl => carried_doubles (by rw [sch, hm]) hl
  have dt : ∀ {m n} {l : List (BitVec 64)}, qtSch m = row n .double → l.length = n → WellTyped env m (doubles l) :=
    fun hm hl => hasTy_doubles (by rw [sch, hm]) hl
  cases q with
  | char c =>
    cases h
    refine ⟨?_, _, rfl, ?_⟩
    · refine .msg (by rw [sch]; rfl) ?_
      intro i f v hf hv
      rw [sch] at hf
      match i with
      | 0 => cases hf; cases hv; exact .sc rfl
      | i + 1 => simp [charTo] at hv
    · refine .msg (by rw [sch]; rfl) (by rw [sch]; rfl) ?_
      intro i f v v' hf hv hv'
      rw [sch] at hf
      match i with
      | 0 => cases hf; cases hv; cases hv'; exact .sc rfl
      | i + 1 => simp [charTo] at hv
  | uuid u =>
    cases h
    refine ⟨?_, _, rfl, ?_⟩
    · refine .msg (by rw [sch]; rfl) ?_
      intro i f v hf hv
      rw [sch] at hf
      match i with
      | 0 => cases hf; cases hv; exact .sc rfl
      | i + 1 => simp [uuidTo] at hv
    · refine .msg (by rw [sch]; rfl) (by rw [sch]; rfl) ?_
      intro i f v v' hf hv hv'
      rw [sch] at hf
      match i with
      | 0 =>
        cases hf; cases hv; cases hv'
        refine .sc ?_
        have hne : u.text ≠ [] := by simp [QUuid.text]
        simp only [fieldScalar, isAbsent, Bool.false_eq_true, if_false, transmitted, Option.getD_some, ha, defaultScalar, scalarEq,
          Option.getD_none, beq_iff_eq]
        rw [if_neg (fun e => hne e.symm)]
      | i + 1 => simp [uuidTo] at hv
  | time t => cases h; exact ⟨st (n := 1) rfl rfl, _, rfl, si (n := 1) rfl rfl⟩
  | date d => cases h; exact ⟨st (n := 3) rfl rfl, _, rfl, si (n := 3) rfl rfl⟩
  | dateTime d =>
    cases h
    exact ⟨hasTy_pair (by rw [sch]; rfl) (st (n := 3) rfl rfl) (st (n := 1) rfl rfl), _, rfl,
      carried_pair (by rw [sch]; rfl) (si (n := 3) rfl rfl) (si (n := 1) rfl rfl)⟩
  | size s => cases h; exact ⟨st (n := 2) rfl rfl, _, rfl, si (n := 2) rfl rfl⟩
  | sizeF s => cases h; exact ⟨dt (n := 2) rfl rfl, _, rfl, di (n := 2) rfl rfl⟩
  | point p => cases h; exact ⟨st (n := 2) rfl rfl, _, rfl, si (n := 2) rfl rfl⟩
  | pointF p => cases h; exact ⟨dt (n := 2) rfl rfl, _, rfl, di (n := 2) rfl rfl⟩
  | rect r =>
    simp only [toMessage, rectTo, Res.bind_eq, Res.bind_eq_ok] at h
    obtain ⟨w, hw, k, hk, h⟩ := h
    cases h
    refine ⟨hasTy_pair (by rw [sch]; rfl) (st (n := 2) rfl rfl) (st (n := 2) rfl rfl), _, ?_,
      carried_pair (by rw [sch]; rfl) (si (n := 2) rfl rfl) (si (n := 2) rfl rfl)⟩
    simp only [plusZero, toMessage, rectTo, hw, hk, Res.bind_eq, Res.bind]
    rfl
  | rectF r =>
    cases h
    exact ⟨hasTy_pair (by rw [sch]; rfl) (dt (n := 2) rfl rfl) (dt (n := 2) rfl rfl), _, rfl,
      carried_pair (by rw [sch]; rfl) (di (n := 2) rfl rfl) (di (n := 2) rfl rfl)⟩
  | polygon l =>
    cases h
    exact ⟨hasTy_points (by rw [sch]; rfl) (fun p => st (n := 2) rfl rfl) l, _, rfl,
      carried_points (by rw [sch]; rfl) (fun p => si (n := 2) rfl rfl) l⟩
  | polygonF l =>
    cases h
    refine ⟨hasTy_points (by rw [sch]; rfl) (fun p => dt (n := 2) rfl rfl) l, _, rfl, ?_⟩
    have := carried_points (env := env) (m := mPolygonF) (g := pointFTo) (g' := fun p => pointFTo ⟨pz64 p.x, pz64 p.y⟩) (by rw [sch]; rfl)
      (fun p => di (n := 2) rfl rfl) l
    simp only [polygonFTo, List.map_map]
    exact this
  | color c =>
    cases h
    refine ⟨hasTy_int32s (n := 1) (fun _ => rfl) (by rw [sch]; rfl) rfl, _, rfl, ?_⟩
    have := carried_int32s (env := env) (m := mColor) (n := 1) (g := id) field_uint32 (by rw [sch]; rfl) (l := [c.rgba]) rfl
    rwa [List.map_id] at this
  | matrix q => cases h; exact ⟨ft (n := 16) rfl rfl, _, rfl, fi (n := 16) rfl rfl⟩
  | vector2 v => cases h; exact ⟨ft (n := 2) rfl rfl, _, rfl, fi (n := 2) rfl rfl⟩
  | vector3 v => cases h; exact ⟨ft (n := 3) rfl rfl, _, rfl, fi (n := 3) rfl rfl⟩
  | vector4 v => cases h; exact ⟨ft (n := 4) rfl rfl, _, rfl, fi (n := 4) rfl rfl⟩
  | transform t => cases h; exact ⟨dt (n := 9) rfl rfl, _, rfl, di (n := 9) rfl rfl⟩
  | quaternion q =>
    cases h
    have h1 : WellTyped env mVector3 (vector3To ⟨q.x, q.y, q.z⟩) := ft (n := 3) rfl rfl
    have h2 : Carried env (.msg mVector3) (.msg (vector3To ⟨q.x, q.y, q.z⟩)) (.msg (vector3To ⟨pz32 q.x, pz32 q.y, pz32 q.z⟩)) :=
      fi (n := 3) rfl rfl
    refine ⟨?_, _, rfl, ?_⟩
    · refine .msg (by rw [sch]; rfl) ?_
      intro i f v hf hv
      rw [sch] at hf
      match i with
      | 0 => cases hf; cases hv; exact .sc rfl
      | 1 => cases hf; cases hv; exact h1
      | i + 2 => simp [quaternionTo] at hv
    · refine .msg (by rw [sch]; rfl) (by rw [sch]; rfl) ?_
      intro i f v v' hf hv hv'
      rw [sch] at hf
      match i with
      | 0 => cases hf; cases hv; cases hv'; exact .sc (field_float _)
      | 1 => cases hf; cases hv; cases hv'; exact h2
      | i + 2 => simp [quaternionTo] at hv

theorem faithful_plusZero {q : QtVal} (h : Faithful q) : Faithful (plusZero q) := by
  cases q <;> first | exact h | exact trivial

theorem msg_plusZero (q : QtVal) : (plusZero q).msg = q.msg := by cases q <;> rfl

end QtPb.Qt
