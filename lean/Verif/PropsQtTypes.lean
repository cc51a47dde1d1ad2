import Verif.QtTypeLemmas
import Verif.Demo
/-
C45: values of Qt's own types as fields of messages.
-/
namespace QtPb.Qt
open Spec

variable {env : Env}

/-- Converting a Qt value to its message and back gives the same value: for all sizes, points, floating point rectangles,
polygons, matrices, vectors, transforms, quaternions, UUIDs and characters, for dates of the calendar, times that are not
null, local date-times, rectangles whose far edge is below 2^31-1, and 8 bit RGB colours (`Faithful`). -/
theorem C45_convert_roundtrip_partial {q : QtVal} (h : Faithful q) :
    ∃ o, toMessage q = .ok o ∧ fromMessage env q.msg o = .ok q := convert_roundtrip h

-- An asymmetric rectangle with negative corner, a leap day, a colour, a matrix.
example : Faithful (.rect ⟨BitVec.ofInt 32 (-5), 7, 100, BitVec.ofInt 32 (-20)⟩) ∧
    toMessage (.rect ⟨BitVec.ofInt 32 (-5), 7, 100, BitVec.ofInt 32 (-20)⟩) =
      .ok [.msg (int32s [BitVec.ofInt 32 (-5), 7]), .msg (int32s [106, BitVec.ofInt 32 (-26)])] := by
  refine ⟨?_, rfl⟩
  simp only [Faithful, Fits]
  decide
example : Faithful (.date ⟨some (2024, 2, 29)⟩) := by
  intro y m d h
  cases h
  exact (validDate_iff _ _ _).mp (by decide)
example : Faithful (.color ⟨.rgb, 0xffff, 0x1212, 0x3434, 0x5656⟩) :=
  ⟨rfl, ⟨0xff, by decide⟩, ⟨0x12, by decide⟩, ⟨0x34, by decide⟩, ⟨0x56, by decide⟩⟩
example : Faithful (.dateTime ⟨⟨some (1999, 12, 31)⟩, ⟨86399999⟩, .local⟩) := by
  refine ⟨rfl, ?_, by decide, fun _ => by unfold QTime.OfDay; decide⟩
  intro y m d h
  cases h
  exact (validDate_iff _ _ _).mp (by decide)

theorem ascii_hex (l : List UInt8) : ∀ c ∈ hexBytes l, c.toNat < 128 := by
  have h16 : ∀ n : Fin 16, (hexChar n.1).toNat < 128 := by decide
  induction l with
  | nil => simp [hexBytes]
  | cons b l ih =>
    have hb := b.toNat_lt
    intro c hc
    simp only [hexBytes, List.mem_cons] at hc
    rcases hc with rfl | rfl | hc
    · exact h16 ⟨b.toNat / 16, by omega⟩
    · exact h16 ⟨b.toNat % 16, by omega⟩
    · exact ih c hc

theorem ascii_uuid (u : QUuid) : ∀ c ∈ u.text, c.toNat < 128 := by
  intro c hc
  simp only [QUuid.text, List.mem_append, List.mem_cons, List.not_mem_nil, or_false] at hc
  rcases hc with ((((((rfl | hc) | rfl | hc) | rfl | hc) | rfl | hc) | rfl | hc) | rfl) <;>
    first | decide | exact ascii_hex _ c hc

/-- A Qt value sent as field `num` of a message arrives: the serializer writes the tag of a length delimited field and then
bytes from which the deserializer, whatever stands before and after them, gets the same value, bit for bit except that -0.0
becomes 0.0, and stops exactly behind them. `sch` is the schema of QtCore.proto and QtGui.proto; the order in which
the fields of a message are written is arbitrary; UTF-8 is only used for ASCII text. -/
theorem C45_wire_roundtrip_partial (hs : env.sch = qtSch) (ho : ValidOrder env)
    (ha : ∀ t : List Char, (∀ c ∈ t, c.toNat < 128) → env.fromUtf8 (env.toUtf8 t) = t)
    {q : QtVal} (h : Faithful q) {num : Nat} (hn : 1 ≤ num ∧ num < 2 ^ 29) :
    ∃ N tag bs, Tag tag num 2 ∧ (∀ n, N ≤ n → handlerSerialize env n num q = .ok (tag ++ bs)) ∧
      ∀ pre rest : Bytes, (pre ++ bs ++ rest).length < 2 ^ 31 → ∀ k, bs.length < k →
        handlerDeserialize env k q.msg ⟨pre ++ bs ++ rest, pre.length⟩ =
          .ok (plusZero q, ⟨pre ++ bs ++ rest, pre.length + bs.length⟩) := by
  obtain ⟨o, h1, _⟩ := convert_roundtrip (env := env) h
  obtain ⟨ht, o', h2, hc⟩ := toMessage_carried hs (fun u => ha _ (ascii_uuid u)) h1
  obtain ⟨o'', h3, h4⟩ := convert_roundtrip (env := env) (faithful_plusZero h)
  rw [h2] at h3
  cases h3
  rw [msg_plusZero] at h4
  obtain ⟨N, body, hb⟩ := C20_serialize_terminates_partial (qtSch_acyclic hs) (qtSch_noBool hs) ht
  refine ⟨N, encodeHeader num wtLengthDelimited, prependLengthDelimitedSize body, encodeHeader_tag hn.1 hn.2 (by decide), ?_, ?_⟩
  · intro n hN
    simp only [handlerSerialize, h1, hb n hN, Res.bind_eq, Res.bind]
    rfl
  · intro pre rest hlen k hk
    simp only [prependLengthDelimitedSize] at hlen hk ⊢
    have hbl : body.length < 2 ^ 31 := by simp only [List.length_append] at hlen; omega
    have hat : At ⟨pre ++ (serializeVarintCommon 32 body.length ++ body) ++ rest, pre.length⟩
        (serializeVarintCommon 32 body.length ++ body ++ rest) := by
      refine ⟨hlen, by simp only [List.length_append]; omega, ?_⟩
      simp [It.rest]
    have hl : Varint (serializeVarintCommon 32 body.length) body.length := prepend_varint (by omega)
    have hk' : body.length < k := by simp only [List.length_append] at hk; omega
    have hd := deserializeObject_of (n := k) (rec := deserializeMessage env k)
      (Sub := fun m b o2 => m = q.msg ∧ b = body ∧ o2 = o') (by
        rintro m b o2 ⟨rfl, rfl, rfl⟩ hbl hbk
        obtain ⟨o2, e1, e2⟩ := C01_roundtrip_exact (qtSch_valid hs) ho ht (hb N (Nat.le_refl _)) hbl hbk
        have := carried_arrives hc _ e2
        cases this
        exact e1) (m := q.msg) hl ⟨rfl, rfl, rfl⟩ hat hk'
    simp only [handlerDeserialize, hd, Res.bind_eq, Res.bind, h4]

/-- Values without floating point members come back exactly, others up to the sign of zeros. -/
theorem C45_plusZero_small (q : QtVal) (b : BitVec 32) (c : BitVec 64) :
    (b ≠ 0x80000000#32 → pz32 b = b) ∧ (c ≠ 0x8000000000000000#64 → pz64 c = c) ∧
      (∀ s, plusZero (.size s) = .size s) ∧ (∀ r, plusZero (.rect r) = .rect r) ∧ (plusZero q).msg = q.msg :=
  ⟨fun h => if_neg h, fun h => if_neg h, fun _ => rfl, fun _ => rfl, msg_plusZero q⟩

/-- The environment of the examples: fields back to front, Latin-1. -/
def qtEnv : Env := { demoEnv with sch := qtSch, ord := fun m => (List.range (qtSch m).length).reverse }

theorem qtEnv_ok : qtEnv.sch = qtSch ∧ ValidOrder qtEnv ∧
    ∀ t : List Char, (∀ c ∈ t, c.toNat < 128) → qtEnv.fromUtf8 (qtEnv.toUtf8 t) = t := by
  refine ⟨rfl, fun m => List.reverse_perm _, ?_⟩
  intro t
  induction t with
  | nil => intro; rfl
  | cons c t ih =>
    intro h
    have h1 := ih (fun d hd => h d (by simp [hd]))
    have h2 := h c (by simp)
    simp only [qtEnv, demoEnv, List.map_cons] at h1 ⊢
    rw [h1]
    congr 1
    rw [UInt8.toNat_ofNat']
    rw [Nat.mod_eq_of_lt (by omega)]
    exact Char.ofNat_toNat c

example : handlerSerialize qtEnv 5 3 (.point ⟨1, BitVec.ofInt 32 (-2)⟩) = .ok [0x1a, 4, 0x10, 3, 0x08, 2] := by decide +kernel
example := C45_wire_roundtrip_partial qtEnv_ok.1 qtEnv_ok.2.1 qtEnv_ok.2.2 (q := .point ⟨1, BitVec.ofInt 32 (-2)⟩) trivial
  (num := 3) (by decide)

/-! ### Where it fails -/

/-- A null time comes back as midnight. -/
theorem C45_null_time_violated : ∃ o, toMessage (.time ⟨-1⟩) = .ok o ∧ fromMessage env mTime o = .ok (.time ⟨0⟩) :=
  ⟨_, rfl, rfl⟩

/-- A date-time in UTC comes back as the same time of day in the local zone. -/
theorem C45_utc_violated (d : QDate) (t : QTime) (hd : d.Valid) (ht : t.OfDay) : ∃ o, toMessage (.dateTime ⟨d, t, .utc⟩) = .ok o ∧
    fromMessage env mDateTime o = .ok (.dateTime ⟨d, t, .local⟩) := by
  have h3 : t.mds ≠ -1 := by
    intro e
    rw [QTime.OfDay, e] at ht
    exact absurd ht (by decide)
  obtain ⟨o, h1, h2⟩ := convert_roundtrip (env := env) (q := .dateTime ⟨d, t, .local⟩) ⟨rfl, hd, h3, fun _ => ht⟩
  exact ⟨o, h1, h2⟩

example : (QTime.mk 43200000).OfDay ∧ QDate.Valid ⟨some (2024, 2, 29)⟩ := by
  refine ⟨by unfold QTime.OfDay; decide, fun y m d h => ?_⟩
  cases h
  exact ⟨by decide, by decide, Or.inr (Or.inr ⟨by decide, Or.inr ⟨by decide, 2024, by decide, by decide,
    by decide, by decide⟩⟩)⟩

/-- An invalid colour comes back as opaque black or whatever its components are, and a colour with 16 bits per component
loses the lower 8. -/
theorem C45_color_violated : (∃ o, toMessage (.color ⟨.invalid, 0xffff, 0, 0, 0⟩) = .ok o ∧
      fromMessage env mColor o = .ok (.color ⟨.rgb, 0xffff, 0, 0, 0⟩)) ∧
    ∃ o, toMessage (.color ⟨.rgb, 0xffff, 0x1234, 0, 0⟩) = .ok o ∧
      fromMessage env mColor o = .ok (.color ⟨.rgb, 0xffff, 0x1212, 0, 0⟩) :=
  ⟨⟨int32s [0xff000000], rfl, rfl⟩, ⟨int32s [0xff120000], rfl, rfl⟩⟩

/-- A rectangle that reaches the last coordinate: the conversion back overflows, which is undefined. -/
theorem C45_rect_edge_violated (a b : BitVec 32) (ha : 0 < a.toInt) :
    ∃ o, toMessage (.rect ⟨a, b, 0x7fffffff, b⟩) = .ok o ∧ fromMessage env mRect o = .ub := by
  have h1 := BitVec.toInt_lt (x := a)
  have e0 : (0x7fffffff : BitVec 32).toInt = 2147483647 := by decide
  obtain ⟨g1, g2⟩ := int32_ok (v := (0x7fffffff : BitVec 32).toInt - a.toInt) (by omega)
  obtain ⟨g3, g4⟩ := int32_ok (v := (0x7fffffff : BitVec 32).toInt - a.toInt + 1) (by omega)
  have hb : extent b b = .ok 1 := by simp [extent, int32, Res.bind_eq, Res.bind]
  have hx : extent a 0x7fffffff = .ok (BitVec.ofInt 32 ((0x7fffffff : BitVec 32).toInt - a.toInt + 1)) := by
    simp only [extent, g1, Res.bind_eq, Res.bind, g2, g3]
  refine ⟨[.msg (pointTo ⟨a, b⟩), .msg (sizeTo ⟨BitVec.ofInt 32 ((0x7fffffff : BitVec 32).toInt - a.toInt + 1), 1⟩)], ?_, ?_⟩
  · simp only [toMessage, rectTo, hx, hb, Res.bind_eq, Res.bind]
  · show (rectFrom env _ >>= fun r => Res.ok (QtVal.rect r)) = _
    have : rectFrom env [.msg (pointTo ⟨a, b⟩), .msg (sizeTo ⟨BitVec.ofInt 32 ((0x7fffffff : BitVec 32).toInt - a.toInt + 1), 1⟩)]
        = (farEnd a (BitVec.ofInt 32 ((0x7fffffff : BitVec 32).toInt - a.toInt + 1)) >>= fun x2 => farEnd b 1 >>= fun y2 =>
            Res.ok ⟨a, b, x2, y2⟩) := rfl
    rw [this]
    have hu : farEnd a (BitVec.ofInt 32 ((0x7fffffff : BitVec 32).toInt - a.toInt + 1)) = .ub := by
      have hn : ¬ (-2 ^ 31 ≤ a.toInt + ((0x7fffffff : BitVec 32).toInt - a.toInt + 1) ∧
          a.toInt + ((0x7fffffff : BitVec 32).toInt - a.toInt + 1) < 2 ^ 31) := by omega
      simp only [farEnd, g4, int32, if_neg hn, Res.bind_eq, Res.bind]
    simp only [hu, Res.bind_eq, Res.bind]

example : (0 : Int) < (1#32).toInt := by decide

/-- A polygon message with a null element, which a program can build, is dereferenced: undefined. -/
theorem C45_polygon_null_violated (pre : List QPoint) (rest : List Val) :
    fromMessage env mPolygon [.msgList (pre.map (fun p => .msg (pointTo p)) ++ .msgNull :: rest)] = .ub := by
  show (derefAll pointFrom _ >>= fun l => Res.ok (QtVal.polygon l)) = _
  have : ∀ pre : List QPoint, derefAll pointFrom (pre.map (fun p => Val.msg (pointTo p)) ++ .msgNull :: rest) = .ub := by
    intro pre
    induction pre with
    | nil => rfl
    | cons p pre ih => simp only [List.map_cons, List.cons_append, derefAll, ih, Res.bind_eq, Res.bind]
  show (derefAll pointFrom (pre.map (fun p => Val.msg (pointTo p)) ++ .msgNull :: rest) >>= fun l => Res.ok (QtVal.polygon l)) = _
  rw [this]
  rfl

end QtPb.Qt
