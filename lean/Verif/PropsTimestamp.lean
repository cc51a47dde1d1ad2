import Verif.Timestamp
/-
C46: `QDateTime` and `google.protobuf.Timestamp`.
-/
namespace QtPb.Timestamp

/-- The definition of google.protobuf.Timestamp (timestamp.proto): the instant in nanoseconds since the epoch
that seconds and nanos stand for. -/
def Spec.instant (t : Timestamp) : Int := t.seconds.toInt * 10 ^ 9 + t.nanos.toInt

/-- What timestamp.proto demands of `nanos`. -/
def Spec.normal (t : Timestamp) : Prop := 0 ≤ t.nanos.toInt ∧ t.nanos.toInt < 10 ^ 9

theorem toInt_range (b : BitVec 64) : -2 ^ 63 ≤ b.toInt ∧ b.toInt < 2 ^ 63 :=
  ⟨by have := BitVec.le_toInt b; omega, by have := @BitVec.toInt_lt 64 b; omega⟩

theorem tdiv_facts (x : Int) : x = 1000 * x.tdiv 1000 + x.tmod 1000 ∧ (0 ≤ x → 0 ≤ x.tmod 1000 ∧ x.tmod 1000 < 1000) ∧
    (x < 0 → -1000 < x.tmod 1000 ∧ x.tmod 1000 ≤ 0) := by
  refine ⟨(Int.mul_tdiv_add_tmod x 1000).symm, fun h => ⟨Int.tmod_nonneg _ h, Int.tmod_lt_of_pos _ (by decide)⟩, fun h => ?_⟩
  have e : x.tmod 1000 = -((-x).tmod 1000) := by rw [Int.neg_tmod]; omega
  have h1 := Int.tmod_nonneg 1000 (show 0 ≤ -x by omega)
  have h2 := Int.tmod_lt_of_pos (-x) (show (0 : Int) < 1000 by decide)
  omega

theorem fromDateTime_eq (msecs : BitVec 64) :
    fromDateTime msecs = .ok ⟨BitVec.ofInt 64 (msecs.toInt.tdiv 1000), BitVec.ofInt 32 (msecs.toInt.tmod 1000 * 1000)⟩ := by
  have h := toInt_range msecs
  have hd := tdiv_facts msecs.toInt
  have h1 : -2 ^ 63 ≤ msecs.toInt.tdiv 1000 ∧ msecs.toInt.tdiv 1000 < 2 ^ 63 := by omega
  have h2 : -2 ^ 63 ≤ msecs.toInt.tmod 1000 * 1000 ∧ msecs.toInt.tmod 1000 * 1000 < 2 ^ 63 := by omega
  simp only [fromDateTime, int64, if_pos h1, if_pos h2]
  rfl

theorem members (msecs : BitVec 64) {t : Timestamp} (h : fromDateTime msecs = .ok t) :
    t.seconds.toInt = msecs.toInt.tdiv 1000 ∧ t.nanos.toInt = msecs.toInt.tmod 1000 * 1000 := by
  rw [fromDateTime_eq] at h
  cases h
  have hr := toInt_range msecs
  have hd := tdiv_facts msecs.toInt
  simp only [BitVec.toInt_ofInt]
  constructor <;> (rw [Int.bmod_eq_of_le] <;> omega)

/-- Every `QDateTime` survives the conversion to Timestamp and back. -/
theorem C46_roundtrip (msecs : BitVec 64) : (fromDateTime msecs).bind toDateTime = .ok msecs := by
  have hr := toInt_range msecs
  have hd := tdiv_facts msecs.toInt
  rw [fromDateTime_eq]
  obtain ⟨hs, hn⟩ := members msecs (fromDateTime_eq msecs)
  show toDateTime _ = _
  have h1 : -2 ^ 63 ≤ msecs.toInt.tdiv 1000 * 1000 ∧ msecs.toInt.tdiv 1000 * 1000 < 2 ^ 63 := by omega
  have e : msecs.toInt.tdiv 1000 * 1000 + (msecs.toInt.tmod 1000 * 1000).tdiv 1000 = msecs.toInt := by
    rw [Int.mul_tdiv_cancel _ (by decide)]; omega
  simp only [toDateTime, hs, hn, int64, if_pos h1]
  show (if _ then Res.ok _ else _ : Res Int).bind _ = _
  rw [e, if_pos hr]
  show Res.ok (BitVec.ofInt 64 msecs.toInt) = _
  rw [BitVec.ofInt_toInt]

/-- For whole seconds the Timestamp is the right one. -/
theorem C46_instant_partial (msecs : BitVec 64) (h : msecs.toInt % 1000 = 0) :
    ∃ t, fromDateTime msecs = .ok t ∧ Spec.normal t ∧ Spec.instant t = msecs.toInt * 10 ^ 6 := by
  refine ⟨_, fromDateTime_eq msecs, ?_⟩
  obtain ⟨hs, hn⟩ := members msecs (fromDateTime_eq msecs)
  have hd := tdiv_facts msecs.toInt
  simp only [Spec.normal, Spec.instant]
  rw [hs, hn]
  omega

/-- What is missing: for every other instant, the Timestamp stands for a different one. -/
theorem C46_instant_violated (msecs : BitVec 64) (h : msecs.toInt % 1000 ≠ 0) :
    ∃ t, fromDateTime msecs = .ok t ∧ Spec.instant t ≠ msecs.toInt * 10 ^ 6 := by
  refine ⟨_, fromDateTime_eq msecs, ?_⟩
  obtain ⟨hs, hn⟩ := members msecs (fromDateTime_eq msecs)
  have hd := tdiv_facts msecs.toInt
  simp only [Spec.instant]
  rw [hs, hn]
  omega

/-- `nanos` is out of its range exactly for instants before the epoch that are no whole seconds. -/
theorem C46_normal_partial (msecs : BitVec 64) :
    ∃ t, fromDateTime msecs = .ok t ∧ (Spec.normal t ↔ 0 ≤ msecs.toInt ∨ msecs.toInt % 1000 = 0) := by
  refine ⟨_, fromDateTime_eq msecs, ?_⟩
  obtain ⟨hs, hn⟩ := members msecs (fromDateTime_eq msecs)
  have hd := tdiv_facts msecs.toInt
  simp only [Spec.normal]
  rw [hn]
  omega

/-- A Timestamp written by another implementation is read as the right instant (to the millisecond) if and only
if its fraction is below a microsecond. `hs`: the range timestamp.proto allows is smaller than this one. -/
theorem C46_read_partial (t : Timestamp) (hn : Spec.normal t) (hs : -2 ^ 53 ≤ t.seconds.toInt ∧ t.seconds.toInt < 2 ^ 53) :
    ∃ msecs, toDateTime t = .ok msecs ∧ (msecs.toInt = Spec.instant t / 10 ^ 6 ↔ t.nanos.toInt < 1000) := by
  simp only [Spec.normal] at hn
  have hd := tdiv_facts t.nanos.toInt
  have h1 : -2 ^ 63 ≤ t.seconds.toInt * 1000 ∧ t.seconds.toInt * 1000 < 2 ^ 63 := by omega
  have h2 : -2 ^ 63 ≤ t.seconds.toInt * 1000 + t.nanos.toInt.tdiv 1000 ∧
      t.seconds.toInt * 1000 + t.nanos.toInt.tdiv 1000 < 2 ^ 63 := by omega
  refine ⟨BitVec.ofInt 64 (t.seconds.toInt * 1000 + t.nanos.toInt.tdiv 1000), ?_, ?_⟩
  · simp only [toDateTime, int64, if_pos h1]
    show (if _ then Res.ok _ else _ : Res Int).bind _ = _
    rw [if_pos h2]
    rfl
  · simp only [Spec.instant, BitVec.toInt_ofInt]
    rw [Int.bmod_eq_of_le (by omega) (by omega)]
    omega

/-- A Timestamp from the network can make the conversion overflow. -/
theorem C46_overflow_violated : ∃ t, Spec.normal t ∧ toDateTime t = .ub :=
  ⟨⟨9223372036854775807#64, 0#32⟩, ⟨by decide, by decide⟩, by decide⟩

/-- 2020-01-01 00:00:00.500 UTC. -/
example : fromDateTime 1577836800500#64 = .ok ⟨1577836800#64, 500000#32⟩ := by decide
/-- Half a second before the epoch. -/
example : fromDateTime (BitVec.ofInt 64 (-500)) = .ok ⟨0#64, BitVec.ofInt 32 (-500000)⟩ := by decide

end QtPb.Timestamp
