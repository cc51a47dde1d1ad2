import Verif.Basic
/-
Model of the conversions between `QDateTime` and the generated `google::protobuf::Timestamp`
(src/generator/messagedefinitionprinter.cpp:119-128). A `QDateTime` is the number of milliseconds since the
epoch that `toMSecsSinceEpoch` returns and `fromMSecsSinceEpoch` takes; time zones are not modelled.
-/
namespace QtPb.Timestamp

/-- The two data members: `int64 seconds` and `int32 nanos`. -/
structure Timestamp where
  seconds : BitVec 64
  nanos : BitVec 32
deriving DecidableEq, Repr

/-- The result of signed 64 bit arithmetic: undefined if it does not fit. -/
def int64 (v : Int) : Res Int := if -2 ^ 63 ≤ v ∧ v < 2 ^ 63 then .ok v else .ub

/-- Constructor from a `QDateTime` (messagedefinitionprinter.cpp:120-123): `/` and `%` of C++ round towards
zero, the initialisation of `m_nanos` converts to 32 bits. -/
def fromDateTime (msecs : BitVec 64) : Res Timestamp := do
  let seconds ← int64 (msecs.toInt.tdiv 1000)
  let nanos ← int64 (msecs.toInt.tmod 1000 * 1000)
  .ok ⟨BitVec.ofInt 64 seconds, BitVec.ofInt 32 nanos⟩

/-- `operator QDateTime` (messagedefinitionprinter.cpp:124-127). -/
def toDateTime (t : Timestamp) : Res (BitVec 64) := do
  let a ← int64 (t.seconds.toInt * 1000)
  let r ← int64 (a + t.nanos.toInt.tdiv 1000)
  .ok (BitVec.ofInt 64 r)

end QtPb.Timestamp
