import Verif.QtTypes
/-
Specification for C45: which values of Qt's types are expected to survive, and what becomes of negative zeros.
-/
namespace QtPb.Qt

/-- Leap years of the Gregorian calendar. The year before 1 is -1. -/
def LeapYear (y : Int) : Prop :=
  ∃ a, (0 < y → a = y) ∧ (y < 0 → a = y + 1) ∧ 4 ∣ a ∧ (100 ∣ a → 400 ∣ a)

/-- A day of the Gregorian calendar. -/
def CalendarDay (y m d : Int) : Prop := y ≠ 0 ∧ 1 ≤ d ∧
  ((m = 1 ∨ m = 3 ∨ m = 5 ∨ m = 7 ∨ m = 8 ∨ m = 10 ∨ m = 12) ∧ d ≤ 31 ∨
   (m = 4 ∨ m = 6 ∨ m = 9 ∨ m = 11) ∧ d ≤ 30 ∨
   m = 2 ∧ (d ≤ 28 ∨ d = 29 ∧ LeapYear y))

/-- A null date or a day of the calendar; `QDate` has no other values. -/
def QDate.Valid (d : QDate) : Prop := ∀ y m dd, d.ymd = some (y, m, dd) → CalendarDay y.toInt m.toInt dd.toInt

/-- A time of the day, in milliseconds. -/
def QTime.OfDay (t : QTime) : Prop := 0 ≤ t.mds.toInt ∧ t.mds.toInt < 24 * 60 * 60 * 1000

/-- The corners are less than 2^31 apart, and the far one is not at the end of the range. -/
def Fits (a b : BitVec 32) : Prop := -2 ^ 31 ≤ b.toInt - a.toInt ∧ b.toInt - a.toInt + 1 < 2 ^ 31 ∧ b.toInt + 1 < 2 ^ 31

/-- A component of a colour that has 8 bits of precision. -/
def Wide (c : BitVec 16) : Prop := ∃ b : BitVec 8, c = b ++ b

/-- Values that survive the conversion to a message and back. -/
def Faithful : QtVal → Prop
  | .time t => t.mds ≠ -1
  | .date d => d.Valid
  | .dateTime d => d.zone = .local ∧ d.date.Valid ∧ d.time.mds ≠ -1 ∧ (d.date.ymd.isSome = true → d.time.OfDay)
  | .rect r => Fits r.x1 r.x2 ∧ Fits r.y1 r.y2
  | .color c => c.spec = .rgb ∧ Wide c.alpha ∧ Wide c.red ∧ Wide c.green ∧ Wide c.blue
  | _ => True

/-- -0.0 becomes 0.0, other numbers stay. -/
def pz32 (b : BitVec 32) : BitVec 32 := if b = 0x80000000#32 then 0 else b
def pz64 (b : BitVec 64) : BitVec 64 := if b = 0x8000000000000000#64 then 0 else b

/-- The value without negative zeros. -/
def plusZero : QtVal → QtVal
  | .sizeF s => .sizeF ⟨pz64 s.w, pz64 s.h⟩
  | .pointF p => .pointF ⟨pz64 p.x, pz64 p.y⟩
  | .rectF r => .rectF ⟨pz64 r.x, pz64 r.y, pz64 r.w, pz64 r.h⟩
  | .polygonF l => .polygonF (l.map fun p => ⟨pz64 p.x, pz64 p.y⟩)
  | .matrix q => .matrix ⟨fun i => pz32 (q.m i)⟩
  | .vector2 v => .vector2 ⟨pz32 v.x, pz32 v.y⟩
  | .vector3 v => .vector3 ⟨pz32 v.x, pz32 v.y, pz32 v.z⟩
  | .vector4 v => .vector4 ⟨pz32 v.x, pz32 v.y, pz32 v.z, pz32 v.w⟩
  | .transform t => .transform ⟨pz64 t.m11, pz64 t.m12, pz64 t.m13, pz64 t.m21, pz64 t.m22, pz64 t.m23, pz64 t.m31,
      pz64 t.m32, pz64 t.m33⟩
  | .quaternion q => .quaternion ⟨pz32 q.scalar, pz32 q.x, pz32 q.y, pz32 q.z⟩
  | v => v

end QtPb.Qt
