import Verif.Codec
/-
Model of the conversions between Qt's value types and the messages that carry them
(src/qttypes/qtprotobufqttypes.cpp:63-317), with the message types of src/qttypes/QtProtobuf/QtCore.proto and
QtGui.proto. `QUrl` and `QImage` are in `Verif/QtMedia.lean`.
`qreal` is `double`. Floating point numbers are bit patterns; the conversions only copy them.
-/
namespace QtPb.Qt
open QtPb

/-! ### The message types -/

/-- Numbers for the message types (QtCore.proto:5-70, QtGui.proto:5-66). -/
def mChar := 0
def mUuid := 1
def mTime := 2
def mDate := 3
def mDateTime := 4
def mSize := 5
def mSizeF := 6
def mPoint := 7
def mPointF := 8
def mRect := 9
def mRectF := 10
def mPolygon := 11
def mPolygonF := 12
def mColor := 13
def mMatrix := 14
def mVector2 := 15
def mVector3 := 16
def mVector4 := 17
def mTransform := 18
def mQuaternion := 19

/-- `n` fields of the same type numbered from 1. -/
def row (n : Nat) (k : Kind) : List Field := (List.range n).map fun i => ⟨i + 1, .scalar k⟩

/-- The messages' fields (QtCore.proto:5-70, QtGui.proto:5-66). -/
def qtSch : Nat → List Field
  | 0 => [⟨1, .scalar .bytes⟩]
  | 1 => [⟨1, .scalar .string⟩]
  | 2 => row 1 .sint32
  | 3 => row 3 .sint32
  | 4 => [⟨1, .msg mDate⟩, ⟨2, .msg mTime⟩]
  | 5 => row 2 .sint32
  | 6 => row 2 .double
  | 7 => row 2 .sint32
  | 8 => row 2 .double
  | 9 => [⟨1, .msg mPoint⟩, ⟨2, .msg mSize⟩]
  | 10 => [⟨1, .msg mPointF⟩, ⟨2, .msg mSizeF⟩]
  | 11 => [⟨1, .msgList mPoint⟩]
  | 12 => [⟨1, .msgList mPointF⟩]
  | 13 => row 1 .uint32
  | 14 => row 16 .float
  | 15 => row 2 .float
  | 16 => row 3 .float
  | 17 => row 4 .float
  | 18 => row 9 .double
  | 19 => [⟨1, .scalar .float⟩, ⟨2, .msg mVector3⟩]
  | _ => []

variable (env : Env)

/-- Getters of generated messages (templates.cpp:185-191): field `i` of an object. A getter of a message field
creates a default object when the field is unset. -/
def int32At (o : Obj) (i : Nat) : BitVec 32 := match o[i]? with | some (.sc (.w32 b)) => b | _ => 0
def doubleAt (o : Obj) (i : Nat) : BitVec 64 := match o[i]? with | some (.sc (.w64 b)) => b | _ => 0
def bytesAt (o : Obj) (i : Nat) : Bytes := match o[i]? with | some (.sc (.bytes b)) => b.getD [] | _ => []
def textAt (o : Obj) (i : Nat) : List Char := match o[i]? with | some (.sc (.str s)) => s.getD [] | _ => []
def msgAt (m : Nat) (o : Obj) (i : Nat) : Obj := match o[i]? with | some v => materialize env m v | none => []
def listAt (o : Obj) (i : Nat) : List Val := match o[i]? with | some (.msgList l) => l | _ => []

/-- Constructor arguments (messagedefinitionprinter.cpp:110-199): argument `i` initialises field `i`. -/
def int32s (l : List (BitVec 32)) : Obj := l.map fun b => .sc (.w32 b)
def doubles (l : List (BitVec 64)) : Obj := l.map fun b => .sc (.w64 b)

/-! ### Qt's types -/

structure QSize where
  w : BitVec 32
  h : BitVec 32
deriving DecidableEq
structure QSizeF where
  w : BitVec 64
  h : BitVec 64
deriving DecidableEq
structure QPoint where
  x : BitVec 32
  y : BitVec 32
deriving DecidableEq
structure QPointF where
  x : BitVec 64
  y : BitVec 64
deriving DecidableEq
/-- Qt keeps the corners, not the size. -/
structure QRect where
  x1 : BitVec 32
  y1 : BitVec 32
  x2 : BitVec 32
  y2 : BitVec 32
deriving DecidableEq
structure QRectF where
  x : BitVec 64
  y : BitVec 64
  w : BitVec 64
  h : BitVec 64
deriving DecidableEq
/-- Milliseconds since midnight; -1 for a null time. -/
structure QTime where
  mds : BitVec 32
deriving DecidableEq
/-- A valid day, or a null date. -/
structure QDate where
  ymd : Option (BitVec 32 × BitVec 32 × BitVec 32)
deriving DecidableEq
/-- Time zones: local time, UTC, or another one (a number). -/
inductive Zone
  | local
  | utc
  | other (z : Nat)
deriving DecidableEq
structure QDateTime where
  date : QDate
  time : QTime
  zone : Zone
deriving DecidableEq
/-- Colours: a colour model and 16 bit components. Only the RGB model has red, green and blue components;
for the others this is what `toRgb()` gives. -/
inductive ColorSpec
  | invalid
  | rgb
  | other
deriving DecidableEq
structure QColor where
  spec : ColorSpec
  alpha : BitVec 16
  red : BitVec 16
  green : BitVec 16
  blue : BitVec 16
deriving DecidableEq
/-- 16 numbers in column-major order (`QMatrix4x4::data`). -/
structure QMatrix4x4 where
  m : Fin 16 → BitVec 32
structure QVector2D where
  x : BitVec 32
  y : BitVec 32
deriving DecidableEq
structure QVector3D where
  x : BitVec 32
  y : BitVec 32
  z : BitVec 32
deriving DecidableEq
structure QVector4D where
  x : BitVec 32
  y : BitVec 32
  z : BitVec 32
  w : BitVec 32
deriving DecidableEq
structure QTransform where
  m11 : BitVec 64
  m12 : BitVec 64
  m13 : BitVec 64
  m21 : BitVec 64
  m22 : BitVec 64
  m23 : BitVec 64
  m31 : BitVec 64
  m32 : BitVec 64
  m33 : BitVec 64
deriving DecidableEq
structure QQuaternion where
  scalar : BitVec 32
  x : BitVec 32
  y : BitVec 32
  z : BitVec 32
deriving DecidableEq
/-- 16 bytes in the order in which they are printed. -/
structure QUuid where
  b : Fin 16 → UInt8

/-! ### Behaviour of Qt's types that the conversions rely on -/

/-- Signed 32 bit arithmetic: overflow is undefined. -/
def int32 (v : Int) : Res (BitVec 32) := if -2 ^ 31 ≤ v ∧ v < 2 ^ 31 then .ok (BitVec.ofInt 32 v) else .ub

/-- `QRect::width`: `x2 - x1 + 1`; `QRect::height` likewise. -/
def extent (a b : BitVec 32) : Res (BitVec 32) := do
  let d ← int32 (b.toInt - a.toInt)
  int32 (d.toInt + 1)

/-- `QRect(topLeft, size)`: `x2 = x + w - 1`. -/
def farEnd (a w : BitVec 32) : Res (BitVec 32) := do
  let s ← int32 (a.toInt + w.toInt)
  int32 (s.toInt - 1)

/-- Leap years of the proleptic Gregorian calendar; there is no year 0, so -1 is a leap year
(`QDate::isLeapYear`). -/
def isLeap (y : Int) : Bool :=
  let y := if y < 1 then y + 1 else y
  y % 4 = 0 && (y % 100 ≠ 0 || y % 400 = 0)

/-- Days of a month. -/
def monthDays (y m : Int) : Int :=
  if m = 2 then (if isLeap y then 29 else 28) else if m = 4 ∨ m = 6 ∨ m = 9 ∨ m = 11 then 30 else 31

/-- `QDate::isValid(y, m, d)`. -/
def validDate (y m d : Int) : Bool := y ≠ 0 && 1 ≤ m && m ≤ 12 && 1 ≤ d && d ≤ monthDays y m

/-- `QDate(y, m, d)`: a null date unless the arguments are a day. -/
def QDate.of (y m d : BitVec 32) : QDate :=
  ⟨if validDate y.toInt m.toInt d.toInt then some (y, m, d) else none⟩

/-- `year()`, `month()`, `day()`: 0 for a null date. -/
def QDate.year (d : QDate) : BitVec 32 := match d.ymd with | some (y, _, _) => y | none => 0
def QDate.month (d : QDate) : BitVec 32 := match d.ymd with | some (_, m, _) => m | none => 0
def QDate.day (d : QDate) : BitVec 32 := match d.ymd with | some (_, _, d) => d | none => 0

/-- `QTime::msecsSinceStartOfDay`: 0 for a null time. -/
def QTime.msecs (t : QTime) : BitVec 32 := if t.mds = -1 then 0 else t.mds

/-- `QTime::isValid`. -/
def QTime.isValid (t : QTime) : Bool := 0 ≤ t.mds.toInt && t.mds.toInt < 86400000

/-- `QDateTime(date, time)`: local time; midnight if the time is invalid and the date is not. That Qt may move
a local time that daylight saving skips is not modelled. -/
def QDateTime.of (d : QDate) (t : QTime) : QDateTime :=
  ⟨d, if d.ymd.isSome && !t.isValid then ⟨0⟩ else t, .local⟩

/-- `QColor::rgba`: the upper bytes of the components as 0xAARRGGBB. -/
def QColor.rgba (c : QColor) : BitVec 32 :=
  (c.alpha.extractLsb' 8 8) ++ (c.red.extractLsb' 8 8) ++ (c.green.extractLsb' 8 8) ++ (c.blue.extractLsb' 8 8)

/-- `QColor::fromRgba`: each byte times 0x101. -/
def QColor.fromRgba (v : BitVec 32) : QColor :=
  let wide (b : BitVec 8) : BitVec 16 := b ++ b
  ⟨.rgb, wide (v.extractLsb' 24 8), wide (v.extractLsb' 16 8), wide (v.extractLsb' 8 8), wide (v.extractLsb' 0 8)⟩

/-- `QDataStream << QChar`: big endian. -/
def charBytes (c : BitVec 16) : Bytes := [UInt8.ofBitVec (c.extractLsb' 8 8), UInt8.ofBitVec (c.extractLsb' 0 8)]

/-- `QDataStream >> QChar`: 0 if there are not enough bytes. -/
def charOf : Bytes → BitVec 16
  | a :: b :: _ => a.toBitVec ++ b.toBitVec
  | _ => 0

/-- Hexadecimal digits as `QUuid::toString` prints them. -/
def hexChar (n : Nat) : Char := if n < 10 then Char.ofNat (48 + n) else Char.ofNat (87 + n)

/-- Value of a hexadecimal digit. -/
def hexValue (c : Char) : Option Nat :=
  if '0' ≤ c ∧ c ≤ '9' then some (c.toNat - 48)
  else if 'a' ≤ c ∧ c ≤ 'f' then some (c.toNat - 87)
  else if 'A' ≤ c ∧ c ≤ 'F' then some (c.toNat - 55) else none

/-- The two digits of each byte. -/
def hexBytes : List UInt8 → List Char
  | [] => []
  | b :: r => hexChar (b.toNat / 16) :: hexChar (b.toNat % 16) :: hexBytes r

/-- Bytes from pairs of digits. -/
def unhex : List Char → Option (List UInt8)
  | [] => some []
  | a :: b :: r =>
    match hexValue a, hexValue b, unhex r with
    | some x, some y, some l => some (UInt8.ofNat (16 * x + y) :: l)
    | _, _, _ => none
  | _ => none

/-- `QUuid::toString`: `{xxxxxxxx-xxxx-xxxx-xxxx-xxxxxxxxxxxx}`. -/
def QUuid.text (u : QUuid) : List Char :=
  let l := List.ofFn u.b
  '{' :: hexBytes (l.take 4) ++ '-' :: hexBytes ((l.drop 4).take 2) ++ '-' :: hexBytes ((l.drop 6).take 2) ++ '-' ::
    hexBytes ((l.drop 8).take 2) ++ '-' :: hexBytes (l.drop 10) ++ ['}']

/-- `QUuid(QString)`: reads the form with braces; anything else gives a null UUID (Qt also takes the form without
braces, which `toString` never prints). -/
def QUuid.ofText (s : List Char) : QUuid :=
  let zero : QUuid := ⟨fun _ => 0⟩
  if s.length = 38 ∧ s[0]? = some '{' ∧ s[9]? = some '-' ∧ s[14]? = some '-' ∧ s[19]? = some '-' ∧ s[24]? = some '-' ∧
      s[37]? = some '}' then
    match unhex ((s.drop 1).take 8 ++ (s.drop 10).take 4 ++ (s.drop 15).take 4 ++ (s.drop 20).take 4 ++ (s.drop 25).take 12) with
    | some l => ⟨fun i => l.getD i.1 0⟩
    | none => zero
  else zero

/-! ### The conversions -/

/-- qtprotobufqttypes.cpp:71-83 -/
def charTo (c : BitVec 16) : Obj := [.sc (.bytes (some (charBytes c)))]
def charFrom (o : Obj) : BitVec 16 := charOf (bytesAt o 0)
/-- qtprotobufqttypes.cpp:85-91 -/
def uuidTo (u : QUuid) : Obj := [.sc (.str (some u.text))]
def uuidFrom (o : Obj) : QUuid := QUuid.ofText (textAt o 0)
/-- qtprotobufqttypes.cpp:93-99 -/
def colorTo (c : QColor) : Obj := int32s [c.rgba]
def colorFrom (o : Obj) : QColor := QColor.fromRgba (int32At o 0)
/-- qtprotobufqttypes.cpp:101-107 -/
def timeTo (t : QTime) : Obj := int32s [t.msecs]
def timeFrom (o : Obj) : QTime := ⟨int32At o 0⟩
/-- qtprotobufqttypes.cpp:109-115 -/
def dateTo (d : QDate) : Obj := int32s [d.year, d.month, d.day]
def dateFrom (o : Obj) : QDate := QDate.of (int32At o 0) (int32At o 1) (int32At o 2)
/-- qtprotobufqttypes.cpp:117-123 -/
def dateTimeTo (d : QDateTime) : Obj := [.msg (dateTo d.date), .msg (timeTo d.time)]
def dateTimeFrom (o : Obj) : QDateTime := QDateTime.of (dateFrom (msgAt env mDate o 0)) (timeFrom (msgAt env mTime o 1))
/-- qtprotobufqttypes.cpp:125-131 -/
def sizeTo (s : QSize) : Obj := int32s [s.w, s.h]
def sizeFrom (o : Obj) : QSize := ⟨int32At o 0, int32At o 1⟩
/-- qtprotobufqttypes.cpp:133-139 -/
def sizeFTo (s : QSizeF) : Obj := doubles [s.w, s.h]
def sizeFFrom (o : Obj) : QSizeF := ⟨doubleAt o 0, doubleAt o 1⟩
/-- qtprotobufqttypes.cpp:141-147 -/
def pointTo (p : QPoint) : Obj := int32s [p.x, p.y]
def pointFrom (o : Obj) : QPoint := ⟨int32At o 0, int32At o 1⟩
/-- qtprotobufqttypes.cpp:149-155 -/
def pointFTo (p : QPointF) : Obj := doubles [p.x, p.y]
def pointFFrom (o : Obj) : QPointF := ⟨doubleAt o 0, doubleAt o 1⟩
/-- qtprotobufqttypes.cpp:157-163 -/
def rectTo (r : QRect) : Res Obj := do
  let w ← extent r.x1 r.x2
  let h ← extent r.y1 r.y2
  .ok [.msg (pointTo ⟨r.x1, r.y1⟩), .msg (sizeTo ⟨w, h⟩)]
def rectFrom (o : Obj) : Res QRect := do
  let p := pointFrom (msgAt env mPoint o 0)
  let s := sizeFrom (msgAt env mSize o 1)
  let x2 ← farEnd p.x s.w
  let y2 ← farEnd p.y s.h
  .ok ⟨p.x, p.y, x2, y2⟩
/-- qtprotobufqttypes.cpp:165-171 -/
def rectFTo (r : QRectF) : Obj := [.msg (pointFTo ⟨r.x, r.y⟩), .msg (sizeFTo ⟨r.w, r.h⟩)]
def rectFFrom (o : Obj) : QRectF :=
  let p := pointFFrom (msgAt env mPointF o 0)
  let s := sizeFFrom (msgAt env mSizeF o 1)
  ⟨p.x, p.y, s.w, s.h⟩
/-- The loop of qtprotobufqttypes.cpp:173-179 and 189-195: each pointer is dereferenced. -/
def derefAll {α : Type} (f : Obj → α) : List Val → Res (List α)
  | [] => .ok []
  | .msg o :: l => do
    let r ← derefAll f l
    .ok (f o :: r)
  | _ => .ub
/-- qtprotobufqttypes.cpp:173-187 -/
def polygonTo (l : List QPoint) : Obj := [.msgList (l.map fun p => .msg (pointTo p))]
def polygonFrom (o : Obj) : Res (List QPoint) := derefAll pointFrom (listAt o 0)
/-- qtprotobufqttypes.cpp:189-203 -/
def polygonFTo (l : List QPointF) : Obj := [.msgList (l.map fun p => .msg (pointFTo p))]
def polygonFFrom (o : Obj) : Res (List QPointF) := derefAll pointFFrom (listAt o 0)
/-- `QMatrix4x4(m11, m12, ..., m44)`: the arguments are row by row, the data column by column. -/
def QMatrix4x4.of (l : List (BitVec 32)) : QMatrix4x4 := ⟨fun i => l.getD (4 * (i.1 % 4) + i.1 / 4) 0⟩
/-- qtprotobufqttypes.cpp:206-219 -/
def matrixTo (q : QMatrix4x4) : Obj :=
  int32s [q.m 0, q.m 4, q.m 8, q.m 12, q.m 1, q.m 5, q.m 9, q.m 13, q.m 2, q.m 6, q.m 10, q.m 14, q.m 3, q.m 7, q.m 11, q.m 15]
def matrixFrom (o : Obj) : QMatrix4x4 :=
  .of [int32At o 0, int32At o 1, int32At o 2, int32At o 3, int32At o 4, int32At o 5, int32At o 6, int32At o 7,
    int32At o 8, int32At o 9, int32At o 10, int32At o 11, int32At o 12, int32At o 13, int32At o 14, int32At o 15]
/-- qtprotobufqttypes.cpp:221-243 -/
def vector2To (v : QVector2D) : Obj := int32s [v.x, v.y]
def vector2From (o : Obj) : QVector2D := ⟨int32At o 0, int32At o 1⟩
def vector3To (v : QVector3D) : Obj := int32s [v.x, v.y, v.z]
def vector3From (o : Obj) : QVector3D := ⟨int32At o 0, int32At o 1, int32At o 2⟩
def vector4To (v : QVector4D) : Obj := int32s [v.x, v.y, v.z, v.w]
def vector4From (o : Obj) : QVector4D := ⟨int32At o 0, int32At o 1, int32At o 2, int32At o 3⟩
/-- qtprotobufqttypes.cpp:245-255 -/
def transformTo (t : QTransform) : Obj := doubles [t.m11, t.m12, t.m13, t.m21, t.m22, t.m23, t.m31, t.m32, t.m33]
def transformFrom (o : Obj) : QTransform :=
  ⟨doubleAt o 0, doubleAt o 1, doubleAt o 2, doubleAt o 3, doubleAt o 4, doubleAt o 5, doubleAt o 6, doubleAt o 7, doubleAt o 8⟩
/-- qtprotobufqttypes.cpp:257-263 -/
def quaternionTo (q : QQuaternion) : Obj := [.sc (.w32 q.scalar), .msg (vector3To ⟨q.x, q.y, q.z⟩)]
def quaternionFrom (o : Obj) : QQuaternion :=
  let v := vector3From (msgAt env mVector3 o 1)
  ⟨int32At o 0, v.x, v.y, v.z⟩

/-- A value of one of the types. -/
inductive QtVal
  | char (c : BitVec 16)
  | uuid (u : QUuid)
  | time (t : QTime)
  | date (d : QDate)
  | dateTime (d : QDateTime)
  | size (s : QSize)
  | sizeF (s : QSizeF)
  | point (p : QPoint)
  | pointF (p : QPointF)
  | rect (r : QRect)
  | rectF (r : QRectF)
  | polygon (l : List QPoint)
  | polygonF (l : List QPointF)
  | color (c : QColor)
  | matrix (m : QMatrix4x4)
  | vector2 (v : QVector2D)
  | vector3 (v : QVector3D)
  | vector4 (v : QVector4D)
  | transform (t : QTransform)
  | quaternion (q : QQuaternion)

/-- The message type of a value (`PType` of the registrations, qtprotobufqttypes.cpp:293-317). -/
def QtVal.msg : QtVal → Nat
  | .char _ => mChar | .uuid _ => mUuid | .time _ => mTime | .date _ => mDate | .dateTime _ => mDateTime
  | .size _ => mSize | .sizeF _ => mSizeF | .point _ => mPoint | .pointF _ => mPointF | .rect _ => mRect
  | .rectF _ => mRectF | .polygon _ => mPolygon | .polygonF _ => mPolygonF | .color _ => mColor | .matrix _ => mMatrix
  | .vector2 _ => mVector2 | .vector3 _ => mVector3 | .vector4 _ => mVector4 | .transform _ => mTransform
  | .quaternion _ => mQuaternion

/-- `convert` from Qt (the overloads above), as called by the serializer of `registerQtTypeHandler`
(qtprotobufqttypes.cpp:281-284). -/
def toMessage : QtVal → Res Obj
  | .char c => .ok (charTo c) | .uuid u => .ok (uuidTo u) | .time t => .ok (timeTo t) | .date d => .ok (dateTo d)
  | .dateTime d => .ok (dateTimeTo d) | .size s => .ok (sizeTo s) | .sizeF s => .ok (sizeFTo s) | .point p => .ok (pointTo p)
  | .pointF p => .ok (pointFTo p) | .rect r => rectTo r | .rectF r => .ok (rectFTo r) | .polygon l => .ok (polygonTo l)
  | .polygonF l => .ok (polygonFTo l) | .color c => .ok (colorTo c) | .matrix m => .ok (matrixTo m)
  | .vector2 v => .ok (vector2To v) | .vector3 v => .ok (vector3To v) | .vector4 v => .ok (vector4To v)
  | .transform t => .ok (transformTo t) | .quaternion q => .ok (quaternionTo q)

/-- `convert` from a message of type `m`, as called by the deserializer of `registerQtTypeHandler`
(qtprotobufqttypes.cpp:285-289). -/
def fromMessage (m : Nat) (o : Obj) : Res QtVal :=
  match m with
  | 0 => .ok (.char (charFrom o))
  | 1 => .ok (.uuid (uuidFrom o))
  | 2 => .ok (.time (timeFrom o))
  | 3 => .ok (.date (dateFrom o))
  | 4 => .ok (.dateTime (dateTimeFrom env o))
  | 5 => .ok (.size (sizeFrom o))
  | 6 => .ok (.sizeF (sizeFFrom o))
  | 7 => .ok (.point (pointFrom o))
  | 8 => .ok (.pointF (pointFFrom o))
  | 9 => do
    let r ← rectFrom env o
    .ok (.rect r)
  | 10 => .ok (.rectF (rectFFrom env o))
  | 11 => do
    let l ← polygonFrom o
    .ok (.polygon l)
  | 12 => do
    let l ← polygonFFrom o
    .ok (.polygonF l)
  | 13 => .ok (.color (colorFrom o))
  | 14 => .ok (.matrix (matrixFrom o))
  | 15 => .ok (.vector2 (vector2From o))
  | 16 => .ok (.vector3 (vector3From o))
  | 17 => .ok (.vector4 (vector4From o))
  | 18 => .ok (.transform (transformFrom o))
  | 19 => .ok (.quaternion (quaternionFrom env o))
  | _ => .ub

/-- Serializer half of `registerQtTypeHandler` (qtprotobufqttypes.cpp:281-284): convert, then
`QProtobufSerializer::serializeObject` for field `num`. -/
def handlerSerialize (n num : Nat) (q : QtVal) : Res Bytes := do
  let o ← toMessage q
  let body ← serializeMessage env n q.msg o
  .ok (frameObject num body)

/-- Deserializer half of `registerQtTypeHandler` (qtprotobufqttypes.cpp:285-289) for the Qt type that belongs to message
type `m`: a new message object is read from the iterator and converted. -/
def handlerDeserialize (n m : Nat) (it : It) : Res (QtVal × It) := do
  let (o, it) ← deserializeObject (deserializeMessage env n) m it
  let q ← fromMessage env m o
  .ok (q, it)

end QtPb.Qt
