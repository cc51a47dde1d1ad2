import Verif.SpecQtTypes
/-
Specification for C86: what a program in another language sees of a value of a Qt type. It is written from QtCore.proto and QtGui.proto and
from Qt's documentation of the types, by the names of the message fields; the conversions of the library do not occur in it.
-/
namespace QtPb.Qt.Peer
open QtPb

/-- The messages of QtCore.proto and QtGui.proto: names, numbers and types of their fields. -/
def proto : Nat → List (String × Nat × FieldTy)
  | 0 => [("character", 1, .scalar .bytes)]
  | 1 => [("uuid", 1, .scalar .string)]
  | 2 => [("msec", 1, .scalar .sint32)]
  | 3 => [("year", 1, .scalar .sint32), ("month", 2, .scalar .sint32), ("day", 3, .scalar .sint32)]
  | 4 => [("date", 1, .msg 3), ("time", 2, .msg 2)]
  | 5 => [("width", 1, .scalar .sint32), ("height", 2, .scalar .sint32)]
  | 6 => [("width", 1, .scalar .double), ("height", 2, .scalar .double)]
  | 7 => [("x", 1, .scalar .sint32), ("y", 2, .scalar .sint32)]
  | 8 => [("x", 1, .scalar .double), ("y", 2, .scalar .double)]
  | 9 => [("position", 1, .msg 7), ("size", 2, .msg 5)]
  | 10 => [("position", 1, .msg 8), ("size", 2, .msg 6)]
  | 11 => [("points", 1, .msgList 7)]
  | 12 => [("points", 1, .msgList 8)]
  | 13 => [("rgba", 1, .scalar .uint32)]
  | 14 => [("m11", 1, .scalar .float), ("m12", 2, .scalar .float), ("m13", 3, .scalar .float), ("m14", 4, .scalar .float),
      ("m21", 5, .scalar .float), ("m22", 6, .scalar .float), ("m23", 7, .scalar .float), ("m24", 8, .scalar .float),
      ("m31", 9, .scalar .float), ("m32", 10, .scalar .float), ("m33", 11, .scalar .float), ("m34", 12, .scalar .float),
      ("m41", 13, .scalar .float), ("m42", 14, .scalar .float), ("m43", 15, .scalar .float), ("m44", 16, .scalar .float)]
  | 15 => [("xpos", 1, .scalar .float), ("ypos", 2, .scalar .float)]
  | 16 => [("xpos", 1, .scalar .float), ("ypos", 2, .scalar .float), ("zpos", 3, .scalar .float)]
  | 17 => [("xpos", 1, .scalar .float), ("ypos", 2, .scalar .float), ("zpos", 3, .scalar .float), ("wpos", 4, .scalar .float)]
  | 18 => [("m11", 1, .scalar .double), ("m12", 2, .scalar .double), ("m13", 3, .scalar .double), ("m21", 4, .scalar .double),
      ("m22", 5, .scalar .double), ("m23", 6, .scalar .double), ("m31", 7, .scalar .double), ("m32", 8, .scalar .double),
      ("m33", 9, .scalar .double)]
  | 19 => [("scalar", 1, .scalar .float), ("vector", 2, .msg 16)]
  | _ => []

/-- The schema of these files. -/
def schema (m : Nat) : List Field := (proto m).map fun f => ⟨f.2.1, f.2.2⟩

/-- The field with this name of a message of type `m`. -/
def get (m : Nat) (o : Obj) (name : String) : Option Val := ((proto m).findIdx? fun f => f.1 == name).bind fun i => o[i]?

/-- A message of numbers in which all of them are 0. -/
def blank (m : Nat) : Obj := (proto m).map fun f => if f.2.2 = .scalar .double then .sc (.w64 0) else .sc (.w32 0)

/-- 32 bit numbers: the bits of an `sint32`, `uint32` or `float`. -/
def Number (m : Nat) (o : Obj) (name : String) (b : BitVec 32) : Prop := get m o name = some (.sc (.w32 b))

/-- The bits of a `double`. -/
def Double (m : Nat) (o : Obj) (name : String) (b : BitVec 64) : Prop := get m o name = some (.sc (.w64 b))

/-- The sub-message with this name, of message type `m'`, is as `P` says; an unset sub-message counts as one of zeros. -/
def Sub (m : Nat) (o : Obj) (name : String) (m' : Nat) (P : Obj → Prop) : Prop :=
  (∃ o', get m o name = some (.msg o') ∧ P o') ∨ get m o name = some .msgNull ∧ P (blank m')

/-- `c` is the hexadecimal digit of value `n`, in lower or upper case. -/
def HexDigit (c : Char) (n : Nat) : Prop := ("0123456789abcdef".toList)[n]? = some c ∨ ("0123456789ABCDEF".toList)[n]? = some c

/-- Position of the first digit of byte `i` in `{00112233-4455-6677-8899-aabbccddeeff}`. -/
def digitAt (i : Nat) : Nat :=
  1 + 2 * i + (if 4 ≤ i then 1 else 0) + (if 6 ≤ i then 1 else 0) + (if 8 ≤ i then 1 else 0) + (if 10 ≤ i then 1 else 0)

/-- The text form of a UUID. -/
def UuidText (u : QUuid) (t : List Char) : Prop :=
  t.length = 38 ∧ t[0]? = some '{' ∧ t[9]? = some '-' ∧ t[14]? = some '-' ∧ t[19]? = some '-' ∧ t[24]? = some '-' ∧ t[37]? = some '}' ∧
    ∀ i : Fin 16, ∃ a b, t[digitAt i.1]? = some a ∧ t[digitAt i.1 + 1]? = some b ∧
      HexDigit a ((u.b i).toNat / 16) ∧ HexDigit b ((u.b i).toNat % 16)

/-- Row and column of a matrix to its name, counted from 1. -/
def element (i j : Fin 4) : String :=
  (["m11", "m12", "m13", "m14", "m21", "m22", "m23", "m24", "m31", "m32", "m33", "m34", "m41", "m42", "m43", "m44"] : List String).getD
    (4 * i.1 + j.1) ""

/-- A time of day in milliseconds; a null time shows as midnight. -/
def ShowsTime (t : QTime) (o : Obj) : Prop := Number 2 o "msec" (if t.mds = -1 then 0 else t.mds)

/-- Year, month and day; a null date shows as zeros. -/
def ShowsDate (d : QDate) (o : Obj) : Prop :=
  match d.ymd with
  | some (y, m, dd) => Number 3 o "year" y ∧ Number 3 o "month" m ∧ Number 3 o "day" dd
  | none => Number 3 o "year" 0 ∧ Number 3 o "month" 0 ∧ Number 3 o "day" 0

def ShowsPoint (x y : BitVec 32) (o : Obj) : Prop := Number 7 o "x" x ∧ Number 7 o "y" y
def ShowsPointF (x y : BitVec 64) (o : Obj) : Prop := Double 8 o "x" x ∧ Double 8 o "y" y
def ShowsSize (w h : BitVec 32) (o : Obj) : Prop := Number 5 o "width" w ∧ Number 5 o "height" h
def ShowsSizeF (w h : BitVec 64) (o : Obj) : Prop := Double 6 o "width" w ∧ Double 6 o "height" h

/-- The message `o` shows the value. Colours show 8 bits per component, date-times no time zone. A rectangle shows its top left corner and
its size: the columns from the left one to the right one, and the rows from the top one to the bottom one. -/
def Shows : QtVal → Obj → Prop
  | .char c, o => ∃ hi lo : UInt8, get 0 o "character" = some (.sc (.bytes (some [hi, lo]))) ∧ c.toNat = 256 * hi.toNat + lo.toNat
  | .uuid u, o => ∃ t, get 1 o "uuid" = some (.sc (.str (some t))) ∧ UuidText u t
  | .time t, o => ShowsTime t o
  | .date d, o => ShowsDate d o
  | .dateTime d, o => Sub 4 o "date" 3 (ShowsDate d.date) ∧ Sub 4 o "time" 2 (ShowsTime d.time)
  | .size s, o => ShowsSize s.w s.h o
  | .sizeF s, o => ShowsSizeF s.w s.h o
  | .point p, o => ShowsPoint p.x p.y o
  | .pointF p, o => ShowsPointF p.x p.y o
  | .rect r, o => Sub 9 o "position" 7 (ShowsPoint r.x1 r.y1) ∧
      ∃ w h : BitVec 32, w.toInt = r.x2.toInt - r.x1.toInt + 1 ∧ h.toInt = r.y2.toInt - r.y1.toInt + 1 ∧ Sub 9 o "size" 5 (ShowsSize w h)
  | .rectF r, o => Sub 10 o "position" 8 (ShowsPointF r.x r.y) ∧ Sub 10 o "size" 6 (ShowsSizeF r.w r.h)
  | .polygon l, o => ∃ os : List Obj, get 11 o "points" = some (.msgList (os.map .msg)) ∧ os.length = l.length ∧
      ∀ (i : Nat) (p : QPoint) (o' : Obj), l[i]? = some p → os[i]? = some o' → ShowsPoint p.x p.y o'
  | .polygonF l, o => ∃ os : List Obj, get 12 o "points" = some (.msgList (os.map .msg)) ∧ os.length = l.length ∧
      ∀ (i : Nat) (p : QPointF) (o' : Obj), l[i]? = some p → os[i]? = some o' → ShowsPointF p.x p.y o'
  | .color c, o => ∃ v : BitVec 32, Number 13 o "rgba" v ∧
      v.toNat = c.alpha.toNat / 256 * 2 ^ 24 + c.red.toNat / 256 * 2 ^ 16 + c.green.toNat / 256 * 2 ^ 8 + c.blue.toNat / 256
  | .matrix q, o => ∀ i j : Fin 4, Number 14 o (element i j) (q.m ⟨4 * j.1 + i.1, by omega⟩)
  | .vector2 v, o => Number 15 o "xpos" v.x ∧ Number 15 o "ypos" v.y
  | .vector3 v, o => Number 16 o "xpos" v.x ∧ Number 16 o "ypos" v.y ∧ Number 16 o "zpos" v.z
  | .vector4 v, o => Number 17 o "xpos" v.x ∧ Number 17 o "ypos" v.y ∧ Number 17 o "zpos" v.z ∧ Number 17 o "wpos" v.w
  | .transform t, o => Double 18 o "m11" t.m11 ∧ Double 18 o "m12" t.m12 ∧ Double 18 o "m13" t.m13 ∧ Double 18 o "m21" t.m21 ∧
      Double 18 o "m22" t.m22 ∧ Double 18 o "m23" t.m23 ∧ Double 18 o "m31" t.m31 ∧ Double 18 o "m32" t.m32 ∧ Double 18 o "m33" t.m33
  | .quaternion q, o => Number 19 o "scalar" q.scalar ∧
      Sub 19 o "vector" 16 fun v => Number 16 v "xpos" q.x ∧ Number 16 v "ypos" q.y ∧ Number 16 v "zpos" q.z

/-- The message that carries a value of each type, by its number in `proto`. -/
def carrier : QtVal → Nat
  | .char _ => 0 | .uuid _ => 1 | .time _ => 2 | .date _ => 3 | .dateTime _ => 4 | .size _ => 5 | .sizeF _ => 6 | .point _ => 7
  | .pointF _ => 8 | .rect _ => 9 | .rectF _ => 10 | .polygon _ => 11 | .polygonF _ => 12 | .color _ => 13 | .matrix _ => 14
  | .vector2 _ => 15 | .vector3 _ => 16 | .vector4 _ => 17 | .transform _ => 18 | .quaternion _ => 19

/-- Values with a message: all but rectangles wider or higher than 2^31-1. -/
def Expressible : QtVal → Prop
  | .rect r => -2 ^ 31 ≤ r.x2.toInt - r.x1.toInt ∧ r.x2.toInt - r.x1.toInt + 1 < 2 ^ 31 ∧
      -2 ^ 31 ≤ r.y2.toInt - r.y1.toInt ∧ r.y2.toInt - r.y1.toInt + 1 < 2 ^ 31
  | _ => True

end QtPb.Qt.Peer
