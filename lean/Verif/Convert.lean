import Verif.Json
/-
Model of the conversions of numbers that the library registers for `QVariant` (and QML): `registerBasicConverters`
(src/protobuf/qtprotobuf.cpp:36-54, called in lines 93-98) with `transparent` (src/protobuf/qtprotobuftypes.h:84-97).

C++ converts the argument and the result of `fromType` and `toType` implicitly. Conversions between integer types are modulo a
power of two, from `double` they cut off the fraction and are undefined if the type cannot hold the result, and to `double`
they round to the nearest, ties to even.
-/
namespace QtPb.Convert

/-- The types with `registerBasicConverters` (qtprotobuf.cpp:93-98). -/
inductive Wrapper
  | int32 | int64 | sfixed32 | sfixed64 | fixed32 | fixed64
  deriving DecidableEq, Repr

/-- Types of `QVariant` that occur in the conversions. `ll` and `ull` are `qlonglong` and `qulonglong`. -/
inductive Ty
  | i32 | i64 | u32 | u64 | ull | ll | double | string
  | wrap (w : Wrapper)
  deriving DecidableEq, Repr

/-- The type argument of `transparent` (qtprotobuftypes.h:105-181). -/
def Wrapper.under : Wrapper → Ty
  | .int32 | .sfixed32 => .i32
  | .int64 | .sfixed64 => .i64
  | .fixed32 => .u32
  | .fixed64 => .u64

/-- What a `QVariant` holds: a value of an integer type, the bits of a `double`, or the Latin 1 characters of a `QString`. -/
inductive Value
  | num (n : Int)
  | dbl (b : BitVec 64)
  | text (t : Bytes)
  deriving DecidableEq, Repr

/-- `registerBasicConverters<T>` (qtprotobuf.cpp:37-53), in the order of the calls. -/
def basicConverters (w : Wrapper) : List (Ty × Ty) :=
  [(.i32, .wrap w), (.wrap w, .i32), (.i64, .wrap w), (.wrap w, .i64), (.u32, .wrap w), (.wrap w, .u32), (.u64, .wrap w), (.wrap w, .u64),
   (.ull, .wrap w), (.wrap w, .ull), (.ll, .wrap w), (.wrap w, .ll), (.double, .wrap w), (.wrap w, .double), (.wrap w, .string)]

/-- qtprotobuf.cpp:93-98 -/
def registered : List (Ty × Ty) :=
  basicConverters .int32 ++ basicConverters .int64 ++ basicConverters .sfixed32 ++ basicConverters .sfixed64 ++ basicConverters .fixed32 ++
    basicConverters .fixed64

/-- Conversion of an integer to an integer type. -/
def toIntType : Ty → Int → Int
  | .i32, n => Int.bmod n (2 ^ 32)
  | .i64, n | .ll, n => Int.bmod n (2 ^ 64)
  | .u32, n => n % 2 ^ 32
  | .u64, n | .ull, n => n % 2 ^ 64
  | _, n => n

/-- Range of an integer type. -/
def limits : Ty → Int × Int
  | .i32 => (-2 ^ 31, 2 ^ 31 - 1)
  | .i64 | .ll => (-2 ^ 63, 2 ^ 63 - 1)
  | .u32 => (0, 2 ^ 32 - 1)
  | .u64 | .ull => (0, 2 ^ 64 - 1)
  | _ => (0, 0)

/-- Conversion of a `double` (an IEEE 754 number) to an integer type. -/
def ofDouble (ty : Ty) (b : BitVec 64) : Res Int :=
  let x := b.toNat
  let ex := x / 2 ^ 52 % 2 ^ 11
  let m := 2 ^ 52 + x % 2 ^ 52
  if ex = 2047 then .ub
  else
    let n : Nat := if ex = 0 then 0 else if 1075 ≤ ex then m * 2 ^ (ex - 1075) else m / 2 ^ (1075 - ex)
    let n : Int := if x / 2 ^ 63 = 1 then -(n : Int) else n
    if (limits ty).1 ≤ n ∧ n ≤ (limits ty).2 then .ok n else .ub

/-- The 53 binary digits of the `double` next to a positive number whose highest digit is at `k`. -/
def mantissa (k m : Nat) : Nat :=
  if k ≤ 52 then m * 2 ^ (52 - k)
  else
    let d := 2 ^ (k - 52)
    let q := m / d
    let r := m % d
    if d < 2 * r ∨ (2 * r = d ∧ q % 2 = 1) then q + 1 else q

/-- Conversion of an integer to `double`. A carry out of the mantissa increments the exponent. -/
def toDouble (n : Int) : BitVec 64 :=
  let m := n.natAbs
  if m = 0 then 0
  else
    let k := Nat.log2 m
    BitVec.ofNat 64 ((if n < 0 then 2 ^ 63 else 0) + ((k + 1023) * 2 ^ 52 + (mantissa k m - 2 ^ 52)))

/-- `QVariant::convert` with the registered functions `fromType`, `toType` and `toString` (qtprotobuftypes.h:93-96). `none`: there is no
conversion. A number is converted to the wrapped type for `fromType` and from it after `toType`. -/
def convert (src dst : Ty) (v : Value) : Option (Res Value) :=
  if (src, dst) ∈ registered then
    match src, dst, v with
    | .wrap _, .double, .num n => some (.ok (.dbl (toDouble n)))
    | .wrap _, .string, .num n => some (.ok (.text (Json.decimal n)))
    | .double, .wrap w, .dbl b => some ((ofDouble w.under b).bind fun n => .ok (.num n))
    | .wrap _, dst, .num n => some (.ok (.num (toIntType dst n)))
    | _, .wrap w, .num n => some (.ok (.num (toIntType w.under n)))
    | _, _, _ => none
  else none

end QtPb.Convert
