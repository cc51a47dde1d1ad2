import Verif.Values
/-
Specification of equality of scalars, from the IEEE 754 interpretation of bit patterns. Independent of
the model's comparison functions.
-/
namespace QtPb.Spec

/-- What an IEEE 754 bit pattern stands for. -/
inductive Number
  | nan
  | inf (negative : Bool)
  /-- The number is `scaled` times the smallest positive number of the format. -/
  | fin (scaled : Int)
  deriving DecidableEq

/-- The number with bit pattern `x` in the binary format with `e` exponent bits and `f` fraction bits:
an exponent of all ones stands for infinity or NaN, exponent zero for a subnormal number (or zero). -/
def number (e f x : Nat) : Number :=
  let sign := x / 2 ^ (e + f) % 2
  let ex := x / 2 ^ f % 2 ^ e
  let frac := x % 2 ^ f
  if ex = 2 ^ e - 1 then
    if frac = 0 then .inf (sign = 1) else .nan
  else
    let magnitude : Nat := if ex = 0 then frac else (2 ^ f + frac) * 2 ^ (ex - 1)
    .fin (if sign = 1 then -(magnitude : Int) else magnitude)

/-- Equality of two values of a scalar property: floating point numbers are equal when they are the
same number (NaN is equal to nothing, 0.0 to -0.0); a null string or byte array is an empty one; all
other values are equal when their bits are. -/
def scalarSame : Kind → Scalar → Scalar → Prop
  | .float, .w32 a, .w32 b => number 8 23 a.toNat ≠ .nan ∧ number 8 23 a.toNat = number 8 23 b.toNat
  | .double, .w64 a, .w64 b => number 11 52 a.toNat ≠ .nan ∧ number 11 52 a.toNat = number 11 52 b.toNat
  | _, .str a, .str b => a.getD [] = b.getD []
  | _, .bytes a, .bytes b => a.getD [] = b.getD []
  | _, a, b => a = b

/-- 1.0, the largest and the smallest `float`. -/
example : number 8 23 0x3f800000 = .fin (2 ^ 149) ∧ number 8 23 0x7f7fffff = .fin ((2 ^ 24 - 1) * 2 ^ 253)
    ∧ number 8 23 0x80000001 = .fin (-1) := by decide

end QtPb.Spec
