import Verif.Model.Value

/-! # The numbers that floats denote

IEEE 754 binary64: one bit of sign, 11 of exponent, 52 of fraction.  Only the type of bit patterns comes from the model. -/

namespace Cddl

namespace F64

/-- The 11 bits of exponent. -/
def exponent (x : F64) : Nat := x.bits.toNat / 2 ^ 52 % 2 ^ 11

/-- The 52 bits of fraction. -/
def fraction (x : F64) : Nat := x.bits.toNat % 2 ^ 52

/-- Not a number: the largest exponent, with a fraction. -/
def nan (x : F64) : Bool := x.exponent == 2047 && x.fraction != 0

/-- The number without its sign, multiplied by `2 ^ 1074` to make it whole.  For infinity this is a number above all
others. -/
def absolute (x : F64) : Nat :=
  if x.exponent = 0 then x.fraction else (2 ^ 52 + x.fraction) * 2 ^ (x.exponent - 1)

/-- The number, multiplied by `2 ^ 1074`; the top bit is the sign. -/
def num (x : F64) : Int := if x.bits.toNat / 2 ^ 63 = 1 then - (x.absolute : Int) else x.absolute

end F64

end Cddl
