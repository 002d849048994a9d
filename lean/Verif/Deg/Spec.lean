import Mathlib.Analysis.SpecialFunctions.Trigonometric.Basic
/-!
# The value of a double
-/
namespace Hob3l.Deg

/-- IEEE 754, binary64: sign, 11 bits of exponent, 52 bits of fraction; `none` for infinities and NaN -/
noncomputable def value (u : Nat) : Option ℚ :=
  let frac : ℚ := (u % 2 ^ 52 : Nat)
  let e := u / 2 ^ 52 % 2 ^ 11
  let sign : ℚ := if u / 2 ^ 63 % 2 = 1 then -1 else 1
  if e = 2047 then none
  else if e = 0 then some (sign * (frac / 2 ^ 1074))
  else some (sign * ((2 ^ 52 + frac) * 2 ^ e / 2 ^ 1075))

/-- degrees as angle -/
noncomputable def angle (x : ℚ) : ℝ := x / 180 * Real.pi

end Hob3l.Deg
