import Mathlib.Data.Rat.Floor
import Mathlib.Algebra.Order.Field.Basic
/-!
# Grids
-/
namespace Hob3l.Grid

/-- a power of two, possibly with a negative exponent -/
def IsPow2 (s : Rat) : Prop := ∃ k : Int, s = 2 ^ k

/-- the finite values of IEEE 754 binary32 -/
def Binary32 (q : Rat) : Prop := ∃ m e : Int, |m| < 2 ^ 24 ∧ -149 ≤ e ∧ e ≤ 104 ∧ q = m * 2 ^ e

/-- `f` is the result of rounding to the nearest value of binary32, and there is no other candidate -/
def Nearest32 (q f : Rat) : Prop := Binary32 f ∧ ∀ g, Binary32 g → g ≠ f → |q - f| < |q - g|

/-- What is used of the rounding of doubles: it is monotonic, does not change multiples of 1/4 below 2^40, and changes
values below 2^31 by at most `eta`.  Doubles have `eta = 2^-22`. -/
structure Rounding (rnd : Rat → Rat) (eta : Rat) : Prop where
  mono : ∀ x y, x ≤ y → rnd x ≤ rnd y
  fix : ∀ n : Int, |n| ≤ 2 ^ 42 → rnd (n / 4) = n / 4
  err : ∀ x, |x| ≤ 2 ^ 31 → |rnd x - x| ≤ eta

end Hob3l.Grid
