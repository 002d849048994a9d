/-
Specification vocabulary for the exact integer geometry: rational points, segments, values.
Nothing here refers to the algorithms of `Model.lean`; only the plain data types (`Dimif`, `Vec2`,
`Vec2if`) are interpreted.
-/
import Verif.Matq.Model
import Mathlib.Data.Rat.Defs
import Mathlib.Algebra.Order.Ring.Rat
import Mathlib.Algebra.Field.Rat

namespace Hob3l.Matq

/-- a point of the rational plane -/
abbrev Pt := ℚ × ℚ

/-- the point `X` lies on the closed segment from `a` to `b` -/
def OnSeg (a b X : Pt) : Prop :=
  ∃ s : ℚ, 0 ≤ s ∧ s ≤ 1 ∧ X.1 = a.1 + s * (b.1 - a.1) ∧ X.2 = a.2 + s * (b.2 - a.2)

/-- the direction vectors `b - a` and `d - c` are linearly dependent -/
def Parallel (a b c d : Pt) : Prop := (b.1 - a.1) * (d.2 - c.2) = (b.2 - a.2) * (d.1 - c.1)

/-- the rational point of a grid point -/
def Vec2.pt (v : Vec2) : Pt := (v.x, v.y)

/-- the number `i + n/d` -/
def Dimif.val (a : Dimif) : ℚ := a.i + (a.n : ℚ) / a.d

/-- a proper mixed number: the fraction part is in `[0,1)` -/
def Dimif.Proper (a : Dimif) : Prop := a.n < a.d

/-- the rational point denoted by an exact point -/
def Vec2if.pt (v : Vec2if) : Pt := (v.x.val, v.y.val)

def Vec2if.Proper (v : Vec2if) : Prop := v.x.Proper ∧ v.y.Proper

/-- a well-formed mixed number as stored by the code: proper, 64-bit denominator -/
def Dimif.Valid (a : Dimif) : Prop := a.n < a.d ∧ a.d < 18446744073709551616

def Vec2if.Valid (a : Vec2if) : Prop := a.x.Valid ∧ a.y.Valid

/-- sign of the comparison of two rationals -/
def cmpQ (a b : ℚ) : Int := if a < b then -1 else if a = b then 0 else 1

/-- lexicographic comparison of points -/
def cmpPt (a b : Pt) : Int := if cmpQ a.1 b.1 ≠ 0 then cmpQ a.1 b.1 else cmpQ a.2 b.2

/-- coordinates for which the sweep code is meant: 30 magnitude bits -/
def Vec2.InRange (v : Vec2) : Prop :=
  (-1073741824 ≤ v.x ∧ v.x ≤ 1073741823) ∧ (-1073741824 ≤ v.y ∧ v.y ≤ 1073741823)

/-- the half-open unit square around a grid point: the points that round (half up) to it -/
def InPixel (v : Vec2) (X : Pt) : Prop :=
  (v.x : ℚ) - 1 / 2 ≤ X.1 ∧ X.1 < v.x + 1 / 2 ∧ (v.y : ℚ) - 1 / 2 ≤ X.2 ∧ X.2 < v.y + 1 / 2

/-- twice the signed area of the triangle `v, l, k` (right-handed): positive iff `v` is above the
line `k--l` when `k` is left of `l` -/
def side (v l k : Vec2) : Int := (v.x - l.x) * (k.y - l.y) - (v.y - l.y) * (k.x - l.x)

end Hob3l.Matq
