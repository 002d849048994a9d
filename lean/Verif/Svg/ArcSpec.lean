import Verif.Svg.Model
import Mathlib.Analysis.SpecialFunctions.Complex.Arg

/-! Specification of elliptical arcs: SVG 2, 9.3.8 and 9.5.1. -/

namespace Hob3l.Svg

noncomputable section

/-- the ellipse with centre `c` and radii `rx`, `ry`, rotated by `ph` degrees, at the parameter `th` -/
def ellipse (c : P ℝ) (rx ry ph th : ℝ) : P ℝ :=
  let f := ph * (Real.pi / 180)
  ⟨c.x + (Real.cos f * (rx * Real.cos th) - Real.sin f * (ry * Real.sin th)),
   c.y + (Real.sin f * (rx * Real.cos th) + Real.cos f * (ry * Real.sin th))⟩

/-- an elliptical arc from `p1` to `p2`: it begins at the parameter `th` and sweeps the parameter by `d`.

The radii are scaled by `s`, which is more than 1 only if no ellipse of the given size passes through both points; then the
arc is half of the smallest one.  The flags select one of the four arcs. -/
structure IsArc (p1 : P ℝ) (rx ry ph : ℝ) (large sweep : Bool) (p2 : P ℝ) (c : P ℝ) (s th d : ℝ) : Prop where
  start : ellipse c (s * |rx|) (s * |ry|) ph th = p1
  stop : ellipse c (s * |rx|) (s * |ry|) ph (th + d) = p2
  scale : s = 1 ∨ (1 < s ∧ |d| = Real.pi)
  sweep_pos : sweep = true → 0 < d ∧ d < 2 * Real.pi
  sweep_neg : sweep = false → d < 0 ∧ -(2 * Real.pi) < d
  small : large = false → |d| ≤ Real.pi
  large : large = true → Real.pi ≤ |d|

end

end Hob3l.Svg
