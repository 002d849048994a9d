import Verif.Svg.Model
import Mathlib.Analysis.SpecialFunctions.Complex.Arg

/-!
Model of elliptical arcs: `path_arc_abs` 676-724 and `path_arc2_abs` 616-646 of src/hob3l/svg-parse.c.

Simplification: `double` is modelled by the real numbers.  The sine and the cosine of an angle in degrees are ideal, and
`atan2` is, too (there is no negative zero).  The number of lines is a parameter (`arc_get_fn` 245-259).
-/

namespace Hob3l.Svg

noncomputable section

/-- `atan2` (C11 7.12.4.4) -/
def atan2 (y x : ℝ) : ℝ := Complex.arg ⟨x, y⟩

/-- `cp_vec2_angle` src/hob3lmat/algo.c:1294-1326 -/
def vec2Angle (a b : P ℝ) : ℝ :=
  let r := atan2 b.y b.x - atan2 a.y a.x
  let r := if r ≤ -Real.pi then r + 2 * Real.pi else r
  if r > Real.pi then r - 2 * Real.pi else r

/-- `cp_eq` include/hob3lmat/algo.h:80,89 -/
def eqR (eps a b : ℝ) : Prop := |a - b| < eps

/-- it can be decided -/
instance (eps a b : ℝ) : Decidable (eqR eps a b) := Classical.propDecidable _

/-- `cp_div0` include/hob3lmat/algo.h:713-716 -/
def div0 (eps a b : ℝ) : ℝ := if eqR eps b 0 then 0 else a / b

/-- `cp_vec2_xform` include/hob3lmat/mat_gen_inl.h with the matrix `a b / c d` -/
def xform (a b c d : ℝ) (v : P ℝ) : P ℝ := ⟨a * v.x + b * v.y, c * v.x + d * v.y⟩

/-- the arguments of `path_arc2_abs`; `co`, `si` are the cosine and sine of the rotation -/
structure ArcPar where
  (rx ry th1 dth : ℝ)
  c : P ℝ
  (co si : ℝ)

/-- the radii: 676-695 -/
def arcRadii (rx ry : ℝ) (v : P ℝ) : ℝ × ℝ :=
  let rx := |rx|
  let ry := |ry|
  let la := v.x ^ 2 / rx ^ 2 + v.y ^ 2 / ry ^ 2
  if la > 1 then (rx * Real.sqrt la, ry * Real.sqrt la) else (rx, ry)

/-- `v1p`: 680-685 -/
def arcV (co si : ℝ) (p1 p2 : P ℝ) : P ℝ := xform co si (-si) co ⟨(p1.x - p2.x) / 2, (p1.y - p2.y) / 2⟩

/-- the centre in the rotated system: 697-705 -/
def arcCentre (eps rx ry : ℝ) (v : P ℝ) (fa fs : Bool) : P ℝ :=
  let rx2 := rx ^ 2
  let ry2 := ry ^ 2
  let num := max 0 (rx2 * ry2 - rx2 * v.y ^ 2 - ry2 * v.x ^ 2)
  let den := rx2 * v.y ^ 2 + ry2 * v.x ^ 2
  let coef := Real.sqrt (div0 eps num den)
  let coef := if fa = fs then -coef else coef
  ⟨coef * div0 eps (rx * v.y) ry, -coef * div0 eps (ry * v.x) rx⟩

/-- 676-722 -/
def arcPar (eps : ℝ) (p1 : P ℝ) (rx ry ph : ℝ) (fa fs : Bool) (p2 : P ℝ) : ArcPar :=
  let si := Real.sin (ph * (Real.pi / 180))
  let co := Real.cos (ph * (Real.pi / 180))
  let v := arcV co si p1 p2
  let r := arcRadii rx ry v
  let cp := arcCentre eps r.1 r.2 v fa fs
  let c0 := xform co (-si) si co cp
  let c : P ℝ := ⟨c0.x + (p1.x + p2.x) / 2, c0.y + (p1.y + p2.y) / 2⟩
  let g : P ℝ := ⟨div0 eps (v.x - cp.x) r.1, div0 eps (v.y - cp.y) r.2⟩
  let th1 := vec2Angle ⟨1, 0⟩ g
  let h : P ℝ := ⟨div0 eps (-v.x - cp.x) r.1, div0 eps (-v.y - cp.y) r.2⟩
  let dth := vec2Angle g h
  let dth := if ¬ fs = true ∧ dth > 0 then dth - 2 * Real.pi else dth
  let dth := if fs = true ∧ dth < 0 then dth + 2 * Real.pi else dth
  ⟨r.1, r.2, th1, dth, c, co, si⟩

/-- the point 637-644 -/
def arcPoint (a : ArcPar) (th : ℝ) : P ℝ :=
  let v := xform a.co (-a.si) a.si a.co ⟨Real.cos th * a.rx, Real.sin th * a.ry⟩
  ⟨v.x + a.c.x, v.y + a.c.y⟩

/-- `path_arc2_abs` 616-646 with `n` lines: whether `path_start` is invoked, and the points that are pushed -/
def arc2 (eps : ℝ) (n : Nat) (a : ArcPar) : Bool × List (P ℝ) :=
  if eqR eps a.rx 0 ∨ eqR eps a.ry 0 ∨ eqR eps a.dth 0 then (false, [])
  else (true, (List.range' 1 (n - 1)).map fun (i : Nat) => arcPoint a (a.th1 + a.dth * ((i : ℝ) / (n : ℝ))))

/-- `path_arc_abs` 676-724 -/
def arcOf (eps : ℝ) (n : Nat) (p1 : P ℝ) (rx ry ph : ℝ) (fa fs : Bool) (p2 : P ℝ) : Bool × List (P ℝ) :=
  arc2 eps n (arcPar eps p1 rx ry ph fa fs p2)

end

end Hob3l.Svg
