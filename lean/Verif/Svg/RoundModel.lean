import Verif.Svg.ArcModel
import Verif.Svg.ElemModel

/-!
Model of circles and ellipses: src/hob3l/svg-parse.c:1656-1707.

Simplification: `double` is modelled by the real numbers; the number of lines (`arc_get_fn` 245-259) is a parameter.
-/

namespace Hob3l.Svg

noncomputable section

/-- what becomes of an element: `crash` is an access to the null pointer `x`, `nothing` is no path, `path` is the path before
`path_fini` -/
inductive Out where
  | crash
  | nothing
  | path (s : St ℝ)

/-- 1672-1676, 1701-1705 up to `path_fini`; without rotation (`rot == NULL`) -/
def roundPath (eps : ℝ) (fn : ℝ → ℝ → Nat) (cx cy rx ry : ℝ) : St ℝ :=
  let s := pathMove St.new false ⟨cx + rx, cy⟩
  let r := arc2 eps (fn rx ry) ⟨rx, ry, 0, 2 * Real.pi, ⟨cx, cy⟩, 1, 0⟩
  pathClose (if r.1 then pushAll (pathStart s) r.2 else s)

/-- `csg2_from_circle` 1656-1678; `bare`: the element has neither attributes nor content, so that `x` is `NULL` -/
def circleDraw (eps : ℝ) (fn : ℝ → ℝ → Nat) (c : Local ℝ) (bare : Bool) (a : Attrs) : Out :=
  let p := attrCoord c a "cx" "cy"
  let r := (attrDim a "r" c.dim 1).getD 0
  if r ≤ 0 then
    if (a.get "r").isNone && bare then .crash else .nothing
  else .path (roundPath eps fn p.1 p.2.1 r r)

/-- `csg2_from_ellipse` 1680-1707 -/
def ellipseDraw (eps : ℝ) (fn : ℝ → ℝ → Nat) (c : Local ℝ) (bare : Bool) (a : Attrs) : Out :=
  let p := attrCoord c a "cx" "cy"
  let r := attrSize c a "rx" "ry"
  if r.1 ≤ 0 then
    if (a.get "rx").isNone && bare then .crash else .nothing
  else if r.2 ≤ 0 then
    if (a.get "ry").isNone && bare then .crash else .nothing
  else .path (roundPath eps fn p.1 p.2.1 r.1 r.2)

end

end Hob3l.Svg
