import Mathlib.Data.Rat.Floor

/-!
Model of the choice of the layers: `cp_range_init` include/hob3lbase/arith.h:149-172, `do_file` src/hob3l/main.c:273-287,
and the heights in `cp_csg2_tree_from_csg3` src/hob3l/csg2-tree.c:190-193.

Simplification: `double` is modelled by exact rational numbers, so rounding is not modelled; `lrint` of a huge number
(undefined) is not modelled.  `eps` is `cp_eq_epsilon` (a command line option).
-/

namespace Hob3l.Range

/-- `cp_range_t` include/hob3lbase/arith_tam.h -/
structure Range where
  min : ℚ
  step : ℚ
  cnt : Nat
  deriving DecidableEq

/-- `cp_eq` include/hob3lmat/algo.h:78,89 -/
def eq (eps a b : ℚ) : Bool := |a - b| < eps

/-- `cp_range_init` arith.h:149-172 -/
def rangeInit (eps min max step : ℚ) : Range :=
  if eq eps min max then ⟨min, step, 1⟩
  else if min > max then ⟨0, step, 0⟩
  else
    let cnt : Int := ⌈((max - min) / step) - eps⌉
    if cnt > 0 then ⟨min, step, cnt.toNat⟩ else ⟨min, step, 0⟩

/-- main.c:273-287: `bbMin`, `bbMax` are the z coordinates of the bounding box; `zMin`, `zMax` the command line options -/
def layerRange (eps bbMin bbMax step : ℚ) (zMin zMax : Option ℚ) : Range :=
  let r := rangeInit eps (zMin.getD (bbMin + step / 2)) (zMax.getD bbMax) step
  if r.cnt = 0 then ⟨r.min, r.step, 1⟩ else r

/-- csg2-tree.c:190-193 -/
def zOf (r : Range) (zi : Nat) : ℚ := r.min + r.step * zi

end Hob3l.Range
