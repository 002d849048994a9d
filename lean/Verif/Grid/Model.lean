import Verif.Bbox.Model
import Mathlib.Data.Int.Log
import Mathlib.Data.Rat.Floor
/-!
# The grid of integer coordinates

`auto_dim_scale` and its call in `do_file` (src/hob3l/main.c), `cq_import_dim` (src/hob3lop/gon.c), `cq_export_dim`
(include/hob3lop/gon.h).  Boxes are those of `Verif.Bbox.Model`.

Doubles are rational numbers without NaN.  The rounding of the conversion from a coordinate to the grid is a parameter;
all other operations are exact: they compare, or multiply with or divide by a power of two, if the grid is one.  The
exponents are those of doubles without overflow: `pow(2, best_shift)` is a finite positive double for
`-1074 ≤ best_shift ≤ 1023`.
-/
namespace Hob3l.Grid

open Hob3l.Bbox

/-- the exponent stored by `frexp` (C11 7.12.6.4): `x = m * 2^e` with `1/2 ≤ |m| < 1`, and 0 for 0 -/
def frexpExp (x : Rat) : Int := if x = 0 then 0 else Int.log 2 |x| + 1

/-- `fabs` of a bound; `none` for infinities, for which `frexp` stores an unspecified value -/
def fabs : E → Option Rat
  | some (some q) => some |q|
  | _ => none

/-- `cp_max` (`cp_max_f_`) include/hob3lbase/arith.h:70-79 -/
def cpMax (a b : Rat) : Rat := if a > b then a else b

/-- `cp_eq` include/hob3lmat/algo.h:79, 90 -/
def cpEq (eps a b : Rat) : Bool := |a - b| < eps

/-- `auto_scale_t` main.c:35-39 -/
inductive Mode where
  | float
  | int
  | none
  deriving DecidableEq

/-- `FLT_MANT_DIG` of IEEE 754 binary32 -/
def fltMantDig : Int := 24

/-- `CQ_INT_DIG` include/hob3lop/gon_tam.h:15 -/
def cqIntDig : Int := 30

/-- `auto_dim_scale` main.c:150-185: the new value of `cq_dim_scale`; `none` for infinite boxes -/
def autoDimScale (eps : Rat) (mode : Mode) (scale : Rat) (bb : Box 3) : Option Rat :=
  if mode = .none then some scale
  else do
    let x0 ← fabs (bb.min 0)
    let x1 ← fabs (bb.max 0)
    let absmaxx := cpMax x0 x1
    let y0 ← fabs (bb.min 1)
    let y1 ← fabs (bb.max 1)
    let absmaxy := cpMax y0 y1
    let absmax := cpMax absmaxx absmaxy
    let absmaxDig := frexpExp absmax
    let defaultShift := frexpExp scale - 1
    let haveDig := if fltMantDig > cqIntDig ∨ mode = .int then cqIntDig else fltMantDig
    let bestShift := haveDig - absmaxDig
    if cpEq eps scale 0 = true ∨ defaultShift > bestShift then some (2 ^ bestShift) else some scale

/-- the grid used for a model: `do_file` main.c:263-272 (`root` and `Env` as in `Verif.Bbox.Model`) -/
def gridOf (env : Env) (mode : Mode) (scale : Rat) (root : Option (List Csg)) : Option Rat :=
  let bb := treeMinmax env (empty 3) root false
  if valid env.eps bb then autoDimScale env.eps mode scale bb else some scale

/-- the `double` nearest to `0.500001` is used in gon.c:67; the difference is below `10^-16` and neglected -/
def half : Rat := 500001 / 1000000

/-- `cq_import_dim` gon.c:50-71 with `rnd`, the rounding of doubles; `none` is the overflow error -/
def importDim (rnd : Rat → Rat) (scale v : Rat) : Option Int :=
  let s := ⌊rnd (rnd (v * scale) + half)⌋
  if |s| ≤ 2147483647 then some s else none

/-- `cq_export_dim` gon.h:83-86; the division is exact if `scale` is a power of two -/
def exportDim (scale : Rat) (v : Int) : Rat := v / scale

end Hob3l.Grid
