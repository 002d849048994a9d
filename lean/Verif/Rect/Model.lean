import Verif.Xform.Model

/-!
Model of `cp_mat3_is_rect_rot` (src/hob3lmat/mat_is_rot.c:6-76).
-/

namespace Hob3l.Rect

open Hob3l.Xform

noncomputable section

/-- `!cp_eq(x, 0)` algo.h: `cp_eq` compares with `cp_eq_epsilon` -/
def nz (e : Eps) (x : ℝ) : Bool := !eEq e.eq x 0

/-- `cp_mat3_is_rect_rot` mat_is_rot.c:7-76, line by line -/
def isRectRot (e : Eps) (m : M3) : Bool :=
  if nz e m.m00 then
    if nz e m.m10 then
      if nz e m.m01 then false else
      if nz e m.m12 then false else
      if nz e m.m22 then false else
      if nz e m.m11 then
        if nz e m.m20 then false else true
      else if nz e m.m21 then false else true
    else
      if nz e m.m11 then false else
      if nz e m.m21 then false else
      if nz e m.m02 then false else
      if nz e m.m01 then
        if nz e m.m22 then false else true
      else
        if nz e m.m20 then false else
        if nz e m.m12 then false else true
  else
    if nz e m.m10 then false else
    if nz e m.m20 then false else
    if nz e m.m01 then false else
    if nz e m.m02 then false else
    if nz e m.m11 then
      if nz e m.m22 then false else true
    else
      if nz e m.m21 then false else
      if nz e m.m12 then false else true

end

end Hob3l.Rect
