import Mathlib.Analysis.SpecialFunctions.Sqrt
import Mathlib.Analysis.SpecialFunctions.Trigonometric.Basic

/-!
Model of the transformation matrices: src/hob3lmat/algo.c, src/hob3lmat/mat_gen_ext.c, include/hob3lmat/mat_gen_inl.h, and
of their use in the conversion of SCAD (src/hob3l/csg3.c) and in slicing ellipsoids (src/hob3l/csg2-layer.c).

Simplification: `double` is modelled by the real numbers, i.e., arithmetic is exact.  The comparisons with an epsilon are
modelled as they are, with arbitrary epsilons.  A failing `assert` is `none`.
-/

namespace Hob3l.Xform

noncomputable section

/-- `cp_eq_epsilon`, `cp_sqr_epsilon` algo.c:7-8 -/
structure Eps where
  eq : ℝ
  sqr : ℝ

/-- the defaults, include/hob3ldef/def-float.h:31-32 -/
def Eps.dflt : Eps := ⟨1 / 2 ^ 15, 1 / 2 ^ 15 * (1 / 2 ^ 15)⟩

/-- `cp_vec2_t` -/
@[ext] structure V2 where
  (x y : ℝ)

/-- `cp_vec3_t` -/
@[ext] structure V3 where
  (x y z : ℝ)

/-- `cp_mat2_t`: `mij` is `m[i][j]` -/
@[ext] structure M2 where
  (m00 m01 m10 m11 : ℝ)

/-- `cp_mat3_t`: `mij` is `m[i][j]` -/
@[ext] structure M3 where
  (m00 m01 m02 m10 m11 m12 m20 m21 m22 : ℝ)

/-- `cp_mat4_t`: `mij` is `m[i][j]` -/
@[ext] structure M4 where
  (m00 m01 m02 m03 m10 m11 m12 m13 m20 m21 m22 m23 m30 m31 m32 m33 : ℝ)

/-- `cp_mat2w_t` -/
@[ext] structure M2w where
  b : M2
  w : V2

/-- `cp_mat3w_t` -/
@[ext] structure M3w where
  b : M3
  w : V3

/-- `cp_mat2wi_t` -/
@[ext] structure M2wi where
  (n i : M2w)
  d : ℝ

/-- `cp_mat3wi_t` -/
@[ext] structure M3wi where
  (n i : M3w)
  d : ℝ

open Classical in
/-- `cp_e_eq` algo.h:78 -/
def eEq (e a b : ℝ) : Bool := decide (|a - b| < e)

/-- `cp_div0` algo.h:713-716 -/
def div0 (e : Eps) (a b : ℝ) : ℝ := if eEq e.eq b 0 then 0 else a / b

/-- `cp_vec3_add` -/
def V3.add (a b : V3) : V3 := ⟨a.x + b.x, a.y + b.y, a.z + b.z⟩

/-- `cp_vec3_sub` -/
def V3.sub (a b : V3) : V3 := ⟨a.x - b.x, a.y - b.y, a.z - b.z⟩

/-- `cp_vec2_add` -/
def V2.add (a b : V2) : V2 := ⟨a.x + b.x, a.y + b.y⟩

/-- `cp_vec3_sqr_len` mat_gen_inl.h:797-801 -/
def V3.sqrLen (a : V3) : ℝ := a.x * a.x + a.y * a.y + a.z * a.z

/-- `cp_vec3_len` mat_gen_inl.h:815-819 -/
def V3.len (a : V3) : ℝ := √ a.sqrLen

/-- `cp_vec2_sqr_len` mat_gen_inl.h:791-795 -/
def V2.sqrLen (a : V2) : ℝ := a.x * a.x + a.y * a.y

/-- `cp_vec3_has_len0` mat_gen_ext.c:317-324 -/
def V3.hasLen0 (e : Eps) (a : V3) : Bool := eEq e.eq a.x 0 && eEq e.eq a.y 0 && eEq e.eq a.z 0

/-- `cp_vec2_has_len0` mat_gen_ext.c:309-315 -/
def V2.hasLen0 (e : Eps) (a : V2) : Bool := eEq e.eq a.x 0 && eEq e.eq a.y 0

/-- `cp_vec3_has_len0_or_1` mat_gen_inl.h:833-855 -/
def V3.hasLen01 (e : Eps) (a : V3) : Bool := a.hasLen0 e || eEq e.sqr a.sqrLen 1

/-- `cp_vec2_has_len0_or_1` mat_gen_inl.h:827-849 -/
def V2.hasLen01 (e : Eps) (a : V2) : Bool := a.hasLen0 e || eEq e.sqr a.sqrLen 1

/-- `cp_vec3_div` mat_gen_ext.c:84-92 -/
def V3.div (e : Eps) (a : V3) (b : ℝ) : V3 := ⟨div0 e a.x b, div0 e a.y b, div0 e a.z b⟩

/-- `cp_vec3_unit` mat_gen_ext.c:345-352: the vector and the result -/
def V3.unit (e : Eps) (a : V3) : V3 × Bool := (V3.div e a a.len, !eEq e.sqr a.len 0)

/-- `cp_vec3_max_abs_coord` mat_gen_ext.c:285-294 -/
def V3.maxAbs (a : V3) : ℝ := max (max |a.x| |a.y|) |a.z|

/-- `cp_vec3_cross` algo.c:171-186 -/
def V3.cross (a b : V3) : V3 := ⟨a.y * b.z - a.z * b.y, a.z * b.x - a.x * b.z, a.x * b.y - a.y * b.x⟩

/-- `cp_vec3_normal` algo.c:212-230 -/
def V3.normal (e : Eps) (a b : V3) : V3 × Bool :=
  if ((a.cross b).unit e).2 then (a.cross b).unit e
  else ((a.div e a.maxAbs).cross (b.div e b.maxAbs)).unit e

/-- `cp_vec3_right_normal3` algo.c:233-244 -/
def V3.normal3 (e : Eps) (a o b : V3) : V3 × Bool := V3.normal e (a.sub o) (b.sub o)

/-- `cp_vec2_xform` mat_gen_ext.c:399-409 -/
def M2.xform (a : M2) (b : V2) : V2 := ⟨a.m00 * b.x + a.m01 * b.y, a.m10 * b.x + a.m11 * b.y⟩

/-- `cp_vec2w_xform` mat_gen_ext.c:411-418 -/
def M2w.xform (m : M2w) (v : V2) : V2 := (m.b.xform v).add m.w

/-- `cp_vec3_xform` mat_gen_ext.c:420-431 -/
def M3.xform (a : M3) (b : V3) : V3 :=
  ⟨a.m00 * b.x + a.m01 * b.y + a.m02 * b.z, a.m10 * b.x + a.m11 * b.y + a.m12 * b.z, a.m20 * b.x + a.m21 * b.y + a.m22 * b.z⟩

/-- `cp_vec3w_xform` mat_gen_ext.c:433-440 -/
def M3w.xform (m : M3w) (v : V3) : V3 := (m.b.xform v).add m.w

/-- `cp_mat2_mul` mat_gen_ext.c:993-1004 -/
def M2.mul (a b : M2) : M2 where
  m00 := a.m00 * b.m00 + a.m01 * b.m10
  m01 := a.m00 * b.m01 + a.m01 * b.m11
  m10 := a.m10 * b.m00 + a.m11 * b.m10
  m11 := a.m10 * b.m01 + a.m11 * b.m11

/-- `cp_mat3_mul` mat_gen_ext.c:1041-1057 -/
def M3.mul (a b : M3) : M3 where
  m00 := a.m00 * b.m00 + a.m01 * b.m10 + a.m02 * b.m20
  m01 := a.m00 * b.m01 + a.m01 * b.m11 + a.m02 * b.m21
  m02 := a.m00 * b.m02 + a.m01 * b.m12 + a.m02 * b.m22
  m10 := a.m10 * b.m00 + a.m11 * b.m10 + a.m12 * b.m20
  m11 := a.m10 * b.m01 + a.m11 * b.m11 + a.m12 * b.m21
  m12 := a.m10 * b.m02 + a.m11 * b.m12 + a.m12 * b.m22
  m20 := a.m20 * b.m00 + a.m21 * b.m10 + a.m22 * b.m20
  m21 := a.m20 * b.m01 + a.m21 * b.m11 + a.m22 * b.m21
  m22 := a.m20 * b.m02 + a.m21 * b.m12 + a.m22 * b.m22

/-- `cp_mat4_mul` mat_gen_ext.c:1100-1123 -/
def M4.mul (a b : M4) : M4 where
  m00 := a.m00 * b.m00 + a.m01 * b.m10 + a.m02 * b.m20 + a.m03 * b.m30
  m01 := a.m00 * b.m01 + a.m01 * b.m11 + a.m02 * b.m21 + a.m03 * b.m31
  m02 := a.m00 * b.m02 + a.m01 * b.m12 + a.m02 * b.m22 + a.m03 * b.m32
  m03 := a.m00 * b.m03 + a.m01 * b.m13 + a.m02 * b.m23 + a.m03 * b.m33
  m10 := a.m10 * b.m00 + a.m11 * b.m10 + a.m12 * b.m20 + a.m13 * b.m30
  m11 := a.m10 * b.m01 + a.m11 * b.m11 + a.m12 * b.m21 + a.m13 * b.m31
  m12 := a.m10 * b.m02 + a.m11 * b.m12 + a.m12 * b.m22 + a.m13 * b.m32
  m13 := a.m10 * b.m03 + a.m11 * b.m13 + a.m12 * b.m23 + a.m13 * b.m33
  m20 := a.m20 * b.m00 + a.m21 * b.m10 + a.m22 * b.m20 + a.m23 * b.m30
  m21 := a.m20 * b.m01 + a.m21 * b.m11 + a.m22 * b.m21 + a.m23 * b.m31
  m22 := a.m20 * b.m02 + a.m21 * b.m12 + a.m22 * b.m22 + a.m23 * b.m32
  m23 := a.m20 * b.m03 + a.m21 * b.m13 + a.m22 * b.m23 + a.m23 * b.m33
  m30 := a.m30 * b.m00 + a.m31 * b.m10 + a.m32 * b.m20 + a.m33 * b.m30
  m31 := a.m30 * b.m01 + a.m31 * b.m11 + a.m32 * b.m21 + a.m33 * b.m31
  m32 := a.m30 * b.m02 + a.m31 * b.m12 + a.m32 * b.m22 + a.m33 * b.m32
  m33 := a.m30 * b.m03 + a.m31 * b.m13 + a.m32 * b.m23 + a.m33 * b.m33

/-- `cp_mat2w_mul` mat_gen_ext.c:1006-1019 -/
def M2w.mul (a b : M2w) : M2w where
  b := a.b.mul b.b
  w := ⟨a.b.m00 * b.w.x + a.b.m01 * b.w.y + a.w.x, a.b.m10 * b.w.x + a.b.m11 * b.w.y + a.w.y⟩

/-- `cp_mat3w_mul` mat_gen_ext.c:1059-1078 -/
def M3w.mul (a b : M3w) : M3w where
  b := a.b.mul b.b
  w := ⟨a.b.m00 * b.w.x + a.b.m01 * b.w.y + a.b.m02 * b.w.z + a.w.x,
    a.b.m10 * b.w.x + a.b.m11 * b.w.y + a.b.m12 * b.w.z + a.w.y,
    a.b.m20 * b.w.x + a.b.m21 * b.w.y + a.b.m22 * b.w.z + a.w.z⟩

/-- `cp_mat3wi_mul` mat_gen_ext.c:1090-1098 -/
def M3wi.mul (a b : M3wi) : M3wi := ⟨a.n.mul b.n, b.i.mul a.i, a.d * b.d⟩

/-- `cp_mat3wi_inv` mat_gen_ext.c:1174-1185 if the source is the target -/
def M3wi.invInPlace (e : Eps) (a : M3wi) : M3wi := ⟨a.i, a.n, div0 e 1 a.d⟩

/-- `cp_mat3wi_inv` mat_gen_ext.c:1174-1185 if the source is not the target: the determinant is taken from the target `r` before the
call -/
def M3wi.invInto (e : Eps) (r a : M3wi) : M3wi := ⟨a.i, a.n, div0 e 1 r.d⟩

/-- `cp_mat2_det` algo.c:404-409 -/
def M2.det (m : M2) : ℝ :=
  let d := (m.m00 * m.m11) - (m.m10 * m.m01)
  d

/-- `cp_mat3_det` algo.c:335-347 -/
def M3.det (m : M3) : ℝ :=
  let b00 := (m.m00 * m.m11) - (m.m10 * m.m01)
  let b01 := (m.m00 * m.m21) - (m.m20 * m.m01)
  let b03 := (m.m10 * m.m21) - (m.m20 * m.m11)
  let b08 := m.m02
  let b10 := m.m12
  let b11 := m.m22
  let d := (b00 * b11) - (b01 * b10) + (b03 * b08)
  d

/-- `cp_mat4_det` algo.c:249-267 -/
def M4.det (m : M4) : ℝ :=
  let b00 := (m.m00 * m.m11) - (m.m10 * m.m01)
  let b01 := (m.m00 * m.m21) - (m.m20 * m.m01)
  let b02 := (m.m00 * m.m31) - (m.m30 * m.m01)
  let b03 := (m.m10 * m.m21) - (m.m20 * m.m11)
  let b04 := (m.m10 * m.m31) - (m.m30 * m.m11)
  let b05 := (m.m20 * m.m31) - (m.m30 * m.m21)
  let b06 := (m.m02 * m.m13) - (m.m12 * m.m03)
  let b07 := (m.m02 * m.m23) - (m.m22 * m.m03)
  let b08 := (m.m02 * m.m33) - (m.m32 * m.m03)
  let b09 := (m.m12 * m.m23) - (m.m22 * m.m13)
  let b10 := (m.m12 * m.m33) - (m.m32 * m.m13)
  let b11 := (m.m22 * m.m33) - (m.m32 * m.m23)
  let d := (b00 * b11) - (b01 * b10) + (b02 * b09) + (b03 * b08) - (b04 * b07) + (b05 * b06)
  d

/-- `cp_mat2_inv` algo.c:423-445: the matrix and the determinant that is returned -/
def M2.inv (e : Eps) (m : M2) : M2 × ℝ :=
  let d := (m.m00 * m.m11) - (m.m10 * m.m01)
  if eEq e.sqr d 0 then (⟨0, 0, 0, 0⟩, 0) else
  let oa := m.m11 / d
  let ob := (-m.m10) / d
  let oe := (-m.m01) / d
  let of_ := m.m00 / d
  (⟨oa, oe, ob, of_⟩, d)

/-- `cp_mat3_inv` algo.c:362-401: the matrix and the determinant that is returned -/
def M3.inv (e : Eps) (m : M3) : M3 × ℝ :=
  let b00 := (m.m00 * m.m11) - (m.m10 * m.m01)
  let b01 := (m.m00 * m.m21) - (m.m20 * m.m01)
  let b03 := (m.m10 * m.m21) - (m.m20 * m.m11)
  let b08 := m.m02
  let b10 := m.m12
  let b11 := m.m22
  let d := (b00 * b11) - (b01 * b10) + (b03 * b08)
  if eEq e.sqr d 0 then (⟨0, 0, 0, 0, 0, 0, 0, 0, 0⟩, 0) else
  let oa := ((m.m11 * b11) - (m.m21 * b10)) / d
  let ob := ((m.m20 * b10) - (m.m10 * b11)) / d
  let oc := b03 / d
  let oe := ((m.m21 * b08) - (m.m01 * b11)) / d
  let of_ := ((m.m00 * b11) - (m.m20 * b08)) / d
  let og := (-b01) / d
  let oi := ((m.m01 * b10) - (m.m11 * b08)) / d
  let oj := ((m.m10 * b08) - (m.m00 * b10)) / d
  let ok := b00 / d
  (⟨oa, oe, oi, ob, of_, oj, oc, og, ok⟩, d)

/-- `cp_mat4_inv` algo.c:274-332: the matrix and the determinant that is returned -/
def M4.inv (e : Eps) (m : M4) : M4 × ℝ :=
  let b00 := (m.m00 * m.m11) - (m.m10 * m.m01)
  let b01 := (m.m00 * m.m21) - (m.m20 * m.m01)
  let b02 := (m.m00 * m.m31) - (m.m30 * m.m01)
  let b03 := (m.m10 * m.m21) - (m.m20 * m.m11)
  let b04 := (m.m10 * m.m31) - (m.m30 * m.m11)
  let b05 := (m.m20 * m.m31) - (m.m30 * m.m21)
  let b06 := (m.m02 * m.m13) - (m.m12 * m.m03)
  let b07 := (m.m02 * m.m23) - (m.m22 * m.m03)
  let b08 := (m.m02 * m.m33) - (m.m32 * m.m03)
  let b09 := (m.m12 * m.m23) - (m.m22 * m.m13)
  let b10 := (m.m12 * m.m33) - (m.m32 * m.m13)
  let b11 := (m.m22 * m.m33) - (m.m32 * m.m23)
  let d := (b00 * b11) - (b01 * b10) + (b02 * b09) + (b03 * b08) - (b04 * b07) + (b05 * b06)
  if eEq e.sqr d 0 then (⟨0, 0, 0, 0, 0, 0, 0, 0, 0, 0, 0, 0, 0, 0, 0, 0⟩, 0) else
  let oa := ((m.m11 * b11) - (m.m21 * b10) + (m.m31 * b09)) / d
  let ob := ((m.m20 * b10) - (m.m10 * b11) - (m.m30 * b09)) / d
  let oc := ((m.m13 * b05) - (m.m23 * b04) + (m.m33 * b03)) / d
  let od := ((m.m22 * b04) - (m.m12 * b05) - (m.m32 * b03)) / d
  let oe := ((m.m21 * b08) - (m.m01 * b11) - (m.m31 * b07)) / d
  let of_ := ((m.m00 * b11) - (m.m20 * b08) + (m.m30 * b07)) / d
  let og := ((m.m23 * b02) - (m.m03 * b05) - (m.m33 * b01)) / d
  let oh := ((m.m02 * b05) - (m.m22 * b02) + (m.m32 * b01)) / d
  let oi := ((m.m01 * b10) - (m.m11 * b08) + (m.m31 * b06)) / d
  let oj := ((m.m10 * b08) - (m.m00 * b10) - (m.m30 * b06)) / d
  let ok := ((m.m03 * b04) - (m.m13 * b02) + (m.m33 * b00)) / d
  let ol := ((m.m12 * b02) - (m.m02 * b04) - (m.m32 * b00)) / d
  let om := ((m.m11 * b07) - (m.m01 * b09) - (m.m21 * b06)) / d
  let on_ := ((m.m00 * b09) - (m.m10 * b07) + (m.m20 * b06)) / d
  let oo := ((m.m13 * b01) - (m.m03 * b03) - (m.m23 * b00)) / d
  let op_ := ((m.m02 * b03) - (m.m12 * b01) + (m.m22 * b00)) / d
  (⟨oa, oe, oi, om, ob, of_, oj, on_, oc, og, ok, oo, od, oh, ol, op_⟩, d)

/-- `cp_mat2w_inv` algo.c:507-536: the matrix and the determinant that is returned -/
def M2w.inv (e : Eps) (m : M2w) : M2w × ℝ :=
  let d := (m.b.m00 * m.b.m11) - (m.b.m10 * m.b.m01)
  let b08 := m.w.x
  let b10 := m.w.y
  if eEq e.sqr d 0 then (⟨⟨0, 0, 0, 0⟩, ⟨0, 0⟩⟩, 0) else
  let oa := m.b.m11 / d
  let ob := (-m.b.m10) / d
  let oe := (-m.b.m01) / d
  let of_ := m.b.m00 / d
  let oi := ((m.b.m01 * b10) - (m.b.m11 * b08)) / d
  let oj := ((m.b.m10 * b08) - (m.b.m00 * b10)) / d
  (⟨⟨oa, oe, ob, of_⟩, ⟨oi, oj⟩⟩, d)

/-- `cp_mat3w_inv` algo.c:452-500: the matrix and the determinant that is returned -/
def M3w.inv (e : Eps) (m : M3w) : M3w × ℝ :=
  let b00 := (m.b.m00 * m.b.m11) - (m.b.m10 * m.b.m01)
  let b01 := (m.b.m00 * m.b.m21) - (m.b.m20 * m.b.m01)
  let b03 := (m.b.m10 * m.b.m21) - (m.b.m20 * m.b.m11)
  let b06 := (m.b.m02 * m.w.y) - (m.b.m12 * m.w.x)
  let b07 := (m.b.m02 * m.w.z) - (m.b.m22 * m.w.x)
  let b08 := m.b.m02
  let b09 := (m.b.m12 * m.w.z) - (m.b.m22 * m.w.y)
  let b10 := m.b.m12
  let b11 := m.b.m22
  let d := (b00 * b11) - (b01 * b10) + (b03 * b08)
  if eEq e.sqr d 0 then (⟨⟨0, 0, 0, 0, 0, 0, 0, 0, 0⟩, ⟨0, 0, 0⟩⟩, 0) else
  let oa := ((m.b.m11 * b11) - (m.b.m21 * b10)) / d
  let ob := ((m.b.m20 * b10) - (m.b.m10 * b11)) / d
  let oc := b03 / d
  let oe := ((m.b.m21 * b08) - (m.b.m01 * b11)) / d
  let of_ := ((m.b.m00 * b11) - (m.b.m20 * b08)) / d
  let og := (-b01) / d
  let oi := ((m.b.m01 * b10) - (m.b.m11 * b08)) / d
  let oj := ((m.b.m10 * b08) - (m.b.m00 * b10)) / d
  let ok := b00 / d
  let om := ((m.b.m11 * b07) - (m.b.m01 * b09) - (m.b.m21 * b06)) / d
  let on_ := ((m.b.m00 * b09) - (m.b.m10 * b07) + (m.b.m20 * b06)) / d
  let oo := ((m.w.y * b01) - (m.w.x * b03) - (m.w.z * b00)) / d
  (⟨⟨oa, oe, oi, ob, of_, oj, oc, og, ok⟩, ⟨om, on_, oo⟩⟩, d)

/-- `cp_mat3_scale` mat_gen_inl.h:1104-1114 -/
def M3.scale (x y z : ℝ) : M3 := ⟨x, 0, 0, 0, y, 0, 0, 0, z⟩

/-- `cp_mat3_unit` mat_gen_inl.h:1613-1617 -/
def M3.one : M3 := M3.scale 1 1 1

/-- `cp_mat3wi_scale` mat_gen_ext.c:487-496 -/
def M3wi.scale (e : Eps) (x y z : ℝ) : M3wi :=
  ⟨⟨M3.scale x y z, ⟨0, 0, 0⟩⟩, ⟨M3.scale (div0 e 1 x) (div0 e 1 y) (div0 e 1 z), ⟨0, 0, 0⟩⟩, x * y * z⟩

/-- `cp_mat3wi_unit` mat_gen_inl.h:1658-1662 -/
def M3wi.one (e : Eps) : M3wi := M3wi.scale e 1 1 1

/-- `cp_mat3wi_xlat` mat_gen_inl.h:2941-2950 -/
def M3wi.xlat (x y z : ℝ) : M3wi := ⟨⟨.one, ⟨x, y, z⟩⟩, ⟨.one, ⟨-x, -y, -z⟩⟩, 1⟩

/-- `cp_mat3_trans` mat_gen_ext.c:545-553 -/
def M3.trans (a : M3) : M3 := ⟨a.m00, a.m10, a.m20, a.m01, a.m11, a.m21, a.m02, a.m12, a.m22⟩

/-- a 3D matrix as `cp_mat3wi_t` with its transposition as its inverse, as in `cp_mat3wi_rot_unit`, `cp_mat3wi_rot_x` and
the like, mat_gen_ext.c:615-623, with `cp_mat3w_trans` mat_gen_ext.c:555-563 -/
def M3wi.ofRot (a : M3) : M3wi := ⟨⟨a, ⟨0, 0, 0⟩⟩, ⟨a.trans, ⟨0, 0, 0⟩⟩, 1⟩

/-- `assert` -/
def ass (b : Bool) : Option Unit := if b then some () else none

/-- the matrix of `cp_dim3_rot_unit` algo.c:61-88; `sc` is sine and cosine -/
def rotMat (u : V3) (sc : V2) : M3 :=
  let s := sc.x
  let c := sc.y
  let x_s := u.x * s
  let y_s := u.y * s
  let z_s := u.z * s
  let d := 1 - c
  let x_d := u.x * d
  let y_d := u.y * d
  let z_d := u.z * d
  let x_y_d := u.x * y_d
  let x_z_d := u.x * z_d
  let y_z_d := u.y * z_d
  ⟨u.x * x_d + c, x_y_d - z_s, x_z_d + y_s,
   x_y_d + z_s, u.y * y_d + c, y_z_d - x_s,
   x_z_d - y_s, y_z_d + x_s, u.z * z_d + c⟩

/-- `cp_dim3_rot_unit` algo.c:61-88 -/
def rotUnit (e : Eps) (u : V3) (sc : V2) : Option M3 := do
  ass (sc.hasLen01 e)
  ass (u.hasLen01 e)
  some (rotMat u sc)

/-- the matrix of `cp_dim3_mirror_unit` algo.c:115-134 -/
def mirrorMat (u : V3) : M3 :=
  let m2x := -2 * u.x
  let m2y := -2 * u.y
  let m2xy := m2x * u.y
  let m2z := -2 * u.z
  let m2xz := m2x * u.z
  let m2yz := m2y * u.z
  ⟨1 + m2x * u.x, m2xy, m2xz, m2xy, 1 + m2y * u.y, m2yz, m2xz, m2yz, 1 + m2z * u.z⟩

/-- `cp_dim3_mirror_unit` algo.c:115-134 -/
def mirrorUnit (e : Eps) (u : V3) : Option M3 := do
  ass (u.hasLen01 e)
  some (mirrorMat u)

/-- `cp_mat3wi_mirror_unit` mat_gen_ext.c:975-982 with `cp_mat3wi_mirror_v` (`cp_vec3_unit` before) -/
def M3wi.mirrorV (e : Eps) (v : V3) : Option M3wi := do
  let m ← mirrorUnit e (v.unit e).1
  some ⟨⟨m, ⟨0, 0, 0⟩⟩, ⟨m, ⟨0, 0, 0⟩⟩, -1⟩

/-- `cp_mat3wi_rot_v` mat_gen_inl.h:1919-1927 -/
def M3wi.rotV (e : Eps) (v : V3) (sc : V2) : Option M3wi := do
  let m ← rotUnit e (v.unit e).1 sc
  some (.ofRot m)

/-- `cp_mat3_rot_ij` mat_gen_ext.c:780-796 with `i, j = 1, 2` (`cp_mat3_rot_x` mat_gen_inl.h:2206-2211) -/
def M3wi.rotX (e : Eps) (sc : V2) : Option M3wi := do
  ass (sc.hasLen01 e)
  some (.ofRot ⟨1, 0, 0, 0, sc.y, -sc.x, 0, sc.x, sc.y⟩)

/-- `cp_mat3_rot_ij` with `i, j = 2, 0` (`cp_mat3_rot_y` mat_gen_inl.h:2288-2293) -/
def M3wi.rotY (e : Eps) (sc : V2) : Option M3wi := do
  ass (sc.hasLen01 e)
  some (.ofRot ⟨sc.y, 0, sc.x, 0, 1, 0, -sc.x, 0, sc.y⟩)

/-- `cp_mat3_rot_ij` with `i, j = 0, 1` (`cp_mat3_rot_z` mat_gen_inl.h:2425-2430) -/
def M3wi.rotZ (e : Eps) (sc : V2) : Option M3wi := do
  ass (sc.hasLen01 e)
  some (.ofRot ⟨sc.y, -sc.x, 0, sc.x, sc.y, 0, 0, 0, 1⟩)

/-- the matrix of `cp_dim3_rot_unit_into_z` algo.c:145-166 -/
def intoZMat (e : Eps) (u : V3) : M3 :=
  if eEq e.eq u.x 0 && eEq e.eq u.y 0 then ⟨1, 0, 0, 0, 1, 0, 0, 0, u.z⟩
  else
    let k := √ (u.x * u.x + u.y * u.y)
    ⟨u.y / k, -u.x / k, 0, u.x * u.z / k, u.y * u.z / k, -k, u.x, u.y, u.z⟩

/-- `cp_mat3wi_rot_into_z` mat_gen_ext.c:701-712, `cp_mat3wi_rot_unit_into_z` 644-651: the matrix and the result -/
def M3wi.rotIntoZ (e : Eps) (v : V3) : Option (M3wi × Bool) :=
  if (v.unit e).2 then do
    ass ((v.unit e).1.hasLen01 e)
    some (.ofRot (intoZMat e (v.unit e).1), true)
  else some (.one e, false)

/-- `cp_mat3wi_from_mat3w` algo.c:956-964 -/
def M3wi.ofM3w (e : Eps) (q : M3w) : M3wi × Bool := (⟨q, (q.inv e).1, (q.inv e).2⟩, !eEq e.sqr (q.inv e).2 0)

/-- `CP_SINCOS_DEG` algo.h:11 -/
def sincos (a : ℝ) : V2 := ⟨Real.sin (a * Real.pi / 180), Real.cos (a * Real.pi / 180)⟩

/-- the SCAD transformations (scad.h: `cp_scad_translate_t` etc.) -/
inductive Op where
  | translate (v : V3)
  | mirror (v : V3)
  | scale (v : V3)
  | multmatrix (m : M3w)
  /-- `rotate` with `around_n` -/
  | rotateV (a : ℝ) (v : V3)
  /-- `rotate` with three angles -/
  | rotate (v : V3)

/-- `good_scale` csg3.c:311-318 -/
def goodScale (e : Eps) (v : V3) : Bool := !eEq e.eq v.x 0 && !eEq e.eq v.y 0 && !eEq e.eq v.z 0

/-- the matrix for the children: `csg3_from_translate`, `csg3_from_mirror`, `csg3_from_scale`, `csg3_from_multmatrix`,
`csg3_from_rotate` csg3.c:269-407.  `none` is an error message or a failing `assert`. -/
def step (e : Eps) (mo : M3wi) : Op → Option M3wi
  | .translate v => if v.hasLen0 e then some mo else some (mo.mul (.xlat v.x v.y v.z))
  | .mirror v => if v.hasLen0 e then none else do
    let m1 ← M3wi.mirrorV e v
    some (mo.mul m1)
  | .scale v => if goodScale e v then some (mo.mul (.scale e v.x v.y v.z)) else none
  | .multmatrix m => if (M3wi.ofM3w e m).2 then some (mo.mul (M3wi.ofM3w e m).1) else none
  | .rotateV a v => do
    let m1 ← M3wi.rotV e v (sincos a)
    some (mo.mul m1)
  | .rotate v => do
    let m1 ← M3wi.rotZ e (sincos v.z)
    let m2 ← M3wi.rotY e (sincos v.y)
    let m3 ← M3wi.rotX e (sincos v.x)
    some (mo.mul ((m1.mul m2).mul m3))

/-- nested transformations, the outermost first -/
def steps (e : Eps) : M3wi → List Op → Option M3wi
  | mo, [] => some mo
  | mo, o :: os => do
    let m ← step e mo o
    steps e m os

/-- the two-dimensional part, `cp_mat2w_from_mat3w` algo.c:621-637 -/
def M3w.to2 (q : M3w) : M2w := ⟨⟨q.b.m00, q.b.m01, q.b.m10, q.b.m11⟩, ⟨q.w.x, q.w.y⟩⟩

/-- `csg2_add_layer_sphere` csg2-layer.c:50-128: the matrix that maps the unit circle to the slice at `z` of the unit sphere
that is mapped by `mat`; `some none` if nothing is generated -/
def sphereSlice (e : Eps) (mat : M3wi) (z : ℝ) : Option (Option M2w) :=
  let sa := mat.i.xform ⟨1, 0, z⟩
  let sb := mat.i.xform ⟨0, 0, z⟩
  let sc := mat.i.xform ⟨0, 1, z⟩
  let sn := V3.normal3 e sa sb sc
  if !sn.2 then some none else do
    let mq ← M3wi.rotIntoZ e sn.1
    let sq := mq.1.n.xform sb
    if 1 - |sq.z| < e.eq then some none else
      let rad := √ (1 - |sq.z| * |sq.z|)
      some (some (mat.mul ((mq.1.invInPlace e).mul ((M3wi.xlat 0 0 sq.z).mul (.scale e rad rad 1)))).n.to2)

end

end Hob3l.Xform
