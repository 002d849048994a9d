import Verif.Xform.Model
import Mathlib.LinearAlgebra.Matrix.Determinant.Basic
import Mathlib.LinearAlgebra.Matrix.Notation
import Mathlib.Data.Matrix.Mul

/-!
What transformations mean, independently of matrices.
-/

namespace Hob3l.Xform

noncomputable section

/-- the matrices as matrices of Mathlib -/
def M2.toMatrix (m : M2) : Matrix (Fin 2) (Fin 2) ℝ := !![m.m00, m.m01; m.m10, m.m11]

/-- the matrices as matrices of Mathlib -/
def M3.toMatrix (m : M3) : Matrix (Fin 3) (Fin 3) ℝ :=
  !![m.m00, m.m01, m.m02; m.m10, m.m11, m.m12; m.m20, m.m21, m.m22]

/-- the matrices as matrices of Mathlib -/
def M4.toMatrix (m : M4) : Matrix (Fin 4) (Fin 4) ℝ :=
  !![m.m00, m.m01, m.m02, m.m03; m.m10, m.m11, m.m12, m.m13; m.m20, m.m21, m.m22, m.m23; m.m30, m.m31, m.m32, m.m33]

/-- the dot product -/
def dot (a b : V3) : ℝ := a.x * b.x + a.y * b.y + a.z * b.z

/-- What a SCAD transformation does to a point.  Angles are in degrees.  `mirror` reflects at the plane through the origin
with the given normal.  `rotateV` turns around the given axis by the right hand rule (formula of Rodrigues).  `rotate` turns
around the X axis, then around the Y axis, and then around the Z axis. -/
def meaning : Op → V3 → V3
  | .translate v, p => ⟨p.x + v.x, p.y + v.y, p.z + v.z⟩
  | .scale v, p => ⟨v.x * p.x, v.y * p.y, v.z * p.z⟩
  | .mirror v, p =>
    let t := 2 * dot p v / dot v v
    ⟨p.x - t * v.x, p.y - t * v.y, p.z - t * v.z⟩
  | .multmatrix m, p =>
    ⟨m.b.m00 * p.x + m.b.m01 * p.y + m.b.m02 * p.z + m.w.x,
     m.b.m10 * p.x + m.b.m11 * p.y + m.b.m12 * p.z + m.w.y,
     m.b.m20 * p.x + m.b.m21 * p.y + m.b.m22 * p.z + m.w.z⟩
  | .rotateV a v, p =>
    let c := Real.cos (a * Real.pi / 180)
    let s := Real.sin (a * Real.pi / 180)
    let l := √ (dot v v)
    let t := dot v p / dot v v * (1 - c)
    ⟨c * p.x + s * ((v.y * p.z - v.z * p.y) / l) + t * v.x,
     c * p.y + s * ((v.z * p.x - v.x * p.z) / l) + t * v.y,
     c * p.z + s * ((v.x * p.y - v.y * p.x) / l) + t * v.z⟩
  | .rotate v, p =>
    let rx := fun (a : ℝ) (q : V3) => (⟨q.x, Real.cos a * q.y - Real.sin a * q.z, Real.sin a * q.y + Real.cos a * q.z⟩ : V3)
    let ry := fun (a : ℝ) (q : V3) => (⟨Real.sin a * q.z + Real.cos a * q.x, q.y, Real.cos a * q.z - Real.sin a * q.x⟩ : V3)
    let rz := fun (a : ℝ) (q : V3) => (⟨Real.cos a * q.x - Real.sin a * q.y, Real.sin a * q.x + Real.cos a * q.y, q.z⟩ : V3)
    rz (v.z * Real.pi / 180) (ry (v.y * Real.pi / 180) (rx (v.x * Real.pi / 180) p))

/-- nested transformations: the innermost, which is the last, is done first -/
def meanings : List Op → V3 → V3
  | [], p => p
  | o :: os, p => meaning o (meanings os p)

/-- the matrix comes with its inverse and its determinant -/
structure Inverse (m : M3wi) : Prop where
  left : ∀ p, m.i.xform (m.n.xform p) = p
  right : ∀ p, m.n.xform (m.i.xform p) = p
  det : m.d = m.n.b.toMatrix.det

/-- the vector is not treated as zero -/
def NotTiny (e : Eps) (v : V3) : Prop := e.eq ≤ |v.x| ∨ e.eq ≤ |v.y| ∨ e.eq ≤ |v.z|

/-- the transformations for which the tolerances do not matter: a translation is not tiny, and the rotation has an axis -/
def Exact (e : Eps) : Op → Prop
  | .translate v => v = ⟨0, 0, 0⟩ ∨ NotTiny e v
  | .rotateV _ v => NotTiny e v
  | _ => True

/-- when a transformation is accepted -/
def Accepted (e : Eps) : Op → Prop
  | .mirror v => NotTiny e v
  | .scale v => e.eq ≤ |v.x| ∧ e.eq ≤ |v.y| ∧ e.eq ≤ |v.z|
  | .multmatrix m => e.sqr ≤ |m.b.toMatrix.det|
  | _ => True

/-- the points of the image of the unit sphere or ball, with the given square of the radius -/
def OnEllipsoid (m : M3w) (r2 : ℝ) (p : V3) : Prop := ∃ q, dot q q = r2 ∧ m.xform q = p

/-- the third row of the linear part -/
def zrow (m : M3) : V3 := ⟨m.m20, m.m21, m.m22⟩

/-- The conditions under which the tolerances do not matter: the plane is not stretched too much, and it is either exactly
horizontal or noticeably tilted, both with respect to the sphere. -/
structure Steady (e : Eps) (m : M3wi) : Prop where
  wide : e.eq * |m.n.b.toMatrix.det| ≤ √ (dot (zrow m.n.b) (zrow m.n.b))
  tilt : (m.n.b.m20 = 0 ∧ m.n.b.m21 = 0) ∨ e.eq * √ (dot (zrow m.n.b) (zrow m.n.b)) ≤ |m.n.b.m20| ∨
    e.eq * √ (dot (zrow m.n.b) (zrow m.n.b)) ≤ |m.n.b.m21|

end

end Hob3l.Xform
