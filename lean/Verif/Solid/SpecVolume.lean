import Verif.Solid.Points
import Verif.Slice.Spec

/-
Specification vocabulary for the volume enclosed by faces.
-/

namespace Hob3l.Solid

/-- determinant of three points: six times the signed volume of the tetrahedron with the origin; positive if the points
are counterclockwise seen from the side away from the origin -/
def det3 (p q r : P3) : ℝ :=
  p.x * (q.y * r.z - q.z * r.y) - p.y * (q.x * r.z - q.z * r.x) + p.z * (q.x * r.y - q.y * r.x)

/-- sum over the triangles of the fan with tip `p` -/
def fan (p : P3) : List P3 → ℝ
  | [] => 0
  | [_] => 0
  | q :: r :: l => det3 p q r + fan p (r :: l)

/-- six times the signed volume of the cone from the origin over a face (triangulated from its first point) -/
def faceVol : List P3 → ℝ
  | [] => 0
  | p :: l => fan p l

/-- six times the volume enclosed by the faces; positive if the faces are counterclockwise seen from outside, negative if
they are clockwise -/
def vol6 (fs : List (List P3)) : ℝ := (fs.map faceVol).sum

/-- twice the signed area of a polygon: positive if counterclockwise -/
def area2 (path : List (ℝ × ℝ)) : ℝ := ((Slice.sides path).map fun s => s.1.1 * s.2.2 - s.2.1 * s.1.2).sum

/-- determinant of the linear part -/
def Aff.det (m : Aff) : ℝ := det3 m.a m.b m.c

end Hob3l.Solid
