import Verif.Tri.Spec

/-!
What it means that triangles cover an area.
-/

namespace Hob3l.Tri

open Hob3l.Poly (P)

/-- the point is strictly inside the triangle: a weighted mean of the corners with positive weights -/
def InTri (a b c : P) (p : ℚ × ℚ) : Prop :=
  ∃ u v w : ℚ, 0 < u ∧ 0 < v ∧ 0 < w ∧ u + v + w = 1 ∧
    p = (u * a.1 + v * b.1 + w * c.1, u * a.2 + v * b.2 + w * c.2)

/-- the point is strictly inside the triangle with these corners -/
def Inside (pts : List P) (t : Tri) (p : ℚ × ℚ) : Prop := InTri (at' pts t.p0) (at' pts t.p1) (at' pts t.p2) p

/-- the point is on the segment -/
def OnSeg (a b : P) (p : ℚ × ℚ) : Prop := ∃ s : ℚ, 0 ≤ s ∧ s ≤ 1 ∧ Poly.pointAt a b s = p

/-- the point is on the boundary of the triangle -/
def OnSide (pts : List P) (t : Tri) (p : ℚ × ℚ) : Prop :=
  OnSeg (at' pts t.p0) (at' pts t.p1) p ∨ OnSeg (at' pts t.p1) (at' pts t.p2) p ∨ OnSeg (at' pts t.p2) (at' pts t.p0) p

end Hob3l.Tri
