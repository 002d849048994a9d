import Verif.Tri.Model
import Verif.Poly.SpecGeo

/-!
What a triangulation should be.
-/

namespace Hob3l.Tri

open Hob3l.Poly (P)

/-- twice the area of a triangle, positive if the corners are in clockwise order (the second axis upward) -/
def area2 (a b c : P) : Int := (a.1 - b.1) * (c.2 - b.2) - (a.2 - b.2) * (c.1 - b.1)

/-- a point of the list -/
def at' (pts : List P) (i : Nat) : P := pts[i]?.getD (0, 0)

/-- the corners exist, and the triangle is clockwise and not degenerate -/
def TriOk (pts : List P) (t : Tri) : Prop :=
  t.p0 < pts.length ∧ t.p1 < pts.length ∧ t.p2 < pts.length ∧ 0 < area2 (at' pts t.p0) (at' pts t.p1) (at' pts t.p2)

/-- the sum of a function of directed lines over the sides of a triangle -/
def sides (f : P → P → Int) (pts : List P) (t : Tri) : Int :=
  f (at' pts t.p0) (at' pts t.p1) + f (at' pts t.p1) (at' pts t.p2) + f (at' pts t.p2) (at' pts t.p0)

end Hob3l.Tri
