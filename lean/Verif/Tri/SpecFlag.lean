import Verif.Tri.Spec

/-!
What the flags of the sides of the triangles mean.
-/

namespace Hob3l.Tri

open Hob3l.Poly (P Vtx)

/-- the triangle has a side from the point `i` to the point `j` that is flagged as part of the outline -/
def Flagged (t : Tri) (i j : Nat) : Prop :=
  t.f01 = true ∧ t.p0 = i ∧ t.p1 = j ∨ t.f12 = true ∧ t.p1 = i ∧ t.p2 = j ∨ t.f20 = true ∧ t.p2 = i ∧ t.p0 = j

/-- `a` and `b` are the two ends of the edge with the ends `e` -/
def EndsOf (e : Bool → P) (a b : P) : Prop := a = e false ∧ b = e true ∨ a = e true ∧ b = e false

/-- every point is an end of at most two edges, i.e. the contours do not touch each other at a vertex -/
def Once (l : List Vtx) : Prop := ∀ p, (l.countP fun v => v.pos = p) ≤ 2

/-- the directed sides of a triangle and their flags -/
def sidesOf (pts : List P) (t : Tri) : List ((P × P) × Bool) :=
  [((at' pts t.p0, at' pts t.p1), t.f01), ((at' pts t.p1, at' pts t.p2), t.f12), ((at' pts t.p2, at' pts t.p0), t.f20)]

/-- the directed sides of all triangles -/
def allSides (pts : List P) (T : List Tri) : List (P × P) := (T.flatMap (sidesOf pts)).map Prod.fst

/-- the directed sides of all triangles that are flagged as outline -/
def outline (pts : List P) (T : List Tri) : List (P × P) := ((T.flatMap (sidesOf pts)).filter fun x => x.2).map Prod.fst

/-- the edges, each directed from its end `dir` -/
def edgesDir (ed : Nat → Bool → P) (dir : Nat → Bool) (l : List Vtx) : List (P × P) :=
  (l.filter fun v => v.rigt).map fun v => (ed v.edge (dir v.edge), ed v.edge (!dir v.edge))

end Hob3l.Tri
