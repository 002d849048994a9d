import Verif.Hull.Model

/-!
What a convex hull is.
-/

namespace Hob3l.Hull

/-- twice the signed area of the triangle: positive iff the path `a`, `b`, `c` makes a clockwise turn -/
def turn (a b c : V) : ℚ := (a.x - b.x) * (c.y - b.y) - (a.y - b.y) * (c.x - b.x)

/-- every half plane that contains all points of `out` contains all points of `l`: `l` lies in the convex hull of `out` -/
def Covers (out l : List V) : Prop :=
  ∀ a b c : ℚ, (∀ v ∈ out, a * v.x + b * v.y ≤ c) → ∀ p ∈ l, a * p.x + b * p.y ≤ c

/-- the edges of a polygon, including the one from the last to the first vertex -/
def edges (out : List V) : List (V × V) := out.zip (out.tail ++ out.head?.toList)

/-- a strictly convex polygon with clockwise vertices: all other vertices are strictly to the right of each edge -/
def ConvexCW (out : List V) : Prop :=
  3 ≤ out.length ∧ out.Nodup ∧ ∀ e ∈ edges out, ∀ v ∈ out, v ≠ e.1 → v ≠ e.2 → 0 < turn e.1 e.2 v

/-- all points are on one line -/
def Collinear (l : List V) : Prop := ∀ p ∈ l, ∀ q ∈ l, ∀ r ∈ l, turn p q r = 0

/-- no two different coordinates, squared distances, or areas among the points are within an epsilon of each other -/
structure Separated (e : Eps) (l : List V) : Prop where
  eq0 : 0 < e.eq
  sqr0 : 0 < e.sqr
  coord : ∀ a ∈ l, ∀ b ∈ l, (a.x ≠ b.x → e.eq ≤ |a.x - b.x|) ∧ (a.y ≠ b.y → e.eq ≤ |a.y - b.y|)
  dist : ∀ u ∈ l, ∀ a ∈ l, ∀ b ∈ l, sqrDist u a ≠ sqrDist u b → e.eq ≤ |sqrDist u a - sqrDist u b|
  area : ∀ a ∈ l, ∀ b ∈ l, ∀ c ∈ l, turn a b c ≠ 0 → e.sqr ≤ |turn a b c|

/-- the coordinates are multiples of `g` -/
def OnGrid (g : ℚ) (v : V) : Prop := (∃ m : ℤ, v.x = m * g) ∧ ∃ n : ℤ, v.y = n * g

end Hob3l.Hull
