import Verif.Bbox.Model
import Mathlib.Data.Set.Lattice

/-!
What bounding boxes mean: sets of points; and what a CSG tree means: a set of points.  Only the data types of the model
are used.
-/

namespace Hob3l.Bbox

/-! ### integers -/

/-- the point is in the box -/
def Box2.Has (b : Box2) (p : V2) : Prop := b.min.x ≤ p.x ∧ p.x ≤ b.max.x ∧ b.min.y ≤ p.y ∧ p.y ≤ b.max.y
/-- one box encloses another one -/
def Box2.Encloses (b a : Box2) : Prop :=
  b.min.x ≤ a.min.x ∧ a.max.x ≤ b.max.x ∧ b.min.y ≤ a.min.y ∧ a.max.y ≤ b.max.y

/-- the point is in the box -/
def Box3.Has (b : Box3) (p : V3) : Prop :=
  b.min.x ≤ p.x ∧ p.x ≤ b.max.x ∧ b.min.y ≤ p.y ∧ p.y ≤ b.max.y ∧ b.min.z ≤ p.z ∧ p.z ≤ b.max.z
/-- one box encloses another one -/
def Box3.Encloses (b a : Box3) : Prop :=
  b.min.x ≤ a.min.x ∧ a.max.x ≤ b.max.x ∧ b.min.y ≤ a.min.y ∧ a.max.y ≤ b.max.y ∧ b.min.z ≤ a.min.z ∧ a.max.z ≤ b.max.z

/-- `r` is the smallest box that encloses `a` and contains all points of the list -/
def Least2 (r a : Box2) (l : List V2) : Prop := ∀ b : Box2, b.Encloses r ↔ b.Encloses a ∧ ∀ p ∈ l, b.Has p
/-- `r` is the smallest box that encloses `a` and contains all points of the list -/
def Least3 (r a : Box3) (l : List V3) : Prop := ∀ b : Box3, b.Encloses r ↔ b.Encloses a ∧ ∀ p ∈ l, b.Has p

/-! ### rational numbers -/

/-- the points of a box -/
def Box.pts {n : Nat} (b : Box n) : Set (P n) := {p | ∀ i, b.min i ≤ fin (p i) ∧ fin (p i) ≤ b.max i}

/-- the points of the unit ball -/
def ball : Set (P 3) := {u | u 0 * u 0 + u 1 * u 1 + u 2 * u 2 ≤ 1}

/-- `solid l` is what a leaf may mean: a polyhedron lies within the bounds of its points, and has at least four points and
faces if it is not empty; an ellipsoid is the image of the unit ball -/
def LeafOk (solid : Leaf → Set (P 3)) : Leaf → Prop
  | .poly points faces =>
    (∀ x ∈ solid (.poly points faces), ∀ i, (∃ p ∈ points, p i ≤ x i) ∧ ∃ p ∈ points, x i ≤ p i) ∧
    (points.length < 4 ∨ faces < 4 → solid (.poly points faces) = ∅)
  | .sphere w m => ∀ x ∈ solid (.sphere w m), ∃ u ∈ ball, ∀ i, x i = w i + (m i 0 * u 0 + m i 1 * u 1 + m i 2 * u 2)

mutual
/-- the points of the object that a tree denotes -/
def Csg.pts (solid : Leaf → Set (P 3)) : Csg → Set (P 3)
  | .leaf l => solid l
  | .add l => ptsAdd solid l
  | .xor l => {x | ptsCount solid x l}
  | .sub a b => ptsAdd solid a \ ptsAdd solid b
  | .cut [] => ∅
  | .cut (a :: l) => ptsAdd solid a ∩ ptsCut solid l
/-- union -/
def ptsAdd (solid : Leaf → Set (P 3)) : List Csg → Set (P 3)
  | [] => ∅
  | t :: ts => t.pts solid ∪ ptsAdd solid ts
/-- intersection -/
def ptsCut (solid : Leaf → Set (P 3)) : List (List Csg) → Set (P 3)
  | [] => Set.univ
  | l :: ls => ptsAdd solid l ∩ ptsCut solid ls
/-- in an odd number of elements -/
def ptsCount (solid : Leaf → Set (P 3)) (x : P 3) : List (List Csg) → Prop
  | [] => False
  | l :: ls => ¬ (x ∈ ptsAdd solid l ↔ ptsCount solid x ls)
end

mutual
/-- the leaves of a tree -/
def Csg.leaves : Csg → List Leaf
  | .leaf l => [l]
  | .add l => leavesAdd l
  | .xor l => leavesAll l
  | .sub a b => leavesAdd a ++ leavesAdd b
  | .cut l => leavesAll l
/-- the leaves of a list of trees -/
def leavesAdd : List Csg → List Leaf
  | [] => []
  | t :: ts => t.leaves ++ leavesAdd ts
/-- the leaves of a list of lists of trees -/
def leavesAll : List (List Csg) → List Leaf
  | [] => []
  | l :: ls => leavesAdd l ++ leavesAll ls
end

/-- a leaf that is not a sphere -/
def Leaf.IsPoly : Leaf → Prop
  | .poly _ _ => True
  | .sphere _ _ => False

end Hob3l.Bbox
