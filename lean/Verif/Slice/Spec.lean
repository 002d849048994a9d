import Verif.Slice.Model
import Verif.Sweep.Spec
import Verif.Matq.Spec

/-
Specification vocabulary for slicing: sides of a face, sides crossing a plane, exact cut points.
-/

namespace Hob3l.Slice

open Hob3l.Matq Hob3l.Sweep

/-- `z` and the coordinates are in the range the integer geometry is meant for (30 magnitude bits) -/
def Coord (v : Int) : Prop := -1073741824 ≤ v ∧ v ≤ 1073741823

def Vec3.InRange (v : Vec3) : Prop := Coord v.x ∧ Coord v.y ∧ Coord v.z

/-- consecutive pairs of the walk from `a` through `l` to `c` -/
def walk {α : Type} (a : α) : List α → α → List (α × α)
  | [], c => [(a, c)]
  | b :: l, c => (a, b) :: walk b l c

/-- the sides of a closed loop of vertices -/
def sides {α : Type} : List α → List (α × α)
  | [] => []
  | a :: l => walk a l a

/-- a side crosses the plane `z` iff one end is strictly above and the other is not -/
def Crosses (z : Int) (s : Vec3 × Vec3) : Prop := (s.1.z ≤ z ∧ z < s.2.z) ∨ (s.2.z ≤ z ∧ z < s.1.z)

instance (z : Int) (s : Vec3 × Vec3) : Decidable (Crosses z s) := by unfold Crosses; infer_instance

/-- coordinate at height `z` of the line through `(z0, a0)` and `(z1, a1)` -/
def lerp (z z0 z1 a0 a1 : Int) : ℚ := a0 + (a1 - a0 : ℚ) * ((z - z0) / (z1 - z0))

/-- `p` is the cut point of the side `(a, b)` at height `z`, rounded half up to the grid -/
def IsCut (z : Int) (a b : Vec3) (p : Vec2) : Prop :=
  InPixel p (lerp z a.z b.z a.x b.x, lerp z a.z b.z a.y b.y)

/-- how many ends of the given lines are at `p` -/
def degree (p : Vec2) : List (Vec2 × Vec2) → Nat
  | [] => 0
  | l :: ls => (if l.1 = p then 1 else 0) + (if l.2 = p then 1 else 0) + degree p ls

/-- number of sides (of all faces) between `a` and `b`, in either direction -/
def uses (faces : List (List Vec3)) (a b : Vec3) : Nat :=
  (faces.flatMap sides).countP (fun s => decide (s = (a, b) ∨ s = (b, a)))

/-- every edge of the mesh is used by an even number of face sides -/
def Watertight (faces : List (List Vec3)) : Prop := ∀ a b, a ≠ b → uses faces a b % 2 = 0

/-- what is assumed of libc's sort: the result is a permutation and ascending -/
def QSort.Ok (qs : QSort) : Prop :=
  ∀ l, (qs.run l).Perm l ∧ (qs.run l).Pairwise (fun a b => a.1 ≤ b.1)

/-- For points on a common straight line with position `t p` along the line: the line `l` covers the position `τ` (the
end with the larger position excluded) -/
def Covers (t : Vec2 → ℚ) (τ : ℚ) (l : Vec2 × Vec2) : Prop := min (t l.1) (t l.2) ≤ τ ∧ τ < max (t l.1) (t l.2)

instance (t : Vec2 → ℚ) (τ : ℚ) (l : Vec2 × Vec2) : Decidable (Covers t τ l) := by unfold Covers; infer_instance

end Hob3l.Slice
