import Verif.Solid.Model
import Verif.Slice.Spec
import Mathlib.Data.Sym.Sym2

/-
Specification vocabulary for solids: a closed surface made of faces given as loops of point numbers.
`Slice.sides` lists the directed sides of a closed loop.
-/

namespace Hob3l.Solid

open Hob3l.Slice (sides)

/-- all directed sides of all faces -/
def allSides {α : Type} (fs : List (List α)) : List (α × α) := fs.flatMap sides

/-- closed and consistently oriented: every directed side is used exactly as often as the opposite one -/
def Closed (fs : List (List Nat)) : Prop := ∀ a b, (allSides fs).count (a, b) = (allSides fs).count (b, a)

/-- every face is a loop of at least three different points that exist -/
def ProperFaces (size : Nat) (fs : List (List Nat)) : Prop := ∀ f ∈ fs, 3 ≤ f.length ∧ f.Nodup ∧ ∀ i ∈ f, i < size

/-- every edge belongs to exactly two faces, which use it in opposite directions: closed, and no directed side is used
twice -/
def TwoSided (fs : List (List Nat)) : Prop := Closed fs ∧ (allSides fs).Nodup

/-- Euler's formula for the sphere: points - edges + faces = 2, where each edge is two directed sides -/
def Spherical (size : Nat) (fs : List (List Nat)) : Prop := 2 * size + 2 * fs.length = (allSides fs).length + 4

/-- the outlines of a polygon are loops of at least three points, no point is used twice -/
def Simple (paths : List (List Nat)) : Prop := paths.flatten.Nodup ∧ ∀ p ∈ paths, 3 ≤ p.length

/-- the lines are, in any order and either direction, the given ones except those of length 0 -/
def SameLines (lines wanted : List (Matq.Vec2 × Matq.Vec2)) : Prop :=
  (lines.map fun l => s(l.1, l.2)).Perm ((wanted.filter fun l => decide (l.1 ≠ l.2)).map fun l => s(l.1, l.2))

/-- heights of layers that go only up or only down -/
def Stacked (Z : Nat → Int) (m : Nat) : Prop := (∀ k, k < m → Z k < Z (k + 1)) ∨ (∀ k, k < m → Z (k + 1) < Z k)

/-- the height `z` is cut by the plane between the heights `a` and `b` (the lower one included, the upper one excluded) -/
def Between (z a b : Int) : Prop := (a ≤ z ∧ z < b) ∨ (b ≤ z ∧ z < a)

instance (z a b : Int) : Decidable (Between z a b) := by unfold Between; infer_instance

end Hob3l.Solid
