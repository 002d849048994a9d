import Verif.Mesh.Model

/-!
What `polyhedron` and `polygon` should accept and make.
-/

namespace Hob3l.Mesh

open Hob3l.Solid

/-- any two coordinates in the same direction are either equal, or not closer than epsilon -/
def Spaced (e : ℝ) (l : List (List ℝ)) : Prop :=
  ∀ a ∈ l, ∀ b ∈ l, a.length = b.length ∧ ∀ i (h : i < a.length) (h' : i < b.length), a[i] = b[i] ∨ e ≤ |a[i] - b[i]|

/-- all points are in one plane -/
def Planar (f : List P3) : Prop :=
  ∃ n : P3, ∃ k : ℝ, (n.x ≠ 0 ∨ n.y ≠ 0 ∨ n.z ≠ 0) ∧ ∀ p ∈ f, n.x * p.x + n.y * p.y + n.z * p.z = k

end Hob3l.Mesh
