import Verif.Solid.Spec
import Verif.Rotext.Model

/-!
What `rotate_extrude` means, in terms of the outlines and the angle only.
-/

namespace Hob3l.Rotext

open Hob3l.Solid
open Hob3l.Slice (sides)

noncomputable section

open Classical in
/-- a point closer to the axis than epsilon is on it -/
def snap (e : ℝ) (q : ℝ × ℝ) : ℝ × ℝ := (if |q.1| < e then 0 else q.1, q.2)

/-- the outlines, as lists of points -/
def outlines (e : ℝ) (p2 : List (ℝ × ℝ)) (paths : List (List Nat)) : List (List (ℝ × ℝ)) :=
  paths.map fun p => p.map fun i => snap e (p2.getD i (0, 0))

/-- a point of the plane stood up (y becomes z) and turned around the z axis by `w` (radians) -/
def turned (w : ℝ) (q : ℝ × ℝ) : P3 := ⟨q.1 * Real.cos w, q.1 * Real.sin w, q.2⟩

/-- a face, or the same face seen from the other side -/
def flip (R : Bool) (f : List P3) : List P3 := if R then f.reverse else f

open Classical in
/-- the face swept by the side from `q` to `r` between the directions `u` and `v`: four corners, or three if one end is on the
axis, or none if both are -/
def band (u v : ℝ) (q r : ℝ × ℝ) : List (List P3) :=
  if q.1 = 0 ∧ r.1 = 0 then []
  else if q.1 = 0 then [[turned u q, turned u r, turned v r]]
  else if r.1 = 0 then [[turned u q, turned u r, turned v q]]
  else [[turned u q, turned u r, turned v r, turned v q]]

/-- the solid made by turning the outlines to the directions `w 0`, ..., `w n`, before the surrounding transformation -/
def solid (R : Bool) (w : Nat → ℝ) (n : Nat) (os : List (List (ℝ × ℝ))) : List (List P3) :=
  ((List.range n).flatMap fun j => os.flatMap fun o => (sides o).flatMap fun s => (band (w j) (w (j + 1)) s.1 s.2).map (flip R)) ++
  os.flatMap fun o => [flip (!R) (o.map (turned (w 0))), flip R (o.map (turned (w n)))]

/-- six times the first moment around the axis of the area inside the outlines (counter-clockwise: positive where x is) -/
def moment6 (os : List (List (ℝ × ℝ))) : ℝ :=
  (os.map fun o => ((sides o).map fun s => (s.1.1 + s.2.1) * (s.1.1 * s.2.2 - s.2.1 * s.1.2)).sum).sum

/-- outlines that can be turned: simple, of existing points, on one side of the axis and not all on it -/
structure Fit (e : ℝ) (p2 : List (ℝ × ℝ)) (paths : List (List Nat)) : Prop where
  ne : paths ≠ []
  simple : Simple paths
  exist : ∀ p ∈ paths, ∀ i ∈ p, i < p2.length
  side : (∀ q ∈ p2, -e < q.1) ∨ (∀ q ∈ p2, q.1 < e)
  off : ∃ q ∈ p2, e ≤ |q.1|

/-- some point is on the negative side -/
def Neg (e : ℝ) (p2 : List (ℝ × ℝ)) : Prop := ∃ q ∈ p2, q.1 ≤ -e

end

end Hob3l.Rotext
