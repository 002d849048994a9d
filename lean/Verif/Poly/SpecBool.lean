import Verif.Poly.SpecGeo
import Verif.Sweep.ReduceSpec

/-!
The area of the polygons that are traced from the result of the Boolean operation.
-/

namespace Hob3l.Poly

/-- the vertices in `data->result`, with edges given by numbers (their addresses) -/
def toVtx (num : Sweep.Edge → Nat) (v : Sweep.RV) : Vtx :=
  ⟨num v.e, v.rigt, if v.rigt then (v.e.rigt.x, v.e.rigt.y) else (v.e.left.x, v.e.left.y)⟩

/-- the ray from `X` downwards crosses the segment, whatever its direction (the segment is taken without its right end;
vertical segments are not crossed) -/
def SegUnder (s : P × P) (X : ℚ × ℚ) : Prop :=
  ((s.1.1 : ℚ) ≤ X.1 ∧ X.1 < s.2.1 ∨ (s.2.1 : ℚ) ≤ X.1 ∧ X.1 < s.1.1) ∧
  ∃ t y : ℚ, 0 ≤ t ∧ t ≤ 1 ∧ pointAt s.1 s.2 t = (X.1, y) ∧ y < X.2

/-- the sides of the paths, as points -/
def sides (r : Res) : List (P × P) :=
  (r.paths.flatMap cyc).filterMap fun e =>
    match r.points[e.1]?, r.points[e.2]? with
    | some a, some b => some (a, b)
    | _, _ => none

open Classical in
/-- even-odd rule: an odd number of sides of the paths are below `X` -/
noncomputable def insidePaths (r : Res) (X : ℚ × ℚ) : Bool := ((sides r).filter fun s => SegUnder s X).length % 2 = 1

end Hob3l.Poly
