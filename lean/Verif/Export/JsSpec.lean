import Verif.Export.JsModel
import Verif.Export.Spec

/-
How a scene is read: /repo/doc/jsformat.md, and `newU16Arr` of /repo/share/js-hob3l.local.html.
-/

namespace Hob3l.Export.Js

variable {D : Type}

/-- each index is relative to the last one; the shift is 0 -/
def absolute : Int → List Int → List Int
  | _, [] => []
  | last, k :: l => (k + last) :: absolute (k + last) l

/-- a corner of a triangle: position, normal, colour -/
abbrev Corner := (Int × Int × Int) × (Int × Int × Int) × (Nat × Nat × Nat × Nat)

/-- the entries of the arrays for an index -/
def Scene.corner (s : Scene) (i : Int) : Option Corner :=
  if i < 0 then none else do
    let k := i.toNat
    let x ← s.vertex[3 * k]?
    let y ← s.vertex[3 * k + 1]?
    let z ← s.vertex[3 * k + 2]?
    let nx ← s.normal[3 * k]?
    let ny ← s.normal[3 * k + 1]?
    let nz ← s.normal[3 * k + 2]?
    let r ← s.color[4 * k]?
    let g ← s.color[4 * k + 1]?
    let b ← s.color[4 * k + 2]?
    let a ← s.color[4 * k + 3]?
    some ((x, y, z), (nx, ny, nz), (r, g, b, a))

/-- three at a time; `none` if the number is not a multiple of 3 -/
def threes {α : Type} : List α → Option (List (α × α × α))
  | [] => some []
  | a :: b :: c :: l => (threes l).map ((a, b, c) :: ·)
  | _ => none

/-- the triangles of a scene -/
def Scene.triangles (s : Scene) : Option (List (Corner × Corner × Corner)) :=
  ((absolute 0 s.index).mapM s.corner).bind threes

/-- the limits of the format: at most 65535 vertices, one normal and one colour for each vertex, and indices of 16 bits within the arrays -/
def Scene.Fits (s : Scene) : Prop :=
  ∃ n, n ≤ 65535 ∧ s.vertex.length = 3 * n ∧ s.normal.length = 3 * n ∧ s.color.length = 4 * n ∧
    ∀ i ∈ absolute 0 s.index, 0 ≤ i ∧ i < n

/-- the environment in which the triangles of a solid are defined -/
def JsEnv.env (env : JsEnv D) : Env D :=
  ⟨env.eq, env.top, fun a b c => some (env.normal a b c), fun _ => 0, fun _ => [], env.zero, env.one, env.neg⟩

/-- rounding to the grid -/
def grid (env : JsEnv D) (p : P3 D) : Int × Int × Int := (env.coord p.1, env.coord p.2.1, env.coord p.2.2)

/-- what is shown of a corner -/
def shownCorner (env : JsEnv D) (n p : P3 D) : Corner :=
  (grid env p, ((grid env n).1 * 1000, (grid env n).2.1 * 1000, (grid env n).2.2 * 1000), (192, 192, 128, 255))

/-- what is shown of a triangle -/
def shown (env : JsEnv D) (t : T3 D) : Corner × Corner × Corner :=
  (shownCorner env t.1 t.2.1, shownCorner env t.1 t.2.2.1, shownCorner env t.1 t.2.2.2)

end Hob3l.Export.Js
