import Verif.ScadOut.Model
import Verif.Args.DumpSpec
import Mathlib.Data.Set.Lattice
/-!
# What the SCAD output describes
-/
namespace Hob3l.ScadOut

open Hob3l.Args

variable {F : Type} [Flt F] [Field F] [LinearOrder F]

/-! ### the meaning of a program -/

mutual
/-- The area of 2D objects; `region` are the points inside of paths.  (Other objects do not occur.) -/
def area (region : List (List F) → List (List Nat) → Set (F × F)) : Args.Tree F → Set (F × F)
  | .mk _ obj _ child =>
    match obj with
    | .polygon points paths => region points paths
    | .union => areas region child
    | _ => ∅
def areas (region : List (List F) → List (List Nat) → Set (F × F)) : List (Args.Tree F) → Set (F × F)
  | [] => ∅
  | t :: l => area region t ∪ areas region l
end

mutual
/-- The space taken by 3D objects: a translation moves its children, a linear extrusion without twist, that is not centred and does not
scale, is what is above the area of its children, up to the height.  (Other objects do not occur.) -/
def space (region : List (List F) → List (List Nat) → Set (F × F)) : Args.Tree F → Set (F × F × F)
  | .mk _ obj _ child =>
    match obj with
    | .union => spaces region child
    | .translate [a, b, c] => {p | (p.1 - a, p.2.1 - b, p.2.2 - c) ∈ spaces region child}
    | .linext h twist scale _ center _ =>
      {p | twist = 0 ∧ scale = [1, 1] ∧ center = false ∧ 0 ≤ p.2.2 ∧ p.2.2 ≤ h ∧ (p.1, p.2.1) ∈ areas region child}
    | _ => ∅
def spaces (region : List (List F) → List (List Nat) → Set (F × F)) : List (Args.Tree F) → Set (F × F × F)
  | [] => ∅
  | t :: l => space region t ∪ spaces region l
end

/-! ### layers -/

/-- The paths of a polygon: the triangles, if there are any. -/
def pathsOf (p : Poly F) : List (List Nat) :=
  match p.tri with
  | [] => p.paths
  | l => l.map fun f => [f.1, f.2.1, f.2.2]

/-- The thickness of layers without the gap; -1 stands for no gap. -/
def thickness (t : Tree2 F) : F := max (t.thick - (if Flt.eq t.gap (con (-1)) then 0 else t.gap)) 0

/-- The layers as a set of points. -/
def slabs (region : List (List F) → List (List Nat) → Set (F × F)) (t : Tree2 F) : Set (F × F × F) :=
  {p | ∃ (i : Nat) (r : Layer F) (z : F) (q : Poly F), t.layers[i]? = some r ∧ t.z[i]? = some z ∧ q ∈ r.polys ∧
    z ≤ p.2.2 ∧ p.2.2 ≤ z + thickness t ∧ (p.1, p.2.1) ∈ region q.points (pathsOf q)}

/-- A polygon is valid: points have two coordinates, all paths have at least three points, indices are valid. -/
structure PolyOk (pr : Printf F) (p : Poly F) : Prop where
  two : ∀ q ∈ p.points, q.length = 2
  size : p.points.length ≤ 2 ^ 63
  path : ∀ f ∈ pathsOf p, 3 ≤ f.length ∧ ∀ i ∈ f, i < p.points.length
  exact : ∀ x ∈ p.points.flatten, PrintsAs (pr.ff x) x

/-- The tree is valid: layers with polygons have their own number and a z coordinate; the numbers are printed so that they can be read. -/
structure TreeOk (pr : Printf F) (t : Tree2 F) : Prop where
  number : ∀ (i : Nat) (r : Layer F), t.layers[i]? = some r → r.polys ≠ [] → r.zi = i ∧ i < t.z.length
  polys : ∀ r ∈ t.layers, ∀ p ∈ r.polys, PolyOk pr p
  exactZ : ∀ z ∈ t.z, PrintsAs (pr.ff z) z
  exactHeight : PrintsAs (pr.ff (thickness t)) (thickness t)

/-- Integers are read as such. -/
def IntLaw (F : Type) [Flt F] [Field F] : Prop := (con 0 : F) = 0 ∧ (con 1 : F) = 1

end Hob3l.ScadOut
