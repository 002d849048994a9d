import Verif.Ps.Model

/-
What a PostScript file shows.
-/

namespace Hob3l.Ps

variable {K : Type}

/-- a polygon: points, paths, triangles -/
structure Poly (K : Type) where
  point : List (K × K)
  path : List (List Nat)
  tri : List (Nat × Nat × Nat)

/-- one after the other; `none` if one of them is undefined -/
def both {α : Type} (a b : Option (List α)) : Option (List α) := a.bind fun x => b.map fun y => x ++ y

mutual
/-- all polygons of a layer (also the subtracted ones), in order; `none` if there is an object that is not supported -/
def Obj.polys (zi : Nat) : Obj K → Option (List (Poly K))
  | .add xs => xs.polys zi
  | .xor xss => xss.polys zi
  | .sub a b => both (a.polys zi) (b.polys zi)
  | .cut xss => xss.polys zi
  | .poly point path tri => some [⟨point, path, tri⟩]
  | .stack ls => ls.polys zi
  | .vline2 => none
  | .sweep => none
def Objs.polys (zi : Nat) : Objs K → Option (List (Poly K))
  | .nil => some []
  | .cons x xs => both (x.polys zi) (xs.polys zi)
def Adds.polys (zi : Nat) : Adds K → Option (List (Poly K))
  | .nil => some []
  | .cons x xs => both (x.polys zi) (xs.polys zi)
def Layers.polys (zi : Nat) : Layers K → Option (List (Poly K))
  | .nil => some []
  | .cons lzi root ls => both (if zi = lzi then root.polys zi else some []) (ls.polys zi)
end

/-- what of a polygon is shown: triangles; with paths: paths, and points; with marks: the middle of the first edge of each path -/
structure Show (K : Type) where
  at_ : K × K → K × K
  normal : K × K → K × K → K × K
  stroke : Bool
  paths : Bool
  marks : Bool

variable [Field K]

/-- the mark of a path: 2 points long, in the middle of the first edge -/
def markOf (s : Show K) : List (K × K) → List (Ev K)
  | a :: b :: _ => [.mark ((a.1 + b.1) / 2, (a.2 + b.2) / 2)
      ((a.1 + b.1) / 2 + 2 * (s.normal a b).1, (a.2 + b.2) / 2 + 2 * (s.normal a b).2)]
  | _ => []

/-- a triangle -/
def triOf (s : Show K) (point : List (K × K)) (t : Nat × Nat × Nat) : Option (List (Ev K)) :=
  point[t.1]?.bind fun a => point[t.2.1]?.bind fun b => point[t.2.2]?.bind fun c => some [.tri (s.at_ a) (s.at_ b) (s.at_ c) s.stroke]

/-- a path -/
def pathOf (s : Show K) (point : List (K × K)) (idx : List Nat) : Option (List (Ev K)) :=
  (idx.mapM fun i => point[i]?.map s.at_).map fun ps => .path ps :: if s.marks then markOf s ps else []

/-- one after the other -/
def concat {α β : Type} (f : α → Option (List β)) : List α → Option (List β)
  | [] => some []
  | a :: l => both (f a) (concat f l)

/-- a polygon -/
def Poly.shapes (s : Show K) (po : Poly K) : Option (List (Ev K)) :=
  both (concat (triOf s po.point) po.tri)
    (if s.paths then both (concat (pathOf s po.point) po.path) (some (po.point.map fun p => .dot (s.at_ p))) else some [])

/-- the corners of what is shown -/
def Ev.points : Ev K → List (K × K)
  | .tri a b c _ => [a, b, c]
  | .path ps => ps
  | .dot c => [c]
  | _ => []

/-- the numbers of the layers that are not empty -/
def filled (flags : List Bool) (n : Nat) : List Nat := (flags.zipIdx n).filterMap fun f => if f.1 then some f.2 else none

/-- the shapes of a layer: `s` for each height -/
def layer (s : K → Show K) (z : List K) (root : Obj K) (zi : Nat) : Option (List (Ev K)) :=
  (root.polys zi).bind (concat fun po => z[zi]?.bind fun h => po.shapes (s h))

/-- one page for each layer, numbered from `n` -/
def pages (s : K → Show K) (z : List K) (root : Obj K) : Nat → List Nat → Option (List (Ev K))
  | _, [] => some []
  | n, zi :: l =>
    both (z[zi]?.map fun h => [.page n, .label h zi])
      (both (layer s z root zi) (both (some [.endPage]) (pages s z root (n + 1) l)))

/-- everything between header and trailer -/
def body (single : Bool) (s : K → Show K) (z : List K) (root : Obj K) (l : List Nat) : Option (List (Ev K)) :=
  if single then both (some [.page 1]) (both (concat (layer s z root) l) (some [.endPage])) else pages s z root 1 l

/-- the page numbers -/
def pageNumbers : List (Ev K) → List Nat
  | [] => []
  | .page n :: l => n :: pageNumbers l
  | _ :: l => pageNumbers l

/-- in a box -/
def InBox [LinearOrder K] (x1 y1 x2 y2 : Int) (p : K × K) : Prop := (x1 : K) ≤ p.1 ∧ (y1 : K) ≤ p.2 ∧ p.1 ≤ x2 ∧ p.2 ≤ y2

end Hob3l.Ps
