import Verif.Scad.Model
import Mathlib.Algebra.Group.Pointwise.Set.Basic
import Mathlib.Algebra.Group.Action.Pointwise.Set.Basic

/-!
What SCAD trees and CSG trees mean: sets of points.  The basic objects are given as sets, the transformations act on the
points.
-/

namespace Hob3l.Scad

open scoped Pointwise

variable {O M X : Type}

mutual
/-- the subtree contains no object, except disabled ones -/
def Scad.vac : Scad O M → Bool
  | .obj _ => false
  | .hollow => false
  | .ignored _ => true
  | .union l => vacs l
  | .diff l => vacs l
  | .inter l => vacs l
  | .xform _ l => vacs l
/-- all the subtrees contain no object -/
def vacs : List (Scad O M) → Bool
  | [] => true
  | s :: l => s.vac && vacs l
end

/-- the union of sets -/
def unions : List (Set X) → Set X
  | [] => ∅
  | a :: l => a ∪ unions l

/-- the intersection of sets -/
def inters : List (Set X) → Set X
  | [] => Set.univ
  | a :: l => a ∩ inters l

/-- children without objects (first component) are skipped, then everything is subtracted from the first one -/
def diffs : List (Bool × Set X) → Set X
  | [] => ∅
  | (true, _) :: l => diffs l
  | (false, a) :: l => a \ unions (l.map Prod.snd)

/-- children without objects are ignored; the intersection of nothing is empty -/
def meets (l : List (Bool × Set X)) : Set X :=
  match (l.filter fun e => !e.1) with
  | [] => ∅
  | e :: es => e.2 ∩ inters (es.map Prod.snd)

mutual
/-- the points of the object that a SCAD tree denotes -/
def Scad.pts [SMul M X] (solid : O → Set X) : Scad O M → Set X
  | .obj o => solid o
  | .hollow => ∅
  | .ignored _ => ∅
  | .union l => unions ((ptss solid l).map Prod.snd)
  | .diff l => diffs (ptss solid l)
  | .inter l => meets (ptss solid l)
  | .xform t l => t • unions ((ptss solid l).map Prod.snd)
/-- whether they contain no objects, and the points, of all children -/
def ptss [SMul M X] (solid : O → Set X) : List (Scad O M) → List (Bool × Set X)
  | [] => []
  | s :: l => (s.vac, s.pts solid) :: ptss solid l
end

mutual
/-- the points of the object that a CSG tree denotes -/
def Csg.pts [SMul M X] (solid : O → Set X) : Csg O M → Set X
  | .leaf o m => m • solid o
  | .sub a b => ptsAdd solid a \ ptsAdd solid b
  | .cut [] => ∅
  | .cut (a :: l) => ptsAdd solid a ∩ ptsCut solid l
/-- union -/
def ptsAdd [SMul M X] (solid : O → Set X) : List (Csg O M) → Set X
  | [] => ∅
  | t :: ts => t.pts solid ∪ ptsAdd solid ts
/-- intersection -/
def ptsCut [SMul M X] (solid : O → Set X) : List (List (Csg O M)) → Set X
  | [] => Set.univ
  | l :: ls => ptsAdd solid l ∩ ptsCut solid ls
end

mutual
/-- no objects without extent, except in disabled subtrees -/
def Scad.solidOnly : Scad O M → Bool
  | .obj _ => true
  | .hollow => false
  | .ignored _ => true
  | .union l => solidOnlys l
  | .diff l => solidOnlys l
  | .inter l => solidOnlys l
  | .xform _ l => solidOnlys l
/-- for all children -/
def solidOnlys : List (Scad O M) → Bool
  | [] => true
  | s :: l => s.solidOnly && solidOnlys l
end

mutual
/-- no objects without extent in intersections, except in disabled subtrees -/
def Scad.hollowOk : Scad O M → Bool
  | .obj _ => true
  | .hollow => true
  | .ignored _ => true
  | .union l => hollowOks l
  | .diff l => hollowOks l
  | .inter l => solidOnlys l
  | .xform _ l => hollowOks l
/-- for all children -/
def hollowOks : List (Scad O M) → Bool
  | [] => true
  | s :: l => s.hollowOk && hollowOks l
end

/-- the last child contains no objects, and exactly one of the others does -/
def lone (l : List (Scad O M)) : Bool :=
  match l.reverse with
  | [] => false
  | z :: rest => z.vac && (rest.filter fun s => !s.vac).length == 1

mutual
/-- no intersection (outside of disabled subtrees) has a last child without objects and exactly one other child with
objects -/
def Scad.noLone : Scad O M → Bool
  | .obj _ => true
  | .hollow => true
  | .ignored _ => true
  | .union l => noLones l
  | .diff l => noLones l
  | .inter l => noLones l && !lone l
  | .xform _ l => noLones l
/-- for all children -/
def noLones : List (Scad O M) → Bool
  | [] => true
  | s :: l => s.noLone && noLones l
end

end Hob3l.Scad
