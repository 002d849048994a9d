import Verif.Sweep.Spec

/-
Specification vocabulary for a whole run of the sweep: the parity of the edges that end at a point, and closeness of
line segments.  Uses only the data type `Edge` of the model.
-/

namespace Hob3l.Sweep

open Hob3l.Matq

/-- the polygons of which this edge has an end at `v` -/
def endMask (v : Vec2) (x : Edge) : BitVec 64 := (if x.left = v then x.member else 0) ^^^ (if x.rigt = v then x.member else 0)

/-- bit `i` is set iff the number of edges of polygon `i` that end at `v` is odd -/
def endXor (v : Vec2) : List Edge → BitVec 64
  | [] => 0
  | x :: xs => endMask v x ^^^ endXor v xs

/-- every polygon is closed: an even number of its edges end at every point -/
def Closed (l : List Edge) : Prop := ∀ v, endXor v l = 0

/-- `x` is part of the segment `y` -/
def Edge.Within (x y : Edge) : Prop := ∀ X, OnSeg x.left.pt x.rigt.pt X → OnSeg y.left.pt y.rigt.pt X

/-- not farther apart than half a unit in both directions -/
def Near (X Y : Pt) : Prop := |X.1 - Y.1| ≤ 1 / 2 ∧ |X.2 - Y.2| ≤ 1 / 2

/-- edges as they are when just added by `cq_sweep_add_edge` -/
def Fresh (E : List Edge) : Prop :=
  ∀ x ∈ E, LexLt x.left x.rigt ∧ x.left.InRange ∧ x.rigt.InRange ∧ x.inState = false ∧ x.agL = true ∧ x.agR = true

end Hob3l.Sweep
