import Verif.Sweep.ReduceModel
import Verif.Sweep.LoopSpec

/-
What the Boolean operation is to compute, in terms of points of the plane.
-/

namespace Hob3l.Sweep

open Hob3l.Matq

/-- `X` is a point of the edge -/
def Edge.On (e : Edge) (X : Pt) : Prop := OnSeg e.left.pt e.rigt.pt X

def Edge.End (e : Edge) (X : Pt) : Prop := X = e.left.pt ∨ X = e.rigt.pt

/-- edges that have no points in common other than ends of both -/
def Planar (E : List Edge) : Prop := E.Pairwise (fun e f => ∀ X, e.On X → f.On X → e.End X ∧ f.End X)

/-- edges from left to right between points of the supported range -/
def Directed (E : List Edge) : Prop := ∀ e ∈ E, LexLt e.left e.rigt ∧ e.left.InRange ∧ e.rigt.InRange

/-- the ray from `X` downwards crosses the edge (an edge is taken without its right end; vertical edges are not
crossed) -/
def Edge.Under (e : Edge) (X : Pt) : Prop :=
  (e.left.x : ℚ) ≤ X.1 ∧ X.1 < e.rigt.x ∧ ∃ y, e.On (X.1, y) ∧ y < X.2

open Classical in
/-- even-odd rule for a single set of edges: whether an odd number of them are below `X` -/
noncomputable def oddBelow (E : List Edge) (X : Pt) : Bool := (E.filter fun e => e.Under X).length % 2 = 1

open Classical in
/-- even-odd rule: bit `i` is set iff `X` is inside of polygon `i`, i.e., an odd number of edges of polygon `i` are
below `X` -/
noncomputable def insideMask : List Edge → Pt → BitVec 64
  | [], _ => 0
  | e :: es, X => (if e.Under X then e.member else 0) ^^^ insideMask es X

/-- the vertices of the edges in the order of `data->result` -/
def SweepOrder (E : List Edge) (vs : List RV) : Prop :=
  vs.Perm (E.flatMap fun e => [⟨e, false⟩, ⟨e, true⟩]) ∧
  vs.Pairwise (fun a b => ∃ i, resultVertexCmp a.vertex b.vertex = some i ∧ i < 0)

end Hob3l.Sweep
