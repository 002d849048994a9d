import Verif.Poly.Spec
import Verif.Poly.ModelCmp
import Mathlib.Algebra.Order.Field.Rat

/-!
What the edges given to the tracing of paths should look like in the plane.
-/

namespace Hob3l.Poly

/-- the order of the points, from left to right, and from bottom to top -/
def Lt (p q : P) : Prop := p.1 < q.1 ∨ (p.1 = q.1 ∧ p.2 < q.2)

/-- the point on the segment from `a` to `b` at the parameter `t` -/
def pointAt (a b : P) (t : ℚ) : ℚ × ℚ := (a.1 + t * (b.1 - a.1), a.2 + t * (b.2 - a.2))

/-- all common points of two segments are ends of both -/
def NonCrossing (a b c d : P) : Prop :=
  ∀ s t : ℚ, 0 ≤ s → s ≤ 1 → 0 ≤ t → t ≤ 1 → pointAt a b s = pointAt c d t → (s = 0 ∨ s = 1) ∧ (t = 0 ∨ t = 1)

/-- coordinates for which products of differences fit into 64 bits -/
def Small (p : P) : Prop := (-1073741824 ≤ p.1 ∧ p.1 < 1073741824) ∧ (-1073741824 ≤ p.2 ∧ p.2 < 1073741824)

/-- an arrangement of non-crossing edges, given by all their ends in the order of `cq_sweep_result_vertex_cmp` -/
structure Arranged (ed : Nat → Bool → P) (l : List Vtx) : Prop where
  ends : ∀ v ∈ l, ed v.edge v.rigt = v.pos
  small : ∀ v ∈ l, Small v.pos
  sorted : l.Pairwise fun v w => ∃ c, resultCmp ed v w = some c ∧ c < 0
  apart : ∀ v ∈ l, ∀ w ∈ l, v.edge ≠ w.edge →
    NonCrossing (ed v.edge false) (ed v.edge true) (ed w.edge false) (ed w.edge true)

/-- the search in the tree of edges finds the place of a vertex between smaller and greater edges (this is what
`cp_dict_insert_by` does, see `C69_search`) -/
def IsSearch (ed : Nat → Bool → P) (ins : Ins) : Prop :=
  ∀ (v : Vtx) (A B : List Nat), (∀ e ∈ A, treeCmp ed v e = some 1) → (∀ e ∈ B, treeCmp ed v e = some (-1)) →
    ins (A ++ B) v = some A.length

/-- the edge crosses the vertical line at `x` -/
abbrev Crosses (ed : Nat → Bool → P) (x : ℚ) (e : Nat) : Prop := ((ed e false).1 : ℚ) < x ∧ x < ((ed e true).1 : ℚ)

/-- the height of the edge on the vertical line at `x` -/
def heightAt (ed : Nat → Bool → P) (e : Nat) (x : ℚ) : ℚ :=
  (ed e false).2 + (x - (ed e false).1) * (((ed e true).2 - (ed e false).2) / ((ed e true).1 - (ed e false).1))

/-- the number of edges that cross the vertical line at `x` below `y` -/
def numBelow (ed : Nat → Bool → P) (l : List Vtx) (x y : ℚ) : Nat :=
  (l.filter fun v => v.rigt = false ∧ Crosses ed x v.edge ∧ heightAt ed v.edge x < y).length

end Hob3l.Poly
