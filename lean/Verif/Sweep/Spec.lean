import Verif.Sweep.Model
import Verif.Matq.Spec
import Mathlib.Order.WithBot
import Mathlib.Algebra.Order.Field.Basic

/-
Specification vocabulary for the plane sweep: what a set of edges covers.
Uses only the data type `Edge` of the model (end points, member mask, flags).
-/

namespace Hob3l.Sweep

open Hob3l.Matq

/-- left-to-right order of points; points with the same x are ordered by y -/
def LexLt (a b : Vec2) : Prop := a.x < b.x ∨ a.x = b.x ∧ a.y < b.y

instance (a b : Vec2) : Decidable (LexLt a b) := by unfold LexLt; infer_instance

/-- `X` is on the segment from `a` to `b`, the end point `b` excluded -/
def HalfOpen (a b X : Pt) : Prop := OnSeg a b X ∧ X ≠ b

/-- the half-open set of points of an edge -/
def Edge.Has (x : Edge) (X : Pt) : Prop := HalfOpen x.left.pt x.rigt.pt X

open Classical in
/-- which polygons have `X` on this edge: the member mask if `X` is on the edge -/
noncomputable def Edge.cover (x : Edge) (X : Pt) : BitVec 64 := if x.Has X then x.member else 0

/-- symmetric difference (XOR) of the memberships of all edges through `X` -/
noncomputable def coverAll : List Edge → Pt → BitVec 64
  | [], _ => 0
  | x :: xs, X => x.cover X ^^^ coverAll xs X

/-- no point is on two of the edges -/
def Disjoint (l : List Edge) : Prop := l.Pairwise (fun x y => ∀ X, ¬ (x.Has X ∧ y.Has X))

/-- the three kinds of edges while the sweep line is at `s`: swept, crossing the sweep line, not yet reached.
A swept edge has no events left, an active one is in the state and has its end event left, a pending one is not in the
state and has both events left. -/
def Edge.Done (x : Edge) (s : Vec2) : Prop :=
  x.inState = false ∧ x.agL = false ∧ x.agR = false ∧ ¬ LexLt s x.rigt
def Edge.Active (x : Edge) (s : Vec2) : Prop :=
  x.inState = true ∧ x.agL = false ∧ x.agR = true ∧ ¬ LexLt s x.left ∧ LexLt s x.rigt
def Edge.Pending (x : Edge) (s : Vec2) : Prop :=
  x.inState = false ∧ x.agL = true ∧ x.agR = true ∧ LexLt s x.left

/-- number of edge ends at the point `v` -/
def ends (v : Vec2) : List Edge → Nat
  | [] => 0
  | e :: es => (if e.left = v then 1 else 0) + (if e.rigt = v then 1 else 0) + ends v es

/-! comparators -/

/-- `cmp` orders the elements satisfying `ok` consistently: it never fails, is antisymmetric, and transitive
(with strictness propagated); `eqv` is when it returns 0 -/
structure Consistent {α : Type} (cmp : α → α → Option Int) (ok : α → Prop) (eqv : α → α → Prop) : Prop where
  total : ∀ a b, ok a → ok b → ∃ i, cmp a b = some i ∧ cmp b a = some (-i) ∧ (i = 0 ↔ eqv a b)
  trans : ∀ a b c i j, ok a → ok b → ok c → cmp a b = some i → cmp b c = some j → i ≤ 0 → j ≤ 0 →
    ∃ k, cmp a c = some k ∧ k ≤ 0 ∧ ((i < 0 ∨ j < 0) → k < 0)

/-- height of the line through an edge at the sweep position `v`; for a vertical edge the height of `v` itself -/
def heightAt (l r v : Vec2) : ℚ :=
  if l.x = r.x then v.y else l.y + ((v.x : ℚ) - l.x) * ((r.y - l.y) / (r.x - l.x))

/-- slope of an edge, vertical edges are steepest -/
def slope (l r : Vec2) : WithTop ℚ :=
  if l.x = r.x then ⊤ else (((r.y : ℚ) - l.y) / (r.x - l.x) : ℚ)

/-- `(h, s)` is lexicographically below `(h', s')` -/
def BelowKey (h : ℚ) (s : WithTop ℚ) (h' : ℚ) (s' : WithTop ℚ) : Prop := h < h' ∨ h = h' ∧ s < s'

/-! reduction -/

/-- XOR of a list of membership masks: bit `i` is set iff the number of edges of polygon `i` is odd -/
def xorAll : List (BitVec 64) → BitVec 64
  | [] => 0
  | m :: ms => m ^^^ xorAll ms

/-- effect of one vertex on the list of membership masks of the edges along the scan line: `ends` edges from place `k`
are replaced by the edges that start there -/
def stepMasks (ms : List (BitVec 64)) (v : RVertex) : List (BitVec 64) :=
  ms.take v.k ++ v.starts ++ ms.drop (v.k + v.ends)

/-- a vertex of a planar set of closed outlines: the edges ending there are in the state and, for every polygon,
the parity of edges ending and starting agree -/
def VertexOk (n : Nat) (ms : List (BitVec 64)) (v : RVertex) : Prop :=
  v.k + v.ends ≤ ms.length ∧ xorAll ((ms.drop v.k).take v.ends) = xorAll v.starts ∧ ∀ m ∈ v.starts, m.toNat < 2 ^ n

def RunOk (n : Nat) : List (BitVec 64) → List RVertex → Prop
  | _, [] => True
  | ms, v :: vs => VertexOk n ms v ∧ RunOk n (stepMasks ms v) vs

/-- masks along the scan line after a sequence of vertices -/
def runMasks : List (BitVec 64) → List RVertex → List (BitVec 64)
  | ms, [] => ms
  | ms, v :: vs => runMasks (stepMasks ms v) vs

end Hob3l.Sweep
