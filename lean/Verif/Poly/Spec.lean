import Verif.Poly.Model

/-!
What the traced polygon should be.
-/

namespace Hob3l.Poly

/-- the edges of a closed path -/
def cyc {α : Type} (p : List α) : List (α × α) := p.zip (p.tail ++ p.head?.toList)

/-- the vertices belong to edges, each with a left end followed later by a right end elsewhere -/
def Proper (l : List Vtx) : Prop :=
  ∀ e, l.filter (fun v => v.edge = e) = [] ∨
    ∃ a b, a ≠ b ∧ l.filter (fun v => v.edge = e) = [⟨e, false, a⟩, ⟨e, true, b⟩]

/-- the edges: number, left end, right end -/
def segs (l : List Vtx) : List (Nat × P × P) :=
  l.filterMap fun v =>
    if v.rigt then none else (l.find? fun w => w.edge = v.edge ∧ w.rigt = true).map fun w => (v.edge, v.pos, w.pos)

/-- an edge with a direction -/
def directed (back : Nat → Bool) (s : Nat × P × P) : P × P := if back s.1 then (s.2.2, s.2.1) else (s.2.1, s.2.2)

/-- the order of the points, from left to right, and from bottom to top -/
def Le (p q : P) : Prop := p.1 < q.1 ∨ (p.1 = q.1 ∧ p.2 ≤ q.2)

/-- a point in the plane is an end of this number of edges -/
def degree (l : List Vtx) (p : P) : Nat := l.countP fun v => v.pos = p

theorem Le.antisymm {p q : P} (h1 : Le p q) (h2 : Le q p) : p = q := by
  unfold Le at h1 h2
  apply Prod.ext <;> omega

end Hob3l.Poly
