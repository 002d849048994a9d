import Verif.Ring.Model
import Mathlib.Data.List.Chain

/-
Specification: a ring is a list of distinct nodes, each linked to the next one, the last one to the first one.
-/

namespace Hob3l.Ring

/-- `y` follows `x`, in both directions -/
def Link (s : St) (x y : Nat) : Prop := s.nxt x = y ∧ s.prv y = x

/-- the nodes of `L`, in this order, form a ring -/
def IsRing (s : St) (L : List Nat) : Prop :=
  L ≠ [] ∧ L.Nodup ∧ L.IsChain (Link s) ∧ ∀ x ∈ L.getLast?, ∀ y ∈ L.head?, Link s x y

/-- all links are inverse to each other -/
def Inverse (s : St) : Prop := ∀ x, s.prv (s.nxt x) = x ∧ s.nxt (s.prv x) = x

end Hob3l.Ring
