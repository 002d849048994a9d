import Verif.Heap.Model
import Mathlib.Data.List.Perm.Basic

/-
Specification of priority queues.
-/

namespace Hob3l.Heap

variable {α : Type}

/-- the comparison function is a total preorder -/
structure IsOrder (cmp : α → α → Int) : Prop where
  anti : ∀ a b, cmp a b ≤ 0 ↔ ¬ cmp b a < 0
  trans : ∀ a b c, cmp a b ≤ 0 → cmp b c ≤ 0 → cmp a c ≤ 0

/-- no element is less than the element in the middle position between it and the front -/
def Ordered (cmp : α → α → Int) (L : List α) : Prop :=
  ∀ i j x y, (j = 2 * i + 1 ∨ j = 2 * i + 2) → L[i]? = some x → L[j]? = some y → cmp x y ≤ 0

/-- a minimum of the list -/
def IsMin (cmp : α → α → Int) (L : List α) (m : α) : Prop := m ∈ L ∧ ∀ x ∈ L, cmp m x ≤ 0

/-- the priority of at most one element, at position `pos`, is out of order: there is an order by which the list is ordered,
and which agrees on all other elements -/
def OrderedExcept (cmp : α → α → Int) (L : List α) (pos : Nat) : Prop :=
  ∃ cmp' : α → α → Int, IsOrder cmp' ∧ Ordered cmp' L ∧
    ∀ i j x y, i ≠ pos → j ≠ pos → L[i]? = some x → L[j]? = some y → cmp x y = cmp' x y

/-- the stored indices are the positions -/
def Indexed (L : List α) (ix : α → Nat) : Prop := ∀ i x, L[i]? = some x → ix x = i

/-- valid priority queue of elements with embedded index: each element is there once and knows its position -/
structure Good (cmp : α → α → Int) (h : Heap α) : Prop where
  ordered : Ordered cmp h.arr
  nodup : h.arr.Nodup
  indexed : Indexed h.arr h.ix

end Hob3l.Heap
