import Verif.Vec.Model

/-
Specification of vectors: lists.
-/

namespace Hob3l.Vec

variable {α : Type}

/-- the elements of a vector -/
def elems (v : Vec α) : List α := v.mem.take v.size

/-- a vector as the operations leave it -/
def Valid (v : Vec α) : Prop := v.size ≤ v.mem.length

/-- a vector of `n` elements does not exceed the memory limit (growing may allocate almost twice as much) -/
def Env.Fits (env : Env α) (n : Nat) : Prop := 2 * n ≤ env.max ∧ 4 ≤ env.max

/-- the list is sorted with respect to a comparison with the search key: elements after a larger one are larger, elements
before a smaller one are smaller -/
def SortedFor (cmp : α → Int) (L : List α) : Prop :=
  ∀ (i j : Nat) (x y : α), i < j → L[i]? = some x → L[j]? = some y → (cmp x < 0 → cmp y < 0) ∧ (cmp y > 0 → cmp x > 0)

end Hob3l.Vec
