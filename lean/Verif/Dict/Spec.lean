import Verif.Dict.Model

/-
Vocabulary of the statements about search trees: the sequence of elements, validity, height.  Nothing here refers to
the operations.
-/

namespace Hob3l.Dict

open Tree

variable {α : Type}

/-- the elements in order -/
def toList : Tree α → List α
  | leaf => []
  | node l a _ r => toList l ++ a :: toList r

/-- `RB t c h`: `t` is a red-black tree with `h` black nodes on every path to a leaf, its root is red iff `c`, no red
node has a red child, and every node stores twice its black height plus its colour -/
inductive RB : Tree α → Bool → Nat → Prop where
  | leaf : RB leaf false 0
  | red {l r : Tree α} {a : α} {h : Nat} : RB l false h → RB r false h → RB (node l a (2 * h + 1) r) true h
  | black {l r : Tree α} {a : α} {c d : Bool} {h : Nat} : RB l c h → RB r d h → RB (node l a (2 * h + 2) r) false (h + 1)

/-- a valid tree of distinct nodes (a red root is allowed) -/
def Valid (t : Tree α) : Prop := (∃ c h, RB t c h) ∧ (toList t).Nodup

/-- the number of nodes on the longest path -/
def height : Tree α → Nat
  | leaf => 0
  | node l _ _ r => max (height l) (height r) + 1

/-- `cmp` (the comparison of the searched key with an element) is consistent with the order of the elements: first come
the elements less than the key, then the equal ones, then the greater ones -/
def Sorted (cmp : α → Int) (L : List α) : Prop :=
  L.Pairwise (fun a b => (cmp a < 0 → cmp b < 0) ∧ (cmp a ≤ 0 → cmp b ≤ 0))

end Hob3l.Dict
