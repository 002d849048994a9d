import Verif.Aug.Model
import Verif.Dict.Spec

/-
What the stored values have to be.
-/

namespace Hob3l.Aug

open Hob3l.Dict
open Hob3l.Dict.Tree

variable {α M : Type}

/-- the tree without the stored values -/
def erase : Tree (α × M) → Tree α
  | leaf => leaf
  | node l a s r => node (erase l) a.1 s (erase r)

/-- the value of a tree -/
def total (g : α → M → M → M) (z : M) : Tree α → M
  | leaf => z
  | node l a _ r => g a (total g z l) (total g z r)

/-- in each node the value of its subtree is stored -/
def Right (g : α → M → M → M) (z : M) : Tree (α × M) → Prop
  | leaf => True
  | node l a s r => Right g z l ∧ Right g z r ∧ a.2 = total g z (erase (node l a s r))

/-- the tree has the root that the caller is told -/
def HasRoot (t : Tree (α × M)) (r : Option α) : Prop := rootId (erase t) = r

/-- the exclusive-or of all numbers -/
def xors (f : α → Nat) (l : List α) : Nat := (l.map f).foldr (· ^^^ ·) 0

end Hob3l.Aug
