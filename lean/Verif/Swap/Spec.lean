import Verif.Swap.Model
import Verif.Dict.Spec
import Verif.Aug.Spec

/-
Vocabulary of the statements about exchanging nodes: which tree is in memory, exchanging two names in a tree.
-/

namespace Hob3l.Swap

open Hob3l.Dict
open Hob3l.Dict.Tree

variable {α M : Type}

/-- the tree `t`, whose root has the parent `p`, is in memory -/
def Holds (h : Heap α M) : Option α → Dict.Tree α → Prop
  | _, leaf => True
  | p, node l a s r =>
    h.par a = p ∧ h.ed a false = rootId l ∧ h.ed a true = rootId r ∧ h.st a = s ∧
    Holds h (some a) l ∧ Holds h (some a) r

/-- rename the nodes -/
def rename {β : Type} (f : α → β) : Dict.Tree α → Dict.Tree β
  | leaf => leaf
  | node l a s r => node (rename f l) (f a) s (rename f r)

/-- exchange two names -/
def exch [DecidableEq α] (a b x : α) : α := if x = a then b else if x = b then a else x

/-- all nodes of several trees -/
def nodes (ts : List (Dict.Tree α)) : List α := ts.flatMap toList

/-- each node of a tree stores the total of its subtree -/
def Sums (g : α → M → M → M) (z : M) (h : Heap α M) : Dict.Tree α → Prop
  | leaf => True
  | node l a s r => Sums g z h l ∧ Sums g z h r ∧ h.sm a = Aug.total g z (node l a s r)

end Hob3l.Swap
