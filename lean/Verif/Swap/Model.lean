import Verif.Dict.Model

/-
Model of the exchange of two tree nodes: /repo/src/hob3lbase/dict.c:951-1099 (`cp_dict_swap`, `cp_dict_swap_update_root`,
`cp_dict_swap_update_root2`), and of its use for bundles of edges, /repo/src/hob3lop/op-sweep-internal.h:1097-1139.

Unlike in `Verif/Dict`, the memory is modelled node by node here, because the function overwrites whole nodes and repairs the
pointers into them: between the first and the last statement the pointers do not form a tree.  `α` are the addresses of the
nodes, a pointer is an `Option α` (`none` = NULL).  `none` as a result is a failed assertion, or a loop that does not end within
the given number of rounds.
-/

namespace Hob3l.Swap

open Hob3l.Matq (ass)

/-- memory, field by field: `parent`, `edge[0..1]`, `stat` of `cp_dict_t` (dict_tam.h:14-18), and the member `sum_member` of the
structure around it (op-sweep-internal.h), which is not part of `cp_dict_t` -/
structure Heap (α M : Type) where
  par : α → Option α
  ed : α → Bool → Option α
  st : α → Nat
  sm : α → M

variable {α M : Type} [DecidableEq α]

/-- assignment to `x->parent` -/
def setPar (h : Heap α M) (x : α) (p : Option α) : Heap α M :=
  { h with par := fun y => if y = x then p else h.par y }

/-- `cp_dict_set_child` dict.c:195-202: assignment to `x->edge[i]` -/
def setEd (h : Heap α M) (x : α) (i : Bool) (c : Option α) : Heap α M :=
  { h with ed := fun y j => if y = x ∧ j = i then c else h.ed y j }

/-- `cp_dict_idx` dict.h:960-965 -/
def idx (h : Heap α M) (p c : α) : Option Bool := do
  ass (h.ed p false = some c ∨ h.ed p true = some c)
  some (decide (h.ed p true = some c))

/-- `CP_SWAP(a, b)` dict.c:999, def.h:167-175: exchange of the contents of the two `cp_dict_t` -/
def swapCells (a b : α) (h : Heap α M) : Heap α M :=
  { h with
    par := fun x => if x = a then h.par b else if x = b then h.par a else h.par x
    ed := fun x => if x = a then h.ed b else if x = b then h.ed a else h.ed x
    st := fun x => if x = a then h.st b else if x = b then h.st a else h.st x }

/-- `swap_update_child` dict.c:951-959 -/
def swapUpdateChild (a b : α) (h : Heap α M) : Option (Heap α M) :=
  match h.par a with
  | none => some h
  | some p => do
    let i ← idx h p b
    some (setEd h p i (some a))

/-- `swap_update_parent` dict.c:961-969 -/
def swapUpdateParent (a : α) (i : Bool) (h : Heap α M) : Heap α M :=
  match h.ed a i with
  | none => h
  | some c => setPar h c (some a)

/-- `cp_dict_swap` dict.c:1004-1008: the two nodes are siblings -/
def swapSiblings (p a b : α) (h : Heap α M) : Option (Heap α M) := do
  ass (h.ed p false = some a ∨ h.ed p false = some b)
  ass (h.ed p true = some a ∨ h.ed p true = some b)
  ass (h.par a ≠ some a)
  ass (h.par b ≠ some b)
  some (setEd (setEd h p false (h.ed p true)) p true (h.ed p false))

/-- `cp_dict_swap` dict.c:1011-1017: one node is the child of the other -/
def swapChild (a b : α) (h : Heap α M) : Heap α M :=
  let h1 := if h.par a = some a then setPar h a (some b) else h
  if h1.par b = some b then setPar h1 b (some a) else h1

/-- `cp_dict_swap` dict.c:1002-1022 -/
def swapUp (a b : α) (h : Heap α M) : Option (Heap α M) :=
  match h.par a with
  | none => do
    let h2 ← swapUpdateChild a b (swapChild a b h)
    swapUpdateChild b a h2
  | some p =>
    if some p = h.par b then swapSiblings p a b h
    else do
      let h2 ← swapUpdateChild a b (swapChild a b h)
      swapUpdateChild b a h2

/-- `cp_dict_swap` dict.c:988-1029 -/
def swap (a b : α) (h : Heap α M) : Option (Heap α M) :=
  if a = b then some h
  else do
    let h2 ← swapUp a b (swapCells a b h)
    some (swapUpdateParent b true (swapUpdateParent b false (swapUpdateParent a true (swapUpdateParent a false h2))))

/-- dict.c:1052-1058, the same as 1083-1089 and 1092-1098: update of a variable that holds a root -/
def newRoot (a b : α) (r : Option α) : Option α :=
  if some a = r then some b else if some b = r then some a else r

/-- `cp_dict_swap_update_root` dict.c:1046-1059 -/
def swapRoot (a b : α) (r : Option α) (h : Heap α M) : Option (Heap α M × Option α) := do
  let h' ← swap a b h
  some (h', newRoot a b r)

/-- `cp_dict_swap_update_root2` dict.c:1076-1099 for two different variables -/
def swapRoot2 (a b : α) (r1 r2 : Option α) (h : Heap α M) : Option (Heap α M × Option α × Option α) := do
  let h' ← swap a b h
  some (h', newRoot a b r1, newRoot a b r2)

/-- `cq_sweep_bundle_get_sum_member` op-sweep-internal.h:1097-1105 -/
def getSum (z : M) (h : Heap α M) : Option α → M
  | none => z
  | some x => h.sm x

/-- `cq_sweep_bundle_update_sum_member` op-sweep-internal.h:1107-1117; `g` is the combination of `member` and the sums of the
children, there an exclusive-or, and `z` the value for NULL, there 0 -/
def updSum (g : α → M → M → M) (z : M) (x : α) (h : Heap α M) : Heap α M :=
  { h with sm := fun y => if y = x then g x (getSum z h (h.ed x false)) (getSum z h (h.ed x true)) else h.sm y }

/-- `cq_sweep_bundle_update_sum_member_rec` op-sweep-internal.h:1119-1126, for at most `n` rounds -/
def updSumRec (g : α → M → M → M) (z : M) : Nat → Option α → Heap α M → Option (Heap α M)
  | _, none, h => some h
  | 0, some _, _ => none
  | n + 1, some x, h => updSumRec g z n (h.par x) (updSum g z x h)

/-- `bundle_edge_swap` op-sweep-internal.h:1128-1139; the two assertions about membership are left out -/
def bundleSwap (g : α → M → M → M) (z : M) (n : Nat) (a b : α) (r : Option α) (h : Heap α M) :
    Option (Heap α M × Option α) := do
  ass (a ≠ b)
  let q ← swapRoot a b r h
  let h1 ← updSumRec g z n (some a) q.1
  let h2 ← updSumRec g z n (some b) h1
  some (h2, q.2)

end Hob3l.Swap
