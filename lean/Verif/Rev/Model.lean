import Verif.Dict.Model
import Verif.Swap.Spec

/-
Model of the reversal of the edges at a crossing in both phases of the sweep: /repo/src/hob3lop/op-sweep.c:647-763 (`ev_cross`
up to the new neighbours, `ev_clear_and_reverse`) and 1033-1123 (`sweep_phase2_edge_reverse`).

The state (phase 1) or a bundle (phase 2) is a tree of edges.  The exchange of two of its edges is `rename (exch s t)`, which is
what `cp_dict_swap_update_root` does to the memory (C126).  `none` = failed assertion; also the assertions that limit a search to
100 rounds.
-/

namespace Hob3l.Rev

open Hob3l.Matq (ass)
open Hob3l.Dict
open Hob3l.Dict.Tree
open Hob3l.Swap (rename exch)

variable {α ξ : Type} [DecidableEq α] [DecidableEq ξ]

/-- `tree_edge_next`, `tree_edge_prev` op-sweep-internal.h:903-917: the inner `none` is NULL -/
def stepE (dir : Bool) (tr : Dict.Tree α) (x : α) : Option (Option α) := do
  let q ← locate x tr []
  some ((stepLoc dir q.1 q.2).bind fun y => rootId y.1)

/-- the four searches for the ends, op-sweep.c:713-723, 728-738, 1065-1077, 1080-1091: go on to the neighbour `u` of `x` while
`cont x u`, in at most `n` rounds; returns the last edge and the neighbour at which the search stopped -/
def findEnd (dir : Bool) (cont : α → α → Bool) : Nat → Dict.Tree α → α → Option (α × Option α)
  | 0, _, _ => none
  | n + 1, tr, x => do
    let u ← stepE dir tr x
    match u with
    | none => some (x, none)
    | some u => if cont x u then findEnd dir cont n tr u else some (x, some u)

/-- how a round of the reversal ends: at two neighbours, at one edge in the middle, or with the next pair -/
inductive Next (α : Type) where
  | done
  | mid (m : α)
  | more (s t : α)

/-- one round of the reversal, op-sweep.c:666-690 and 1097-1121 -/
def round (s t : α) (tr : Dict.Tree α) : Option (Dict.Tree α × Next α) := do
  ass (s ≠ t)
  let t2a ← stepE true tr t
  let tr' := rename (exch s t) tr
  let t2 ← stepE true tr' s
  ass (t2a = some s ∨ t2a = t2)
  let t2 ← t2
  if t2 = t then some (tr', .done)
  else
    let s2 ← stepE false tr' t
    let s2 ← s2
    if s2 = t2 then some (tr', .mid s2) else some (tr', .more s2 t2)

/-- the loop op-sweep.c:1096-1122, for at most `n` rounds -/
def revLoop2 : Nat → Dict.Tree α → α → α → Option (Dict.Tree α)
  | 0, _, _, _ => none
  | n + 1, tr, s, t => do
    let q ← round s t tr
    match q.2 with
    | .done => some q.1
    | .mid _ => some q.1
    | .more s2 t2 => revLoop2 n q.1 s2 t2

/-- `sweep_phase2_edge_reverse` op-sweep.c:1052-1123; `eqv` is `intersection_eq` with the crossing, :1038-1050; `s` is
`ev->some_edge_tb[..]` -/
def reverse2 (eqv : α → α → Bool) (s : Option α) (n : Nat) (tr : Dict.Tree α) : Option (Dict.Tree α) :=
  match s with
  | none => some tr
  | some s => do
    ass (s ∈ Dict.toList tr)
    let t ← findEnd false eqv 100 tr s
    let s ← findEnd true eqv 100 tr s
    if s.1 = t.1 then some tr else revLoop2 n tr s.1 t.1

/-- the fields about crossings: `next_xing`, `prev_xing` of the edges, `some_edge` of the crossings (op-sweep-internal.h:290-305) -/
structure XS (α ξ : Type) where
  nx : α → Option ξ
  px : α → Option ξ
  se : ξ → Option α

/-- `x->next_xing = NULL` -/
def XS.clrN (xs : XS α ξ) (x : α) : XS α ξ := { xs with nx := fun y => if y = x then none else xs.nx y }
/-- `x->prev_xing = NULL` -/
def XS.clrP (xs : XS α ξ) (x : α) : XS α ξ := { xs with px := fun y => if y = x then none else xs.px y }
/-- `c->some_edge = NULL` -/
def XS.clrS (xs : XS α ξ) (c : ξ) : XS α ξ := { xs with se := fun y => if y = c then none else xs.se y }

/-- `xing_split` op-sweep-internal.h:1388-1391 -/
def splitN (xs : XS α ξ) (prev : Option α) : XS α ξ :=
  match prev with
  | none => xs
  | some p =>
    match xs.nx p with
    | none => xs
    | some c => (xs.clrS c).clrN p

/-- `xing_split` op-sweep-internal.h:1392-1395 -/
def splitP (xs : XS α ξ) (next : Option α) : XS α ξ :=
  match next with
  | none => xs
  | some p =>
    match xs.px p with
    | none => xs
    | some c => (xs.clrS c).clrP p

/-- `xing_split` op-sweep-internal.h:1384-1396 -/
def split (xs : XS α ξ) (prev next : Option α) : XS α ξ := splitP (splitN xs prev) next

/-- `ev_clear_and_reverse` op-sweep.c:647-691, for at most `n` rounds -/
def revLoop1 (ev : ξ) : Nat → Dict.Tree α → XS α ξ → α → α → Option (Dict.Tree α × XS α ξ)
  | 0, _, _, _, _ => none
  | n + 1, tr, xs, s, t => do
    ass (xs.nx s = none ∨ xs.nx s = some ev)
    ass (xs.nx t = none ∨ xs.nx t = some ev)
    ass (xs.px s = none ∨ xs.px s = some ev)
    ass (xs.px t = none ∨ xs.px t = some ev)
    let xs := (((xs.clrN s).clrP s).clrN t).clrP t
    let q ← round s t tr
    match q.2 with
    | .done => some (q.1, xs)
    | .mid m => some (q.1, (xs.clrN m).clrP m)
    | .more s2 t2 => revLoop1 ev n q.1 xs s2 t2

/-- what `ev_cross` has found and changed before it looks for new crossings, op-sweep.c:699-755: the state, the crossings, the
ends `s`, `t` of the run and their outer neighbours `r`, `u`, and `some_edge_tb` of the crossing -/
structure Crossed (α ξ : Type) where
  tr : Dict.Tree α
  xs : XS α ξ
  s : α
  t : α
  r : Option α
  u : Option α
  tb : Bool → Option α

/-- `ev_cross` op-sweep.c:699-755; `south` is `edge_south`, :693-697; `tb` is the old value of `some_edge_tb` -/
def cross (ev : ξ) (south : α → Bool) (n : Nat) (tb : Bool → Option α) (xs : XS α ξ) (tr : Dict.Tree α) : Option (Crossed α ξ) := do
  let e ← xs.se ev
  let tu ← findEnd false (fun _ u => decide (xs.px u = some ev)) 100 tr e
  let sr ← findEnd true (fun _ r => decide (xs.nx r = some ev)) 100 tr e
  ass (sr.1 ≠ tu.1)
  ass (sr.2 ≠ some sr.1)
  ass (sr.2 ≠ some tu.1)
  ass (tu.2 ≠ some sr.1)
  ass (tu.2 ≠ some tu.1)
  let tb1 := fun i => if i = south sr.1 then some sr.1 else tb i
  let tb2 := fun i => if i = south tu.1 then some tu.1 else tb1 i
  let xs1 := split (split (xs.clrS ev) sr.2 (some sr.1)) (some tu.1) tu.2
  let q ← revLoop1 ev n tr xs1 sr.1 tu.1
  some ⟨q.1, q.2, sr.1, tu.1, sr.2, tu.2, tb2⟩

end Hob3l.Rev
