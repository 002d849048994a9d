import Verif.Matq.Model

/-
Model of the intrusive red-black search tree: /repo/src/hob3lbase/dict.c and /repo/include/hob3lbase/dict.h.

A tree of `cp_dict_t` nodes is a `Tree α`, where `α` is the identity (address) of a node.  A pointer to a node inside
a tree is a zipper: the subtree at that node and the list of frames (innermost first) from its parent up to the root,
so `p->parent` is the head of the path, and the two-way consistency of parent and child pointers is built into the
representation.  `stat` (twice the black height, plus one if red) is kept as the number the code stores and is
changed exactly as the code does it.  The caller's `*root` variable is tracked as a separate value (the identity of the
node it points to).  `none` = failed assertion (including the `SLOW_ASSERT`s, which are enabled), NULL dereference, or
wrap-around of `stat`.  The augmentation callback (`aug`) is not modelled, i.e., it is NULL.
-/

namespace Hob3l.Dict

open Hob3l.Matq (ass)

/-- `cp_dict_t` dict_tam.h: `edge[0]`, identity, `stat`, `edge[1]`; `leaf` is NULL -/
inductive Tree (α : Type) where
  | leaf
  | node (l : Tree α) (a : α) (s : Nat) (r : Tree α)
  deriving DecidableEq, Repr

/-- One step from a node to its parent: the node is `edge[i]` of `a`, whose `stat` is `s` and whose `edge[!i]` is
`sib` -/
structure Frame (α : Type) where
  i : Bool
  a : α
  s : Nat
  sib : Tree α
  deriving DecidableEq, Repr

abbrev Path (α : Type) := List (Frame α)

variable {α : Type}

open Tree

/-- a node with `edge[i] = x` and `edge[!i] = y` -/
def mkNode (i : Bool) (x : Tree α) (a : α) (s : Nat) (y : Tree α) : Tree α :=
  match i with
  | false => node x a s y
  | true => node y a s x

/-- the subtree at the parent -/
def plug1 (f : Frame α) (t : Tree α) : Tree α := mkNode f.i t f.a f.s f.sib

/-- the whole tree -/
def plug (t : Tree α) : Path α → Tree α
  | [] => t
  | f :: p => plug (plug1 f t) p

/-- comparison with NULL -/
def isLeaf : Tree α → Bool
  | leaf => true
  | node _ _ _ _ => false

/-- the node a pointer to the subtree points to, `none` = NULL -/
def rootId : Tree α → Option α
  | leaf => none
  | node _ a _ _ => some a

/-- `cp_dict_child` dict.h:949-953 -/
def edge (t : Tree α) (i : Bool) : Option (Tree α) :=
  match t with
  | leaf => none
  | node l _ _ r => some (match i with | false => l | true => r)

/-- `cp_dict_height2` dict.c:66-70 -/
def height2 : Tree α → Nat
  | leaf => 0
  | node _ _ s _ => s - s % 2

/-- `cp_dict_red` dict.c:83-87 -/
def red : Tree α → Bool
  | leaf => false
  | node _ _ s _ => s % 2 == 1

/-- `cp_dict_set_RED` dict.c:100-105: `stat |= 1` -/
def setRed (s : Nat) : Nat := if s % 2 = 0 then s + 1 else s

/-- `cp_dict_set_BLACK` dict.c:107-112: `stat &= ~1` -/
def setBlack (s : Nat) : Nat := s - s % 2

/-- `cp_dict_INC_set_BLACK` dict.c:114-121 -/
def incSetBlack (s : Nat) : Option Nat := do
  ass (s % 2 = 1)
  some (s + 1)

/-- `cp_dict_DEC_set_RED` dict.c:133-140; decrementing 0 is excluded -/
def decSetRed (s : Nat) : Option Nat := do
  ass (s % 2 = 0)
  ass (0 < s)
  some (s - 1)

/-- `cp_dict_DEC` dict.c:149-155 -/
def dec (s : Nat) : Option Nat := do
  ass (2 ≤ s)
  some (s - 2)

/-- apply a change of `stat` to a node; NULL dereference otherwise -/
def mapStat (f : Nat → Option Nat) : Tree α → Option (Tree α)
  | leaf => none
  | node l a s r => do
    let s' ← f s
    some (node l a s' r)

/-- `cp_dict_ensure_BLACK` dict.c:123-131 -/
def ensureBlack (t : Tree α) : Option (Tree α) :=
  match t with
  | leaf => none
  | node _ _ _ _ => if red t then mapStat incSetBlack t else some t

/-- `cp_dict_INC_set_BLACK_if_needed` dict.c:181-189 -/
def incSetBlackIfNeeded (t : Tree α) : Option (Tree α) :=
  match t with
  | leaf => some leaf
  | node l _ _ r => if red t && (red l || red r) then mapStat incSetBlack t else some t

/-- `good_tree` dict.c:229-259 -/
def goodTree (checkCol : Bool) : Tree α → Bool
  | leaf => true
  | node l a s r =>
    if red (node l a s r) then
      !(checkCol && (red l || red r)) &&
        (height2 (node l a s r) == height2 l) && (height2 (node l a s r) == height2 r)
    else
      (height2 (node l a s r) == height2 l + 2) && (height2 (node l a s r) == height2 r + 2)

/-- `get_black_height` dict.c:306-317 -/
def getBlackHeight : Tree α → Nat
  | leaf => 0
  | node l a s r =>
    if goodTree true (node l a s r) then getBlackHeight l + (if red (node l a s r) then 0 else 1) else 0

/-- `very_good_tree` dict.c:319-324 -/
def veryGood (t : Tree α) : Bool := getBlackHeight t == height2 t / 2

/-- `cp_dict_collapse_edge` dict.c:328-338: the new value of the edge; `wasRed`: colour of the old one -/
def collapse (wasRed : Bool) : Tree α → Tree α
  | leaf => leaf
  | node l a s r => node l a (if wasRed then setRed s else s) r

/-- `cp_dict_start` dict.c:349-359 below the node reached by the path; `none` = NULL -/
def startLoc (dir : Bool) : Tree α → Path α → Option (Tree α × Path α)
  | leaf, _ => none
  | node l a s r, p =>
    match (match dir with
           | false => startLoc dir l (⟨false, a, s, r⟩ :: p)
           | true => startLoc dir r (⟨true, a, s, l⟩ :: p)) with
    | some q => some q
    | none => some (node l a s r, p)

/-- the climbing loop of `cp_dict_step` dict.c:400-405 -/
def climb (dir : Bool) (t : Tree α) : Path α → Option (Tree α × Path α)
  | [] => none
  | f :: p => if f.i = !dir then climb dir (plug1 f t) p else some (plug1 f t, p)

/-- `cp_dict_step` dict.c:391-406; `none` = NULL -/
def stepLoc (dir : Bool) : Tree α → Path α → Option (Tree α × Path α)
  | leaf, _ => none
  | node l a s r, p =>
    match dir with
    | false => if isLeaf r then climb false (node l a s r) p else startLoc false r (⟨true, a, s, l⟩ :: p)
    | true => if isLeaf l then climb true (node l a s r) p else startLoc true l (⟨false, a, s, r⟩ :: p)

/-- `rb_rotate` dict.c:408-435 on the subtree at `x` -/
def rotate (dir : Bool) : Tree α → Option (Tree α)
  | leaf => none
  | node l a s r =>
    match dir with
    | false =>
      match r with
      | leaf => none
      | node yl b t yr => some (node (node l a s yl) b t yr)
    | true =>
      match l with
      | leaf => none
      | node yl b t yr => some (node yl b t (node yr a s r))

/-- `rb_rotate` dict.c:408-435 at a location: the new subtree and the updated `*root` -/
def rbRotate (rv : Option α) (dir : Bool) (x : Tree α) (p : Path α) : Option (Tree α × Option α) := do
  let y ← rotate dir x
  some (y, if p.isEmpty then rootId y else rv)

variable [DecidableEq α]

/-- the pointer to node `a`: its location in the tree (`t`, `p`) -/
def locate (a : α) : Tree α → Path α → Option (Tree α × Path α)
  | leaf, _ => none
  | node l b s r, p =>
    if a = b then some (node l b s r, p)
    else
      match locate a l (⟨false, b, s, r⟩ :: p) with
      | some q => some q
      | none => locate a r (⟨true, b, s, l⟩ :: p)

/-- whether the node is in the tree -/
def mem (a : α) : Tree α → Bool
  | leaf => false
  | node l b _ r => a == b || mem a l || mem a r

/-- rotation of the inner grandchild, dict.c:464-473; `inner`: `x == x->parent->edge[!side]` -/
def innerRotate (inner side : Bool) (pt : Tree α) : Option (Tree α) :=
  if inner then rotate side pt else some pt

/-- dict.c:482-484 -/
def decSetRedIfBlack (s : Nat) : Option Nat :=
  if s % 2 = 0 then decSetRed s else some s

/-- `_balance_insert` dict.c:437-494: the location of `x`, the value of `*root`; result: whole tree, `*root` -/
def balanceInsert (rv : Option α) : Tree α → Path α → Option (Tree α × Option α)
  | x, [] => do
    ass (rootId x = rv)
    some (x, rv)
  | x, [f] => some (plug1 f x, rv)
  | x, f :: g :: p =>
    if rootId x = rv ∨ f.s % 2 = 0 then some (plug x (f :: g :: p), rv)
    else do
      ass (red x)
      let side := g.i
      if red g.sib then
        let fs ← incSetBlack f.s
        let y ← mapStat incSetBlack g.sib
        balanceInsert rv (plug1 { g with s := setRed g.s, sib := y } (plug1 { f with s := fs } x)) p
      else
        let pt ← innerRotate (f.i = !side) side (plug1 f x)
        let pt ← mapStat incSetBlack pt
        let gs ← decSetRedIfBlack g.s
        let q ← rbRotate rv (!side) (plug1 { g with s := gs } pt) p
        ass (!red q.1)
        some (plug q.1 p, q.2)

/-- the insertion parent and child index, dict.c:600-609, 625-631: ref parent (`none` = NULL) and child index;
the result is the location of the parent and the index of its empty edge -/
def insertLoc (t : Tree α) (ref : Option α) (i : Bool) : Option ((Tree α × Path α) × Bool) := do
  let q ← (match ref with
           | none => startLoc (!i) t []
           | some p => locate p t [])
  let i := if ref.isSome then i else !i
  let e ← edge q.1 i
  if isLeaf e then some (q, i)
  else
    let q' ← stepLoc (!i) q.1 q.2
    some (q', !i)

/-- a frame for the empty `edge[i]` of a node, dict.c:633-634 -/
def emptyEdge (t : Tree α) (i : Bool) : Option (Frame α) := do
  let e ← edge t i
  ass (isLeaf e)
  let a ← rootId t
  match t with
  | leaf => none
  | node l _ s r => some ⟨i, a, s, match i with | false => r | true => l⟩

/-- `cp_dict_insert_ref_aug` dict.c:585-647: insert the node `x` (in no tree) at a reference -/
def insertRef (x : α) (ref : Option α) (i : Bool) (t : Tree α) : Option (Tree α × Option α) :=
  match t with
  | leaf => do
    ass (ref = none)
    ass (veryGood (node leaf x 1 leaf))
    some (node leaf x 1 leaf, some x)
  | node _ _ _ _ => do
    ass (!mem x t)
    let q ← insertLoc t ref i
    let f ← emptyEdge q.1.1 q.2
    let r ← balanceInsert (rootId t) (node leaf x 1 leaf) (f :: q.1.2)
    ass (rootId r.1 = r.2)
    let t' ← ensureBlack r.1
    ass (veryGood t')
    some (t', r.2)

/-- going down along `edge[i]`: the subtree there and the frame back -/
def down (i : Bool) : Tree α → Option (Tree α × Frame α)
  | leaf => none
  | node l a s r =>
    match i with
    | false => some (l, ⟨false, a, s, r⟩)
    | true => some (r, ⟨true, a, s, l⟩)

/-- dict.c:773-784: a red sibling is rotated up; result: frame of `p`, the path above, `*root` -/
def removeRedSib (rv : Option α) (x : Tree α) (f : Frame α) (p : Path α) :
    Option (Frame α × Path α × Option α) :=
  if red f.sib then do
    let w ← mapStat incSetBlack f.sib
    let fs ← decSetRed f.s
    let q ← rbRotate rv f.i (plug1 { f with s := fs, sib := w } x) p
    let d ← down f.i q.1
    let d' ← down f.i d.1
    some (d'.2, d.2 :: p, q.2)
  else some (f, p, rv)

/-- dict.c:800-814: make the outer child of `w` red; `i`: index of `x` -/
def removeOuter (i : Bool) (w : Tree α) : Option (Tree α) := do
  let o ← edge w (!i)
  if red o then some w
  else
    let n ← edge w i
    let n ← mapStat incSetBlack n
    let a ← rootId w
    let s ← (match w with
             | leaf => none
             | node _ _ s _ => decSetRed s)
    let w' ← rotate (!i) (mkNode i n a s o)
    let old ← edge w' (!i)
    ass (goodTree true old)
    some w'

/-- dict.c:815-834: new `stat` of `w` and `p` -/
def removeStats (ws ps : Nat) : Option (Nat × Nat) :=
  if ps % 2 = 1 then some (setRed ws, setBlack ps)
  else do
    let ps' ← dec ps
    some (ws + 2, ps')

/-- dict.c:815-837: the final rotation -/
def removeFinal (rv : Option α) (x w : Tree α) (f : Frame α) (p : Path α) : Option (Tree α × Option α) :=
  match w with
  | leaf => none
  | node wl wa ws wr => do
    let ss ← removeStats ws f.s
    let o ← edge (node wl wa ws wr) (!f.i)
    let n ← edge (node wl wa ws wr) f.i
    let o ← mapStat incSetBlack o
    let q ← rbRotate rv f.i (plug1 { f with s := ss.2, sib := mkNode f.i n wa ss.1 o } x) p
    ass (goodTree true q.1)
    some (plug q.1 p, q.2)

/-- dict.c:855-858: the code after the loop -/
def removeEnd (rv : Option α) (x : Tree α) (p : Path α) : Option (Tree α × Option α) :=
  if red x then do
    let x' ← mapStat incSetBlack x
    some (plug x' p, rv)
  else some (plug x p, rv)

/-- both children of `w` are black, dict.c:788 -/
def blackChildren : Tree α → Bool
  | leaf => true
  | node l _ _ r => !red l && !red r

/-- the loop of `balance_remove` dict.c:763-863; `x` is `p->edge[i]`, the head of the path is `p` and `i`; the first
argument bounds the number of iterations (`none` if exceeded) -/
def balanceRemove : Nat → Option α → Tree α → Path α → Option (Tree α × Option α)
  | _, rv, x, [] => removeEnd rv x []
  | 0, _, _, _ :: _ => none
  | n + 1, rv, x, f :: p =>
    if red x then removeEnd rv x (f :: p)
    else do
      ass (goodTree true x && goodTree true f.sib)
      let q ← removeRedSib rv x f p
      if isLeaf q.1.sib then balanceRemove n q.2.2 (plug1 q.1 x) q.2.1
      else
        ass (!red q.1.sib)
        if blackChildren q.1.sib then
          let w ← mapStat decSetRed q.1.sib
          let fs ← dec q.1.s
          ass (goodTree false (plug1 { q.1 with s := fs, sib := w } x))
          balanceRemove n q.2.2 (plug1 { q.1 with s := fs, sib := w } x) q.2.1
        else
          let w ← removeOuter q.1.i q.1.sib
          removeFinal q.2.2 x w q.1 q.2.1

/-- result of `remove_u`: the tree consists only of `b` (`i < 0`), or the edge `x` below the head of the path has been
collapsed and the unlinked position was red or black -/
inductive Removed (α : Type) where
  | whole (b : Tree α)
  | edge (isRed : Bool) (x : Tree α) (p : Path α)

/-- `swap_remove_u` dict.c:657-722: `c` has `stat` `s`, children `l` and `r`, and the path `p`; its successor `d` takes
its place.  `d` is found from `r` with `q` the path from `d`'s position up to `r`; the head of `q ++ …` is `father`.
The index used by the code is `father == c`. -/
def swapRemoveU (l : Tree α) (s : Nat) (r : Tree α) (p : Path α) : Option (Removed α) := do
  let d ← startLoc false r []
  match d.1 with
  | leaf => none
  | node dl da ds dr => do
    ass (isLeaf dl)
    let q := d.2 ++ [⟨true, da, s, l⟩]
    ass ((q.head?).map (·.i) = some d.2.isEmpty)
    some (.edge (ds % 2 == 1) (collapse (s % 2 == 1) dr) (q ++ p))

/-- `remove_u` dict.c:724-761 -/
def removeU (l : Tree α) (s : Nat) (r : Tree α) (p : Path α) : Option (Removed α) :=
  if !isLeaf l && !isLeaf r then swapRemoveU l s r p
  else
    let b := if !isLeaf l then l else r
    match p with
    | [] => some (.whole b)
    | f :: p => some (.edge (s % 2 == 1) (collapse (s % 2 == 1) b) (f :: p))

/-- dict.c:899-902: a remaining child if the root is removed -/
def remainingChild (l r : Tree α) (p : Path α) : Option α :=
  if p.isEmpty then (if !isLeaf l then rootId l else rootId r) else none

/-- dict.c:934-948: the final value of `*root`; `r`: root set by a rotation, `z`: remaining child, `old`: previous
value -/
def finalRoot (t : Tree α) (r z old : Option α) : Option (Option α) :=
  match r with
  | some a => do
    ass (rootId t = some a)
    ass (veryGood t)
    some (some a)
  | none =>
    match z with
    | some b => do
      ass (mem b t)
      ass (veryGood t)
      some (rootId t)
    | none => some old

/-- the balancing part of `cp_dict_remove_aug` dict.c:926-932 -/
def removeBalance (isRed : Bool) (x : Tree α) (p : Path α) : Option (Tree α × Option α) :=
  if isRed then some (plug x p, none)
  else balanceRemove (p.length + 2) none x p

/-- `cp_dict_remove_aug` dict.c:888-949 (with `root != NULL` and the node in the tree of `*root`) -/
def remove (c : α) (t : Tree α) : Option (Tree α × Option α) := do
  let q ← locate c t []
  match q.1 with
  | leaf => none
  | node l _ s r => do
    let u ← removeU l s r q.2
    match u with
    | .whole b => do
      ass (veryGood b)
      some (b, rootId b)
    | .edge isRed x p => do
      let res ← removeBalance isRed x p
      let rv ← finalRoot res.1 res.2 (remainingChild l r q.2) (rootId t)
      some (res.1, rv)

/-- `cp_dict_extract_start_aug` dict.h:1004-1015 -/
def extractStart (dir : Bool) (t : Tree α) : Option (Option α × Tree α × Option α) :=
  match startLoc dir t [] with
  | none => some (none, t, rootId t)
  | some q => do
    let a ← rootId q.1
    let res ← remove a t
    some (some a, res.1, res.2)

/-- descending in the larger tree, dict.c:1164-1171 -/
def joinDesc (i : Bool) (hr : Nat) : Tree α → Path α → Tree α × Path α
  | leaf, p => (leaf, p)
  | node l a s r, p =>
    if red (node l a s r) ∨ height2 (node l a s r) > hr then
      match i with
      | false => joinDesc i hr r (⟨true, a, s, l⟩ :: p)
      | true => joinDesc i hr l (⟨false, a, s, r⟩ :: p)
    else (node l a s r, p)

/-- the rebalancing loop of `cp_dict_join3_aug` and what follows, dict.c:1182-1212; `t` is `p->edge[!i]`, the head of the
path is `p` -/
def joinUp (i : Bool) (rv : Option α) : Tree α → Path α → Option (Tree α × Option α)
  | _, [] => none
  | t, [f] => do
    let t' ← incSetBlackIfNeeded (plug1 f t)
    some (t', rv)
  | t, f :: g :: p =>
    if f.s % 2 = 1 ∧ red t then do
      ass (g.s % 2 = 0)
      let r ← mapStat incSetBlack t
      let q ← rbRotate rv i (plug1 g (plug1 { f with s := f.s + 2 } r)) p
      match p with
      | [] => do
        let t' ← incSetBlackIfNeeded q.1
        some (t', q.2)
      | h :: p => joinUp i q.2 q.1 (h :: p)
    else do
      let t' ← incSetBlackIfNeeded (plug1 f t)
      some (plug t' (g :: p), rv)

/-- dict.c:1137-1142 -/
def joinBlacken (l r : Tree α) : Option (Tree α) :=
  if height2 l > height2 r ∧ red r then mapStat incSetBlack r else some r

/-- `cp_dict_join3_aug` dict.c:1137-1212, after the swap: `l` is not lower than `r`; `i`: swapped -/
def join3Ordered (i : Bool) (l : Tree α) (m : α) (r : Tree α) : Option (Tree α × Option α) := do
  let r ← joinBlacken l r
  if height2 l = height2 r then
    let t ← incSetBlackIfNeeded (mkNode i l m (height2 l + 1) r)
    ass (veryGood t)
    some (t, some m)
  else
    ass (!red r)
    ass (height2 l > height2 r)
    let d ← down (!i) l
    let q := joinDesc i (height2 r) d.1 [d.2]
    ass (goodTree true (mkNode i q.1 m (height2 q.1 + 1) r))
    let t ← joinUp i (rootId l) (mkNode i q.1 m (height2 q.1 + 1) r) q.2
    ass (rootId t.1 = t.2)
    ass (veryGood t.1)
    some t

/-- `cp_dict_join3_aug` dict.c:1120-1213 -/
def join3 (l : Tree α) (m : α) (r : Tree α) : Option (Tree α × Option α) :=
  if height2 l < height2 r then join3Ordered true r m l else join3Ordered false l m r

/-- `cp_dict_join2_aug` dict.c:1232-1245 -/
def join2 (l r : Tree α) : Option (Tree α × Option α) :=
  if isLeaf l then some (r, rootId r)
  else if isLeaf r then some (l, rootId l)
  else do
    let e ← extractStart false r
    ass (rootId e.2.1 = e.2.2)
    let m ← e.1
    join3 l m e.2.1

/-- `cp_dict_split_aug_` dict.c:1265-1333; `cmp n` is `cmp(idx, n, user)`; result `(*l, *r)` -/
def split (cmp : α → Int) (back : Bool) : Tree α → Option (Tree α × Tree α)
  | leaf => some (leaf, leaf)
  | node nl n _ nr =>
    if cmp n ≥ (if back then 1 else 0) then do
      let q ← split cmp back nr
      let l ← join3 nl n q.1
      ass (rootId l.1 = l.2)
      some (l.1, q.2)
    else do
      let q ← split cmp back nl
      let r ← join3 q.2 n nr
      ass (rootId r.1 = r.2)
      some (q.1, r.1)

/-- state of the loop of `cp_dict_find_ref_`: parent, child index, path bits, equal entry, final `n` -/
structure Found (α : Type) where
  p : Option α
  i : Bool
  pa : Nat
  e : Option α
  n : Option α
  deriving DecidableEq, Repr

/-- the loop of `cp_dict_find_ref_` dict.c:517-531; `cmp n` is `cmp(idx, n, user)` -/
def findLoop (cmp : α → Int) (dup : Int) : Tree α → Option α → Bool → Nat → Option α → Found α
  | leaf, p, i, pa, e => ⟨p, i, pa, e, none⟩
  | node l n _ r, p, i, pa, e =>
    let e := if cmp n = 0 then some n else e
    let d := if cmp n = 0 then dup else cmp n
    if d = 0 then ⟨p, i, pa ||| 4, e, some n⟩
    else if d > 0 then findLoop cmp dup r (some n) true (pa ||| 2) e
    else findLoop cmp dup l (some n) false (pa ||| 1) e

/-- `cp_dict_find_ref_` dict.c:505-541: the reference -/
def findRef (cmp : α → Int) (dup : Int) (t : Tree α) : Found α :=
  findLoop cmp dup t (rootId t) true 0 none

/-- the value returned by `cp_dict_find_ref_` dict.c:540; `dup & 3` of an `int` is `dup` modulo 4 -/
def findRet (cmp : α → Int) (dup : Int) (t : Tree α) : Option α :=
  if dup % 4 = 2 then (findRef cmp dup t).e else (findRef cmp dup t).n

/-- result of an insertion with search: the entry found (then nothing changes), the tree, `*root`, `*minp`, `*maxp` -/
structure Inserted (α : Type) where
  found : Option α
  tree : Tree α
  root : Option α
  min : Option α
  max : Option α
  deriving DecidableEq, Repr

/-- `cp_dict_insert_update_by_aug_` dict.h:1341-1378 (`minp` and `maxp` given) -/
def insertUpdateBy (x : α) (cmp : α → Int) (dup : Int) (t : Tree α) (mn mx : Option α) : Option (Inserted α) :=
  match findRet cmp dup t with
  | some n => some ⟨some n, t, rootId t, mn, mx⟩
  | none => do
    let r := findRef cmp dup t
    let res ← insertRef x r.p r.i t
    some ⟨none, res.1, res.2,
      if r.pa &&& 6 = 0 then some x else mn,
      if r.pa &&& 5 = 0 then some x else mx⟩

/-- `cp_dict_insert_update_at_aug` dict.h:1413-1442 (`minp` and `maxp` given) -/
def insertUpdateAt (x : α) (pos : Option α) (dir : Bool) (t : Tree α) (mn mx : Option α) : Option (Inserted α) := do
  let res ← insertRef x pos dir t
  some ⟨none, res.1, res.2,
    if mn = none ∨ (mn = pos ∧ dir = false) then some x else mn,
    if mx = none ∨ (mx = pos ∧ dir = true) then some x else mx⟩

/-- `cp_dict_extract_update_start_aug` dict.h:1044-1059 -/
def extractUpdateStart (dir : Bool) (t : Tree α) (ext : Option α) :
    Option (Option α × Tree α × Option α × Option α) :=
  match ext with
  | none => some (none, t, rootId t, none)
  | some a => do
    let q ← locate a t []
    ass (stepLoc (!dir) q.1 q.2 = none)
    let nx := (stepLoc dir q.1 q.2).bind (fun y => rootId y.1)
    let res ← remove a t
    some (some a, res.1, res.2, nx)

end Hob3l.Dict
