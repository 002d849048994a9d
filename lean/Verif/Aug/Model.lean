import Verif.Dict.Model

/-
The red-black tree with augmentation callback: /repo/src/hob3lbase/dict.c (`cp_dict_aug_t`), with the callback of
/repo/src/hob3lop/op-sweep.c:90-127, which stores in each node a value made from the node and the values of its children.

A node is a pair of its identity and the stored value, so that the trees are those of `Verif/Dict/Model.lean` with pairs as
nodes.  `g a x y` is the value of node `a` with the values `x`, `y` of its children (`z` for NULL); for bundles of edges this
is `a->member ^ x ^ y` and `z` is 0.  The functions follow those of `Verif/Dict/Model.lean`; the calls of `augment` are added.
-/

namespace Hob3l.Aug

open Hob3l.Matq (ass)
open Hob3l.Dict
open Hob3l.Dict.Tree

variable {α M : Type}

/-- `cq_sweep_bundle_get_sum_member` op-sweep-internal.h:1097-1105 -/
def val (z : M) : Tree (α × M) → M
  | leaf => z
  | node _ a _ _ => a.2

/-- `cq_sweep_bundle_update_sum_member` op-sweep-internal.h:1107-1117 -/
def upd (g : α → M → M → M) (z : M) : Tree (α × M) → Tree (α × M)
  | leaf => leaf
  | node l a s r => node l (a.1, g a.1 (val z l) (val z r)) s r

/-- `cq_sweep_bundle_update_sum_member_rec` op-sweep-internal.h:1119-1126, from the parent of the node `t` on; the result is
the whole tree -/
def finiUp (g : α → M → M → M) (z : M) (t : Tree (α × M)) : Path (α × M) → Tree (α × M)
  | [] => t
  | f :: p => finiUp g z (upd g z (plug1 f t)) p

/-- `CP_DICT_AUG_LEFT`, `CP_DICT_AUG_RIGHT` op-sweep.c:99-103 after a rotation in direction `dir`: `b_` is the child
`edge[dir]` of `a_` -/
def updRot (g : α → M → M → M) (z : M) (dir : Bool) : Tree (α × M) → Tree (α × M)
  | leaf => leaf
  | node l a s r =>
    match dir with
    | false => upd g z (node (upd g z l) a s r)
    | true => upd g z (node l a s (upd g z r))

/-- the node -/
def rid (t : Tree (α × M)) : Option α := (rootId t).map Prod.fst

/-- `rb_rotate` dict.c:408-435 -/
def rotateA (g : α → M → M → M) (z : M) (dir : Bool) (x : Tree (α × M)) : Option (Tree (α × M)) :=
  (rotate dir x).map (updRot g z dir)

/-- `rb_rotate` dict.c:408-435 with `*root` -/
def rbRotateA (g : α → M → M → M) (z : M) (rv : Option α) (dir : Bool) (x : Tree (α × M)) (p : Path (α × M)) :
    Option (Tree (α × M) × Option α) := do
  let y ← rotateA g z dir x
  some (y, if p.isEmpty then rid y else rv)

/-- dict.c:464-473 -/
def innerRotateA (g : α → M → M → M) (z : M) (inner side : Bool) (pt : Tree (α × M)) : Option (Tree (α × M)) :=
  if inner then rotateA g z side pt else some pt

variable [DecidableEq α] [DecidableEq M]

/-- `_balance_insert` dict.c:437-494; `CP_DICT_AUG_NOP2` :460 (the parent and the grandparent), `CP_DICT_AUG_FINI` :493 (from the
parent on) -/
def balanceInsertA (g : α → M → M → M) (z : M) (rv : Option α) :
    Tree (α × M) → Path (α × M) → Option (Tree (α × M) × Option α)
  | x, [] => do
    ass (rid x = rv)
    some (x, rv)
  | x, [f] => some (finiUp g z x [f], rv)
  | x, f :: h :: p =>
    if rid x = rv ∨ f.s % 2 = 0 then some (finiUp g z x (f :: h :: p), rv)
    else do
      ass (red x)
      let side := h.i
      if red h.sib then
        let fs ← incSetBlack f.s
        let y ← mapStat incSetBlack h.sib
        balanceInsertA g z rv
          (upd g z (plug1 { h with s := setRed h.s, sib := y } (upd g z (plug1 { f with s := fs } x)))) p
      else
        let pt ← innerRotateA g z (f.i = !side) side (plug1 f x)
        let pt ← mapStat incSetBlack pt
        let gs ← decSetRedIfBlack h.s
        let q ← rbRotateA g z rv (!side) (plug1 { h with s := gs } pt) p
        ass (!red q.1)
        some (finiUp g z q.1 p, q.2)

/-- the pointer to node `a` -/
def locateA (a : α) : Tree (α × M) → Path (α × M) → Option (Tree (α × M) × Path (α × M))
  | leaf, _ => none
  | node l b s r, p =>
    if a = b.1 then some (node l b s r, p)
    else
      match locateA a l (⟨false, b, s, r⟩ :: p) with
      | some q => some q
      | none => locateA a r (⟨true, b, s, l⟩ :: p)

/-- whether the node is in the tree -/
def memA (a : α) : Tree (α × M) → Bool
  | leaf => false
  | node l b _ r => a == b.1 || memA a l || memA a r

/-- dict.c:600-609, 625-631 -/
def insertLocA (t : Tree (α × M)) (ref : Option α) (i : Bool) : Option ((Tree (α × M) × Path (α × M)) × Bool) := do
  let q ← (match ref with
           | none => startLoc (!i) t []
           | some p => locateA p t [])
  let i := if ref.isSome then i else !i
  let e ← edge q.1 i
  if isLeaf e then some (q, i)
  else
    let q' ← stepLoc (!i) q.1 q.2
    some (q', !i)

/-- `cp_dict_insert_ref_aug` dict.c:585-647; `CP_DICT_AUG_ADD` :638, but not for the first node of a tree (:612-623) -/
def insertRefA (g : α → M → M → M) (z : M) (x : α × M) (ref : Option α) (i : Bool) (t : Tree (α × M)) :
    Option (Tree (α × M) × Option α) :=
  match t with
  | leaf => do
    ass (ref = none)
    ass (veryGood (node leaf x 1 leaf))
    some (node leaf x 1 leaf, some x.1)
  | node _ _ _ _ => do
    ass (!memA x.1 t)
    let q ← insertLocA t ref i
    let f ← emptyEdge q.1.1 q.2
    let r ← balanceInsertA g z (rid t) (upd g z (node leaf x 1 leaf)) (f :: q.1.2)
    ass (rid r.1 = r.2)
    let t' ← ensureBlack r.1
    ass (veryGood t')
    some (t', r.2)

/-- dict.c:773-784 -/
def removeRedSibA (g : α → M → M → M) (z : M) (rv : Option α) (x : Tree (α × M)) (f : Frame (α × M)) (p : Path (α × M)) :
    Option (Frame (α × M) × Path (α × M) × Option α) :=
  if red f.sib then do
    let w ← mapStat incSetBlack f.sib
    let fs ← decSetRed f.s
    let q ← rbRotateA g z rv f.i (plug1 { f with s := fs, sib := w } x) p
    let d ← down f.i q.1
    let d' ← down f.i d.1
    some (d'.2, d.2 :: p, q.2)
  else some (f, p, rv)

/-- dict.c:800-814 -/
def removeOuterA (g : α → M → M → M) (z : M) (i : Bool) (w : Tree (α × M)) : Option (Tree (α × M)) := do
  let o ← edge w (!i)
  if red o then some w
  else
    let n ← edge w i
    let n ← mapStat incSetBlack n
    let a ← rootId w
    let s ← (match w with
             | leaf => none
             | node _ _ s _ => decSetRed s)
    let w' ← rotateA g z (!i) (mkNode i n a s o)
    let old ← edge w' (!i)
    ass (goodTree true old)
    some w'

/-- dict.c:815-838; `CP_DICT_AUG_FINI` :838 (from `w` on) -/
def removeFinalA (g : α → M → M → M) (z : M) (rv : Option α) (x w : Tree (α × M)) (f : Frame (α × M)) (p : Path (α × M)) :
    Option (Tree (α × M) × Option α) :=
  match w with
  | leaf => none
  | node wl wa ws wr => do
    let ss ← removeStats ws f.s
    let o ← edge (node wl wa ws wr) (!f.i)
    let n ← edge (node wl wa ws wr) f.i
    let o ← mapStat incSetBlack o
    let q ← rbRotateA g z rv f.i (plug1 { f with s := ss.2, sib := mkNode f.i n wa ss.1 o } x) p
    ass (goodTree true q.1)
    some (finiUp g z (upd g z q.1) p, q.2)

/-- dict.c:853-862; `CP_DICT_AUG_FINI` :853 (from the parent of `x` on; the colour of `x`, which changes afterwards, does not matter
for it) -/
def removeEndA (g : α → M → M → M) (z : M) (rv : Option α) (x : Tree (α × M)) (p : Path (α × M)) :
    Option (Tree (α × M) × Option α) :=
  if red x then do
    let x' ← mapStat incSetBlack x
    some (finiUp g z x' p, rv)
  else some (finiUp g z x p, rv)

/-- `balance_remove` dict.c:763-863; `CP_DICT_AUG_NOP` :843 -/
def balanceRemoveA (g : α → M → M → M) (z : M) :
    Nat → Option α → Tree (α × M) → Path (α × M) → Option (Tree (α × M) × Option α)
  | _, rv, x, [] => removeEndA g z rv x []
  | 0, _, _, _ :: _ => none
  | n + 1, rv, x, f :: p =>
    if red x then removeEndA g z rv x (f :: p)
    else do
      ass (goodTree true x && goodTree true f.sib)
      let q ← removeRedSibA g z rv x f p
      if isLeaf q.1.sib then balanceRemoveA g z n q.2.2 (upd g z (plug1 q.1 x)) q.2.1
      else
        ass (!red q.1.sib)
        if blackChildren q.1.sib then
          let w ← mapStat decSetRed q.1.sib
          let fs ← dec q.1.s
          ass (goodTree false (plug1 { q.1 with s := fs, sib := w } x))
          balanceRemoveA g z n q.2.2 (upd g z (plug1 { q.1 with s := fs, sib := w } x)) q.2.1
        else
          let w ← removeOuterA g z q.1.i q.1.sib
          removeFinalA g z q.2.2 x w q.1 q.2.1

/-- `CP_DICT_AUG_CUT_LEAF` dict.c:909 at the parent of `x`, the head of the path -/
def updHead (g : α → M → M → M) (z : M) (x : Tree (α × M)) : Path (α × M) → Path (α × M)
  | [] => []
  | f :: p =>
    { f with a := (f.a.1, if f.i then g f.a.1 (val z f.sib) (val z x) else g f.a.1 (val z x) (val z f.sib)) } :: p

/-- dict.c:926-932; `CP_DICT_AUG_FINI` :931 -/
def removeBalanceA (g : α → M → M → M) (z : M) (isRed : Bool) (x : Tree (α × M)) (p : Path (α × M)) :
    Option (Tree (α × M) × Option α) :=
  if isRed then some (finiUp g z x p, none)
  else balanceRemoveA g z (p.length + 2) none x p

/-- dict.c:934-948 -/
def finalRootA (t : Tree (α × M)) (r zc old : Option α) : Option (Option α) :=
  match r with
  | some a => do
    ass (rid t = some a)
    ass (veryGood t)
    some (some a)
  | none =>
    match zc with
    | some b => do
      ass (memA b t)
      ass (veryGood t)
      some (rid t)
    | none => some old

/-- `cp_dict_remove_aug` dict.c:888-949; `CP_DICT_AUG_CUT_LEAF` :909, `CP_DICT_AUG_FINI` :921; `CP_DICT_AUG_CUT_SWAP` does nothing; the
stand-in node of `swap_remove_u` keeps its stored value -/
def removeA (g : α → M → M → M) (z : M) (c : α) (t : Tree (α × M)) : Option (Tree (α × M) × Option α) := do
  let q ← locateA c t []
  match q.1 with
  | leaf => none
  | node l _ s r => do
    let u ← removeU l s r q.2
    match u with
    | .whole b => do
      ass (veryGood b)
      some (upd g z (upd g z b), rid b)
    | .edge isRed x p => do
      let res ← removeBalanceA g z isRed x (updHead g z x p)
      let rv ← finalRootA res.1 res.2 ((remainingChild l r q.2).map Prod.fst) (rid t)
      some (res.1, rv)


/-- `cp_dict_extract_start_aug` dict.h:1004-1015 -/
def extractStartA (g : α → M → M → M) (z : M) (dir : Bool) (t : Tree (α × M)) :
    Option (Option (α × M) × Tree (α × M) × Option α) :=
  match startLoc dir t [] with
  | none => some (none, t, rid t)
  | some q => do
    let a ← rootId q.1
    let res ← removeA g z a.1 t
    some (some a, res.1, res.2)

/-- dict.c:1182-1212; `CP_DICT_AUG_NOP` :1184, `CP_DICT_AUG_FINI` :1210 -/
def joinUpA (g : α → M → M → M) (z : M) (i : Bool) (rv : Option α) :
    Tree (α × M) → Path (α × M) → Option (Tree (α × M) × Option α)
  | _, [] => none
  | t, [f] => do
    let t' ← incSetBlackIfNeeded (plug1 f t)
    some (upd g z t', rv)
  | t, f :: h :: p =>
    if f.s % 2 = 1 ∧ red t then do
      ass (h.s % 2 = 0)
      let r ← mapStat incSetBlack t
      let q ← rbRotateA g z rv i (plug1 h (upd g z (plug1 { f with s := f.s + 2 } r))) p
      match p with
      | [] => do
        let t' ← incSetBlackIfNeeded q.1
        some (upd g z t', q.2)
      | h :: p => joinUpA g z i q.2 q.1 (h :: p)
    else do
      let t' ← incSetBlackIfNeeded (plug1 f t)
      some (finiUp g z (upd g z t') (h :: p), rv)

/-- `cp_dict_join3_aug` dict.c:1137-1212; `CP_DICT_AUG_JOIN` :1151, :1180 -/
def join3OrderedA (g : α → M → M → M) (z : M) (i : Bool) (l : Tree (α × M)) (m : α × M) (r : Tree (α × M)) :
    Option (Tree (α × M) × Option α) := do
  let r ← joinBlacken l r
  if height2 l = height2 r then
    let t ← incSetBlackIfNeeded (mkNode i l m (height2 l + 1) r)
    ass (veryGood t)
    some (upd g z t, some m.1)
  else
    ass (!red r)
    ass (height2 l > height2 r)
    let d ← down (!i) l
    let q := joinDesc i (height2 r) d.1 [d.2]
    ass (goodTree true (mkNode i q.1 m (height2 q.1 + 1) r))
    let t ← joinUpA g z i (rid l) (upd g z (mkNode i q.1 m (height2 q.1 + 1) r)) q.2
    ass (rid t.1 = t.2)
    ass (veryGood t.1)
    some t

/-- `cp_dict_join3_aug` dict.c:1120-1213 -/
def join3A (g : α → M → M → M) (z : M) (l : Tree (α × M)) (m : α × M) (r : Tree (α × M)) : Option (Tree (α × M) × Option α) :=
  if height2 l < height2 r then join3OrderedA g z true r m l else join3OrderedA g z false l m r

/-- `cp_dict_join2_aug` dict.c:1232-1245 -/
def join2A (g : α → M → M → M) (z : M) (l r : Tree (α × M)) : Option (Tree (α × M) × Option α) :=
  if isLeaf l then some (r, rid r)
  else if isLeaf r then some (l, rid l)
  else do
    let e ← extractStartA g z false r
    ass (rid e.2.1 = e.2.2)
    let m ← e.1
    join3A g z l m e.2.1

/-- `cp_dict_split_aug_` dict.c:1265-1333; `CP_DICT_AUG_SPLIT` :1293 with op-sweep.c:124-126 -/
def splitA (g : α → M → M → M) (z : M) (cmp : α → Int) (back : Bool) : Tree (α × M) → Option (Tree (α × M) × Tree (α × M))
  | leaf => some (leaf, leaf)
  | node nl n _ nr =>
    if cmp n.1 ≥ (if back then 1 else 0) then do
      let q ← splitA g z cmp back nr
      let l ← join3A g z nl (n.1, g n.1 z z) q.1
      ass (rid l.1 = l.2)
      some (l.1, q.2)
    else do
      let q ← splitA g z cmp back nl
      let r ← join3A g z q.2 (n.1, g n.1 z z) nr
      ass (rid r.1 = r.2)
      some (q.1, r.1)

end Hob3l.Aug
