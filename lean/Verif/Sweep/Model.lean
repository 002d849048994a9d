import Verif.Matq.Model
import Verif.Bitmap.Model

/-
Model of parts of the plane sweep: /repo/src/hob3lop/op-sweep.c, op-sweep-internal.h, op-sweep-reduce.c.

`none` = failed assertion or overflow trap.  Membership in the two search trees (`data_t::state`,
`data_t::agenda_vertex`) is represented by flags of the edge; the crossing bookkeeping (`xing_*`) and debug output
are not modelled.
-/

namespace Hob3l.Sweep

open Hob3l.Matq

/-- `dim2_cmp` op-sweep-internal.h:570-579 and `vec2_cmp` :581-586 -/
def vec2Cmp (a b : Vec2) : Int :=
  let i := cpCmp a.x b.x
  if i ≠ 0 then i else cpCmp a.y b.y

/-- `cq_vec2_sqr_dist` matq.h:372-377 -/
def sqrDist (a b : Vec2) : Option Int := do
  let dx ← dimSub a.x b.x
  let dy ← dimSub a.y b.y
  sqrLen dx dy

/-- `edge_t` op-sweep-internal.h:166-260: end points, member mask; `inState`: `in_tree` is a member of
`data_t::state`; `agL`, `agR`: `left.in_agenda`/`rigt.in_agenda` is a member of `data_t::agenda_vertex` -/
structure Edge where
  left : Vec2
  rigt : Vec2
  member : BitVec 64
  inState : Bool
  agL : Bool
  agR : Bool
deriving DecidableEq, Repr

/-- `edge_new` op-sweep-internal.h:806-841 -/
def edgeNew (l r : Vec2) (m : BitVec 64) : Option Edge := do
  ass (vec2Cmp l r < 0)
  return ⟨l, r, m, false, false, false⟩

/-- `agenda_vertex_insert(&e->left)` -/
def insL (e : Edge) : Option Edge := do
  ass (e.agL = false)
  return { e with agL := true }
/-- `agenda_vertex_insert(&e->rigt)` -/
def insR (e : Edge) : Option Edge := do
  ass (e.agR = false)
  return { e with agR := true }
/-- `agenda_vertex_remove(&e->rigt)` -/
def remR (e : Edge) : Option Edge := do
  ass (e.agR = true)
  return { e with agR := false }
/-- `agenda_vertex_update(&e->rigt)`: re-sorts a member -/
def updR (e : Edge) : Option Edge := do
  ass (e.agR = true)
  return e

/-- `state_edge_replace(o, e)` op-sweep-internal.h:967-980: `e` takes the place of `o` -/
def replaceState (o e : Edge) : Option (Edge × Edge) := do
  ass (o.inState = true)
  ass (e.inState = false)
  return ({ o with inState := false }, { e with inState := true })

/-- `EDGE_DELETE` op-sweep-internal.h:762-786 -/
def edgeDelete (e : Edge) : Option Unit := do
  ass (e.inState = false)
  ass (e.agL = false)
  ass (e.agR = false)

/-- `assert(vec2_cmp(&e->left.vec2, &e->rigt.vec2) < 0)` -/
def assLR (e : Edge) : Option Unit := ass (vec2Cmp e.left e.rigt < 0)

/-- i == 0 && left_eq, op-sweep.c:391-400 -/
def overlapQQ (e o : Edge) : Option (List Edge) := do
  let o := { o with member := o.member ^^^ e.member }
  let e ← remR e
  edgeDelete e
  return [o]

/-- i == 0 && !left_eq, op-sweep.c:401-412 -/
def overlapOQ (e o : Edge) : Option (List Edge) := do
  let e := { e with member := e.member ^^^ o.member }
  let o := { o with rigt := e.left }
  assLR o
  let r ← replaceState o e
  let o ← remR r.1
  return [o, r.2]

/-- i > 0 && left_eq, op-sweep.c:416-426 -/
def overlapQN (e o : Edge) : Option (List Edge) := do
  let o := { o with member := o.member ^^^ e.member }
  let e := { e with left := o.rigt }
  assLR e
  let e ← insL e
  return [o, e]

/-- i > 0 && !left_eq, op-sweep.c:427-447 -/
def overlapON (e o : Edge) : Option (List Edge) := do
  let q ← edgeNew o.rigt e.rigt e.member
  let e := { e with member := e.member ^^^ o.member }
  let e := { e with rigt := o.rigt }
  assLR e
  let o := { o with rigt := e.left }
  assLR o
  let r ← replaceState o e
  let e ← updR r.2
  let o ← remR r.1
  let q ← insL q
  let q ← insR q
  return [o, e, q]

/-- i < 0 && left_eq, op-sweep.c:451-467 -/
def overlapQO (e o : Edge) : Option (List Edge) := do
  let om := o.member
  let o := { o with member := o.member ^^^ e.member }
  let e := { e with member := om }
  let e := { e with left := e.rigt }
  let e := { e with rigt := o.rigt }
  assLR e
  let o := { o with rigt := e.left }
  assLR o
  let o ← updR o
  let e ← insL e
  let e ← updR e
  return [o, e]

/-- i < 0 && !left_eq, op-sweep.c:468-482 -/
def overlapOO (e o : Edge) : Option (List Edge) := do
  let e := { e with member := e.member ^^^ o.member }
  let q ← edgeNew e.rigt o.rigt o.member
  let o := { o with rigt := e.rigt }
  let o := { o with rigt := e.left }
  assLR o
  let r ← replaceState o e
  let o ← remR r.1
  let q ← insL q
  let q ← insR q
  return [o, r.2, q]

/-- `ev_overlap` op-sweep.c:357-483.  The result is the list of edges that exist afterwards in place of `o` and `e`. -/
def overlap (e o : Edge) : Option (List Edge) := do
  ass (o.inState = true)
  ass (o.agL = false)
  ass (o.agR = true)
  ass (e.inState = false)
  ass (e.agL = false)
  ass (e.agR = true)
  let le ← sqrDist e.left e.rigt
  let lo ← sqrDist e.left o.rigt
  let i := cpCmp le lo
  if i = 0 then
    if o.left = e.left then overlapQQ e o else overlapOQ e o
  else if i > 0 then
    if o.left = e.left then overlapQN e o else overlapON e o
  else
    if o.left = e.left then overlapQO e o else overlapOO e o

/-- `ev_split` op-sweep.c:485-503 -/
def split (i : Vec2) (o : Edge) : Option (List Edge) := do
  let q ← edgeNew i o.rigt o.member
  let o := { o with rigt := i }
  assLR o
  let o ← updR o
  let q ← insL q
  let q ← insR q
  return [o, q]

/-- what `ev_pair` op-sweep.c:505-558 does with two neighbouring edges: the edges that replace `prev` and `next`, and
the crossing event scheduled, if any -/
structure PairRes where
  prev : List Edge
  next : List Edge
  xing : Option Vec2if
  deriving DecidableEq

/-- the case `1` of the switch op-sweep.c:536-557 -/
def pairCross (cur it : Vec2if) (prev next : Edge) : Option PairRes :=
  if vec2ifCmp it cur > 0 then
    if it.x.n = 0 ∧ it.y.n = 0 then do
      let a ← split ⟨it.x.i, it.y.i⟩ prev
      let b ← split ⟨it.x.i, it.y.i⟩ next
      return ⟨a, b, none⟩
    else some ⟨[prev], [next], some it⟩
  else some ⟨[prev], [next], none⟩

/-- the switch in `ev_pair` op-sweep.c:520-557 -/
def pairSwitch (cur : Vec2if) (prev next : Edge) (code : Int) (it : Option Vec2if) : Option PairRes :=
  if code = 1 + 2 then do
    let l ← split prev.left next
    return ⟨[prev], l, none⟩
  else if code = 1 + 4 then do
    let l ← split prev.rigt next
    return ⟨[prev], l, none⟩
  else if code = 1 + 8 then do
    let l ← split next.left prev
    return ⟨l, [next], none⟩
  else if code = 1 + 16 then do
    let l ← split next.rigt prev
    return ⟨l, [next], none⟩
  else if code = 1 then
    match it with
    | none => none
    | some p => pairCross cur p prev next
  else some ⟨[prev], [next], none⟩

/-- `ev_pair` op-sweep.c:505-558 for non-NULL `prev`, `next` -/
def pair (debug : Bool) (cur : Vec2if) (prev next : Edge) : Option PairRes := do
  let r ← intersect debug prev.left prev.rigt next.left next.rigt
  pairSwitch cur prev next r.1 r.2

/-! ### Adding edges: op-sweep.c:810-903 -/

/-- `cq_sweep_add_edge` op-sweep.c:810-833: the edge added, if any -/
def addEdge (a b : Vec2) (member : BitVec 64) : Option (List Edge) :=
  let i := vec2Cmp a b
  if i = 0 then some []
  else do
    let e ← if i > 0 then edgeNew b a member else edgeNew a b member
    let e ← insL e
    let e ← insR e
    return [e]

/-- `cq_sweep_add_v_line2` op-sweep.c:835-843 -/
def addLines (member : BitVec 64) : List (Vec2 × Vec2) → Option (List Edge)
  | [] => some []
  | l :: ls => do
    let e ← addEdge l.1 l.2 member
    let es ← addLines member ls
    return e ++ es

/-- `cp_wrap_add1` include/hob3lbase/arith.h:87-95 -/
def wrapAdd1 (i n : Nat) : Option Nat :=
  let i := i + 1
  if i = n then some 0 else do
  ass (i < n)
  return i

/-- `cq_sweep_add_poly` op-sweep.c:845-873, the loop over one path (:853-861); `pts` are the points of the path after
`cq_import_vec2`; the argument list holds the remaining values of `ki` -/
def addPathLoop (pts : List Vec2) (member : BitVec 64) : List Nat → Option (List Edge)
  | [] => some []
  | ki :: ks => do
    let kj ← wrapAdd1 ki pts.length
    let wi ← pts[ki]?
    let wj ← pts[kj]?
    let e ← addEdge wi wj member
    let es ← addPathLoop pts member ks
    return e ++ es

def addPath (pts : List Vec2) (member : BitVec 64) : Option (List Edge) :=
  addPathLoop pts member (List.range pts.length)

/-- `cq_sweep_add_poly` :862-872, one triangle -/
def addTri (a b c : Vec2) (member : BitVec 64) : Option (List Edge) := do
  let e1 ← addEdge a b member
  let e2 ← addEdge b c member
  let e3 ← addEdge c a member
  return e1 ++ e2 ++ e3

/-! ### Comparators: op-sweep.c:7-36, :190-334 -/

/-- `vertex_t`: an end of an edge; `other` is the point of `other_end(v)`; `side`: LEFT = 0, RIGT = 1
(op-sweep-internal.h:120-157, :533) -/
structure Vertex where
  p : Vec2
  other : Vec2
  side : Nat
deriving DecidableEq, Repr

def cross3 (a o b : Vec2) : Option Int := rightCross3Z a.x a.y o.x o.y b.x b.y

/-- `cq_sweep_tree_vertex_edge_cmp` op-sweep.c:38-78 with `vec2_edge_cmp_exact` op-sweep-internal.h:845-850:
`v` = left end of the edge to insert, `r` = its right end, `el`, `er` = ends of the edge in the tree -/
def treeVertexEdgeCmp (v r el er : Vec2) : Option Int := do
  let c ← cross3 v er el
  if cpSign c ≠ 0 then return cpSign c else do
  let c ← cross3 er v r
  if cpSign c ≠ 0 then return cpSign c else do
  if vec2Cmp v er = 0 then return -1 else return 0

/-- `cq_sweep_result_vertex_cmp` op-sweep.c:7-36 -/
def resultVertexCmp (a b : Vertex) : Option Int :=
  let i := vec2Cmp a.p b.p
  if i ≠ 0 then some i else
  let i := cpCmp b.side a.side
  if i ≠ 0 then some i else do
  let c ← cross3 b.other a.p a.other
  if cpSign c ≠ 0 then return cpSign c else do
  ass (vec2Cmp a.other b.other = 0)
  return 0

/-- `cq_sweep_agenda_vertex_phase1_cmp` op-sweep.c:190-229 -/
def phase1Cmp (a b : Vertex) : Option Int :=
  let i := vec2Cmp a.p b.p
  if i ≠ 0 then some i else
  let i := cpCmp b.side a.side
  if i ≠ 0 then some i else do
  let c ← cross3 a.other a.p b.other
  return cpCmp c 0

/-- `cq_sweep_agenda_vertex_phase2_cmp` op-sweep.c:231-276; `south` = `phase_south(data)` -/
def phase2Cmp (south : Bool) (a b : Vertex) : Option Int :=
  let i := cpCmp a.p.x b.p.x
  if i ≠ 0 then some i else
  let i := cpCmp a.p.y b.p.y
  if i ≠ 0 then some (if south then -i else i) else
  let i := cpCmp b.side a.side
  if i ≠ 0 then some i else do
  let c ← cross3 a.other a.p b.other
  return cpCmp c 0

/-- `cq_sweep_agenda_xing_phase2_cmp` op-sweep.c:300-334 -/
def xingPhase2Cmp (south : Bool) (a b : Vec2if) : Option Int := do
  let ax ← round a.x
  let bx ← round b.x
  let i := cpCmp ax bx
  if i ≠ 0 then return i else do
  let ay ← round a.y
  let by' ← round b.y
  let i := cpCmp ay by'
  if i ≠ 0 then return (if south then -i else i) else do
  let i := dimifCmp a.x b.x
  if i ≠ 0 then return i else do
  let i := dimifCmp a.y b.y
  if i ≠ 0 then return (if south then -i else i) else do
  return 0

/-! ### Reduction: op-sweep-reduce.c -/

/-- the fields of `edge_t` used in the REDUCE phase -/
structure REdge where
  member : BitVec 64
  below : BitVec 64
  keep : Bool
deriving DecidableEq, Repr

/-- `comb_eval` op-sweep-reduce.c:28-35 -/
def combEval (comb : Bitmap.Mem) (combSize : Nat) (i : BitVec 64) : Option Bool := do
  ass (i.toNat < combSize)
  Bitmap.get comb i.toNat

/-- the state: the edges crossing the scan line from bottom to top -/
abbrev RState := List REdge

/-- `e->below` op-sweep-reduce.c:53-57: `tree_edge_prev` of the edge inserted at place `k` -/
def belowOf (st : RState) (k : Nat) : BitVec 64 :=
  if k = 0 then 0
  else match st[k - 1]? with
    | some p => p.below ^^^ p.member
    | none => 0

/-- LEFT event, op-sweep-reduce.c:49-70.  `k` is the place in the state found by the geometric search
(`state_edge_insert`); `tree_edge_prev` is the entry just below. -/
def evLeft (comb : Bitmap.Mem) (combSize : Nat) (st : RState) (k : Nat) (member : BitVec 64) : Option RState := do
  let below := belowOf st k
  let above := below ^^^ member
  let fb ← combEval comb combSize below
  let fa ← combEval comb combSize above
  return st.insertIdx k ⟨member, below, fb != fa⟩

/-- RIGT event, op-sweep-reduce.c:71-82: the edge at place `k` ends -/
def evRigt (st : RState) (k : Nat) : Option RState := do
  ass (k < st.length)
  return st.eraseIdx k

/-- All events of one vertex: first the edges that end there (adjacent in the state, from place `k`), then the ones that
start there, bottom to top (order of `cq_sweep_result_vertex_cmp`). -/
structure RVertex where
  k : Nat
  ends : Nat
  starts : List (BitVec 64)

def evRigts (st : RState) (k : Nat) : Nat → Option RState
  | 0 => some st
  | n + 1 => do
    let st ← evRigt st k
    evRigts st k n

def evLefts (comb : Bitmap.Mem) (combSize : Nat) (st : RState) (k : Nat) : List (BitVec 64) → Option RState
  | [] => some st
  | m :: ms => do
    let st ← evLeft comb combSize st k m
    evLefts comb combSize st (k + 1) ms

def evVertex (comb : Bitmap.Mem) (combSize : Nat) (st : RState) (v : RVertex) : Option RState := do
  let st ← evRigts st v.k v.ends
  evLefts comb combSize st v.k v.starts

/-- `cq_sweep_reduce` op-sweep-reduce.c:37-86, from a given state on -/
def reduceRun (comb : Bitmap.Mem) (combSize : Nat) (st : RState) : List RVertex → Option RState
  | [] => some st
  | v :: vs => do
    let st ← evVertex comb combSize st v
    reduceRun comb combSize st vs

end Hob3l.Sweep
