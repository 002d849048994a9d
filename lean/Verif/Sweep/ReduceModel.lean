import Verif.Sweep.Model
import Verif.Dict.Model

/-
Model of a whole run of `cq_sweep_reduce` (/repo/src/hob3lop/op-sweep-reduce.c:37-86), with the tree of edges along the
scan line (`data->state`) being the balanced tree of the model of dict.c, searched by the geometric comparison.
Outer `none`: a failed assertion or a trapped overflow.
-/

namespace Hob3l.Sweep

open Hob3l.Matq

/-- a `vertex_t` as an end of its edge (op-sweep-internal.h:120-151); `rigt` is whether `side` is RIGT.  Edges are
identified by their value: the edges in `data->result` are pairwise different (`result_insert`
op-sweep-internal.h:869-886). -/
structure RV where
  e : Edge
  rigt : Bool
deriving DecidableEq, Repr

/-- the vertex as compared by `cq_sweep_result_vertex_cmp` -/
def RV.vertex (v : RV) : Vertex := if v.rigt then ⟨v.e.rigt, v.e.left, 1⟩ else ⟨v.e.left, v.e.rigt, 0⟩

/-- `data->state` and the fields `below` and `keep` of the edges.  That `e->clear` is reset after the RIGT event
(op-sweep-reduce.c:80) is not modelled: the two fields are not read again. -/
structure RS where
  tree : Dict.Tree Edge
  below : Edge → BitVec 64
  keep : Edge → Bool

/-- whether all edges of a tree satisfy `p` -/
def treeAll (p : Edge → Bool) : Dict.Tree Edge → Bool
  | .leaf => true
  | .node l e _ r => treeAll p l && p e && treeAll p r

/-- `state_edge_insert` op-sweep-internal.h:922-941: the edge that compares equal, if any, and the new tree.  A comparison
that overflows anywhere in the tree is a failure here, while the code makes only the comparisons on one path. -/
def stateInsert (e : Edge) (t : Dict.Tree Edge) : Option (Option Edge × Dict.Tree Edge) := do
  ass (Dict.mem e t = false)
  ass (treeAll (fun o => (treeVertexEdgeCmp e.left e.rigt o.left o.rigt).isSome) t = true)
  let r ← Dict.insertUpdateBy e (fun o => (treeVertexEdgeCmp e.left e.rigt o.left o.rigt).getD 0) 0 t none none
  return (r.found, r.tree)

/-- `state_edge_remove` op-sweep-internal.h:981-992 -/
def stateRemove (e : Edge) (t : Dict.Tree Edge) : Option (Dict.Tree Edge) := do
  ass (Dict.mem e t = true)
  let r ← Dict.remove e t
  return r.1

/-- `tree_edge_prev` op-sweep-internal.h:911-917 -/
def edgePrev (e : Edge) (t : Dict.Tree Edge) : Option (Option Edge) := do
  let q ← Dict.locate e t []
  return (Dict.stepLoc true q.1 q.2).bind (fun y => Dict.rootId y.1)

/-- the mask above the edge `p`, or below all edges, op-sweep-reduce.c:56-60 -/
def maskOver (s : RS) : Option Edge → BitVec 64
  | some p => s.below p ^^^ p.member
  | none => 0

/-- the LEFT event op-sweep-reduce.c:50-70; also returns whether the vertex stays in `data->result` -/
def leftEvent (comb : Bitmap.Mem) (combSize : Nat) (s : RS) (e : Edge) : Option (RS × Bool) := do
  let r ← stateInsert e s.tree
  ass (r.1 = none)
  let p ← edgePrev e r.2
  let below := maskOver s p
  let above := below ^^^ e.member
  let fb ← combEval comb combSize below
  let fa ← combEval comb combSize above
  let keep := fb != fa
  return (⟨r.2, Function.update s.below e below, Function.update s.keep e keep⟩, keep)

/-- the RIGT event op-sweep-reduce.c:71-82 -/
def rigtEvent (s : RS) (e : Edge) : Option (RS × Bool) := do
  let t ← stateRemove e s.tree
  return (⟨t, s.below, s.keep⟩, s.keep e)

/-- one iteration of the loop op-sweep-reduce.c:44-84 -/
def reduceEvent (comb : Bitmap.Mem) (combSize : Nat) (s : RS) (v : RV) : Option (RS × Bool) :=
  if v.rigt then rigtEvent s v.e else leftEvent comb combSize s v.e

/-- the loop; the list holds the vertices of `data->result` in order.  `cp_dict_each_robust` has the successor before the
body is run, and only the current vertex is removed. -/
def reduceLoop (comb : Bitmap.Mem) (combSize : Nat) : RS → List RV → Option (RS × List RV)
  | s, [] => some (s, [])
  | s, v :: vs => do
    let r ← reduceEvent comb combSize s v
    let q ← reduceLoop comb combSize r.1 vs
    return (q.1, if r.2 then v :: q.2 else q.2)

/-- `cq_sweep_reduce` op-sweep-reduce.c:37-86: the vertices in `data->result` before and after -/
def reduce (comb : Bitmap.Mem) (combSize : Nat) (result : List RV) : Option (List RV) := do
  let r ← reduceLoop comb combSize ⟨.leaf, fun _ => 0, fun _ => false⟩ result
  return r.2

end Hob3l.Sweep
