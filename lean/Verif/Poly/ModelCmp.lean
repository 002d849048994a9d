import Verif.Poly.Model
import Verif.Matq.Model

/-!
Model of the comparisons that decide the order of the vertices in `data->result` and of the edges in `data->state`,
src/hob3lop/op-sweep.c:7-80.  The ends of the edges are given by a function `ed`: `ed e false` is the left end of edge `e`,
`ed e true` is the right end.  `none` is an overflow or a failing assertion.
-/

namespace Hob3l.Poly

/-- `CP_CMP` include/hob3ldef/def.h:109-120 -/
def cpCmp (a b : Int) : Int := if a < b then -1 else if a > b then 1 else 0

/-- `CP_SIGN` include/hob3ldef/def.h:122-132 -/
def cpSign (a : Int) : Int := if a < 0 then -1 else if a > 0 then 1 else 0

/-- `vec2_cmp` op-sweep-internal.h:570-586 -/
def vec2Cmp (a b : P) : Int :=
  let i := cpCmp a.1 b.1
  if i ≠ 0 then i else cpCmp a.2 b.2

/-- `cq_vec2_right_cross3_z` matq.h:335-341 -/
def cross3 (a o b : P) : Option Int := Matq.rightCross3Z a.1 a.2 o.1 o.2 b.1 b.2

/-- the number of a side, `LEFT` is 0 and `RIGT` is 1, op-sweep-internal.h -/
def sideNum (b : Bool) : Int := if b then 1 else 0

/-- `cq_sweep_result_vertex_cmp` op-sweep.c:7-36 -/
def resultCmp (ed : Nat → Bool → P) (a b : Vtx) : Option Int := do
  let i := vec2Cmp a.pos b.pos
  if i ≠ 0 then return i
  let i := cpCmp (sideNum b.rigt) (sideNum a.rigt)
  if i ≠ 0 then return i
  let oa := ed a.edge (!a.rigt)
  let ob := ed b.edge (!b.rigt)
  let i := cpSign (← cross3 ob a.pos oa)
  if i ≠ 0 then return i
  if vec2Cmp oa ob ≠ 0 then none
  return 0

/-- `cq_sweep_tree_vertex_edge_cmp` op-sweep.c:38-80, with `vec2_edge_cmp_exact` op-sweep-internal.h:845-850 -/
def treeCmp (ed : Nat → Bool → P) (v : Vtx) (e : Nat) : Option Int := do
  if v.rigt then none
  let i := cpSign (← cross3 v.pos (ed e true) (ed e false))
  if i ≠ 0 then return i
  let i := cpSign (← cross3 (ed e true) v.pos (ed v.edge true))
  if i ≠ 0 then return i
  if vec2Cmp v.pos (ed e true) = 0 then return -1
  return 0

end Hob3l.Poly
