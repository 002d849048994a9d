import Verif.Poly.ModelCmp

/-!
Model of the triangulation of the edges that are left by the boolean operation, src/hob3lop/op-trianglify.c, with the functions it
uses from src/hob3lop/op-sweep-internal.h.

Simplifications: edges are numbers; a vertex is an edge together with its side (`false` is LEFT, `true` is RIGT); the link fields
`list` are the rings of `Verif.Ring.Model`.  The balanced tree `state` is the list of its edges from bottom to top; the search for
the place where an edge is inserted is a parameter (`Poly.Ins`, see `Verif.Poly`).  The largest `unsigned`, which marks a vertex to
the right of the sweep line, is `none`.  The number of points stays below the largest `unsigned`.  New edges get new numbers: the
list of free edges, into which deleted new edges are put (`edge_delete`), is left out.  The fields `inner` and `v_dis` are cleared
initially (op-sweep-reduce.c:80).  The argument `r` is empty initially, as required by the documentation (op-trianglify.c:280);
`r->path` stays empty, so that its reversal (line 514) does nothing.  Traces are left out.
-/

namespace Hob3l.Tri

open Hob3l.Poly (P Vtx Err ass Ins cross3 vec2Cmp treeNext treePrev)

/-- `vertex_t *`: an edge and the field `side` -/
abbrev V := Nat × Bool

/-- `cp_csg2_tri_t` include/hob3lop/gon_tam.h:227-233 -/
structure Tri where
  p0 : Nat
  p1 : Nat
  p2 : Nat
  /-- `CP_CSG2_TRI_OUTLINE_01` -/
  f01 : Bool
  /-- `CP_CSG2_TRI_OUTLINE_12` -/
  f12 : Bool
  /-- `CP_CSG2_TRI_OUTLINE_20` -/
  f20 : Bool
  deriving DecidableEq, Repr

/-- the fields of the edges and their vertices, and the variables of `cq_sweep_trianglify` -/
structure St where
  /-- `list` of all edges -/
  ring : Ring.St
  /-- `back` of all edges -/
  back : Nat → Bool
  /-- `inner` of all edges -/
  inner : Nat → Bool
  /-- `v_dis` of all edges -/
  dis : Nat → Bool → Bool
  /-- `point_idx` of the two ends of all edges -/
  idx : Nat → Bool → Option Nat
  /-- `vec2` of the two ends of all edges -/
  pos : Nat → Bool → P
  /-- `rigt_most` of all edges -/
  rm : Nat → V
  /-- the next new edge -/
  new : Nat
  /-- `data->state`, from bottom to top -/
  tree : List Nat
  /-- `last_pt` -/
  last : P
  /-- `r->point` -/
  points : List P
  /-- `r->tri` -/
  tris : List Tri

/-- change of a field of a vertex -/
def upd {α : Type} (f : Nat → Bool → α) (v : V) (x : α) : Nat → Bool → α := fun e b => if e = v.1 ∧ b = v.2 then x else f e b

/-- change of a field of an edge -/
def upd1 {α : Type} (f : Nat → α) (e : Nat) (x : α) : Nat → α := fun y => if y = e then x else f y

/-- `list_edge_step` op-sweep-internal.h:1569-1573: `true` is the previous edge -/
def edgeStep (s : St) (e : Nat) (dir : Bool) : Nat := if dir then s.ring.prv e else s.ring.nxt e

/-- `vertex_buddy` op-sweep-internal.h:1618-1639 -/
def buddy (s : St) (v : V) : V :=
  let dir := !(v.2 ^^ s.back v.1)
  let e := edgeStep s v.1 dir
  (e, dir ^^ s.back e)

/-- `vertex_eq_buddy` op-sweep-internal.h:1649-1658 -/
def eqBuddy (s : St) (v : V) : Option V :=
  let w := buddy s v
  if s.pos v.1 v.2 ≠ s.pos w.1 w.2 then none else some w

/-- `vertex_list_step_raw` op-sweep-internal.h:1672-1711 -/
def stepRaw (s : St) (v : V) (dir : Bool) : V :=
  if v.2 ^^ s.back v.1 ^^ dir then
    let e := edgeStep s v.1 dir
    (e, s.back e ^^ dir)
  else (v.1, !v.2)

/-- the loop of `vertex_list_step` op-sweep-internal.h:1726-1739; the first argument is the one of `cq_each_assert_max` -/
def stepLoop (s : St) (dir : Bool) : Nat → V → Except Err V
  | 0, _ => .error .other
  | k + 1, v => do
    let v := stepRaw s v dir
    if s.idx v.1 v.2 = none then .ok v
    else if s.dis v.1 v.2 = false then .ok v
    else do
      ass (s.dis v.1 (!v.2) = false) .other
      stepLoop s dir k v

/-- `vertex_list_step` op-sweep-internal.h:1723-1740, `vertex_valid` 1715-1718 -/
def step (s : St) (v : V) (dir : Bool) : Except Err V := do
  ass (s.idx v.1 v.2 ≠ none) .other
  stepLoop s dir 3 v

/-- the loop of `vertex_list_step_neq` op-sweep-internal.h:1753-1762 -/
def stepNeqLoop (s : St) (dir : Bool) (o : V) : Nat → V → Except Err (Option V)
  | 0, _ => .error .other
  | k + 1, v => do
    let w ← step s v dir
    if o = w then .ok none
    else if s.idx w.1 w.2 ≠ s.idx v.1 v.2 then .ok (some w)
    else stepNeqLoop s dir o k w

/-- `vertex_list_step_neq` op-sweep-internal.h:1749-1763 -/
def stepNeq (s : St) (v : V) (dir : Bool) : Except Err (Option V) := stepNeqLoop s dir v 2 v

/-- `vertex_remove` op-trianglify.c:19-31; the deletion of a new edge is left out -/
def remove (s : St) (v : V) : St :=
  let s := { s with dis := upd s.dis v true }
  if s.dis v.1 (!v.2) then { s with ring := Ring.remove s.ring v.1 } else s

/-- `vertex_remove2` op-trianglify.c:37-46 -/
def remove2 (s : St) (v : V) : St :=
  match eqBuddy s v with
  | none => remove s v
  | some w => remove (remove s v) w

/-- `edge_is_outline` op-trianglify.c:68-92 -/
def isOutline (s : St) (p q : V) : Bool :=
  if p.1 = q.1 then !s.inner p.1
  else
    let w := eqBuddy s q
    if w.any (fun w => p.1 = w.1) then !s.inner p.1
    else match eqBuddy s p with
      | none => false
      | some p =>
        if p.1 = q.1 then !s.inner p.1
        else if w.any (fun w => p.1 = w.1) then !s.inner p.1
        else false

/-- the point index of a valid vertex -/
def ix (s : St) (v : V) : Nat := (s.idx v.1 v.2).getD 0

/-- the triangle, op-trianglify.c:204-232 -/
def mkTri (s : St) (back : Bool) (p q w : V) : Tri :=
  if back then ⟨ix s q, ix s p, ix s w, isOutline s q p, isOutline s p w, isOutline s w q⟩
  else ⟨ix s p, ix s q, ix s w, isOutline s p q, isOutline s q w, isOutline s w p⟩

/-- the loop of `flush_triangle_` op-trianglify.c:160-237, from a vertex `q`; `neg` is the argument `back` where it determines the
orientation, `dir` is the same argument where it determines the direction; the first argument bounds the number of iterations -/
def flushLoop (neg dir : Bool) (p : V) : Nat → St → V → Except Err St
  | 0, _, _ => .error .other
  | k + 1, s, q => do
    match ← stepNeq s q dir with
    | none => .ok s
    | some w =>
      if s.idx w.1 w.2 = none then .ok s
      else
        match cross3 (s.pos p.1 p.2) (s.pos q.1 q.2) (s.pos w.1 w.2) with
        | none => .error .other
        | some i =>
          let i := if neg then -i else i
          if i < 0 then .ok s
          else do
            ass (s.idx p.1 p.2 ≠ s.idx q.1 q.2) .other
            ass (s.idx w.1 w.2 ≠ s.idx q.1 q.2) .other
            if i = 0 then
              if s.idx p.1 p.2 = s.idx w.1 w.2 then do
                let s := remove2 s q
                let q ← step s w dir
                if q = p then .ok s
                else do
                  let s := remove2 s w
                  match ← stepNeq s p dir with
                  | none => .ok s
                  | some q => if s.idx q.1 q.2 = none then .ok s else flushLoop neg dir p k s q
              else .ok s
            else do
              ass (s.idx p.1 p.2 ≠ s.idx w.1 w.2) .other
              flushLoop neg dir p k (remove2 { s with tris := s.tris ++ [mkTri s neg p q w] } q) w

/-- `flush_triangle_` op-trianglify.c:149-238 -/
def flushG (neg dir : Bool) (fuel : Nat) (s : St) (p : V) : Except Err St := do
  match ← stepNeq s p dir with
  | none => .ok s
  | some q => if s.idx q.1 q.2 = none then .ok s else flushLoop neg dir p fuel s q

/-- `flush_triangle_fore` op-trianglify.c:240-246, `flush_triangle_back` 248-254 -/
def flush (fuel : Nat) (s : St) (p : V) (back : Bool) : Except Err St := flushG back back fuel s p

/-- `flush_triangle_both` op-trianglify.c:256-264 -/
def flushBoth (fuel : Nat) (st : St) (s t : V) : Except Err St := do
  let st ← flush fuel st s true
  flush fuel st t false

/-- `list_edge_chain` op-sweep-internal.h:1549-1559 -/
def listChain (s : St) (a b : Nat) : Except Err St := do
  let r := Ring.chain s.ring a b
  ass (r.nxt a = b) .other
  .ok { s with ring := r }

/-- `list_edge_init2` op-sweep-internal.h:1463-1476 (the assertion about the coordinates follows from op-trianglify.c:322) -/
def listInit2 (s : St) (a b : Nat) : Except Err St := do
  ass (s.back a ≠ s.back b) .other
  .ok { s with ring := Ring.chain (Ring.init (Ring.init s.ring a) b) a b }

/-- `list_edge_merge` op-sweep-internal.h:1517-1545 -/
def listMerge (s : St) (a b : Nat) : Except Err St := do
  ass (s.ring.nxt a ≠ a) .other
  ass (s.ring.prv a ≠ a) .other
  ass (s.ring.nxt b ≠ b) .other
  ass (s.ring.prv b ≠ b) .other
  ass (s.back a ≠ s.back b) .other
  ass (s.pos a true = s.pos b true) .other
  if s.back a then do
    let r := Ring.chain s.ring b a
    ass (r.prv a = b) .other
    .ok { s with ring := r }
  else do
    let r := Ring.chain s.ring a b
    ass (r.nxt a = b) .other
    .ok { s with ring := r }

/-- `tri_edge_new` op-trianglify.c:48-66, `edge_new` op-sweep-internal.h:806-841: the state and the new edge -/
def newEdge (s : St) (left rigt : V) (back inner : Bool) : Except Err (St × Nat) := do
  ass (vec2Cmp (s.pos left.1 left.2) (s.pos rigt.1 rigt.2) < 0) .other
  let e := s.new
  let s := { s with
    new := e + 1
    pos := upd (upd s.pos (e, false) (s.pos left.1 left.2)) (e, true) (s.pos rigt.1 rigt.2)
    back := upd1 s.back e back
    inner := upd1 s.inner e inner
    dis := upd (upd s.dis (e, false) false) (e, true) false
    ring := Ring.init s.ring e
    idx := upd (upd s.idx (e, false) (s.idx left.1 left.2)) (e, true) (s.idx rigt.1 rigt.2) }
  ass (s.idx e false ≠ none) .other
  ass (s.idx e true ≠ none) .other
  .ok (s, e)

/-- the point index, op-trianglify.c:308-314 -/
def getPt (s : St) (v : Vtx) : St :=
  let s := if s.points.length = 0 ∨ s.last ≠ v.pos then { s with last := v.pos, points := s.points ++ [v.pos] } else s
  { s with idx := upd s.idx (v.edge, v.rigt) (some (s.points.length - 1)) }

/-- `state_edge_replace` op-sweep-internal.h:967-979 -/
def treeReplace (s : St) (a b : Nat) : Except Err St := do
  ass (a ≠ b) .other
  ass (a ∈ s.tree) .other
  ass (b ∉ s.tree) .other
  .ok { s with tree := s.tree.map fun x => if x = a then b else x }

/-- `state_edge_insert_successfully` op-sweep-internal.h:922-949: the position is `k` (the end if `k` is too large) -/
def treeInsert (s : St) (k : Option Nat) (e : Nat) : Except Err St := do
  ass (e ∉ s.tree) .other
  match k with
  | none => .error .order
  | some k => .ok { s with tree := s.tree.take k ++ e :: s.tree.drop k }

/-- `state_edge_remove` op-sweep-internal.h:981-992 -/
def treeRemove (s : St) (a : Nat) : Except Err St := do
  ass (a ∈ s.tree) .other
  .ok { s with tree := s.tree.erase a }

/-- BEND, op-trianglify.c:339-371 -/
def bend (fuel : Nat) (st : St) (s t : Vtx) : Except Err St := do
  ass (s.rigt = true) .order
  ass (t.rigt = false) .order
  let es := s.edge
  let et := t.edge
  let st := { st with idx := upd st.idx (et, !t.rigt) none }
  let st ← treeReplace st es et
  let st := { st with back := upd1 st.back et (st.back es), ring := Ring.init st.ring et, rm := upd1 st.rm et (et, t.rigt) }
  if st.back et then do
    let st ← listChain st et es
    let st := { st with rm := upd1 st.rm (st.ring.prv et) (es, s.rigt) }
    flush fuel st (et, t.rigt) false
  else do
    let st ← listChain st es et
    ass (es = st.ring.prv et) .other
    let st := { st with rm := upd1 st.rm (st.ring.nxt et) (es, s.rigt) }
    flush fuel st (et, t.rigt) true

/-- the new edges at an improper START, op-trianglify.c:430-449: the state, `sr` and `tr` -/
def startEdges (st : St) (es et : Nat) (lms lmt s t : V) : Except Err (St × V × V) :=
  if st.idx lms.1 lms.2 ≠ st.idx s.1 s.2 then do
    let (st, ht) ← newEdge st lms s true true
    let st ← listChain st et ht
    let x ← step st (ht, true) true
    ass (x = t) .other
    let x ← step st (ht, false) false
    ass (x = lmt) .other
    let (st, hs) ← newEdge st lms s false true
    let st ← listChain st hs es
    let x ← step st (hs, true) false
    ass (x = s) .other
    let x ← step st (hs, false) true
    ass (x = lms) .other
    .ok (st, (hs, true), (ht, true))
  else .ok (st, lms, lmt)

/-- improper START, op-trianglify.c:409-458 -/
def startImproper (fuel : Nat) (st : St) (er es et : Nat) (s t : V) : Except Err St := do
  ass (st.back et = true) .other
  let lms := st.rm er
  let elms := lms.1
  let elmt := st.ring.nxt elms
  match eqBuddy st lms with
  | none => .error .other
  | some lmt => do
    ass (elmt = lmt.1) .other
    let st ← listChain st et elmt
    let x ← step st t false
    ass (x = lmt) .other
    let st ← listChain st es er
    let x ← step st s true
    ass (x = lms) .other
    let (st, sr, tr) ← startEdges st es et lms lmt s t
    ass (st.back er = true) .other
    ass (st.back et = true) .other
    let st := { st with rm := upd1 (upd1 (upd1 st.rm er sr) et t) es s }
    let st := { st with rm := upd1 st.rm (st.ring.prv et) tr }
    flushBoth fuel st s t

/-- START, op-trianglify.c:373-460 -/
def start (ins : Ins) (fuel : Nat) (st : St) (s t : Vtx) : Except Err St := do
  let es := s.edge
  let et := t.edge
  let st := { st with idx := upd (upd st.idx (es, !s.rigt) none) (et, !t.rigt) none }
  let st ← treeInsert st (ins st.tree s) es
  let st ← treeInsert st (ins st.tree t) et
  ass (treeNext st.tree es = some et) .order
  let b := match treePrev st.tree es with
    | some er => !st.back er
    | none => true
  let st := { st with back := upd1 (upd1 st.back es b) et !b }
  let st ← listInit2 st es et
  if b then .ok { st with rm := upd1 (upd1 st.rm es (es, s.rigt)) et (et, t.rigt) }
  else
    match treePrev st.tree es with
    | none => .error .other
    | some er => startImproper fuel st er es et (es, s.rigt) (et, t.rigt)

/-- END, op-trianglify.c:461-504 -/
def finish (fuel : Nat) (st : St) (s t : Vtx) : Except Err St := do
  let es := s.edge
  let et := t.edge
  ass (s.rigt = true) .other
  ass (st.back es = !st.back et) .order
  ass (treeNext st.tree et = some es) .order
  if edgeStep st et (st.back et) = es then do
    let st ← treeRemove st es
    let st ← treeRemove st et
    ass (edgeStep st es (st.back es) = et) .other
    ass (st.idx es s.rigt = st.idx et t.rigt) .other
    flushBoth fuel st (es, s.rigt) (et, t.rigt)
  else do
    let st ← treeRemove st es
    let st ← treeRemove st et
    let st := { st with rm := upd1 st.rm (st.ring.prv es) (es, s.rigt) }
    let st := { st with rm := upd1 st.rm (st.ring.nxt et) (et, t.rigt) }
    ass (st.back et = false) .other
    ass (st.back es = true) .other
    let st ← flushBoth fuel st (et, t.rigt) (es, s.rigt)
    listMerge st et es

/-- the three cases, op-trianglify.c:327-504 -/
def event (ins : Ins) (fuel : Nat) (st : St) (s t : Vtx) : Except Err St := do
  ass ((t.rigt = false) ↔ t.edge ∉ st.tree) .other
  ass ((s.rigt = false) ↔ s.edge ∉ st.tree) .other
  if s.rigt ≠ t.rigt then bend fuel st s t
  else if s.rigt = false then start ins fuel st s t
  else finish fuel st s t

/-- the loop op-trianglify.c:304-509: whether it succeeds, and the state -/
def loop (ins : Ins) (fuel : Nat) : List Vtx → St → Except Err (Bool × St)
  | [], st => .ok (true, st)
  | [s], st => .ok (true, getPt st s)
  | s :: t :: l, st => do
    let st := getPt (getPt st s) t
    if s.pos ≠ t.pos then .ok (false, st)
    else do
      let st ← event ins fuel st s t
      loop ins fuel l st

/-- the state initially -/
def init (ring : Ring.St) (back : Nat → Bool) (idx : Nat → Bool → Option Nat) (rm : Nat → V) (ed : Nat → Bool → P) (new : Nat) :
    St :=
  { ring, back, inner := fun _ => false, dis := fun _ _ => false, idx, pos := ed, rm, new, tree := [], last := (0, 0), points := [],
    tris := [] }

/-- `cq_sweep_trianglify` op-trianglify.c:286-520 for the vertices `l` in the order of `data->result`, of edges with the ends `ed`
and numbers below `new`; the initial contents of the fields of the edges and the search in the tree are parameters -/
def trianglify (ring : Ring.St) (back : Nat → Bool) (idx : Nat → Bool → Option Nat) (rm : Nat → V) (ed : Nat → Bool → P)
    (new : Nat) (ins : Ins) (fuel : Nat) (l : List Vtx) : Except Err (Bool × St) :=
  loop ins fuel l (init ring back idx rm ed new)

end Hob3l.Tri
