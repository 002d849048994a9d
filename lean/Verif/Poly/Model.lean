import Verif.Ring.Model

/-!
Model of the construction of polygon paths from the edges that are left by the boolean operation, src/hob3lop/op-poly.c, with
the functions it uses from src/hob3lop/op-sweep-internal.h.

Simplifications: edges are numbers and the link fields `list` are the rings of `Verif.Ring.Model`.  The balanced tree `state` is the
list of its edges from bottom to top; the search for the place where an edge is inserted is a parameter.  Coordinates are only compared for equality.  `unsigned` is modelled by natural numbers modulo 2^32.
The argument `r` has no points and paths initially, as required by the documentation (op-poly.c:79).  The cleanup after a failure
(op-poly.c:246-250) and traces are left out.
-/

namespace Hob3l.Poly

/-- coordinates of a point -/
abbrev P := Int × Int

/-- `vertex_t`: an end of an edge; `rigt` is the field `side` -/
structure Vtx where
  edge : Nat
  rigt : Bool
  pos : P
  deriving DecidableEq, Repr

/-- the failing assertions: about the order of vertices and edges in the plane, and all others -/
inductive Err where
  | order
  | other
  deriving DecidableEq, Repr

/-- 2^32, the modulus of `unsigned` -/
def M : Nat := 4294967296

/-- an assertion -/
def ass (c : Prop) [Decidable c] (e : Err) : Except Err Unit := if c then .ok () else .error e

/-- an access to an array -/
def look {α : Type} (o : Option α) : Except Err α :=
  match o with
  | some a => .ok a
  | none => .error .other

/-- the part of the result `r` -/
structure Res where
  /-- `coord` of `r->point` -/
  points : List P
  /-- `aux1` of `r->point` -/
  aux : List Nat
  /-- `r->path`, each with its `point_idx` -/
  paths : List (List Nat)
  deriving DecidableEq, Repr

/-- the loop op-poly.c:53-56 -/
def clearAux (aux : List Nat) (val : Nat) : List Nat → Except Err (List Nat)
  | [] => .ok aux
  | i :: is => do
    ass (i < aux.length) .other
    clearAux (aux.set i val) val is

/-- `cq_sweep_poly_append` op-poly.c:25-60 -/
def append (r : Res) (vi offs idx : Nat) : Except Err Res := do
  let v ← look r.paths[vi]?
  let a ← look r.aux[idx]?
  let pathIdx := (a + M - offs) % M
  if v.length ≤ pathIdx then
    .ok { r with aux := r.aux.set idx ((v.length + offs) % M), paths := r.paths.set vi (v ++ [idx]) }
  else do
    ass (v[pathIdx]? = some idx) .other
    let w := v.drop pathIdx
    let v := v.take (pathIdx + 1)
    let aux ← clearAux r.aux ((offs + M - 1) % M) (w.drop 1)
    ass (w[0]? = some idx) .other
    ass (v[pathIdx]? = some idx) .other
    .ok { r with aux := aux, paths := r.paths.set vi v ++ [w] }

/-- the variables of `cq_sweep_poly` op-poly.c:105-112, and the fields of the edges -/
structure St where
  /-- `list` of all edges -/
  ring : Ring.St
  /-- `back` of all edges -/
  back : Nat → Bool
  /-- `point_idx` of the two ends of all edges -/
  pt : Nat → Bool → Nat
  /-- `data->state`, from bottom to top -/
  tree : List Nat
  /-- `last_pt` -/
  last : P
  /-- `path_idx_offs` -/
  offs : Nat
  res : Res

/-- `point_idx_get` op-sweep-internal.h:1806-1832, called at op-poly.c:117.  The loop 1812-1823 is left out: as there is no point
initially, `idx` is set to the largest number in the first call and the loop is left immediately always. -/
def getPt (s : St) (v : Vtx) : Except Err St := do
  let s := if s.res.points.length = 0 ∨ s.last ≠ v.pos then
      { s with last := v.pos, res := { s.res with points := s.res.points ++ [v.pos], aux := s.res.aux ++ [0] } }
    else s
  ass (0 < s.res.points.length) .other
  ass (s.res.points.length < M - 1) .other
  .ok { s with pt := fun e b => if e = v.edge ∧ b = v.rigt then s.res.points.length - 1 else s.pt e b }

/-- `list_edge_get_end` op-sweep-internal.h:1561-1567: the point index of the source (`false`) or target (`true`) -/
def endPt (s : St) (e : Nat) (target : Bool) : Nat := s.pt e (s.back e != target)

/-- `list_edge_init2` op-sweep-internal.h:1463-1476 (the assertion about the coordinates follows from op-poly.c:125) -/
def listInit2 (s : St) (a b : Nat) : Except Err St := do
  ass (s.back a ≠ s.back b) .other
  .ok { s with ring := Ring.chain (Ring.init (Ring.init s.ring a) b) a b }

/-- `list_edge_insert` op-sweep-internal.h:1479-1508 -/
def listInsert (s : St) (a b : Nat) : Except Err St := do
  ass (s.ring.nxt a ≠ a) .other
  ass (s.ring.prv a ≠ a) .other
  ass (s.ring.nxt b = b) .other
  ass (s.ring.prv b = b) .other
  ass (s.back a = s.back b) .other
  if s.back a then do
    let r := Ring.chain s.ring b a
    ass (r.prv a = b) .other
    .ok { s with ring := r }
  else do
    let r := Ring.chain s.ring a b
    ass (r.nxt a = b) .other
    .ok { s with ring := r }

/-- `list_edge_merge` op-sweep-internal.h:1517-1546 -/
def listMerge (s : St) (a b : Nat) : Except Err St := do
  ass (s.ring.nxt a ≠ a) .other
  ass (s.ring.prv a ≠ a) .other
  ass (s.ring.nxt b ≠ b) .other
  ass (s.ring.prv b ≠ b) .other
  ass (s.back a ≠ s.back b) .other
  if s.back a then do
    let r := Ring.chain s.ring b a
    ass (r.prv a = b) .other
    .ok { s with ring := r }
  else do
    let r := Ring.chain s.ring a b
    ass (r.nxt a = b) .other
    .ok { s with ring := r }

/-- `tree_edge_next` op-sweep-internal.h:903-909 -/
def treeNext : List Nat → Nat → Option Nat
  | x :: y :: t, e => if x = e then some y else treeNext (y :: t) e
  | _, _ => none

/-- `tree_edge_prev` op-sweep-internal.h:911-917 -/
def treePrev : List Nat → Nat → Option Nat
  | x :: y :: t, e => if y = e then some x else treePrev (y :: t) e
  | _, _ => none

/-- the search of `cp_dict_insert_by` (see `Verif.Dict`): the position at which a vertex is inserted, `none` if an equal element is
found -/
abbrev Ins := List Nat → Vtx → Option Nat

/-- `state_edge_insert_successfully` op-sweep-internal.h:922-949: the position is `k` (the end if `k` is too large) -/
def treeInsert (s : St) (k : Option Nat) (e : Nat) : Except Err St := do
  ass (e ∉ s.tree) .other
  match k with
  | none => .error .order
  | some k => .ok { s with tree := s.tree.take k ++ e :: s.tree.drop k }

/-- `state_edge_replace` op-sweep-internal.h:967-979 -/
def treeReplace (s : St) (a b : Nat) : Except Err St := do
  ass (a ≠ b) .other
  ass (a ∈ s.tree) .other
  ass (b ∉ s.tree) .other
  .ok { s with tree := s.tree.map fun x => if x = a then b else x }

/-- `state_edge_remove` op-sweep-internal.h:981-992 -/
def treeRemove (s : St) (a : Nat) : Except Err St := do
  ass (a ∈ s.tree) .other
  .ok { s with tree := s.tree.erase a }

/-- the loop op-poly.c:206-216: `cnt` and the result; the first argument bounds the number of iterations -/
def walkLoop (s : St) (vi e first : Nat) : Nat → Nat → Nat → Res → Except Err (Nat × Res)
  | 0, _, _, _ => .error .other
  | k + 1, n, cnt, r => do
    let nn := s.ring.nxt n
    let pi := endPt s n true
    if nn = e then do
      ass (pi = first) .other
      .ok (cnt, r)
    else do
      let r ← append r vi s.offs pi
      walkLoop s vi e first k nn (cnt + 1) r

/-- output of a path, op-poly.c:195-217 -/
def output (fuel : Nat) (s : St) (es et : Nat) : Except Err St := do
  let s := { s with offs := (s.offs + 3) % M }
  let e := if s.back es then es else et
  ass (s.back e = true) .other
  let vi := s.res.paths.length
  let r := { s.res with paths := s.res.paths ++ [[]] }
  let first := s.pt e true
  let r ← append r vi s.offs first
  let r ← append r vi s.offs (s.pt e false)
  let n := s.ring.nxt e
  ass (e ≠ n) .other
  let w ← walkLoop s vi e first fuel n 0 r
  .ok { s with offs := (s.offs + w.1) % M, res := w.2 }

/-- BEND, op-poly.c:141-155 -/
def bend (st : St) (s t : Vtx) : Except Err St := do
  ass (s.rigt = true) .order
  ass (t.rigt = false) .order
  let st ← treeReplace st s.edge t.edge
  let st := { st with back := fun x => if x = t.edge then st.back s.edge else st.back x }
  let st := { st with ring := Ring.init st.ring t.edge }
  listInsert st s.edge t.edge

/-- START, op-poly.c:157-177 -/
def start (ins : Ins) (st : St) (s t : Vtx) : Except Err St := do
  let st ← treeInsert st (ins st.tree s) s.edge
  let st ← treeInsert st (ins st.tree t) t.edge
  ass (treeNext st.tree s.edge = some t.edge) .order
  let b := match treePrev st.tree s.edge with
    | some er => !st.back er
    | none => true
  let st := { st with back := fun x => if x = s.edge then b else st.back x }
  let st := { st with back := fun x => if x = t.edge then !st.back s.edge else st.back x }
  listInit2 st s.edge t.edge

/-- END, op-poly.c:178-229.  The assertion about `back` (line 181) counts as one about the order, as it holds if the edges are
adjacent (line 182). -/
def finish (fuel : Nat) (st : St) (s t : Vtx) : Except Err St := do
  ass (s.rigt = true) .other
  ass (st.back s.edge = !st.back t.edge) .order
  ass (treeNext st.tree t.edge = some s.edge) .order
  if (if st.back t.edge then st.ring.prv t.edge else st.ring.nxt t.edge) = s.edge then do
    let st ← treeRemove st s.edge
    let st ← treeRemove st t.edge
    ass ((if st.back s.edge then st.ring.prv s.edge else st.ring.nxt s.edge) = t.edge) .other
    output fuel st s.edge t.edge
  else do
    let st ← treeRemove st s.edge
    let st ← treeRemove st t.edge
    listMerge st t.edge s.edge

/-- the three cases, op-poly.c:137, 157, 178 -/
def step (ins : Ins) (fuel : Nat) (st : St) (s t : Vtx) : Except Err St :=
  if s.rigt ≠ t.rigt then bend st s t
  else if s.rigt = false then start ins st s t
  else finish fuel st s t

/-- the loop op-poly.c:113-234: whether it succeeds, and the state -/
def loop (ins : Ins) (fuel : Nat) : List Vtx → St → Except Err (Bool × St)
  | [], st => .ok (true, st)
  | [s], st => do
    let st ← getPt st s
    .ok (true, st)
  | s :: t :: l, st => do
    let st ← getPt st s
    let st ← getPt st t
    if s.pos ≠ t.pos then .ok (false, st)
    else do
      ass (s.edge ≠ t.edge) .other
      let st ← step ins fuel st s t
      loop ins fuel l st

/-- op-poly.c:105-112 -/
def init (ring : Ring.St) (back : Nat → Bool) (pt : Nat → Bool → Nat) : St :=
  { ring, back, pt, tree := [], last := (0, 0), offs := 0, res := ⟨[], [], []⟩ }

/-- `cq_sweep_poly` op-poly.c:96-251 for the vertices `l` in the order of `data->result`; the initial contents of the fields of the
edges and the search in the tree are parameters -/
def poly (ring : Ring.St) (back : Nat → Bool) (pt : Nat → Bool → Nat) (ins : Ins) (fuel : Nat) (l : List Vtx) :
    Except Err (Bool × St) := loop ins fuel l (init ring back pt)

end Hob3l.Poly
