import Verif.Sweep.Model

/-
Model of the two phases of `cq_sweep_intersect` (/repo/src/hob3lop/op-sweep.c:890-941, :946-1393).

The two loops are modelled as transition relations.  What the geometric search in the balanced trees finds (the place of
a new edge, the neighbours of an edge, the bundles met by a pixel, and the order in which edges lie) is left open: the
relations allow every choice, hence in particular the choice made by the code.  What is done with the edges found is
modelled exactly.  A run that stops in a failed assertion is a run that never reaches a final state.
The links between edges and crossings (`prev_xing`, `next_xing`, `some_edge`, `some_edge_tb`) are not modelled: they
select which edges are neighbours of a crossing, which is left open anyway.
-/

namespace Hob3l.Sweep

open Hob3l.Matq

/-! ### Phase 1 -/

/-- the part of `data_t` used in phase 1: the edges (with their flags for `state` and `agenda_vertex`), `agenda_xing`,
and the vector `xings` of all crossings -/
structure S1 where
  edges : List Edge
  xings : List Vec2if
  found : List Vec2if

/-- the vertices of an edge that are on the agenda -/
def Edge.agenda (e : Edge) : List Vertex :=
  (if e.agL then [⟨e.left, e.rigt, 0⟩] else []) ++ (if e.agR then [⟨e.rigt, e.left, 1⟩] else [])

/-- `agenda_vertex_extract_min` op-sweep-internal.h:1296-1304 returns `v`, and `ev_do_first` op-sweep.c:770-785 (with
its assertion) prefers it to every crossing on the agenda -/
def FirstVertex (s : S1) (v : Vertex) : Prop :=
  (∀ e ∈ s.edges, ∀ w ∈ e.agenda, (phase1Cmp v w).any (· ≤ 0) = true) ∧ ∀ x ∈ s.xings, vec2Vec2ifCmp v.p x < 0

/-- `agenda_xing_extract_min` :1323-1331 returns `x`, and `ev_do_first` prefers it to every vertex on the agenda -/
def FirstXing (s : S1) (x : Vec2if) : Prop :=
  (∀ y ∈ s.xings, vec2ifCmp x y ≤ 0) ∧ ∀ e ∈ s.edges, ∀ w ∈ e.agenda, 0 < vec2Vec2ifCmp w.p x

/-- `xing_new` op-sweep-internal.h:1344-1379: a crossing already on the agenda is not entered again -/
def addXing (s : S1) (x : Option Vec2if) : S1 :=
  match x with
  | none => s
  | some p =>
    if ∃ y ∈ s.xings, vec2ifCmp p y = 0 then s else { s with xings := p :: s.xings, found := s.found ++ [p] }

/-- a call of `ev_pair` op-sweep.c:505-558: with a NULL argument nothing happens; otherwise for two edges in the state
(which ones, i.e., who is a neighbour of whom, is left open) -/
inductive PairStep (debug : Bool) (cur : Vec2if) : S1 → S1 → Prop
  | null (s : S1) : PairStep debug cur s s
  | pair (s : S1) (a b : Edge) (rest : List Edge) (r : PairRes) :
      s.edges.Perm (a :: b :: rest) → a.inState = true → b.inState = true → pair debug cur a b = some r →
      PairStep debug cur s (addXing { s with edges := r.prev ++ r.next ++ rest } r.xing)

/-- one iteration of the loop of `sweep_phase1_find_intersections` op-sweep.c:921-934 -/
inductive Step1 (debug : Bool) : S1 → S1 → Prop
  /-- `ev_left` :560-594, an edge in the state overlaps: `state_edge_insert` op-sweep-internal.h:918-938 found an edge
  that compares equal -/
  | overlap (s : S1) (e o : Edge) (rest L : List Edge) :
      s.edges.Perm (e :: o :: rest) → e.agL = true → FirstVertex s ⟨e.left, e.rigt, 0⟩ → e.inState = false →
      o.inState = true → treeVertexEdgeCmp e.left e.rigt o.left o.rigt = some 0 → vec2Cmp e.left o.rigt ≠ 0 →
      overlap { e with agL := false } o = some L →
      Step1 debug s { s with edges := L ++ rest }
  /-- `ev_left` :560-594, normal case: `e` is in the state now, and is checked against its two neighbours -/
  | left (s s' s'' : S1) (e : Edge) (rest : List Edge) :
      s.edges.Perm (e :: rest) → e.agL = true → FirstVertex s ⟨e.left, e.rigt, 0⟩ → e.inState = false →
      PairStep debug (vec2ifi e.left.x e.left.y)
        { s with edges := { e with agL := false, inState := true } :: rest } s' →
      PairStep debug (vec2ifi e.left.x e.left.y) s' s'' → Step1 debug s s''
  /-- `ev_rigt` :596-631: `e` leaves the state, its neighbours are checked against each other -/
  | rigt (s s' : S1) (e : Edge) (rest : List Edge) :
      s.edges.Perm (e :: rest) → e.agR = true → FirstVertex s ⟨e.rigt, e.left, 1⟩ → e.inState = true →
      PairStep debug (vec2ifi e.rigt.x e.rigt.y)
        { s with edges := { e with agR := false, inState := false } :: rest } s' → Step1 debug s s'
  /-- `ev_cross` :697-763: the order in the state is reversed (not represented), and the top-most and bottom-most edge
  are checked against their new neighbours -/
  | cross (s s' s'' : S1) (x : Vec2if) (xs : List Vec2if) :
      s.xings.Perm (x :: xs) → FirstXing s x →
      PairStep debug x { s with xings := xs } s' → PairStep debug x s' s'' → Step1 debug s s''

/-- `sweep_phase1_find_intersections` op-sweep.c:890-941 -/
inductive Phase1 (debug : Bool) : S1 → S1 → Prop
  | done (s : S1) : (∀ e ∈ s.edges, e.agenda = []) → s.xings = [] → Phase1 debug s s
  | step (s s' s'' : S1) : Step1 debug s s' → Phase1 debug s' s'' → Phase1 debug s s''

/-! ### Phase 2 -/

/-- `edge_south` op-sweep.c:691-695 -/
def Edge.south (e : Edge) : Bool := e.left.y ≥ e.rigt.y

/-- `bundle_t` op-sweep-internal.h:262-290: the pixel it comes from and its edges from bottom to top.
`sum_member` of the root of the tree is taken to be the XOR of the members of all edges of the tree. -/
structure Bundle where
  pos : Vec2
  edges : List Edge

/-- the part of `data_t` used in phase 2: bundles in the state from bottom to top, the left and right ends on
`agenda_vertex`, `agenda_xing`, and the edges of `result` -/
structure S2 where
  bundles : List Bundle
  evL : List Edge
  evR : List Edge
  xings : List Vec2if
  result : List Edge

/-- `sum_member` of the root of a tree: op-sweep-internal.h:1098-1119 -/
def sumMember : List Edge → BitVec 64
  | [] => 0
  | e :: es => e.member ^^^ sumMember es

/-- `result_insert` op-sweep-internal.h:869-886 and its use :1090-1095: if an edge with the same ends is there already,
the members are joined.  The search tree is represented by a list that is searched from start to end; the insertion of
the right end, asserted to find nothing, is not modelled. -/
def resultInsert (n : Edge) : List Edge → Option (List Edge)
  | [] => some [n]
  | r :: rs => do
    let i ← resultVertexCmp ⟨n.left, n.rigt, 0⟩ ⟨r.left, r.rigt, 0⟩
    if i = 0 then return { r with member := r.member ^^^ n.member } :: rs
    else do
      let rs ← resultInsert n rs
      return r :: rs

/-- `bundle_edge_new` op-sweep-internal.h:1075-1096 -/
def bundleEdgeNew (left rigt : Vec2) (tree : List Edge) (result : List Edge) : Option (List Edge) := do
  let i := vec2Cmp left rigt
  ass (i ≠ 0)
  let n ← if i > 0 then edgeNew rigt left (sumMember tree) else edgeNew left rigt (sumMember tree)
  resultInsert n result

/-- the `do`-loop op-sweep.c:1249-1283 for pixel `p`: the bundles from `cur` on, the edges collected in `equ`, and the
result edges, before and after.  `sel` restricts which edges the second `bundle_split` may select. -/
inductive Consume (sel : Edge → Prop) (p : Vec2) :
    List Bundle → List Edge → List Edge → List Bundle → List Edge → List Edge → Prop
  /-- `cur` is NULL -/
  | nil (q R : List Edge) : Consume sel p [] q R [] q R
  /-- nothing crosses: end of iteration, :1254-1258 -/
  | stop (b : Bundle) (bs : List Bundle) (q R : List Edge) : b.edges ≠ [] → Consume sel p (b :: bs) q R (b :: bs) q R
  /-- some lines pass above: last bundle, :1266-1269 -/
  | last (b : Bundle) (bs : List Bundle) (q R R' tmp hi : List Edge) :
      b.edges = tmp ++ hi → tmp ≠ [] → hi ≠ [] → (∀ e ∈ tmp, sel e) → bundleEdgeNew b.pos p tmp R = some R' →
      Consume sel p (b :: bs) q R (⟨b.pos, hi⟩ :: bs) (q ++ tmp) R'
  /-- the whole bundle goes through the pixel; continue with the next one -/
  | next (b : Bundle) (bs bs' : List Bundle) (q q' R R' R'' : List Edge) :
      b.edges ≠ [] → (∀ e ∈ b.edges, sel e) → bundleEdgeNew b.pos p b.edges R = some R' →
      Consume sel p bs (q ++ b.edges) R' bs' q' R'' → Consume sel p (b :: bs) q R bs' q' R''

/-- op-sweep.c:1226-1306: the bundles that meet pixel `p` are routed through it.  The first bundle may keep lower edges
(`lo`, which stay where they are, possibly in a bundle of their own). -/
inductive Advance (sel : Edge → Prop) (p : Vec2) : List Bundle → List Edge → List Bundle → List Edge → List Edge → Prop
  | none (bs : List Bundle) (R : List Edge) : Advance sel p bs R bs [] R
  | some (pre post bs' : List Bundle) (b : Bundle) (lo rest q R R' : List Edge) :
      b.edges = lo ++ rest → rest ≠ [] → Consume sel p (⟨b.pos, rest⟩ :: post) [] R bs' q R' →
      Advance sel p (pre ++ b :: post) R (pre ++ ((if lo = [] then [] else [⟨b.pos, lo⟩]) ++ bs')) q R'

/-- state while sweeping over one pixel: the edges in the bundle of the pixel and the agendas -/
structure Pix where
  q : List Edge
  evL : List Edge
  evR : List Edge
  xings : List Vec2if

/-- one event in the pixel, op-sweep.c:1309-1336 -/
inductive PixEv (south : Bool) (p : Vec2) : Pix → Pix → Prop
  /-- a left end: `bundle_edge_insert`, unless the edge belongs to the other pass -/
  | insert (s : Pix) (e : Edge) (evL' a b : List Edge) : s.evL.Perm (e :: evL') → e.left = p → e.south = south →
      s.q = a ++ b → PixEv south p s { s with q := a ++ e :: b, evL := evL' }
  | skipL (s : Pix) (e : Edge) (evL' : List Edge) : s.evL.Perm (e :: evL') → e.left = p → e.south ≠ south →
      PixEv south p s { s with evL := evL' }
  /-- a right end: `bundle_edge_remove`, the edge must be in this bundle -/
  | remove (s : Pix) (e : Edge) (evR' a b : List Edge) : s.evR.Perm (e :: evR') → e.rigt = p → e.south = south →
      s.q = a ++ e :: b → PixEv south p s { s with q := a ++ b, evR := evR' }
  | skipR (s : Pix) (e : Edge) (evR' : List Edge) : s.evR.Perm (e :: evR') → e.rigt = p → e.south ≠ south →
      PixEv south p s { s with evR := evR' }
  /-- a crossing: `sweep_phase2_edge_reverse` :1054-1127 reverses the order of the edges through it -/
  | reverse (s : Pix) (x : Vec2if) (xs : List Vec2if) (a m b : List Edge) : s.xings.Perm (x :: xs) →
      round x.x = some p.x → round x.y = some p.y → s.q = a ++ m ++ b →
      PixEv south p s { s with q := a ++ m.reverse ++ b, xings := xs }

inductive PixRun (south : Bool) (p : Vec2) : Pix → Pix → Prop
  | done (s : Pix) : PixRun south p s s
  | step (s s' s'' : Pix) : PixEv south p s s' → PixRun south p s' s'' → PixRun south p s s''

/-- `bundle_new_from_agenda` op-sweep.c:948-978: the pixel of a vertex or of a crossing on the agenda -/
def Pixel (s : S2) (p : Vec2) : Prop :=
  (∃ e ∈ s.evL, e.left = p) ∨ (∃ e ∈ s.evR, e.rigt = p) ∨
  (∃ x ∈ s.xings, round x.x = some p.x ∧ round x.y = some p.y)

/-- one iteration of the loop of `sweep_phase2_pass` op-sweep.c:1218-1345 -/
inductive Step2 (sel : Vec2 → Edge → Prop) (south : Bool) : S2 → S2 → Prop
  | pixel (s : S2) (p : Vec2) (bs a b : List Bundle) (q R : List Edge) (t : Pix) :
      Pixel s p → Advance (sel p) p s.bundles s.result bs q R → PixRun south p ⟨q, s.evL, s.evR, s.xings⟩ t →
      bs = a ++ b →
      Step2 sel south s ⟨a ++ ((if t.q = [] then [] else [⟨p, t.q⟩]) ++ b), t.evL, t.evR, t.xings, R⟩

inductive Loop2 (sel : Vec2 → Edge → Prop) (south : Bool) : S2 → S2 → Prop
  | done (s : S2) : s.evL = [] → s.evR = [] → s.xings = [] → Loop2 sel south s s
  | step (s s' s'' : S2) : Step2 sel south s s' → Loop2 sel south s' s'' → Loop2 sel south s s''

/-- `sweep_phase2_pass` op-sweep.c:1183-1346: edges, crossings, result before and after.  The tree of bundles is not
cleared between the passes. -/
inductive Pass2 (sel : Vec2 → Edge → Prop) (south : Bool) (E : List Edge) (X : List Vec2if) :
    List Bundle → List Edge → List Bundle → List Edge → Prop
  | run (B B' : List Bundle) (R R' : List Edge) (s : S2) : Loop2 sel south ⟨B, E, E, X, R⟩ s → s.bundles = B' →
      s.result = R' → Pass2 sel south E X B R B' R'

/-- `cq_sweep_intersect` op-sweep.c:1384-1393 from the edges added so far: the edges in `result` -/
inductive Intersect (debug : Bool) (sel : Vec2 → Edge → Prop) : List Edge → List Edge → Prop
  | run (E R R' : List Edge) (B B' : List Bundle) (s : S1) : Phase1 debug ⟨E, [], []⟩ s →
      Pass2 sel false s.edges s.found [] [] B R → Pass2 sel true s.edges s.found B R B' R' → Intersect debug sel E R'

/-- `cq_sweep_add_poly` op-sweep.c:845-861 for the paths of several polygons, one after the other; each path comes with
the member mask of its polygon -/
def addPaths : List (List Vec2 × BitVec 64) → Option (List Edge)
  | [] => some []
  | q :: qs => do
    let e ← addPath q.1 q.2
    let es ← addPaths qs
    return e ++ es

/-- any selection of edges (nothing assumed about the order of the trees) -/
def anySel : Vec2 → Edge → Prop := fun _ _ => True

/-- the selection made by the second `bundle_split` in a tree that is sorted for the searched pixel: the edges that
`cq_sweep_bundle_vec2_edge_cmp` op-sweep.c:80-87 compares equal (`vec2_edge_cmp_tolerant` op-sweep-internal.h:854-859) -/
def sortedSel : Vec2 → Edge → Prop := fun p e => cmpEdgeRnd p.x p.y e.rigt.x e.rigt.y e.left.x e.left.y = some 0

end Hob3l.Sweep
