import Verif.Matq.Model
import Mathlib.Order.WithBot
import Mathlib.Data.Fin.VecNotation

/-!
Model of bounding boxes: the integer ones of `src/hob3lop/gon.c`, `src/hob3lop/hedron.c`, `cq_sweep_minmax` of
`src/hob3lop/op-sweep.c`, the ones of doubles in `src/hob3lmat/mat_gen_ext.c`, and the bounding box of a CSG tree
`cp_csg3_tree_minmax` in `src/hob3l/csg3.c`.
-/

namespace Hob3l.Bbox

open Hob3l.Matq

/-! ### integers -/

/-- `cq_vec2_t` -/
structure V2 where
  x : Int
  y : Int
  deriving DecidableEq, Repr

/-- `cq_vec3_t` -/
structure V3 where
  x : Int
  y : Int
  z : Int
  deriving DecidableEq, Repr

/-- the member `v[i]` of the union `cq_vec3_t` hedron_tam.h:13-19; `none`: index out of bounds -/
def V3.nth (a : V3) : Nat → Option Int
  | 0 => some a.x
  | 1 => some a.y
  | 2 => some a.z
  | _ => none

/-- `cq_vec2_minmax_t` gon_tam.h:136-139 -/
structure Box2 where
  min : V2
  max : V2
  deriving DecidableEq, Repr

/-- `cq_vec3_minmax_t` hedron_tam.h:41-44 -/
structure Box3 where
  min : V3
  max : V3
  deriving DecidableEq, Repr

/-- `CQ_VEC2_MINMAX_INIT` gon_tam.h:142 with def_tam.h:32-33 -/
def init2 : Box2 := ⟨⟨2147483647, 2147483647⟩, ⟨-2147483648, -2147483648⟩⟩
/-- `CQ_VEC3_MINMAX_INIT` hedron_tam.h:47 -/
def init3 : Box3 := ⟨⟨2147483647, 2147483647, 2147483647⟩, ⟨-2147483648, -2147483648, -2147483648⟩⟩

/-- `cq_dim_minmax` op-def.h:21-28: the new minimum and maximum -/
def dimMinmax (mn mx v : Int) : Int × Int := (if v < mn then v else mn, if v > mx then v else mx)

/-- `cq_vec2_minmax` gon.c:25-31 -/
def vec2Minmax (r : Box2) (v : V2) : Box2 :=
  let x := dimMinmax r.min.x r.max.x v.x
  let y := dimMinmax r.min.y r.max.y v.y
  ⟨⟨x.1, y.1⟩, ⟨x.2, y.2⟩⟩

/-- `cq_line2_minmax` gon.h:65-71 -/
def line2Minmax (r : Box2) (l : V2 × V2) : Box2 := vec2Minmax (vec2Minmax r l.1) l.2

/-- `cq_v_vec2_minmax` gon.c:33-40 -/
def vVec2Minmax (r : Box2) : List V2 → Box2
  | [] => r
  | v :: vs => vVec2Minmax (vec2Minmax r v) vs

/-- `cq_v_line2_minmax` gon.c:42-49 -/
def vLine2Minmax (r : Box2) : List (V2 × V2) → Box2
  | [] => r
  | l :: ls => vLine2Minmax (line2Minmax r l) ls

/-- an edge of the sweep data: the two ends, and whether it is deleted (`edge_is_deleted` op-sweep.c) -/
structure SEdge where
  left : V2
  right : V2
  deleted : Bool
  deriving DecidableEq, Repr

/-- `cq_sweep_minmax` op-sweep.c:1444-1455 -/
def sweepMinmax (r : Box2) : List SEdge → Box2
  | [] => r
  | e :: es =>
    if e.deleted then sweepMinmax r es else sweepMinmax (vec2Minmax (vec2Minmax r e.left) e.right) es

/-- `cq_vec3_minmax` hedron.c:6-13 -/
def vec3Minmax (r : Box3) (v : V3) : Box3 :=
  let x := dimMinmax r.min.x r.max.x v.x
  let y := dimMinmax r.min.y r.max.y v.y
  let z := dimMinmax r.min.z r.max.z v.z
  ⟨⟨x.1, y.1, z.1⟩, ⟨x.2, y.2, z.2⟩⟩

/-- `cq_vec3_minmax_minmax2` hedron.c:15-23: only the minimum of `v` is used -/
def minmaxMinmax2 (r : Box2) (v : Box3) (coord0 coord1 : Nat) : Option Box2 := do
  let a ← v.min.nth coord0
  let b ← v.min.nth coord1
  let x := dimMinmax r.min.x r.max.x a
  let y := dimMinmax r.min.y r.max.y b
  some ⟨⟨x.1, y.1⟩, ⟨x.2, y.2⟩⟩

/-- `cq_v_vec3_minmax` hedron.c:25-32 -/
def vVec3Minmax (r : Box3) : List V3 → Box3
  | [] => r
  | v :: vs => vVec3Minmax (vec3Minmax r v) vs

/-- `cq_v_v_vec3_minmax` hedron.c:34-41 -/
def vvVec3Minmax (r : Box3) : List (List V3) → Box3
  | [] => r
  | v :: vs => vvVec3Minmax (vVec3Minmax r v) vs

/-! ### doubles

Doubles are rational numbers and two infinities, without rounding, and NaN is excluded.  The functions are generated for
2, 3, and 4 coordinates by repeating the same text for each coordinate: here `n` is arbitrary. -/

/-- a coordinate of a box -/
abbrev E := WithBot (WithTop Rat)

/-- a finite value -/
def fin (q : Rat) : E := ((q : WithTop Rat) : E)

/-- `+INFINITY` -/
def pinf : E := ((⊤ : WithTop Rat) : E)
/-- `-INFINITY` -/
def ninf : E := (⊥ : E)

/-- a point -/
abbrev P (n : Nat) := Fin n → Rat

/-- `cp_vec2_minmax_t`, `cp_vec3_minmax_t`, `cp_vec4_minmax_t` -/
structure Box (n : Nat) where
  min : Fin n → E
  max : Fin n → E

/-- `CP_VEC3_MINMAX_EMPTY` mat_tam.h:28-38 -/
def empty (n : Nat) : Box n := ⟨fun _ => pinf, fun _ => ninf⟩
/-- `CP_VEC3_MINMAX_FULL` mat_tam.h:40-50 -/
def full (n : Nat) : Box n := ⟨fun _ => ninf, fun _ => pinf⟩

/-- one coordinate of `cp_vec2_min` etc. mat_gen_ext.c:105-133 -/
def emin (a b : E) : E := if a ≤ b then a else b
/-- one coordinate of `cp_vec2_max` etc. mat_gen_ext.c:135-163 -/
def emax (a b : E) : E := if a ≥ b then a else b

/-- `cp_gt` include/hob3lmat/algo.h:93, 82-86: `b - a < -eps`; the difference of infinities of the same sign is NaN, for
which the comparison fails -/
def gt (eps : Rat) : E → E → Bool
  | some (some a), some (some b) => b - a < -eps
  | a, b => b < a

/-- `cp_vec2_minmax_valid` etc. mat_gen_ext.c:249-274 -/
def valid (eps : Rat) {n : Nat} (a : Box n) : Bool := decide (∀ i, gt eps (a.min i) (a.max i) = false)

/-- `cp_vec2_minmax` etc. mat_gen_ext.c:165-187 -/
def minmax {n : Nat} (r : Box n) (p : P n) : Box n :=
  ⟨fun i => emin (r.min i) (fin (p i)), fun i => emax (r.max i) (fin (p i))⟩

/-- `cp_vec2_minmax_or` etc. mat_gen_ext.c:189-220 -/
def minmaxOr (eps : Rat) {n : Nat} (a b : Box n) : Box n :=
  if valid eps a = false then b
  else if valid eps b = false then a
  else ⟨fun i => emin (a.min i) (b.min i), fun i => emax (a.max i) (b.max i)⟩

/-- `cp_vec2_minmax_and` etc. mat_gen_ext.c:222-247 -/
def minmaxAnd {n : Nat} (a b : Box n) : Box n :=
  ⟨fun i => emax (a.min i) (b.min i), fun i => emin (a.max i) (b.max i)⟩

/-! ### the bounding box of a CSG tree -/

/-- `cp_csg3_poly_t` and `cp_csg3_sphere_t`: the points and the number of faces of a polyhedron, or the matrix of a
transformed unit sphere: the translation and the rows of the linear part -/
inductive Leaf where
  | poly (points : List (P 3)) (faces : Nat)
  | sphere (w : P 3) (m : Fin 3 → P 3)

/-- the tree: `cp_csg_add_t`, `cp_csg_xor_t`, `cp_csg_sub_t`, `cp_csg_cut_t` (include/hob3l/csg_tam.h); `xor` and `cut`
contain lists of `add` -/
inductive Csg where
  | leaf (l : Leaf)
  | add (l : List Csg)
  | xor (l : List (List Csg))
  | sub (a b : List Csg)
  | cut (l : List (List Csg))

/-- what is used of floating point arithmetics: the epsilon of comparisons and the square root -/
structure Env where
  eps : Rat
  sqrt : Rat → Rat

/-- `csg3_sphere_minmax1` csg3.c:460-478: the new minimum and maximum of one coordinate; the maximum is compared with the
(new) minimum -/
def sphereMinmax1 (env : Env) (mn mx : E) (a m0 m1 m2 : Rat) : E × E :=
  let b := m0 * m0 + m1 * m1 + m2 * m2
  let c := env.sqrt b
  let l := a - c
  let h := a + c
  let mn := if fin l < mn then fin l else mn
  (mn, if fin h > mn then fin h else mx)

/-- `csg3_sphere_minmax` csg3.c:480-487 -/
def sphereMinmax (env : Env) (r : Box 3) (w : P 3) (m : Fin 3 → P 3) : Box 3 :=
  ⟨fun i => (sphereMinmax1 env (r.min i) (r.max i) (w i) (m i 0) (m i 1) (m i 2)).1,
   fun i => (sphereMinmax1 env (r.min i) (r.max i) (w i) (m i 0) (m i 1) (m i 2)).2⟩

/-- the loop of `get_bb_poly3` csg3.c:2400-2402 -/
def polyLoop (r : Box 3) : List (P 3) → Box 3
  | [] => r
  | p :: ps => polyLoop (minmax r p) ps

/-- `get_bb_poly3` csg3.c:2393-2403, `get_bb_sphere` 2405-2410 -/
def bbLeaf (env : Env) (r : Box 3) : Leaf → Box 3
  | .poly points faces => if points.length < 4 ∨ faces < 4 then r else polyLoop r points
  | .sphere w m => sphereMinmax env r w m

mutual
/-- `get_bb_csg3` csg3.c:2413-2443 with `get_bb_sub` 2354-2364 and `get_bb_cut` 2366-2391 -/
def bb (env : Env) (mx : Bool) (r : Box 3) : Csg → Box 3
  | .leaf l => bbLeaf env r l
  | .add l => bbAdd env mx r l
  | .xor l => bbXor env mx r l
  | .sub a b => if mx then bbAdd env mx (bbAdd env mx r a) b else bbAdd env mx r a
  | .cut [] => r
  | .cut (a :: l) =>
    if mx then bbXor env mx (bbAdd env mx r a) l
    else minmaxOr env.eps r (bbCut env (full 3) l)
/-- `get_bb_v_csg3` csg3.c:2325-2333, `get_bb_add` 2335-2341 -/
def bbAdd (env : Env) (mx : Bool) (r : Box 3) : List Csg → Box 3
  | [] => r
  | t :: ts => bbAdd env mx (bb env mx r t) ts
/-- `get_bb_xor` csg3.c:2343-2352; also the loop 2376-2378 -/
def bbXor (env : Env) (mx : Bool) (r : Box 3) : List (List Csg) → Box 3
  | [] => r
  | l :: ls => bbXor env mx (bbAdd env mx r l) ls
/-- the loop csg3.c:2382-2389, which does not visit the first element of `cut`; `bb2` is the box found so far -/
def bbCut (env : Env) (bb2 : Box 3) : List (List Csg) → Box 3
  | [] => bb2
  | l :: ls =>
    let bb2 := minmaxAnd bb2 (bbAdd env false (empty 3) l)
    if valid env.eps bb2 = false then bb2 else bbCut env bb2 ls
end

/-- `cp_csg3_tree_minmax` csg3.c:2460-2470; `none` is a missing root -/
def treeMinmax (env : Env) (r : Box 3) (root : Option (List Csg)) (mx : Bool) : Box 3 :=
  match root with
  | none => r
  | some l => bbAdd env mx r l

end Hob3l.Bbox
