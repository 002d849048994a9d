import Verif.Export.Model

/-
Model of the JavaScript (WebGL) export /repo/src/hob3l/csg2-2js.c.

The trees are those of `Verif/Export/Model.lean`.  `diff_above` and `diff_below` are always NULL: they are only set in csg2-xor.c, in
parts that are not compiled (`#if 0`).  What is written is given by the arrays of the scenes (not as text); the name of the group, the
scales, and the transformation, which do not depend on the triangles, are left out.  `none` = failed assertion or access outside of an array.
-/

namespace Hob3l.Export.Js

open Hob3l.Matq

/-- the number type, as `Export.Env`; `normal` = `cp_vec3_left_normal3`, the vector it stores (its result is ignored, csg2-2js.c:241);
`coord` = `js_coord` csg2-2js.c:157-160 -/
structure JsEnv (D : Type) where
  eq : D → D → Bool
  top : D → D
  normal : P3 D → P3 D → P3 D → P3 D
  coord : D → Int
  zero : D
  one : D
  neg : D

/-- `vertex_t` csg2-2js.c:31-39 -/
structure Vtx where
  p : Int × Int × Int
  n : Int × Int × Int
  c : Nat × Nat × Nat × Nat
deriving DecidableEq, Repr

/-- a scene as it is written: csg2-2js.c:116-150 -/
structure Scene where
  vertex : List Int
  normal : List Int
  color : List Nat
  index : List Int
deriving DecidableEq, Repr

/-- `ctxt_t` csg2-2js.c:45-51, with the scenes written so far -/
structure Ctxt where
  v : Nat → Vtx
  vCnt : Nat
  tri : Nat → Nat × Nat × Nat
  triCnt : Nat
  out : List Scene

/-- `CP_NEW` fills with zeros -/
def Ctxt.init : Ctxt := ⟨fun _ => ⟨(0, 0, 0), (0, 0, 0), (0, 0, 0, 0)⟩, 0, fun _ => (0, 0, 0), 0, []⟩

/-- `idx_val` csg2-2js.c:60-67; `SHIFT_I` is 0 -/
def idxVal (last : Int) (x : Nat) : Int := (x - last) + 0

/-- the loop for 'index', csg2-2js.c:141-149 -/
def indexLoop (tri : Nat → Nat × Nat × Nat) : Int → List Nat → List Int
  | _, [] => []
  | last, i :: l =>
    let t := tri i
    [idxVal last t.1, idxVal t.1 t.2.1, idxVal t.2.1 t.2.2] ++ indexLoop tri t.2.2 l

/-- `scene_flush` csg2-2js.c:74-155 -/
def flush (c : Ctxt) : Ctxt :=
  let out :=
    if c.triCnt > 0 then
      c.out ++ [⟨(List.range c.vCnt).flatMap fun i => [(c.v i).p.1, (c.v i).p.2.1, (c.v i).p.2.2],
        (List.range c.vCnt).flatMap fun i => [(c.v i).n.1, (c.v i).n.2.1, (c.v i).n.2.2],
        (List.range c.vCnt).flatMap fun i => [(c.v i).c.1, (c.v i).c.2.1, (c.v i).c.2.2.1, (c.v i).c.2.2.2],
        indexLoop c.tri 0 (List.range c.triCnt)⟩]
    else c.out
  { c with vCnt := 0, triCnt := 0, out := out }

/-- writing into an array -/
def upd {α : Type} (f : Nat → α) (i : Nat) (x : α) : Nat → α := fun j => if j = i then x else f j

section
variable {D : Type} (env : JsEnv D)

/-- `store_vertex` csg2-2js.c:162-179 -/
def vtx (n p : P3 D) : Vtx :=
  ⟨(env.coord p.1, env.coord p.2.1, env.coord p.2.2),
    (env.coord n.1 * 1000, env.coord n.2.1 * 1000, env.coord n.2.2 * 1000), (0xc0, 0xc0, 0x80, 0xff)⟩

/-- `triangle_put_js` csg2-2js.c:181-210 -/
def trianglePut (c : Ctxt) (n v1 v2 v3 : P3 D) : Option Ctxt := do
  let c := if c.vCnt + 3 > 0xffff ∨ c.triCnt + 1 > 0xffff then flush c else c
  ass (c.triCnt < 0xffff)
  let i0 := 0xffff &&& c.vCnt
  let i1 := 0xffff &&& (c.vCnt + 1)
  let i2 := 0xffff &&& (c.vCnt + 2)
  ass (i0 < 0xffff ∧ i1 < 0xffff ∧ i2 < 0xffff)
  some { c with
    tri := upd c.tri c.triCnt (i0, i1, i2)
    triCnt := c.triCnt + 1
    vCnt := c.vCnt + 3
    v := upd (upd (upd c.v i0 (vtx env n v1)) i1 (vtx env n v2)) i2 (vtx env n v3) }

/-- `poly_put_js_outline_edge` csg2-2js.c:217-256 -/
def outlineEdge (c : Ctxt) (point : List (D × D)) (z0 z1 : D) (ij ik : Nat) : Option Ctxt := do
  let pj ← point[ij]?
  let pk ← point[ik]?
  let n := env.normal (at_ pk z0) (at_ pj z1) (at_ pk z1)
  let c ← trianglePut env c n (at_ pk z0) (at_ pj z1) (at_ pk z1)
  trianglePut env c n (at_ pk z0) (at_ pj z0) (at_ pj z1)

/-- the loop for the top, csg2-2js.c:275-282 -/
def topLoop (point : List (D × D)) (z1 : D) : List Tri → Ctxt → Option Ctxt
  | [], c => some c
  | t :: ts, c => do
    let a ← point[t.p1]?
    let b ← point[t.p0]?
    let d ← point[t.p2]?
    let c ← trianglePut env c (env.zero, env.zero, env.one) (at_ a z1) (at_ b z1) (at_ d z1)
    topLoop point z1 ts c

/-- the loop for the bottom, csg2-2js.c:293-300 -/
def bottomLoop (point : List (D × D)) (z0 : D) : List Tri → Ctxt → Option Ctxt
  | [], c => some c
  | t :: ts, c => do
    let a ← point[t.p0]?
    let b ← point[t.p1]?
    let d ← point[t.p2]?
    let c ← trianglePut env c (env.zero, env.zero, env.neg) (at_ a z0) (at_ b z0) (at_ d z0)
    bottomLoop point z0 ts c

/-- `if (p->flags & ..) poly_put_js_outline_edge` -/
def outlineIf (o : Bool) (c : Ctxt) (point : List (D × D)) (z0 z1 : D) (ij ik : Nat) : Option Ctxt :=
  if o then outlineEdge env c point z0 z1 ij ik else some c

/-- the loop for the sides, csg2-2js.c:307-318 -/
def sideLoop (point : List (D × D)) (z0 z1 : D) : List Tri → Ctxt → Option Ctxt
  | [], c => some c
  | t :: ts, c => do
    let c ← outlineIf env t.o01 c point z0 z1 t.p0 t.p1
    let c ← outlineIf env t.o12 c point z0 z1 t.p1 t.p2
    let c ← outlineIf env t.o20 c point z0 z1 t.p2 t.p0
    sideLoop point z0 z1 ts c

/-- `poly_put_js` csg2-2js.c:258-320 -/
def polyPut (z : List D) (c : Ctxt) (zi : Nat) (point : List (D × D)) (tri : List Tri) : Option Ctxt := do
  let z0 ← z[zi]?
  let z1 := env.top z0
  let c ← if env.eq z0 z1 then some c else topLoop env point z1 tri c
  let c ← bottomLoop env point z0 tri c
  if env.eq z0 z1 then some c else sideLoop env point z0 z1 tri c

variable (z : List D)

mutual
/-- `csg2_put_js` csg2-2js.c:407-449, with `add_put_js`, `sub_put_js`, `cut_put_js`, `xor_put_js` 332-380; there is no NULL object
in a vector -/
def csg2Put (c : Ctxt) (zi : Nat) : Csg D → Option Ctxt
  | .null => some c
  | .add xs => vPut c zi xs
  | .xor xss => firstPut c zi xss
  | .sub xs _ => vPut c zi xs
  | .cut xss => firstPut c zi xss
  | .poly point tri => polyPut env z c zi point tri
  | .stack idx0 ls => layersPut c idx0 ls
  | .vline2 => none
  | .sweep => none

/-- `v_csg2_put_js` csg2-2js.c:451-461 -/
def vPut (c : Ctxt) (zi : Nat) : Csgs D → Option Ctxt
  | .nil => some c
  | .cons x xs => do
    let c ← csg2Put c zi x
    vPut c zi xs

/-- the first part of a cut or xor, csg2-2js.c:363-365, 377-379 -/
def firstPut (c : Ctxt) (zi : Nat) : CsgAdds D → Option Ctxt
  | .nil => some c
  | .cons x _ => vPut c zi x

/-- `stack_put_js` csg2-2js.c:396-405 with `layer_put_js` 382-394; the second argument is `idx0 + i` -/
def layersPut (c : Ctxt) (zi : Nat) : Layers D → Option Ctxt
  | .nil => some c
  | .cons lzi root ls =>
    match root with
    | .nil => layersPut c (zi + 1) ls
    | .cons x xs => do
      ass (zi = lzi)
      let c ← csg2Put c lzi x
      let c ← vPut c lzi xs
      layersPut c (zi + 1) ls
end

/-- `cp_csg2_tree_put_js` csg2-2js.c:596-610: the scenes; a root that is NULL is `.null` -/
def treePut (root : Csg D) : Option (List Scene) := do
  let c := flush Ctxt.init
  let c ← csg2Put env z c 0 root
  some (flush c).out

end

end Hob3l.Export.Js
