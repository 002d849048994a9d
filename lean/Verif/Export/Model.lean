import Verif.Matq.Model

/-
Model of the STL export /repo/src/hob3l/csg2-2stl.c.

Numbers (`double`) are an abstract type `D`; what the code computes with them is in `Env`.  The stream is the list of bytes written
so far (`cp_write`, `cp_printf`; errors of the stream are not modelled here).  `none` = failed assertion or access outside of a vector.
-/

namespace Hob3l.Export

open Hob3l.Matq

/-- a point in space -/
abbrev P3 (D : Type) := D × D × D

/-- the number type: `eq` = `cp_eq`; `top` = `z0 + cp_monus(cp_csg2_layer_thickness(t, zi), layer_gap(..))` csg2-2stl.c:155 (the
thickness is the same for all layers, csg2-layer.c:344-350); `normal` = `cp_vec3_left_normal3_x`, `none` if it returns false; `word` =
the bits of `(float)f`; `fmt` = the text printed for `FF`; the constants `0.`, `1.`, `-1.` -/
structure Env (D : Type) where
  eq : D → D → Bool
  top : D → D
  normal : P3 D → P3 D → P3 D → Option (P3 D)
  word : D → BitVec 32
  fmt : D → List Nat
  zero : D
  one : D
  neg : D

/-- `cp_csg2_tri_t` include/hob3lop/gon_tam.h:205-232: indices, and the flags CP_CSG2_TRI_OUTLINE_01, _12, _20 -/
structure Tri where
  p0 : Nat
  p1 : Nat
  p2 : Nat
  o01 : Bool
  o12 : Bool
  o20 : Bool
deriving DecidableEq, Repr

/-- `ctxt_t` csg2-2stl.c:13-18; `stream = none` is NULL; `count` = `tri_count` -/
structure Ctxt where
  stream : Option (List Nat)
  bin : Bool
  count : BitVec 32
deriving DecidableEq, Repr

/-- `cp_write` -/
def put (c : Ctxt) (bytes : List Nat) : Ctxt := { c with stream := c.stream.map (· ++ bytes) }

/-- the bytes of `write_u32` csg2-2stl.c:25-37 -/
def u32 (u : BitVec 32) : List Nat :=
  [(u &&& 0xff).toNat, ((u >>> 8) &&& 0xff).toNat, ((u >>> 16) &&& 0xff).toNat, (u >>> 24).toNat]

/-- ASCII text -/
def cs (l : List Char) : List Nat := l.map Char.toNat

section
variable {D : Type} (env : Env D)

/-- `write_3f64_32` csg2-2stl.c:54-59 -/
def vec32 (v : P3 D) : List Nat := u32 (env.word v.1) ++ u32 (env.word v.2.1) ++ u32 (env.word v.2.2)

/-- `FF" "FF" "FF` -/
def vecText (v : P3 D) : List Nat := env.fmt v.1 ++ cs [' '] ++ env.fmt v.2.1 ++ cs [' '] ++ env.fmt v.2.2

/-- the text of a triangle, csg2-2stl.c:83-93 -/
def triText (n a b c : P3 D) : List Nat :=
  cs [' ', ' ', 'f', 'a', 'c', 'e', 't', ' ', 'n', 'o', 'r', 'm', 'a', 'l', ' '] ++ vecText env n
  ++ cs ['\n', ' ', ' ', ' ', ' ', 'o', 'u', 't', 'e', 'r', ' ', 'l', 'o', 'o', 'p', '\n',
      ' ', ' ', ' ', ' ', ' ', ' ', 'v', 'e', 'r', 't', 'e', 'x', ' '] ++ vecText env a
  ++ cs ['\n', ' ', ' ', ' ', ' ', ' ', ' ', 'v', 'e', 'r', 't', 'e', 'x', ' '] ++ vecText env b
  ++ cs ['\n', ' ', ' ', ' ', ' ', ' ', ' ', 'v', 'e', 'r', 't', 'e', 'x', ' '] ++ vecText env c
  ++ cs ['\n', ' ', ' ', ' ', ' ', 'e', 'n', 'd', 'l', 'o', 'o', 'p', '\n',
      ' ', ' ', 'e', 'n', 'd', 'f', 'a', 'c', 'e', 't', '\n']

/-- `triangle_put_stl` csg2-2stl.c:61-95 (in the first pass the stream is NULL, and nothing is written) -/
def trianglePut (c : Ctxt) (n v1 v2 v3 : P3 D) : Ctxt :=
  let c := { c with count := c.count + 1 }
  if c.bin then
    if c.stream = none then c
    else
      let c := put c (vec32 env n)
      let c := put c (vec32 env v1)
      let c := put c (vec32 env v2)
      let c := put c (vec32 env v3)
      put c [0, 0]
  else put c (triText env n v1 v2 v3)

/-- a point at a height -/
def at_ (p : D × D) (z : D) : P3 D := (p.1, p.2, z)

/-- `poly_put_stl_outline_edge` csg2-2stl.c:102-146 -/
def outlineEdge (c : Ctxt) (point : List (D × D)) (z0 z1 : D) (ij ik : Nat) : Option Ctxt := do
  let pj ← point[ij]?
  let pk ← point[ik]?
  let n ← env.normal (at_ pk z0) (at_ pj z1) (at_ pk z1)
  let c := trianglePut env c n (at_ pk z0) (at_ pj z1) (at_ pk z1)
  some (trianglePut env c n (at_ pk z0) (at_ pj z0) (at_ pj z1))

/-- the loop for the top, csg2-2stl.c:161-168 -/
def topLoop (point : List (D × D)) (z1 : D) : List Tri → Ctxt → Option Ctxt
  | [], c => some c
  | t :: ts, c => do
    let a ← point[t.p1]?
    let b ← point[t.p0]?
    let d ← point[t.p2]?
    topLoop point z1 ts (trianglePut env c (env.zero, env.zero, env.one) (at_ a z1) (at_ b z1) (at_ d z1))

/-- the loop for the bottom, csg2-2stl.c:172-179 -/
def bottomLoop (point : List (D × D)) (z0 : D) : List Tri → Ctxt → Option Ctxt
  | [], c => some c
  | t :: ts, c => do
    let a ← point[t.p0]?
    let b ← point[t.p1]?
    let d ← point[t.p2]?
    bottomLoop point z0 ts (trianglePut env c (env.zero, env.zero, env.neg) (at_ a z0) (at_ b z0) (at_ d z0))

/-- `if (p->flags & ..) poly_put_stl_outline_edge` -/
def outlineIf (o : Bool) (c : Ctxt) (point : List (D × D)) (z0 z1 : D) (ij ik : Nat) : Option Ctxt :=
  if o then outlineEdge env c point z0 z1 ij ik else some c

/-- the loop for the sides, csg2-2stl.c:183-194 -/
def sideLoop (point : List (D × D)) (z0 z1 : D) : List Tri → Ctxt → Option Ctxt
  | [], c => some c
  | t :: ts, c => do
    let c ← outlineIf env t.o01 c point z0 z1 t.p0 t.p1
    let c ← outlineIf env t.o12 c point z0 z1 t.p1 t.p2
    let c ← outlineIf env t.o20 c point z0 z1 t.p2 t.p0
    sideLoop point z0 z1 ts c

/-- `poly_put_stl` csg2-2stl.c:148-196; `z` = `c->tree->z` -/
def polyPut (z : List D) (c : Ctxt) (zi : Nat) (point : List (D × D)) (tri : List Tri) : Option Ctxt := do
  let z0 ← z[zi]?
  let z1 := env.top z0
  let c ← if env.eq z0 z1 then some c else topLoop env point z1 tri c
  let c ← bottomLoop env point z0 tri c
  if env.eq z0 z1 then some c else sideLoop env point z0 z1 tri c

end

mutual
/-- 2D CSG trees: `cp_csg2_t` -/
inductive Csg (D : Type) where
  | null
  | vline2
  | sweep
  | poly (point : List (D × D)) (tri : List Tri)
  | stack (idx0 : Nat) (ls : Layers D)
  | add (xs : Csgs D)
  | xor (xss : CsgAdds D)
  | sub (xs ys : Csgs D)
  | cut (xss : CsgAdds D)
/-- `cp_v_obj_p_t` -/
inductive Csgs (D : Type) where
  | nil
  | cons (x : Csg D) (xs : Csgs D)
/-- vector of `cp_csg_add_t *` -/
inductive CsgAdds (D : Type) where
  | nil
  | cons (x : Csgs D) (xs : CsgAdds D)
/-- `cp_v_csg2_layer_t`; a `root` that is NULL is like an empty one (`cp_csg_add_size`) -/
inductive Layers (D : Type) where
  | nil
  | cons (zi : Nat) (root : Csgs D) (ls : Layers D)
end

section
variable {D : Type} (env : Env D) (z : List D)

mutual
/-- `csg2_put_stl` csg2-2stl.c:269-313, with `add_put_stl`, `sub_put_stl`, `cut_put_stl`, `xor_put_stl` 206-246 -/
def csg2Put (c : Ctxt) (zi : Nat) : Csg D → Option Ctxt
  | .null => some c
  | .add xs => vPut c zi xs
  | .xor xss => firstPut c zi xss
  | .sub xs _ => vPut c zi xs
  | .cut xss => firstPut c zi xss
  | .poly point tri => polyPut env z c zi point tri
  | .stack idx0 ls => layersPut c idx0 ls
  | .vline2 => none
  | .sweep => none

/-- `v_csg2_put_stl` csg2-2stl.c:315-323 -/
def vPut (c : Ctxt) (zi : Nat) : Csgs D → Option Ctxt
  | .nil => some c
  | .cons x xs => do
    let c ← csg2Put c zi x
    vPut c zi xs

/-- the first part of a cut or xor, csg2-2stl.c:231-233, 243-245 -/
def firstPut (c : Ctxt) (zi : Nat) : CsgAdds D → Option Ctxt
  | .nil => some c
  | .cons x _ => vPut c zi x

/-- `stack_put_stl` csg2-2stl.c:260-267 with `layer_put_stl` 248-258; the second argument is `idx0 + i` -/
def layersPut (c : Ctxt) (zi : Nat) : Layers D → Option Ctxt
  | .nil => some c
  | .cons lzi root ls =>
    match root with
    | .nil => layersPut c (zi + 1) ls
    | .cons x xs => do
      ass (zi = lzi)
      let c ← csg2Put c lzi x
      let c ← vPut c lzi xs
      layersPut c (zi + 1) ls
end

/-- `cp_csg2_tree_put_stl` csg2-2stl.c:339-374: the bytes written to an empty stream -/
def treePut (root : Csg D) (bin : Bool) : Option (List Nat) :=
  if bin then do
    let c ← csg2Put env z ⟨none, true, 0⟩ 0 root
    let s := List.replicate 80 0
    let cnt := c.count
    let s := s ++ u32 cnt
    let c ← csg2Put env z ⟨some s, true, 0⟩ 0 root
    ass (c.count = cnt)
    c.stream
  else do
    let c := put ⟨some [], false, 0⟩ (cs ['s', 'o', 'l', 'i', 'd', ' ', 'm', 'o', 'd', 'e', 'l', '\n'])
    let c ← csg2Put env z c 0 root
    let c := put c (cs ['e', 'n', 'd', 's', 'o', 'l', 'i', 'd', ' ', 'm', 'o', 'd', 'e', 'l', '\n'])
    c.stream

end

end Hob3l.Export
