import Verif.Sweep.Model

/-
Model of /repo/src/hob3lop/op-slice.c: cutting a mesh at a height z, and of the caller csg2_add_layer_poly
(/repo/src/hob3l/csg2-layer.c:31-39).

Simplifications: vertices are given after `cq_import_dim` (double -> int, gon.c:51-72; the same vertex is always imported
to the same grid point); memory growth of the output vector is not modelled (its alloc size stays even); libc `qsort` is a
parameter (`QSort`).  `none` = failed assertion or overflow trap.
-/

namespace Hob3l.Slice

open Hob3l.Matq Hob3l.Sweep

/-- `cq_vec3_t` include/hob3lop/hedron_tam.h:13-19 -/
structure Vec3 where
  x : Int
  y : Int
  z : Int
deriving DecidableEq, Repr

/-- `cq_slice_interpol` op-slice.c:8-24 -/
def interpol (z z0 z1 a0 a1 : Int) : Option Int := do
  ass (z0 < z1)
  ass (z0 ≤ z)
  ass (z ≤ z1)
  let d1 ← dimSub z1 z
  let r0 ← dimMul a0 d1
  let d0 ← dimSub z z0
  let r1 ← dimMul a1 d0
  let s ← dimwAdd r0 r1
  let d ← dimSub z1 z0
  let r ← divwRnd s d
  let rh := cast32 r
  ass (r = rh)
  return rh

/-- `cq_slice_cut_z` op-slice.c:26-34 -/
def cutZ (z : Int) (a b : Vec3) : Option Vec2 := do
  let x ← interpol z a.z b.z a.x b.x
  let y ← interpol z a.z b.z a.y b.y
  return ⟨x, y⟩

/-- `cq_slice_polyline_int` op-slice.c:36-60 after the swap (:45) -/
def polylineOrd (out : List Vec2) (z : Int) (a b : Vec3) : Option (List Vec2) :=
  if b.z ≤ z then some out
  else if a.z > z then some out
  else do
    ass (a.z ≠ b.z)
    let p ← cutZ z a b
    return out ++ [p]

/-- `cq_slice_polyline_int` op-slice.c:36-60; `cq_slice_polyline_float` :62-80 imports the coordinates and calls it -/
def polyline (out : List Vec2) (z : Int) (a b : Vec3) : Option (List Vec2) :=
  if a.z > b.z then polylineOrd out z b a else polylineOrd out z a b

/-- the loop over the sides in `cq_slice_add_face` op-slice.c:108-112; the list holds the remaining values of `i` -/
def faceLoop (z : Int) (face : List Vec3) : List Nat → List Vec2 → Option (List Vec2)
  | [], out => some out
  | i :: is, out => do
    let j := if i + 1 = face.length then 0 else i + 1
    let a ← face[i]?
    let b ← face[j]?
    let out ← polyline out z a b
    faceLoop z face is out

/-- `cq_vec2_minmax` gon.c:26-32 with `cq_dim_minmax` op-def.h:21-28, only the minimum, over a list of points -/
def bbMin : List Vec2 → Vec2 → Vec2
  | [], m => m
  | p :: ps, m => bbMin ps ⟨if p.x < m.x then p.x else m.x, if p.y < m.y then p.y else m.y⟩

/-- libc `qsort_r` with the comparison `vec2_cmp` op-slice.c:82-88, i.e., by squared distance: the list holds the points
together with their squared distance -/
structure QSort where
  run : List (Int × Vec2) → List (Int × Vec2)

/-- `vec2_cmp` op-slice.c:82-88: squared distance of a point to `orig` for all points that are sorted -/
def keyed (orig : Vec2) : List Vec2 → Option (List (Int × Vec2))
  | [] => some []
  | p :: ps => do
    let k ← sqrDist p orig
    let r ← keyed orig ps
    return (k, p) :: r

/-- the minmax and sort part of `cq_slice_add_face` op-slice.c:125-130; `pre` are the points of earlier faces -/
def sortTail (qs : QSort) (pre tail : List Vec2) : Option (List Vec2) := do
  let m := bbMin tail ⟨2147483647, 2147483647⟩
  let k ← keyed m tail
  return pre ++ (qs.run k).map Prod.snd

/-- `cq_slice_add_face` op-slice.c:90-131 -/
def addFace (qs : QSort) (z : Int) (out : List Vec2) (face : List Vec3) : Option (List Vec2) :=
  if face.length < 3 then some out else do
  let i0 := out.length
  ass (i0 % 2 = 0)
  let out ← faceLoop z face (List.range face.length) out
  let n := out.length - i0
  ass (n % 2 = 0)
  if n = 0 then some out else sortTail qs (out.take i0) (out.drop i0)

/-- `cq_v_vec2_move_v_line2` include/hob3lop/gon.h:39-47: reinterpret as lines -/
def toLines : List Vec2 → Option (List (Vec2 × Vec2))
  | [] => some []
  | [_] => none
  | a :: b :: r => do
    let l ← toLines r
    return (a, b) :: l

/-- the loop of `cq_slice_fini` op-slice.c:141-146 with `cp_v_eachp` (vec_tam.h:82-90), `cp_v_pop`, `cp_redo`:
`i` is the iterator; when the last line itself is removed, `*i` is written behind the new end (still allocated).
The first argument bounds the number of iterations (running out = `none`, proved not to happen). -/
def finiLoop : Nat → List (Vec2 × Vec2) → Nat → Option (List (Vec2 × Vec2))
  | 0, r, i => if i < r.length then none else some r
  | n + 1, r, i =>
    if h : i < r.length then
      if r[i].1 = r[i].2 then
        finiLoop n (r.dropLast.set i (r[r.length - 1]'(by omega))) i
      else finiLoop n r (i + 1)
    else some r

/-- `cq_slice_fini` op-slice.c:134-149 -/
def fini (out : List Vec2) : Option (List (Vec2 × Vec2)) := do
  let r ← toLines out
  finiLoop r.length r 0

/-- the loop of csg2_add_layer_poly, csg2-layer.c:35-38 -/
def addFaces (qs : QSort) (z : Int) : List (List Vec3) → List Vec2 → Option (List Vec2)
  | [], out => some out
  | f :: fs, out => do
    let out ← addFace qs z out f
    addFaces qs z fs out

/-- csg2_add_layer_poly, csg2-layer.c:33-39 (`cq_slice_init` op-slice.c:151-159: empty output) -/
def sliceMesh (qs : QSort) (z : Int) (faces : List (List Vec3)) : Option (List (Vec2 × Vec2)) := do
  let out ← addFaces qs z faces []
  fini out

end Hob3l.Slice
