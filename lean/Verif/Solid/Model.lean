import Mathlib.Data.List.Basic

/-
Model of the construction of polyhedra in /repo/src/hob3l/csg3.c: the faces of `cube`, `cylinder`, `sphere`,
`linear_extrude` (all built by `faces_n_edges_from_tower`) and of `rotate_extrude`.

Faces are lists of indices into the point array of the polyhedron (the C code stores pointers into that array).
Simplifications: `size_t` arithmetic does not wrap (all numbers are sizes of arrays in memory); locations are left out;
the coordinates are treated in `Points.lean`.  `none` = failed assertion (the asserts of `cp_v_nth`, include/hob3lbase/
vec_tam.h, are those on the indices).
-/

namespace Hob3l.Solid

/-- `TRI_NONE`, `TRI_LEFT`, `TRI_RIGHT` csg3.c:34-36 -/
inductive Tri
  | none
  | left
  | right
deriving DecidableEq, Repr

/-- `assert` -/
def ass (b : Bool) : Option Unit := if b then some () else none

/-- `cp_wrap_add1` include/hob3lbase/arith.h:87-95 (the assertion `i < n` holds: it is called with `i < n`) -/
def wrapAdd1 (i n : Nat) : Nat := if i + 1 = n then 0 else i + 1

/-- `face_rev_perhaps` csg3.c:409-416 -/
def revPerhaps (rev : Bool) (f : List Nat) : List Nat := if rev then f.reverse else f

/-- a `for` loop over the values in the list -/
def loop {α σ : Type} (f : α → σ → Option σ) : List α → σ → Option σ
  | [], s => some s
  | a :: l, s => do
    let s ← f a s
    loop f l s

/-- `cp_size_each(i, n, skipA, skipZ)` include/hob3ldef/def.h:213-260 -/
def sizeEach (n skipA skipZ : Nat) : List Nat := (List.range (n - skipZ)).drop skipA

/-- `face_init_from_point_ref` csg3.c:434-458 with `face_basics` :418-432, applied to the face with number `k` of the
preallocated array of `cap` faces; `fs` are the faces filled in before, so `k = fs.length`.  `size` is the number of points. -/
def initFace (size cap : Nat) (data : List Nat) (rev : Bool) (fs : List (List Nat)) : Option (List (List Nat)) := do
  ass (fs.length < cap)
  ass (3 ≤ data.length)
  ass (data.all fun i => i < size)
  return fs ++ [revPerhaps rev data]

/-- `face_from_poly_lid` csg3.c:564-590 -/
def lid (size cap fn : Nat) (rev top : Bool) (fs : List (List Nat)) : Option (List (List Nat)) := do
  ass (3 ≤ fn)
  let off := if top then size - fn else 0
  initFace size cap ((List.range fn).map (· + off)) (rev ^^ top) fs

/-- body of the loop over the sides, csg3.c:665-691 -/
def sideStep (size cap fn : Nat) (rev : Bool) (tri : Tri) (i j0 : Nat) (fs : List (List Nat)) : Option (List (List Nat)) :=
  let k1 := i * fn
  let k0 := k1 - fn
  let j1 := wrapAdd1 j0 fn
  match tri with
  | .left => do
    let fs ← initFace size cap [k0 + j0, k0 + j1, k1 + j0] (!rev) fs
    initFace size cap [k1 + j1, k1 + j0, k0 + j1] (!rev) fs
  | .right => do
    let fs ← initFace size cap [k0 + j0, k0 + j1, k1 + j1] (!rev) fs
    initFace size cap [k1 + j1, k1 + j0, k0 + j0] (!rev) fs
  | .none => initFace size cap [k0 + j0, k0 + j1, k1 + j1, k1 + j0] (!rev) fs

/-- body of the loop over the roof, csg3.c:695-701 -/
def roofStep (size cap fn : Nat) (rev : Bool) (j0 : Nat) (fs : List (List Nat)) : Option (List (List Nat)) :=
  let kw := size - 1
  let kv := kw - fn
  initFace size cap [kv + j0, kv + wrapAdd1 j0 fn, kw] (!rev) fs

/-- the top face, csg3.c:658-661 -/
def topLid (size cap fn : Nat) (rev hasTop : Bool) (fs : List (List Nat)) : Option (List (List Nat)) :=
  if hasTop then lid size cap fn rev true fs else some fs

/-- the roof, csg3.c:692-702 -/
def roof (size cap fn : Nat) (rev hasTop : Bool) (fs : List (List Nat)) : Option (List (List Nat)) :=
  if hasTop then some fs else loop (roofStep size cap fn rev) (sizeEach fn 0 0) fs

/-- number of faces allocated, csg3.c:648-653 -/
def towerCap (fn fnz : Nat) (hasTop : Bool) (tri : Tri) : Nat :=
  1 * (1 + hasTop.toNat) + (fnz - 2) * fn * (1 + (tri != .none).toNat) + fn * (1 + (tri != .none && hasTop).toNat)

/-- the faces made by `faces_n_edges_from_tower` csg3.c:612-706 for `size` points; `neg` is `m->d < 0`.
The transformation of the points is left out. -/
def towerFaces (size fn fnz : Nat) (neg rev : Bool) (tri : Tri) : Option (List (List Nat)) := do
  ass (3 ≤ fn)
  let rev := if neg then !rev else rev
  let hasTop := size == fn * fnz
  ass (hasTop || size == 1 + fn * (fnz - 1))
  let cap := towerCap fn fnz hasTop tri
  let fs ← lid size cap fn rev false []
  let fs ← topLid size cap fn rev hasTop fs
  let fs ← loop (fun i fs => loop (sideStep size cap fn rev tri i) (sizeEach fn 0 0) fs)
    (sizeEach fnz 1 (!hasTop).toNat) fs
  let fs ← roof size cap fn rev hasTop fs
  ass (fs.length == cap)
  return fs

/-- `cp_csg3_get_fn` csg3.c:492-548 -/
def getFn (detail minFn maxFn : Nat) (haveCircular : Bool) : Nat :=
  if detail = 0 then (if haveCircular then 0 else maxFn)
  else if detail > maxFn then (if haveCircular then 0 else maxFn)
  else if detail < minFn then minFn
  else detail

/-- the solids made from a tower, with what decides the number of points and faces -/
inductive Shape
  /-- `cube` -/
  | cube
  /-- `cylinder`: `cone` iff the smaller radius is 0 (up to epsilon); `fn` is `$fn` -/
  | cylinder (fn : Nat) (cone : Bool)
  /-- `sphere`, `fn` is `$fn` -/
  | sphere (fn : Nat)
  /-- one path of `linear_extrude`: number of points, slices, `cone` iff the scale is 0 (up to epsilon), sign of the twist -/
  | linext (pcnt slices : Nat) (cone : Bool) (twist : Int)
deriving DecidableEq, Repr

/-- result of making a solid: an empty-object message, a sphere that is not converted to a polyhedron, or points and faces -/
inductive Made
  | empty
  | exact
  | poly (size : Nat) (faces : List (List Nat))
deriving DecidableEq, Repr

/-- number of points and faces of a shape under a transformation with negative determinant iff `neg`:
`csg3_from_cube` csg3.c:1262-1324, `csg3_from_cylinder` :1492-1558 with `csg3_poly_cylinder` :1452-1490 (the swap of the
radii is in `neg`), `csg3_from_sphere` :746-794 with `csg3_poly_make_sphere` :715-744, `csg3_from_linext` :1560-1746.
The checks on sizes and radii that lead to an error message are left out, except the one on the number of slices. -/
def make (maxFn : Nat) (neg : Bool) : Shape → Option Made
  | .cube => do
    let fs ← towerFaces 8 4 2 neg false .none
    return .poly 8 fs
  | .cylinder d cone => do
    let fn := getFn d 3 maxFn false
    let size := if cone then fn + 1 else 2 * fn
    ass (3 ≤ fn)
    let fs ← towerFaces size fn 2 neg false .none
    return .poly size fs
  | .sphere d =>
    let fn := getFn d 3 maxFn true
    if fn > 0 then do
      ass (3 ≤ fn)
      let fnz := (fn + 1) / 2
      ass (2 ≤ fnz)
      let size := fn * fnz
      let fs ← towerFaces size fn fnz neg true .none
      return .poly size fs
    else return .exact
  | .linext pcnt slices cone twist =>
    if slices < 1 then return .empty
    else do
      let zcnt := if cone then slices else slices + 1
      let tri := if twist = 0 then Tri.none else if twist > 0 then .right else .left
      ass (3 ≤ pcnt)
      let size := zcnt * pcnt + cone.toNat
      let fs ← towerFaces size pcnt (slices + 1) neg true tri
      return .poly size fs

/-! ## rotate_extrude -/

/-- `rotext_idx` csg3.c:1810-1823 -/
def rotextIdx (x0 xi : Nat) (idx : List Nat) (i j : Nat) : Option Nat := do
  let k ← idx[i]?
  if k % 2 = 1 then return k / 2 + x0 + xi * j
  else do
    ass (k / 2 < x0)
    return k / 2

/-- the filter of `poly3_push_face4` csg3.c:1833-1845 -/
def filter4 (a b c d : Nat) : List Nat :=
  [a] ++ (if a ≠ b then [b] else []) ++ (if a ≠ c ∧ b ≠ c then [c] else []) ++
    (if a ≠ d ∧ b ≠ d ∧ c ≠ d then [d] else [])

/-- `poly3_push_face4` csg3.c:1825-1861 -/
def pushFace4 (size a b c d : Nat) (rev : Bool) (fs : List (List Nat)) : Option (List (List Nat)) :=
  let f := filter4 a b c d
  if f.length < 3 then some fs
  else do
    ass (f.all fun i => i < size)
    return fs ++ [revPerhaps rev f]

/-- one side of a path between two slices, csg3.c:1914-1924 -/
def arcSide (x0 xi size : Nat) (idx : List Nat) (rev : Bool) (j0 j1 : Nat) (path : List Nat) (l : Nat)
    (fs : List (List Nat)) : Option (List (List Nat)) := do
  let i0 ← path[l]?
  let i1 ← path[wrapAdd1 l path.length]?
  let a ← rotextIdx x0 xi idx i0 j0
  let b ← rotextIdx x0 xi idx i1 j0
  let c ← rotextIdx x0 xi idx i1 j1
  let d ← rotextIdx x0 xi idx i0 j1
  pushFace4 size a b c d rev fs

/-- the face of a path at slice `j`, csg3.c:1932-1942 and :1945-1954 -/
def endFace (x0 xi size : Nat) (idx : List Nat) (rev : Bool) (j : Nat) (path : List Nat)
    (fs : List (List Nat)) : Option (List (List Nat)) := do
  let f ← path.mapM fun i => rotextIdx x0 xi idx i j
  ass (f.all fun i => i < size)
  return fs ++ [revPerhaps rev f]

/-- the points filled in by `rotext_arc` csg3.c:1893-1913: every point is written to an index that exists -/
def arcPoints (x0 xi size : Nat) (idx : List Nat) (slices i : Nat) : Option Unit := do
  let k ← idx[i]?
  if k % 2 = 1 then
    loop (fun j _ => do
      let q ← rotextIdx x0 xi idx i j
      ass (q < size)) (sizeEach slices 0 0) ()
  else do
    let q ← rotextIdx x0 xi idx i 0
    ass (q < size)

/-- `rotext_arc` csg3.c:1863-1967: number of points and faces; `n` is the number of points of the 2D polygon, `rev` is
`neg ^ (m->mat->d < 0)` -/
def rotextArc (n : Nat) (paths : List (List Nat)) (idx : List Nat) (x0 slices : Nat) (rev : Bool) :
    Option (Nat × List (List Nat)) := do
  ass (2 ≤ slices)
  let xi := n - x0
  let size := x0 + xi * slices
  let () ← loop (fun i _ => arcPoints x0 xi size idx slices i) (sizeEach n 0 0) ()
  let fs ← loop (fun j1 fs => loop (fun path fs =>
      loop (arcSide x0 xi size idx rev (j1 - 1) j1 path) (sizeEach path.length 0 0) fs) paths fs)
    (sizeEach slices 1 0) []
  let fs ← loop (fun path fs => do
    let fs ← endFace x0 xi size idx (!rev) 0 path fs
    endFace x0 xi size idx rev (slices - 1) path fs) paths fs
  return (size, fs)

/-- where a point of the 2D polygon is: on the axis (`cp_eq(x, 0)`), or left or right of it -/
inductive Side
  | axis
  | neg
  | pos
deriving DecidableEq, Repr

/-- the partition of the points csg3.c:2042-2056: the array `idx`, `x0_cnt`, `xi_cnt` -/
def partition : List Side → List Nat → Nat → Nat → List Nat × Nat × Nat
  | [], idx, x0, xi => (idx, x0, xi)
  | .axis :: l, idx, x0, xi => partition l (idx ++ [2 * x0]) (x0 + 1) xi
  | _ :: l, idx, x0, xi => partition l (idx ++ [2 * xi + 1]) x0 (xi + 1)

/-- how the angle compares, csg3.c:1998-2006: at most 0, below 180, below 360, or (after cutting) 360 -/
inductive Angle
  | none
  | acute
  | wide
  | full
deriving DecidableEq, Repr

/-- result of `rotate_extrude` -/
inductive Arcs
  | empty
  | bothSides
  | polys (l : List (Nat × List (List Nat)))
deriving DecidableEq, Repr

/-- least number of segments, csg3.c:1998-2008 -/
def minSeg : Angle → Nat
  | .full => 3
  | .wide => 2
  | _ => 1

/-- `csg3_from_rotext` csg3.c:1998-2102 after the children were flattened to a polygon with points at `pts` and given
paths; `detail` is `$fn`, `neg` is `m->mat->d < 0` -/
def rotext (maxFn detail : Nat) (neg : Bool) (angle : Angle) (pts : List Side) (paths : List (List Nat)) : Option Arcs :=
  if angle = .none then return .empty
  else
    let segCnt := getFn detail (minSeg angle) maxFn false
    if paths = [] then return .polys []
    else
      let (idx, x0, xi) := partition pts [] 0 0
      if .pos ∈ pts ∧ .neg ∈ pts then return .bothSides
      else do
        ass (0 < xi)
        if angle = .full then do
          let m1 := segCnt / 2
          let m2 := (segCnt + 1) / 2
          ass (m1 + m2 == segCnt)
          let a ← rotextArc pts.length paths idx x0 (m1 + 1) (decide (.neg ∈ pts) ^^ neg)
          let b ← rotextArc pts.length paths idx x0 (m2 + 1) (decide (.neg ∈ pts) ^^ neg)
          return .polys [a, b]
        else do
          let a ← rotextArc pts.length paths idx x0 (segCnt + 1) (!decide (.neg ∈ pts) ^^ neg)
          return .polys [a]

end Hob3l.Solid
