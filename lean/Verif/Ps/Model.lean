import Mathlib.Algebra.Order.Field.Basic
import Mathlib.Algebra.Order.Floor.Ring

/-
Model of the PostScript export: /repo/src/hob3l/ps.c, /repo/src/hob3l/csg2-2ps.c, /repo/include/hob3l/ps_tam.h.

Numbers are those of an ordered field `K` (no rounding).  Colours, line widths, and the text of the operators are left out: what is
written is a list of `Ev`.  `none` = failed assertion or access outside of an array.
-/

namespace Hob3l.Ps

variable {K : Type} [Field K] [LinearOrder K] [IsStrictOrderedRing K] [FloorRing K]

/-- `cp_ps_xform_t` ps_tam.h:36-41 -/
structure Xf (K : Type) where
  mulX : K
  mulY : K
  addX : K
  addY : K

/-- `cp_gt` algo.h:78-82, 92 -/
def gt (eps a b : K) : Bool := decide (b - a < -eps)

/-- `cp_min_f_` arith.h:30-33 -/
def minF (a b : K) : K := if a ≤ b then a else b

/-- `CP_PS_XFORM_MM` ps_tam.h:28-34; `CP_PS_PAPER_X/2` is a division of integers -/
def Xf.mm : Xf K := ⟨720 / 254, 720 / 254, ((595 / 2 : Nat) : K), ((842 / 2 : Nat) : K)⟩

/-- `cp_ps_xform_from_minmax` ps.c:13-34.  If the height is 0, then the second argument of `cp_min` is infinite, and the first one is
taken. -/
def fromMinmax (eps xMin yMin xMax yMax : K) : Xf K :=
  if gt eps xMax xMin && gt eps yMax xMin then
    let a := ((595 - 56 : Nat) : K) / (xMax - xMin)
    let mulX := if yMax - yMin = 0 then a else minF a (((842 - 56 : Nat) : K) / (yMax - yMin))
    let mulY := mulX
    ⟨mulX, mulY, ((595 / 2 : Nat) : K) - mulX * (xMax + xMin) / 2, ((842 / 2 : Nat) : K) - mulY * (yMax + yMin) / 2⟩
  else Xf.mm

/-- `cp_ps_x` ps.c:40-46 -/
def psX (d : Option (Xf K)) (x : K) : K :=
  let d := d.getD Xf.mm
  d.addX + x * d.mulX

/-- `cp_ps_y` ps.c:52-58 -/
def psY (d : Option (Xf K)) (y : K) : K :=
  let d := d.getD Xf.mm
  d.addY + y * d.mulY

/-- `cp_div0` algo.h:713-716 -/
def div0 (eps a b : K) : K := if |b - 0| < eps then 0 else a / b

/-- `cp_ps_opt_t` ps_tam.h:45-58; `normal` = `cp_vec2_normal`, mat.h:13-21 -/
structure Opt (K : Type) where
  eps : K
  xform1 : Option (Xf K)
  xform2 : Nat → Nat → K
  normal : K × K → K × K → K × K
  single : Bool
  noTri : Bool
  noPath : Bool
  noMark : Bool

/-- what is written -/
inductive Ev (K : Type) where
  /-- `cp_ps_doc_begin`, ps.c:67-104 -/
  | header
  /-- `cp_ps_page_begin`, ps.c:142-159 -/
  | page (n : Nat)
  /-- the text with the height of the layer, csg2-2ps.c:325 -/
  | label (z : K) (zi : Nat)
  /-- a triangle, which is filled, and perhaps stroked, csg2-2ps.c:54-80 -/
  | tri (p1 p2 p3 : K × K) (stroke : Bool)
  /-- a closed path, csg2-2ps.c:105-124 -/
  | path (ps : List (K × K))
  /-- a line, csg2-2ps.c:95-97 -/
  | mark (a b : K × K)
  /-- a disc with radius 0.4, csg2-2ps.c:142-144 -/
  | dot (c : K × K)
  /-- `cp_ps_page_end`, ps.c:176-182 -/
  | endPage
  /-- `cp_ps_doc_end`, ps.c:115-137 -/
  | trailer (pages : Nat) (x1 y1 x2 y2 : Int)
deriving DecidableEq, Repr

/-- `ctxt_t` csg2-2ps.c:19-23, with what was written -/
structure Ctx (K : Type) where
  minX : K
  minY : K
  maxX : K
  maxY : K
  out : List (Ev K)

/-- `cp_vec2_minmax` mat_gen_ext.c:105-112, 134-141, 165-171 -/
def Ctx.minmax (k : Ctx K) (v : K × K) : Ctx K :=
  { k with
    minX := if k.minX ≤ v.1 then k.minX else v.1
    minY := if k.minY ≤ v.2 then k.minY else v.2
    maxX := if k.maxX ≥ v.1 then k.maxX else v.1
    maxY := if k.maxY ≥ v.2 then k.maxY else v.2 }

/-- `cp_printf` -/
def Ctx.put (k : Ctx K) (e : Ev K) : Ctx K := { k with out := k.out ++ [e] }

variable (opt : Opt K)

/-- a row of `cp_vec4_xform` mat_gen_ext.c:442-454 -/
def row (i : Nat) (x y z w : K) : K := opt.xform2 i 0 * x + opt.xform2 i 1 * y + opt.xform2 i 2 * z + opt.xform2 i 3 * w

/-- the result of `coord`, csg2-2ps.c:31-40 -/
def pos (p : K × K) (z : K) : K × K :=
  (psX opt.xform1 (div0 opt.eps (row opt 0 p.1 p.2 z 1) (row opt 3 p.1 p.2 z 1)),
    psY opt.xform1 (div0 opt.eps (row opt 1 p.1 p.2 z 1) (row opt 3 p.1 p.2 z 1)))

/-- `coord` csg2-2ps.c:31-43 -/
def coord (k : Ctx K) (p : K × K) (z : K) : (K × K) × Ctx K := (pos opt p z, k.minmax (pos opt p z))

/-- `triangle_put_ps` csg2-2ps.c:45-80 -/
def trianglePut (k : Ctx K) (point : List (K × K)) (t : Nat × Nat × Nat) (z : K) : Option (Ctx K) := do
  let a ← point[t.1]?
  let p1 := coord opt k a z
  let b ← point[t.2.1]?
  let p2 := coord opt p1.2 b z
  let c ← point[t.2.2]?
  let p3 := coord opt p2.2 c z
  some (p3.2.put (.tri p1.1 p2.1 p3.1 (!opt.noTri)))

/-- `mark_put_ps` csg2-2ps.c:82-98 -/
def markPut (k : Ctx K) (p0 p1 : K × K) : Ctx K :=
  let r := opt.normal p0 p1
  let r := (r.1 * 2, r.2 * 2)
  let m := ((p0.1 + p1.1) * (1 / 2), (p0.2 + p1.2) * (1 / 2))
  k.put (.mark m (m.1 + r.1, m.2 + r.2))

/-- the loop for the points of a path, csg2-2ps.c:109-116 -/
def pathLoop (point : List (K × K)) (z : K) : List Nat → Ctx K → Option (List (K × K) × Ctx K)
  | [], k => some ([], k)
  | i :: is, k => do
    let a ← point[i]?
    let p := coord opt k a z
    let r ← pathLoop point z is p.2
    some (p.1 :: r.1, r.2)

/-- `path_put_ps` csg2-2ps.c:100-134 -/
def pathPut (k : Ctx K) (point : List (K × K)) (idx : List Nat) (z : K) : Option (Ctx K) := do
  let r ← pathLoop opt point z idx k
  let k := r.2.put (.path r.1)
  if opt.noMark then some k
  else
    match idx with
    | i0 :: i1 :: _ => do
      let a ← point[i0]?
      let p0 := coord opt k a z
      let b ← point[i1]?
      let p1 := coord opt p0.2 b z
      some (markPut opt p1.2 p0.1 p1.1)
    | _ => some k

/-- `point_put_ps` csg2-2ps.c:136-147 -/
def pointPut (k : Ctx K) (p : K × K) (z : K) : Ctx K :=
  let c := coord opt k p z
  c.2.put (.dot c.1)

/-- a loop -/
def loop {α : Type} (f : Ctx K → α → Option (Ctx K)) : List α → Ctx K → Option (Ctx K)
  | [], k => some k
  | a :: l, k => (f k a).bind (loop f l)

/-- `poly_put_ps` csg2-2ps.c:149-165 -/
def polyPut (k : Ctx K) (point : List (K × K)) (path : List (List Nat)) (tri : List (Nat × Nat × Nat)) (z : K) : Option (Ctx K) := do
  let k ← loop (fun k t => trianglePut opt k point t z) tri k
  if opt.noPath then some k
  else do
    let k ← loop (fun k idx => pathPut opt k point idx z) path k
    loop (fun k p => some (pointPut opt k p z)) point k

mutual
/-- 2D objects: csg2_tam.h; a vector of objects has no NULL -/
inductive Obj (K : Type) where
  | add (xs : Objs K)
  | xor (xss : Adds K)
  | sub (a b : Objs K)
  | cut (xss : Adds K)
  | poly (point : List (K × K)) (path : List (List Nat)) (tri : List (Nat × Nat × Nat))
  | stack (ls : Layers K)
  | vline2
  | sweep
inductive Objs (K : Type) where
  | nil
  | cons (x : Obj K) (xs : Objs K)
inductive Adds (K : Type) where
  | nil
  | cons (x : Objs K) (xs : Adds K)
inductive Layers (K : Type) where
  | nil
  | cons (zi : Nat) (root : Objs K) (ls : Layers K)
end

variable (z : List K)

mutual
/-- `csg2_put_ps` csg2-2ps.c:231-273, with 167-205 -/
def csg2Put (k : Ctx K) (zi : Nat) : Obj K → Option (Ctx K)
  | .add xs => vPut k zi xs
  | .xor xss => addsPut k zi xss
  | .sub a b => do
    let k ← vPut k zi a
    vPut k zi b
  | .cut xss => addsPut k zi xss
  | .stack ls => stackPut k zi ls
  | .poly point path tri => do
    let h ← z[zi]?
    polyPut opt k point path tri h
  | .vline2 => none
  | .sweep => none

/-- `v_csg2_put_ps` csg2-2ps.c:275-284 -/
def vPut (k : Ctx K) (zi : Nat) : Objs K → Option (Ctx K)
  | .nil => some k
  | .cons x xs => do
    let k ← csg2Put k zi x
    vPut k zi xs

/-- the loop of `cut_put_ps` and `xor_put_ps`, csg2-2ps.c:191-193, 202-204 -/
def addsPut (k : Ctx K) (zi : Nat) : Adds K → Option (Ctx K)
  | .nil => some k
  | .cons x xs => do
    let k ← vPut k zi x
    addsPut k zi xs

/-- `stack_put_ps` with `layer_put_ps`, csg2-2ps.c:207-229 -/
def stackPut (k : Ctx K) (zi : Nat) : Layers K → Option (Ctx K)
  | .nil => some k
  | .cons lzi root ls => do
    let k ← if zi ≠ lzi then some k else vPut k zi root
    stackPut k zi ls
end

/-- the loop for the layers, csg2-2ps.c:320-334: `flags` from `zi` on (`CP_CSG2_FLAG_NON_EMPTY`); with the number of pages -/
def layerLoop (root : Obj K) : List Bool → Nat → Nat → Ctx K → Option (Nat × Ctx K)
  | [], _, cnt, k => some (cnt, k)
  | f :: fs, zi, cnt, k =>
    if f then
      if opt.single then do
        let k ← csg2Put opt z k zi root
        layerLoop root fs (zi + 1) cnt k
      else do
        let cnt := cnt + 1
        let k := k.put (.page cnt)
        let h ← z[zi]?
        let k := k.put (.label h zi)
        let k ← csg2Put opt z k zi root
        layerLoop root fs (zi + 1) cnt (k.put .endPage)
    else layerLoop root fs (zi + 1) cnt k

/-- `cp_csg2_tree_put_ps` csg2-2ps.c:299-350; `flags` = `t->flag`, of the size of `t->z`; `none` for `root` is NULL -/
def treePut (flags : List Bool) (root : Option (Obj K)) : Option (List (Ev K)) :=
  match root with
  | none => some []
  | some root => do
    let k : Ctx K := ⟨99999, 99999, -99999, -99999, []⟩
    let k := k.put .header
    let cnt := if opt.single then 1 else 0
    let k := if opt.single then k.put (.page 1) else k
    let r ← layerLoop opt z root flags 0 cnt k
    let k := r.2
    let k := if k.minX > k.maxX ∨ k.minY > k.maxY then { k with minX := 1 / 2, minY := 1 / 2, maxX := 1 / 2, maxY := 1 / 2 } else k
    let k := if opt.single then k.put .endPage else k
    some (k.put (.trailer r.1 ⌊k.minX⌋ ⌊k.minY⌋ ⌈k.maxX⌉ ⌈k.maxY⌉)).out

end Hob3l.Ps
