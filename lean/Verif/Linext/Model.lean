import Verif.Xform.Model
import Verif.Solid.Model

/-!
`linear_extrude`: the points of the polyhedra (src/hob3l/csg3.c).  The faces are in `Verif.Solid.Model` (`Shape.linext`).

Numbers are reals, as in `Verif.Xform.Model`; the comparisons keep their epsilon.  The two-dimensional children arrive here
as the list of outlines that `cp_csg2_flatten` returns for them; the conversion of the children itself, source locations and
the colour are left out.
-/

namespace Hob3l.Linext

open Hob3l.Xform

noncomputable section

/-- `cp_scad_linext_t` include/hob3l/scad_tam.h without the children -/
structure Par where
  height : ℝ
  twist : ℝ
  scale : V2
  slices : Nat
  center : Bool

/-- the options that matter, and where the object was found.  `emptyFails`, `outsideFails`: the message level of
`err_empty`, `err_outside_3d` is that of a failure, so that `msg` (csg3.c) returns false. -/
structure Env where
  in3d : Bool
  emptyFails : Bool
  outsideFails : Bool

open Classical in
/-- `cp_lt` include/hob3lmat/algo.h:80, 91 -/
def eLt (e a b : ℝ) : Bool := decide (a - b < -e)

open Classical in
/-- `cp_le` include/hob3lmat/algo.h:79, 90 -/
def eLe (e a b : ℝ) : Bool := decide (a - b < e)

/-- `cp_lerp` include/hob3lbase/arith.h:126-129 -/
def lerp (a b t : ℝ) : ℝ := a + (b - a) * t

/-- one polyhedron: its points, and the arguments of the construction of the faces -/
structure Poly where
  pts : List V3
  fn : Nat
  fnz : Nat
  neg : Bool
  tri : Solid.Tri

/-- result: the function returns false; it returns true and adds nothing; it adds the polyhedra (one, or the `xor` of several) -/
inductive Out
  | fail
  | nothing
  | made (ps : List Poly)

/-- a message of a level that may be a failure: `msg` csg3.c:60-78 -/
def msg (fails : Bool) : Out := if fails then .fail else .nothing

/-- `cp_mat2w_rot` include/hob3lmat/mat_gen_inl.h:2387-2393 with `cp_mat2_rot_ij` src/hob3lmat/mat_gen_ext.c:740-755;
`none` is the assertion -/
def rot (e : Eps) (sc : V2) : Option M2w := do
  ass (sc.hasLen01 e)
  some ⟨⟨sc.y, -sc.x, sc.x, sc.y⟩, ⟨0, 0⟩⟩

/-- `cp_mat2w_scale` include/hob3lmat/mat_gen_inl.h:1061-1069 -/
def scale (x y : ℝ) : M2w := ⟨⟨x, 0, 0, y⟩, ⟨0, 0⟩⟩

/-- one level of one outline, csg3.c:1698-1713; `z` is the height in 0..1 -/
def level (e : Eps) (s : V2) (twist z : ℝ) (q : List V2) : Option (List V3) := do
  let mk ← rot e (sincos (z * -twist))
  let mk := (scale (lerp 1 s.x z) (lerp 1 s.y z)).mul mk
  return q.map fun v => let w := mk.xform v; ⟨w.x, w.y, z⟩

/-- the points of one outline before the transformation, csg3.c:1697-1721 -/
def tower (e : Eps) (s : V2) (twist : ℝ) (slices : Nat) (cone : Bool) (q : List V2) : Option (List V3) := do
  let zcnt := if cone then slices else slices + 1
  let ls ← (List.range zcnt).mapM fun (k : Nat) => level e s twist ((k : ℝ) / slices) q
  return ls.flatten ++ (if cone then [⟨0, 0, 1⟩] else [])

/-- the matrix for the result, csg3.c:1618-1635 -/
def matrix (e : Eps) (mo : M3wi) (p : Par) : M3wi :=
  let m := if eEq e.eq p.height 1 then mo else mo.mul (.scale e 1 1 p.height)
  if p.center then m.mul (.xlat 0 0 (-1 / 2)) else m

open Classical in
/-- how the sides are split, csg3.c:1668-1680 -/
def triOf (twist : ℝ) : Solid.Tri := if twist = 0 then .none else if twist > 0 then .right else .left

open Classical in
/-- one outline: csg3.c:1689-1726, with the transformation of the points in `faces_n_edges_from_tower` csg3.c:624-632.
The failed assertion is `none`. -/
def polyOf (e : Eps) (m : M3wi) (s : V2) (twist : ℝ) (slices : Nat) (cone : Bool) (q : List V2) : Option Poly := do
  ass (3 ≤ q.length)
  let t ← tower e s twist slices cone q
  return ⟨t.map m.n.xform, q.length, slices + 1, decide (m.d < 0), triOf twist⟩

/-- the clamped scale, csg3.c:1602-1603 -/
def clamp (e : Eps) (s : V2) : V2 := ⟨if eLt e.eq s.x 0 then 0 else s.x, if eLt e.eq s.y 0 then 0 else s.y⟩

/-- the polyhedra, after the checks: csg3.c:1618-1746 -/
def build (e : Eps) (mo : M3wi) (p : Par) (qs : List (List V2)) : Option Out :=
  if qs.isEmpty then some .nothing
  else do
    let twist := if eEq e.eq p.twist 0 then 0 else p.twist
    let ps ← qs.mapM (polyOf e (matrix e mo p) p.scale twist p.slices (eEq e.eq (clamp e p.scale).x 0))
    return .made ps

/-- `csg3_from_linext` csg3.c:1560-1746; `qs` are the outlines of the children.  `none` is a failed assertion. -/
def convert (e : Eps) (c : Env) (mo : M3wi) (p : Par) (qs : List (List V2)) : Option Out :=
  if !c.in3d then some (msg c.outsideFails)
  else if eLe e.eq p.height 0 then some (msg c.emptyFails)
  else if p.slices < 1 then some (msg c.emptyFails)
  else if (eLt e.eq p.scale.x 0 || eLt e.eq p.scale.y 0) && c.emptyFails then some .fail
  else if eEq e.eq (clamp e p.scale).x 0 != eEq e.eq (clamp e p.scale).y 0 then some .fail
  else build e mo p qs

end

end Hob3l.Linext
