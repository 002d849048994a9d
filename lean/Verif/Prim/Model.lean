import Verif.Xform.Model
import Verif.Solid.Points

/-!
The parameters of the basic shapes `cube`, `cylinder`, `sphere`, `square`, `circle`: /repo/src/hob3l/csg3.c.

Numbers are reals, as in `Verif.Xform.Model`; the comparisons keep their epsilon.  The points before the transformation are
those of `Verif.Solid.Points`, the faces those of `Verif.Solid.Model`; locations and colours are left out.
-/

namespace Hob3l.Prim

open Hob3l.Xform

noncomputable section

/-- where the object was found, and the options: `inside` iff the context is the right one (3D or 2D); `emptyFails`,
`outsideFails` iff the level of the message is that of a failure, so that `msg` returns false -/
structure Env where
  inside : Bool
  emptyFails : Bool
  outsideFails : Bool
  maxFn : Nat

/-- result: the function returns false; it returns true and adds nothing; it adds a shape with these points (`neg` iff the faces
are reversed); it adds an exact sphere, with this matrix -/
inductive Out
  | fail
  | nothing
  | made (pts : List V3) (neg : Bool)
  | exact (m : M3wi)

/-- `msg` csg3.c -/
def msg (fails : Bool) : Out := if fails then .fail else .nothing

open Classical in
/-- `cp_le` include/hob3lmat/algo.h:79, 90 -/
def eLe (e a b : ℝ) : Bool := decide (a - b < e)

/-- the same point -/
def v3 (p : Solid.P3) : V3 := ⟨p.x, p.y, p.z⟩

/-- `good_scale` csg3.c:311-318 -/
def goodScale (e : Eps) (s : V3) : Bool := !eEq e.eq s.x 0 && !eEq e.eq s.y 0 && !eEq e.eq s.z 0

/-- `good_scale2` csg3.c:320-326 -/
def goodScale2 (e : Eps) (s : V2) : Bool := !eEq e.eq s.x 0 && !eEq e.eq s.y 0

/-- the matrix of `csg3_from_cube` csg3.c:1281-1300 -/
def cubeMat (e : Eps) (mo : M3wi) (s : V3) (center : Bool) : M3wi :=
  let m := if !eEq e.eq s.x 1 || !eEq e.eq s.y 1 || !eEq e.eq s.z 1 then mo.mul (.scale e s.x s.y s.z) else mo
  if center then m.mul (.xlat (-1 / 2) (-1 / 2) (-1 / 2)) else m

open Classical in
/-- the transformation in `faces_n_edges_from_tower` csg3.c:624-632 -/
def place (m : M3wi) (n : Nat) (pt : Nat → Solid.P3) : Out := .made ((List.range n).map fun i => m.n.xform (v3 (pt i))) (decide (m.d < 0))

/-- `csg3_from_cube` csg3.c:1262-1324 -/
def cube (e : Eps) (c : Env) (mo : M3wi) (s : V3) (center : Bool) : Out :=
  if !c.inside then msg c.outsideFails
  else if !goodScale e s then msg c.emptyFails
  else place (cubeMat e mo s center) 8 Solid.cubePt

/-- `csg3_from_sphere` csg3.c:746-794 with `csg3_poly_make_sphere` :715-744; `detail` is `$fn` -/
def sphere (e : Eps) (c : Env) (mo : M3wi) (r : ℝ) (detail : Nat) : Out :=
  if !c.inside then msg c.outsideFails
  else if eLe e.eq r 0 then msg c.emptyFails
  else
    let m := if eEq e.eq r 1 then mo else mo.mul (.scale e r r r)
    let fn := Solid.getFn detail 3 c.maxFn true
    if fn > 0 then place m (fn * ((fn + 1) / 2)) (Solid.spherePt fn ((fn + 1) / 2)) else .exact m

/-- parameters of `cylinder` -/
structure Cyl where
  h : ℝ
  r1 : ℝ
  r2 : ℝ
  center : Bool

/-- `csg3_from_cylinder` csg3.c:1522-1536: height and center -/
def cylMat (e : Eps) (mo : M3wi) (p : Cyl) : M3wi :=
  let m := if eEq e.eq p.h 1 then mo else mo.mul (.scale e 1 1 p.h)
  if p.center then m else m.mul (.xlat 0 0 (1 / 2))

open Classical in
/-- csg3.c:1539-1546: the smaller radius on top -/
def cylSwap (e : Eps) (m : M3wi) (r1 r2 : ℝ) : M3wi × ℝ × ℝ :=
  if r1 < r2 then (m.mul (.scale e 1 1 (-1)), r2, r1) else (m, r1, r2)

/-- csg3.c:1548-1554: the larger radius is 1 -/
def cylUnit (e : Eps) (q : M3wi × ℝ × ℝ) : M3wi × ℝ :=
  if eEq e.eq q.2.1 1 then (q.1, q.2.2) else (q.1.mul (.scale e q.2.1 q.2.1 1), q.2.2 / q.2.1)

/-- the points of `csg3_poly_cylinder` csg3.c:1465-1481, with the cone decided by epsilon -/
def cylPt (fn : Nat) (cone : Bool) (r2 : ℝ) (i : Nat) : Solid.P3 :=
  if i < fn then ⟨(Solid.circle fn i).1, (Solid.circle fn i).2, -(1 / 2)⟩
  else if cone then ⟨0, 0, 1 / 2⟩
  else ⟨(Solid.circle fn (i - fn)).1 * r2, (Solid.circle fn (i - fn)).2 * r2, 1 / 2⟩

/-- `csg3_from_cylinder` csg3.c:1492-1558 with `csg3_poly_cylinder` :1452-1490 -/
def cylinder (e : Eps) (c : Env) (mo : M3wi) (p : Cyl) (detail : Nat) : Out :=
  if !c.inside then msg c.outsideFails
  else if eLe e.eq p.h 0 then msg c.emptyFails
  else if eLe e.eq p.r1 0 && eLe e.eq p.r2 0 then msg c.emptyFails
  else
    let q := cylUnit e (cylSwap e (cylMat e mo p) p.r1 p.r2)
    let fn := Solid.getFn detail 3 c.maxFn false
    let cone := eEq e.eq q.2 0
    place q.1 (if cone then fn + 1 else 2 * fn) (cylPt fn cone q.2)

/-- `xform_2d` csg3.c:1131-1142 -/
def xform2 (m : M3wi) (v : V2) : V2 := let w := m.n.xform ⟨v.x, v.y, 0⟩; ⟨w.x, w.y⟩

/-- result in 2D: the outline, in the order of its path -/
inductive Out2
  | fail
  | nothing
  | made (path : List V2)

/-- `msg` csg3.c -/
def msg2 (fails : Bool) : Out2 := if fails then .fail else .nothing

/-- `csg3_from_circle` csg3.c:1326-1383 -/
def circle (e : Eps) (c : Env) (mo : M3wi) (r : ℝ) (detail : Nat) : Out2 :=
  if !c.inside then msg2 c.outsideFails
  else if eEq e.eq r 0 then msg2 c.emptyFails
  else
    let m := if eEq e.eq r 1 then mo else mo.mul (.scale e r r 1)
    let fn := Solid.getFn detail 3 c.maxFn false
    .made ((List.range fn).map fun (i : Nat) =>
      let cs := sincos ((i : ℝ) * (360 / fn))
      xform2 m ⟨cs.y, -cs.x⟩)

/-- the points of `csg3_from_square` csg3.c:1429-1434 -/
def squarePt (i : Nat) : V2 := ⟨(i.testBit 0).toNat, (i.testBit 1).toNat⟩

/-- `csg3_from_square` csg3.c:1385-1450 -/
def square (e : Eps) (c : Env) (mo : M3wi) (s : V2) (center : Bool) : Out2 :=
  if !c.inside then msg2 c.outsideFails
  else if !goodScale2 e s then msg2 c.emptyFails
  else
    let m := if !eEq e.eq s.x 1 || !eEq e.eq s.y 1 then mo.mul (.scale e s.x s.y 1) else mo
    let m := if center then m.mul (.xlat (-1 / 2) (-1 / 2) 0) else m
    .made ([0, 2, 3, 1].map fun i => xform2 m (squarePt i))

end

end Hob3l.Prim
