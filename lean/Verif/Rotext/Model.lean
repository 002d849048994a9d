import Verif.Xform.Model
import Verif.Solid.SpecVolume

/-!
`rotate_extrude`: the solids with their coordinates (src/hob3l/csg3.c).  The numbers of the points in the faces are those of
`Verif.Solid.Model` (`rotextArc`).

Numbers are reals, as in `Verif.Solid.Points`; the comparisons keep their epsilon.  The children arrive here as the polygon that
`cp_csg2_flatten` returns for them (points and paths); their conversion, source locations and colours are left out.  The sign of
the stored determinant is that of the determinant of the matrix.
-/

namespace Hob3l.Rotext

open Hob3l.Xform (eEq)
open Hob3l.Solid

noncomputable section

/-- where the object was found, and the options: `emptyFails`, `outsideFails` iff the level of the message is that of a failure, so
that `msg` returns false; `maxFn` is the limit for `$fn` -/
structure Env where
  in3d : Bool
  emptyFails : Bool
  outsideFails : Bool
  maxFn : Nat

/-- result: the function returns false; it returns true and adds nothing; it adds solids, given by their faces -/
inductive Out
  | fail
  | nothing
  | made (solids : List (List (List P3)))

/-- `msg` csg3.c:60-78 -/
def msg (fails : Bool) : Out := if fails then .fail else .nothing

open Classical in
/-- `cp_le` include/hob3lmat/algo.h:79, 90 -/
def eLe (e a b : ℝ) : Bool := decide (a - b < e)

open Classical in
/-- where a point is: csg3.c:2049-2053 -/
def side (e x : ℝ) : Side := if eEq e x 0 then .axis else if x < 0 then .neg else .pos

/-- store a point in the array; `none` is the assertion of `cp_v_nth` -/
def store (l : List P3) (k : Nat) (v : P3) : Option (List P3) := if k < l.length then some (l.set k v) else none

/-- body of the loop over the points, csg3.c:1893-1913; on the axis, only z is stored -/
def arcPt (x0 xi : Nat) (idx : List Nat) (slices : Nat) (cs : Nat → ℝ × ℝ) (p2 : List (ℝ × ℝ)) (i : Nat) (l : List P3) :
    Option (List P3) := do
  let k ← idx[i]?
  let q ← p2[i]?
  if k % 2 = 1 then
    loop (fun j l => do
      let n ← rotextIdx x0 xi idx i j
      store l n ⟨(cs j).1 * q.1, (cs j).2 * q.1, q.2⟩) (sizeEach slices 0 0) l
  else do
    let n ← rotextIdx x0 xi idx i 0
    let o ← l[n]?
    store l n ⟨o.x, o.y, q.2⟩

/-- `rotext_arc` csg3.c:1863-1967: the faces as lists of points; `cs` is the table of directions, `neg` the argument -/
def arc (m : Aff) (p2 : List (ℝ × ℝ)) (paths : List (List Nat)) (idx : List Nat) (x0 : Nat) (cs : Nat → ℝ × ℝ) (slices : Nat)
    (rev : Bool) : Option (List (List P3)) := do
  ass (2 ≤ slices)
  let xi := p2.length - x0
  let l ← loop (arcPt x0 xi idx slices cs p2) (sizeEach p2.length 0 0) (List.replicate (x0 + xi * slices) ⟨0, 0, 0⟩)
  let l := l.map m.app
  let fs ← rotextArc p2.length paths idx x0 slices rev
  fs.2.mapM fun f => f.mapM fun i => l[i]?

/-- the table for a full turn, csg3.c:2069-2074 -/
def csFull (n j : Nat) : ℝ × ℝ := if j = n then (-(circle n 0).1, (circle n 0).2) else (-(circle n j).1, (circle n j).2)

/-- the table for an arc, csg3.c:2090-2094 -/
def csArc (angle : ℝ) (n j : Nat) : ℝ × ℝ :=
  (Real.cos (angle / n * j * (Real.pi / 180)), Real.sin (angle / n * j * (Real.pi / 180)))

open Classical in
/-- `angle` csg3.c:1997-2000 -/
def clampAngle (angle : ℝ) : ℝ := if angle > 360 then 360 else angle

/-- least number of segments, csg3.c:2005 -/
def minSeg (e angle : ℝ) : Nat := if eLe e 360 angle then 3 else if eLe e 180 angle then 2 else 1

open Classical in
/-- the solids, csg3.c:2040-2102 -/
def build (e : ℝ) (m : Aff) (angle : ℝ) (seg : Nat) (p2 : List (ℝ × ℝ)) (paths : List (List Nat)) : Option Out :=
  let pts := p2.map fun q => side e q.1
  let part := partition pts [] 0 0
  let haveNeg := decide (Side.neg ∈ pts)
  if .pos ∈ pts ∧ .neg ∈ pts then some .fail
  else do
    ass (0 < part.2.2)
    if eEq e angle 360 then do
      let m1 := seg / 2
      let m2 := (seg + 1) / 2
      ass (m1 + m2 == seg)
      let a ← arc m p2 paths part.1 part.2.1 (csFull seg) (m1 + 1) (haveNeg ^^ decide (m.det < 0))
      let b ← arc m p2 paths part.1 part.2.1 (fun j => csFull seg (m1 + j)) (m2 + 1) (haveNeg ^^ decide (m.det < 0))
      return .made [a, b]
    else do
      let a ← arc m p2 paths part.1 part.2.1 (csArc angle seg) (seg + 1) (!haveNeg ^^ decide (m.det < 0))
      return .made [a]

/-- `csg3_from_rotext` csg3.c:1969-2105; `detail` is `$fn`.  `none` is a failed assertion. -/
def convert (e : ℝ) (c : Env) (m : Aff) (angle : ℝ) (detail : Nat) (p2 : List (ℝ × ℝ)) (paths : List (List Nat)) : Option Out :=
  if !c.in3d then some (msg c.outsideFails)
  else if eLe e (clampAngle angle) 0 then some (msg c.emptyFails)
  else if paths = [] then some .nothing
  else build e m (clampAngle angle) (getFn detail (minSeg e (clampAngle angle)) c.maxFn false) p2 paths

end

end Hob3l.Rotext
