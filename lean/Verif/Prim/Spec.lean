import Verif.Prim.Model

/-!
What the basic shapes are, in terms of their parameters only.
-/

namespace Hob3l.Prim

open Hob3l.Xform

noncomputable section

/-- a number that is a special value, or not within epsilon of it -/
def Sharp (e special x : ℝ) : Prop := x = special ∨ e ≤ |x - special|

/-- corner of a box: `a`, `b`, `c` tell which end of the side -/
def corner (s : V3) (center a b c : Bool) : V3 :=
  let o : ℝ := if center then 1 / 2 else 0
  ⟨s.x * ((if a then 1 else 0) - o), s.y * ((if b then 1 else 0) - o), s.z * ((if c then 1 else 0) - o)⟩

/-- corner of a rectangle -/
def corner2 (s : V2) (center a b : Bool) : V3 :=
  let o : ℝ := if center then 1 / 2 else 0
  ⟨s.x * ((if a then 1 else 0) - o), s.y * ((if b then 1 else 0) - o), 0⟩

/-- corner number `j` of the regular polygon with `n` corners around the z axis, radius `r`, height `z`, counter-clockwise -/
def rim (n : Nat) (r z : ℝ) (j : Nat) : V3 :=
  ⟨r * Real.cos (2 * Real.pi * j / n), r * Real.sin (2 * Real.pi * j / n), z⟩

/-- the height of the bottom -/
def Cyl.bottom (p : Cyl) : ℝ := if p.center then -(p.h / 2) else 0

/-- the height of the top -/
def Cyl.top (p : Cyl) : ℝ := if p.center then p.h / 2 else p.h

/-- parameters of a cylinder that are not close to a special value without being equal to it -/
structure Cyl.Plain (e : ℝ) (p : Cyl) : Prop where
  h : e ≤ p.h
  h1 : Sharp e 1 p.h
  r : e ≤ max p.r1 p.r2
  r1 : Sharp e 1 (max p.r1 p.r2)
  /-- the smaller radius is 0, or not too small compared to the other one -/
  r0 : Sharp e 0 (min p.r1 p.r2 / max p.r1 p.r2)

/-- a size of which not all sides are within epsilon of 1, or which is exactly 1 -/
def SizeOk (e : ℝ) (s : V3) : Prop := s = ⟨1, 1, 1⟩ ∨ e ≤ |s.x - 1| ∨ e ≤ |s.y - 1| ∨ e ≤ |s.z - 1|

/-- the point at the polar angle `w` from the z axis and the direction of corner `j` of `n` -/
def onSphere (r w : ℝ) (n j : Nat) : V3 := rim n (r * Real.sin w) (r * Real.cos w) j

end

end Hob3l.Prim
