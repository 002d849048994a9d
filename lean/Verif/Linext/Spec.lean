import Verif.Linext.Model

/-!
What `linear_extrude` means, in terms of the object's parameters only.
-/

namespace Hob3l.Linext

open Hob3l.Xform

noncomputable section

/-- the point of the plane turned around the origin by `a` degrees, counter-clockwise -/
def turn (a : ℝ) (v : V2) : V2 :=
  let c := Real.cos (a * Real.pi / 180)
  let s := Real.sin (a * Real.pi / 180)
  ⟨c * v.x - s * v.y, s * v.x + c * v.y⟩

/-- where a point of the outline is at the fraction `t` of the height: turned clockwise by that fraction of the twist,
then scaled by a factor between 1 and the scale, then lifted -/
def place (p : Par) (t : ℝ) (v : V2) : V3 :=
  let w := turn (-(t * p.twist)) v
  ⟨(1 - t + t * p.scale.x) * w.x, (1 - t + t * p.scale.y) * w.y, p.height * (if p.center then t - 1 / 2 else t)⟩

/-- the tip of a cone -/
def tip (p : Par) : V3 := ⟨0, 0, p.height * (if p.center then 1 - 1 / 2 else 1)⟩

/-- parameters that are not within epsilon of a special value without being that value, and that describe a solid -/
structure Plain (e : ℝ) (p : Par) : Prop where
  slices : 1 ≤ p.slices
  height : e ≤ p.height
  height1 : p.height = 1 ∨ e ≤ |p.height - 1|
  twist : p.twist = 0 ∨ e ≤ |p.twist|
  scale : (p.scale.x = 0 ∧ p.scale.y = 0) ∨ (e ≤ p.scale.x ∧ e ≤ p.scale.y)

/-- the outline comes to a point at the top -/
def Cone (p : Par) : Prop := p.scale.x = 0

/-- a scale that is taken as 0: negative, or within epsilon of 0 -/
def Zeroish (e s : ℝ) : Prop := s < -e ∨ |s| < e

/-- the reasons to stop with an error -/
def Refused (e : ℝ) (c : Env) (p : Par) : Prop :=
  (c.in3d = false ∧ c.outsideFails = true) ∨
  (c.in3d = true ∧ c.emptyFails = true ∧ (p.height < e ∨ p.slices = 0 ∨ p.scale.x < -e ∨ p.scale.y < -e)) ∨
  (c.in3d = true ∧ e ≤ p.height ∧ 1 ≤ p.slices ∧ ¬ (Zeroish e p.scale.x ↔ Zeroish e p.scale.y))

/-- the reasons to add nothing without an error -/
def Skipped (e : ℝ) (c : Env) (p : Par) (qs : List (List V2)) : Prop :=
  ¬ Refused e c p ∧ (c.in3d = false ∨ p.height < e ∨ p.slices = 0 ∨ qs = [])

/-- six times the volume of the tetrahedron -/
def vol (a b c d : V3) : ℝ :=
  (b.x - a.x) * ((c.y - a.y) * (d.z - a.z) - (c.z - a.z) * (d.y - a.y))
  - (b.y - a.y) * ((c.x - a.x) * (d.z - a.z) - (c.z - a.z) * (d.x - a.x))
  + (b.z - a.z) * ((c.x - a.x) * (d.y - a.y) - (c.y - a.y) * (d.x - a.x))

/-- the four points are in one plane -/
def Coplanar (a b c d : V3) : Prop := vol a b c d = 0

end

end Hob3l.Linext
