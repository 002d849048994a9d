import Verif.Solid.Model
import Mathlib.Analysis.SpecialFunctions.Trigonometric.Basic

/-
Model of the coordinates of the points of the solids in /repo/src/hob3l/csg3.c, in exact arithmetic on real numbers
(simplification: the C code uses `double`).
-/

namespace Hob3l.Solid

/-- `cp_circle_iter_t` include/hob3lmat/algo.h:22-30 -/
structure Circ (α : Type) where
  cos : α
  sin : α
  idx : Nat
  i : Nat
deriving DecidableEq, Repr

section
variable {α : Type} [Neg α] [Zero α] [One α]

/-- `CP_CIRCLE_ITER_INIT` include/hob3lmat/algo.h:32-40 -/
def circInit : Circ α := ⟨1, 0, 0, 0⟩

/-- `cp_circle_iter_step` src/hob3lmat/algo.c:13-34; `C k`, `S k` are cosine and sine, as computed, of `k` times the step -/
def circStep (n : Nat) (C S : Nat → α) (c : Circ α) : Circ α :=
  let i := c.i + 1
  if i % 2 = 1 then
    let i1 := i + 1
    let idx := i1 / 2
    if i1 = n then ⟨-1, 0, idx, i⟩ else ⟨C idx, S idx, idx, i⟩
  else ⟨c.cos, -c.sin, n - c.idx, i⟩

/-- the loop `for (cp_circle_each(iter, n))` include/hob3lmat/algo.h:42-45: all values of `iter` in the body; `k` is the number
of steps that are left -/
def circRun (n : Nat) (C S : Nat → α) : Nat → Circ α → List (Circ α)
  | 0, _ => []
  | k + 1, c => c :: circRun n C S k (circStep n C S c)

/-- all steps -/
def circEach (n : Nat) (C S : Nat → α) : List (Circ α) := circRun n C S n circInit

/-- the points stored by the loops over a circle (`cp_v_nth(&o->point, i.idx) = ...`): the value of the last step with this
index, if any -/
def circPt (n : Nat) (C S : Nat → α) (j : Nat) : Option (α × α) :=
  ((circEach n C S).reverse.find? fun c => c.idx == j).map fun c => (c.cos, c.sin)
end

/-- point in space -/
structure P3 where
  x : ℝ
  y : ℝ
  z : ℝ

/-- the points of a circle with exact cosine and sine; `cp_cos_deg`, `cp_sin_deg` include/hob3lmat/algo.h -/
noncomputable def circle (n j : Nat) : ℝ × ℝ :=
  (circPt n (fun k => Real.cos (360 / n * k * (Real.pi / 180))) (fun k => Real.sin (360 / n * k * (Real.pi / 180))) j).getD (0, 0)

/-- the points of `cube` csg3.c:1311-1314 -/
def cubePt (i : Nat) : P3 :=
  let a := !(i.testBit 0); let b := !(i.testBit 1); let c := !(i.testBit 2)
  ⟨(a ^^ b).toNat, b.toNat, c.toNat⟩

/-- the points of `cylinder` csg3.c:1466-1481 -/
noncomputable def cylinderPt (fn : Nat) (r2 : ℝ) (i : Nat) : P3 :=
  if r2 = 0 then
    if i < fn then ⟨(circle fn i).1, (circle fn i).2, -(1 / 2)⟩ else ⟨0, 0, 1 / 2⟩
  else
    if i < fn then ⟨(circle fn i).1, (circle fn i).2, -(1 / 2)⟩
    else ⟨(circle fn (i - fn)).1 * r2, (circle fn (i - fn)).2 * r2, 1 / 2⟩

/-- the points of `sphere` csg3.c:724-740 -/
noncomputable def spherePt (fn fnz : Nat) (i : Nat) : P3 :=
  let w := ((1 + 2 * (i / fn) : Nat) : ℝ) * (180 / ((fnz * 2 : Nat) : ℝ))
  let r := Real.sin (w * (Real.pi / 180))
  ⟨r * (circle fn (i % fn)).1, r * (circle fn (i % fn)).2, Real.cos (w * (Real.pi / 180))⟩

/-- the points of one path of `linear_extrude` without twist and with the same scale in both directions csg3.c:1703-1729;
`path` are the points of the path -/
noncomputable def linextPt (path : List (ℝ × ℝ)) (slices : Nat) (s : ℝ) (i : Nat) : P3 :=
  let k := i / path.length
  let p := path.getD (i % path.length) (0, 0)
  let z := (k : ℝ) / slices
  if s = 0 ∧ k = slices then ⟨0, 0, 1⟩
  else ⟨(1 + (s - 1) * z) * p.1, (1 + (s - 1) * z) * p.2, z⟩

/-- affine map of space: rows of the matrix and the translation; `cp_mat3w_t` include/hob3lmat/mat_tam.h -/
structure Aff where
  a : P3
  b : P3
  c : P3
  t : P3

/-- `cp_vec3w_xform` src/hob3lmat/mat.c -/
def Aff.app (m : Aff) (p : P3) : P3 :=
  ⟨m.a.x * p.x + m.a.y * p.y + m.a.z * p.z + m.t.x, m.b.x * p.x + m.b.y * p.y + m.b.z * p.z + m.t.y,
    m.c.x * p.x + m.c.y * p.y + m.c.z * p.z + m.t.z⟩

end Hob3l.Solid
