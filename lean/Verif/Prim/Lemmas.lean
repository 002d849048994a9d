import Verif.Prim.Spec
import Verif.Solid.PropsVolume
import Verif.Xform.LemmasStep
import Mathlib.Tactic.SplitIfs

/-!
Lemmas about the matrices and points of the basic shapes.
-/

namespace Hob3l.Prim

open Hob3l.Xform

theorem mul_n (a b : M3wi) : (a.mul b).n = a.n.mul b.n := rfl
theorem mul_d (a b : M3wi) : (a.mul b).d = a.d * b.d := rfl

theorem scale_xform (e : Eps) (x y z : ℝ) (v : V3) : (M3wi.scale e x y z).n.xform v = ⟨x * v.x, y * v.y, z * v.z⟩ := by
  simp only [M3wi.scale, M3w.xform, M3.xform, V3.add, M3.scale]; ext <;> simp

theorem xlat_xform (x y z : ℝ) (v : V3) : (M3wi.xlat x y z).n.xform v = ⟨v.x + x, v.y + y, v.z + z⟩ := by
  simp only [M3wi.xlat, M3w.xform, M3.xform, V3.add, M3.one, M3.scale]; ext <;> simp

theorem mulScale_xform (e : Eps) (m : M3wi) (x y z : ℝ) (v : V3) :
    (m.mul (.scale e x y z)).n.xform v = m.n.xform ⟨x * v.x, y * v.y, z * v.z⟩ := by
  rw [mul_n, mul_xform, scale_xform]

theorem mulXlat_xform (m : M3wi) (x y z : ℝ) (v : V3) :
    (m.mul (.xlat x y z)).n.xform v = m.n.xform ⟨v.x + x, v.y + y, v.z + z⟩ := by
  rw [mul_n, mul_xform, xlat_xform]

theorem mulScale_d (e : Eps) (m : M3wi) (x y z : ℝ) : (m.mul (.scale e x y z)).d = m.d * (x * y * z) := rfl
theorem mulXlat_d (m : M3wi) (x y z : ℝ) : (m.mul (.xlat x y z)).d = m.d := by
  show m.d * 1 = m.d
  rw [mul_one]

theorem eEq_self {e : ℝ} (h : 0 < e) (x : ℝ) : eEq e x x = true := eEq_iff.2 (by simpa using h)

/-- scaling unless it is by 1 up to epsilon, in one direction -/
theorem sharp_cases {e s x : ℝ} (h0 : 0 < e) (h : Sharp e s x) : (eEq e x s = true ∧ x = s) ∨ eEq e x s = false := by
  rcases h with h | h
  · exact Or.inl ⟨by rw [h]; exact eEq_self h0 s, h⟩
  · exact Or.inr (eEq_false.2 h)

theorem neg_mul_pos {a b : ℝ} (hb : 0 < b) : a * b < 0 ↔ a < 0 := by
  constructor
  · intro h; by_contra hc; exact absurd h (not_lt.2 (mul_nonneg (not_lt.1 hc) hb.le))
  · intro h; exact mul_neg_of_neg_of_pos h hb

theorem neg_mul_neg {a b : ℝ} (hb : b < 0) : a * b < 0 ↔ 0 < a := by
  constructor
  · intro h; by_contra hc; exact absurd h (not_lt.2 (mul_nonneg_of_nonpos_of_nonpos (not_lt.1 hc) hb.le))
  · intro h; exact mul_neg_of_pos_of_neg h hb

theorem getFn_pos (d maxFn : Nat) (h : 3 ≤ maxFn) : 3 ≤ Solid.getFn d 3 maxFn false := by
  unfold Solid.getFn
  split_ifs <;> simp_all <;> omega

end Hob3l.Prim
