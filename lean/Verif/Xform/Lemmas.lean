import Verif.Xform.Spec
import Mathlib.Tactic.LinearCombination
import Mathlib.Tactic.FieldSimp
import Mathlib.Tactic.FinCases
import Mathlib.Tactic.Positivity
import Mathlib.LinearAlgebra.Matrix.Adjugate

/-!
Lemmas about the matrices.
-/

namespace Hob3l.Xform

theorem eEq_iff {e a b : ℝ} : eEq e a b = true ↔ |a - b| < e := by simp [eEq]

theorem eEq_false {e a b : ℝ} : eEq e a b = false ↔ e ≤ |a - b| := by simp [eEq]

theorem eEq0_false {e a : ℝ} : eEq e a 0 = false ↔ e ≤ |a| := by simp [eEq]

theorem eEq0_iff {e a : ℝ} : eEq e a 0 = true ↔ |a| < e := by simp [eEq]

theorem ne_zero_of_eps {e a : ℝ} (he : 0 < e) (h : e ≤ |a|) : a ≠ 0 := by
  rintro rfl; simp at h; linarith

theorem det2 (m : M2) : m.det = m.toMatrix.det := by
  simp only [M2.det, M2.toMatrix, Matrix.det_fin_two_of]; ring

theorem det3 (m : M3) : m.det = m.toMatrix.det := by
  simp only [M3.det, M3.toMatrix, Matrix.det_fin_three]
  simp
  ring

theorem det4 (m : M4) : m.det = m.toMatrix.det := by
  simp only [M4.det, M4.toMatrix, Matrix.det_succ_row_zero, Fin.sum_univ_succ]
  simp [Fin.succAbove]
  ring

theorem inv2_ok (e : Eps) (he : 0 < e.sqr) (m : M2) (h : e.sqr ≤ |m.det|) :
    m.toMatrix * (m.inv e).1.toMatrix = 1 ∧ (m.inv e).1.toMatrix * m.toMatrix = 1 ∧ (m.inv e).2 = m.det := by
  have hc : eEq e.sqr ((m.m00 * m.m11) - (m.m10 * m.m01)) 0 = false := eEq0_false.2 h
  have hd : m.det ≠ 0 := ne_zero_of_eps he h
  have h1 : m.toMatrix * (m.inv e).1.toMatrix = 1 := by
    simp only [M2.inv, hc]
    simp only [M2.det] at hd
    ext i j
    fin_cases i <;> fin_cases j <;>
      simp [M2.toMatrix, Matrix.mul_apply, Fin.sum_univ_succ] <;> field_simp <;> ring
  exact ⟨h1, mul_eq_one_comm.1 h1, by simp [M2.inv, hc, M2.det]⟩

theorem inv3_ok (e : Eps) (he : 0 < e.sqr) (m : M3) (h : e.sqr ≤ |m.det|) :
    m.toMatrix * (m.inv e).1.toMatrix = 1 ∧ (m.inv e).1.toMatrix * m.toMatrix = 1 ∧ (m.inv e).2 = m.det := by
  have hd : m.det ≠ 0 := ne_zero_of_eps he h
  have hc := eEq0_false.2 h
  simp only [M3.det] at hd hc
  have h1 : m.toMatrix * (m.inv e).1.toMatrix = 1 := by
    simp only [M3.inv]
    generalize hdd : (_ : ℝ) - _ + _ = d at hd hc ⊢
    simp only [hc]
    ext i j
    fin_cases i <;> fin_cases j <;>
      simp [M3.toMatrix, Matrix.mul_apply, Fin.sum_univ_succ] <;> field_simp <;> (subst hdd; ring)
  exact ⟨h1, mul_eq_one_comm.1 h1, by simp [M3.inv, hc, M3.det]⟩

theorem inv4_ok (e : Eps) (he : 0 < e.sqr) (m : M4) (h : e.sqr ≤ |m.det|) :
    m.toMatrix * (m.inv e).1.toMatrix = 1 ∧ (m.inv e).1.toMatrix * m.toMatrix = 1 ∧ (m.inv e).2 = m.det := by
  have hd : m.det ≠ 0 := ne_zero_of_eps he h
  have hc := eEq0_false.2 h
  simp only [M4.det] at hd hc
  have h1 : m.toMatrix * (m.inv e).1.toMatrix = 1 := by
    simp only [M4.inv]
    generalize hdd : (_ : ℝ) - _ + _ + _ - _ + _ = d at hd hc ⊢
    simp only [hc]
    ext i j
    fin_cases i <;> fin_cases j <;>
      simp [M4.toMatrix, Matrix.mul_apply, Fin.sum_univ_succ] <;> field_simp <;> (subst hdd; ring)
  exact ⟨h1, mul_eq_one_comm.1 h1, by simp [M4.inv, hc, M4.det]⟩

theorem inv2w_ok (e : Eps) (he : 0 < e.sqr) (m : M2w) (h : e.sqr ≤ |m.b.det|) :
    (∀ p, m.xform ((m.inv e).1.xform p) = p) ∧ (∀ p, (m.inv e).1.xform (m.xform p) = p) ∧ (m.inv e).2 = m.b.det := by
  have hd : m.b.det ≠ 0 := ne_zero_of_eps he h
  have hc := eEq0_false.2 h
  simp only [M2.det] at hd hc
  refine ⟨fun p => ?_, fun p => ?_, by simp [M2w.inv, hc, M2.det]⟩
  · simp only [M2w.inv, M2w.xform, M2.xform, V2.add]
    generalize hdd : (_ : ℝ) - _ = d at hd hc ⊢
    simp only [hc]
    ext <;> simp <;> field_simp <;> (subst hdd; ring)
  · simp only [M2w.inv, M2w.xform, M2.xform, V2.add]
    generalize hdd : (_ : ℝ) - _ = d at hd hc ⊢
    simp only [hc]
    ext <;> simp <;> field_simp <;> (subst hdd; ring)

theorem inv3w_ok (e : Eps) (he : 0 < e.sqr) (m : M3w) (h : e.sqr ≤ |m.b.det|) :
    (∀ p, m.xform ((m.inv e).1.xform p) = p) ∧ (∀ p, (m.inv e).1.xform (m.xform p) = p) ∧ (m.inv e).2 = m.b.det := by
  have hd : m.b.det ≠ 0 := ne_zero_of_eps he h
  have hc := eEq0_false.2 h
  simp only [M3.det] at hd hc
  refine ⟨fun p => ?_, fun p => ?_, by simp [M3w.inv, hc, M3.det]⟩
  · simp only [M3w.inv, M3w.xform, M3.xform, V3.add]
    generalize hdd : (_ : ℝ) - _ + _ = d at hd hc ⊢
    simp only [hc]
    ext <;> simp <;> field_simp <;> (subst hdd; ring)
  · simp only [M3w.inv, M3w.xform, M3.xform, V3.add]
    generalize hdd : (_ : ℝ) - _ + _ = d at hd hc ⊢
    simp only [hc]
    ext <;> simp <;> field_simp <;> (subst hdd; ring)

theorem mul_xform (a b : M3w) (p : V3) : (a.mul b).xform p = a.xform (b.xform p) := by
  simp only [M3w.mul, M3.mul, M3w.xform, M3.xform, V3.add]
  ext <;> simp <;> ring

theorem det_mul (a b : M3) : (a.mul b).det = a.det * b.det := by
  simp only [M3.mul, M3.det]; ring

theorem Inverse.mul {a b : M3wi} (ha : Inverse a) (hb : Inverse b) : Inverse (a.mul b) := by
  refine ⟨fun p => ?_, fun p => ?_, ?_⟩
  · simp only [M3wi.mul, mul_xform, ha.left, hb.left]
  · simp only [M3wi.mul, mul_xform, ha.right, hb.right]
  · simp only [M3wi.mul]
    rw [← det3]
    simp only [M3w.mul]
    rw [det_mul, ha.det, hb.det, det3, det3]

theorem xlat_inverse (x y z : ℝ) : Inverse (.xlat x y z) := by
  refine ⟨fun p => ?_, fun p => ?_, ?_⟩
  · simp only [M3wi.xlat, M3w.xform, M3.xform, V3.add, M3.one, M3.scale]; ext <;> simp
  · simp only [M3wi.xlat, M3w.xform, M3.xform, V3.add, M3.one, M3.scale]; ext <;> simp
  · rw [← det3]; simp [M3wi.xlat, M3.det, M3.one, M3.scale]

theorem scale_inverse (e : Eps) (he : 0 < e.eq) {x y z : ℝ} (hx : e.eq ≤ |x|) (hy : e.eq ≤ |y|) (hz : e.eq ≤ |z|) :
    Inverse (.scale e x y z) := by
  have h1 := ne_zero_of_eps he hx
  have h2 := ne_zero_of_eps he hy
  have h3 := ne_zero_of_eps he hz
  have e1 : div0 e 1 x = 1 / x := by unfold div0; rw [eEq0_false.2 hx]; simp
  have e2 : div0 e 1 y = 1 / y := by unfold div0; rw [eEq0_false.2 hy]; simp
  have e3 : div0 e 1 z = 1 / z := by unfold div0; rw [eEq0_false.2 hz]; simp
  refine ⟨fun p => ?_, fun p => ?_, ?_⟩
  · simp only [M3wi.scale, M3w.xform, M3.xform, V3.add, M3.scale, e1, e2, e3]; ext <;> simp <;> field_simp
  · simp only [M3wi.scale, M3w.xform, M3.xform, V3.add, M3.scale, e1, e2, e3]; ext <;> simp <;> field_simp
  · rw [← det3]; simp [M3wi.scale, M3.det, M3.scale]

/-- orthogonal matrices -/
structure Orth (a : M3) : Prop where
  left : ∀ p, a.trans.xform (a.xform p) = p
  right : ∀ p, a.xform (a.trans.xform p) = p

theorem orth_of {a : M3} (h : a.toMatrix * a.trans.toMatrix = 1) : Orth a := by
  have h' : a.trans.toMatrix * a.toMatrix = 1 := mul_eq_one_comm.1 h
  constructor
  · intro p
    have g : ∀ i j, (a.trans.toMatrix * a.toMatrix) i j = (1 : Matrix (Fin 3) (Fin 3) ℝ) i j := by rw [h']; simp
    have g00 := g 0 0; have g01 := g 0 1; have g02 := g 0 2
    have g10 := g 1 0; have g11 := g 1 1; have g12 := g 1 2
    have g20 := g 2 0; have g21 := g 2 1; have g22 := g 2 2
    simp [M3.toMatrix, M3.trans, Matrix.mul_apply, Fin.sum_univ_succ] at g00 g01 g02 g10 g11 g12 g20 g21 g22
    simp only [M3.xform, M3.trans]
    ext <;> simp only
    · linear_combination p.x * g00 + p.y * g01 + p.z * g02
    · linear_combination p.x * g10 + p.y * g11 + p.z * g12
    · linear_combination p.x * g20 + p.y * g21 + p.z * g22
  · intro p
    have g : ∀ i j, (a.toMatrix * a.trans.toMatrix) i j = (1 : Matrix (Fin 3) (Fin 3) ℝ) i j := by rw [h]; simp
    have g00 := g 0 0; have g01 := g 0 1; have g02 := g 0 2
    have g10 := g 1 0; have g11 := g 1 1; have g12 := g 1 2
    have g20 := g 2 0; have g21 := g 2 1; have g22 := g 2 2
    simp [M3.toMatrix, M3.trans, Matrix.mul_apply, Fin.sum_univ_succ] at g00 g01 g02 g10 g11 g12 g20 g21 g22
    simp only [M3.xform, M3.trans]
    ext <;> simp only
    · linear_combination p.x * g00 + p.y * g01 + p.z * g02
    · linear_combination p.x * g10 + p.y * g11 + p.z * g12
    · linear_combination p.x * g20 + p.y * g21 + p.z * g22

theorem ofRot_inverse {a : M3} (h : Orth a) (hd : a.det = 1) : Inverse (.ofRot a) := by
  refine ⟨fun p => ?_, fun p => ?_, ?_⟩
  · have := h.left p
    simp only [M3wi.ofRot, M3w.xform]
    have z : ∀ q : V3, q.add ⟨0, 0, 0⟩ = q := fun q => by simp [V3.add]
    rw [z, z]; exact this
  · have := h.right p
    simp only [M3wi.ofRot, M3w.xform]
    have z : ∀ q : V3, q.add ⟨0, 0, 0⟩ = q := fun q => by simp [V3.add]
    rw [z, z]; exact this
  · rw [← det3]; exact hd.symm

theorem rotMat_orth {u : V3} {sc : V2} (hu : u.x * u.x + u.y * u.y + u.z * u.z = 1) (hs : sc.x * sc.x + sc.y * sc.y = 1) :
    Orth (rotMat u sc) ∧ (rotMat u sc).det = 1 := by
  obtain ⟨x, y, z⟩ := u
  obtain ⟨s, c⟩ := sc
  simp only at hu hs
  constructor
  · apply orth_of
    ext i j
    fin_cases i <;> fin_cases j <;>
      simp [M3.toMatrix, M3.trans, rotMat, Matrix.mul_apply, Fin.sum_univ_succ]
    · linear_combination ((-2*c*x^2) + 1*c^2*x^2 + 1*s^2 + 1*x^2) * hu + (1 + (-1*x^2)) * hs
    · linear_combination ((-2*c*x*y) + 1*c^2*x*y + 1*x*y) * hu + ((-1*x*y)) * hs
    · linear_combination ((-2*c*x*z) + 1*c^2*x*z + 1*x*z) * hu + ((-1*x*z)) * hs
    · linear_combination ((-2*c*x*y) + 1*c^2*x*y + 1*x*y) * hu + ((-1*x*y)) * hs
    · linear_combination ((-2*c*y^2) + 1*c^2*y^2 + 1*s^2 + 1*y^2) * hu + (1 + (-1*y^2)) * hs
    · linear_combination ((-2*c*y*z) + 1*c^2*y*z + 1*y*z) * hu + ((-1*y*z)) * hs
    · linear_combination ((-2*c*x*z) + 1*c^2*x*z + 1*x*z) * hu + ((-1*x*z)) * hs
    · linear_combination ((-2*c*y*z) + 1*c^2*y*z + 1*y*z) * hu + ((-1*y*z)) * hs
    · linear_combination (1 + (-2*c*z^2) + (-1*c^2) + 1*c^2*z^2 + 1*z^2) * hu + (1*x^2 + 1*y^2) * hs
  · simp only [M3.det, rotMat]
    linear_combination ((-1*c*s^2*x^2) + (-1*c*s^2*y^2) + (-1*c*s^2*z^2) + 1*c^2 + (-1*c^3) + 1*s^2 + 1*s^2*x^2 + 1*s^2*y^2 + 1*s^2*z^2) * hu + (1) * hs

end Hob3l.Xform
