import Verif.Rect.Spec
import Verif.Xform.Lemmas
import Mathlib.Tactic.FinCases

/-!
C52: the test for axis permutations.
-/

namespace Hob3l.Rect

open Hob3l.Xform

theorem nz_iff {e : Eps} {x : ℝ} : nz e x = true ↔ e.eq ≤ |x| := by
  unfold nz
  cases h : eEq e.eq x 0
  · simpa using eEq0_false.1 h
  · simpa using eEq0_iff.1 h

theorem clear_nz {e : Eps} (h0 : 0 < e.eq) {m : M3} (hc : Clear e m) (i j : Fin 3) :
    nz e (m.toMatrix i j) = true ↔ m.toMatrix i j ≠ 0 := by
  rw [nz_iff]
  rcases hc i j with h | h
  · rw [h]; simpa using h0
  · exact ⟨fun _ => ne_zero_of_eps h0 h, fun _ => h⟩

/-- C52 fails completely: no axis permutation is accepted. -/
theorem C52_rejects_wrong (e : Eps) (h0 : 0 < e.eq) (m : M3) (hc : Clear e m) (hp : AxisPerm m) : isRectRot e m = false := by
  obtain ⟨σ, hσ⟩ := hp
  have key : ∀ i j, nz e (m.toMatrix i j) = decide (σ i = j) := by
    intro i j
    rw [Bool.eq_iff_iff, clear_nz h0 hc, hσ]; simp
  have k00 : nz e m.m00 = _ := key 0 0
  have k01 : nz e m.m01 = _ := key 0 1
  have k02 : nz e m.m02 = _ := key 0 2
  have k10 : nz e m.m10 = _ := key 1 0
  have k11 : nz e m.m11 = _ := key 1 1
  have k12 : nz e m.m12 = _ := key 1 2
  have k20 : nz e m.m20 = _ := key 2 0
  have k21 : nz e m.m21 = _ := key 2 1
  have k22 : nz e m.m22 = _ := key 2 2
  unfold isRectRot
  rw [k00, k01, k02, k10, k11, k12, k20, k21, k22]
  clear key k00 k01 k02 k10 k11 k12 k20 k21 k22 hσ
  revert σ
  decide

/-- the hypotheses can be met: a quarter turn around the Z axis -/
example : Clear .dflt ⟨0, -1, 0, 1, 0, 0, 0, 0, 1⟩ ∧ AxisPerm ⟨0, -1, 0, 1, 0, 0, 0, 0, 1⟩ := by
  refine ⟨fun i j => ?_, Equiv.swap 0 1, fun i j => ?_⟩
  · fin_cases i <;> fin_cases j <;> norm_num [M3.toMatrix, Eps.dflt]
  · have hs : (Equiv.swap (0 : Fin 3) 1) 0 = 1 ∧ (Equiv.swap (0 : Fin 3) 1) 1 = 0 ∧ (Equiv.swap (0 : Fin 3) 1) 2 = 2 := by decide
    fin_cases i <;> fin_cases j <;> simp [M3.toMatrix, hs]

/-- C52: the zero matrix and a matrix that is not an axis permutation but regular are accepted. -/
theorem C52_accepts_wrong (e : Eps) (h0 : 0 < e.eq) (h1 : e.eq ≤ 1) :
    isRectRot e ⟨0, 0, 0, 0, 0, 0, 0, 0, 0⟩ = true ∧
    isRectRot e ⟨1, 0, 1, 1, 1, 0, 0, 1, 0⟩ = true ∧ (⟨1, 0, 1, 1, 1, 0, 0, 1, 0⟩ : M3).toMatrix.det = 1 ∧
      ¬ AxisPerm ⟨1, 0, 1, 1, 1, 0, 0, 1, 0⟩ := by
  have z : nz e 0 = false := by
    cases h : nz e 0
    · rfl
    · rw [nz_iff] at h; simp at h; linarith
  have o : nz e 1 = true := nz_iff.2 (by simpa using h1)
  refine ⟨by simp [isRectRot, z], by simp [isRectRot, z, o], by rw [← det3]; norm_num [M3.det], fun ⟨σ, hσ⟩ => ?_⟩
  have a := (hσ 0 0).1 (by simp [M3.toMatrix])
  have b := (hσ 0 2).1 (by simp [M3.toMatrix])
  rw [a] at b
  exact absurd b (by decide)

/-- C52, what the test does: it accepts exactly the matrices with one of these patterns of zeros.  (The full statement would be
`isRectRot e m = true ↔ AxisPerm m`, which is refuted in both directions by the two theorems above.) -/
theorem C52_accepts_iff_partial (e : Eps) (h0 : 0 < e.eq) (m : M3) (hc : Clear e m) : isRectRot e m = true ↔
    (m.m00 ≠ 0 ∧ m.m10 ≠ 0 ∧ m.m01 = 0 ∧ m.m12 = 0 ∧ m.m22 = 0 ∧ m.m11 ≠ 0 ∧ m.m20 = 0) ∨
    (m.m00 ≠ 0 ∧ m.m10 ≠ 0 ∧ m.m01 = 0 ∧ m.m12 = 0 ∧ m.m22 = 0 ∧ m.m11 = 0 ∧ m.m21 = 0) ∨
    (m.m00 ≠ 0 ∧ m.m10 = 0 ∧ m.m11 = 0 ∧ m.m21 = 0 ∧ m.m02 = 0 ∧ m.m01 ≠ 0 ∧ m.m22 = 0) ∨
    (m.m00 ≠ 0 ∧ m.m10 = 0 ∧ m.m11 = 0 ∧ m.m21 = 0 ∧ m.m02 = 0 ∧ m.m01 = 0 ∧ m.m20 = 0 ∧ m.m12 = 0) ∨
    (m.m00 = 0 ∧ m.m10 = 0 ∧ m.m20 = 0 ∧ m.m01 = 0 ∧ m.m02 = 0 ∧ m.m11 ≠ 0 ∧ m.m22 = 0) ∨
    (m.m00 = 0 ∧ m.m10 = 0 ∧ m.m20 = 0 ∧ m.m01 = 0 ∧ m.m02 = 0 ∧ m.m11 = 0 ∧ m.m21 = 0 ∧ m.m12 = 0) := by
  have k := fun i j => clear_nz h0 hc i j
  have k00 : nz e m.m00 = true ↔ m.m00 ≠ 0 := k 0 0
  have k01 : nz e m.m01 = true ↔ m.m01 ≠ 0 := k 0 1
  have k02 : nz e m.m02 = true ↔ m.m02 ≠ 0 := k 0 2
  have k10 : nz e m.m10 = true ↔ m.m10 ≠ 0 := k 1 0
  have k11 : nz e m.m11 = true ↔ m.m11 ≠ 0 := k 1 1
  have k12 : nz e m.m12 = true ↔ m.m12 ≠ 0 := k 1 2
  have k20 : nz e m.m20 = true ↔ m.m20 ≠ 0 := k 2 0
  have k21 : nz e m.m21 = true ↔ m.m21 ≠ 0 := k 2 1
  have k22 : nz e m.m22 = true ↔ m.m22 ≠ 0 := k 2 2
  unfold isRectRot
  simp only [k00, k01, k02, k10, k11, k12, k20, k21, k22]
  by_cases h1 : m.m00 = 0 <;> by_cases h2 : m.m10 = 0 <;> by_cases h3 : m.m01 = 0 <;> by_cases h4 : m.m11 = 0 <;>
    simp only [h1, h2, h3, h4, ne_eq, not_true_eq_false, not_false_eq_true, if_true, if_false, true_and, false_and, and_false, or_false, false_or] <;>
    simp <;> (try split_ifs) <;> simp_all

end Hob3l.Rect
