import Verif.Poly.SpecGeo
import Verif.Poly.LemmasLine
import Verif.Poly.LemmasRing

import Mathlib.Tactic.Push
import Mathlib.Tactic.NormNum

/-!
The plane is sheared so that the order of the sweep is the order of the first coordinate.
-/

namespace Hob3l.Poly

/-- the shear factor -/
def K : ℚ := 4294967296

/-- a point in sheared coordinates -/
def sh (p : P) : ℚ × ℚ := (K * p.1 + p.2, p.2)

theorem sh_lt {p q : P} (hp : Small p) (hq : Small q) : (sh p).1 < (sh q).1 ↔ Lt p q := by
  have e : (sh p).1 < (sh q).1 ↔ 4294967296 * p.1 + p.2 < 4294967296 * q.1 + q.2 := by
    unfold sh K
    simp only
    rw [← Int.cast_lt (R := ℚ)]
    push_cast
    rfl
  rw [e]
  unfold Small at hp hq
  unfold Lt
  omega

theorem sh_inj {p q : P} (h : sh p = sh q) : p = q := by
  unfold sh K at h
  simp only [Prod.mk.injEq] at h
  obtain ⟨h1, h2⟩ := h
  have h2' : p.2 = q.2 := by exact_mod_cast h2
  have h3 : (p.1 : ℚ) = q.1 := by linarith
  exact Prod.ext (by exact_mod_cast h3) h2'

theorem sh_fst_inj {p q : P} (hp : Small p) (hq : Small q) (h : (sh p).1 = (sh q).1) : p = q := by
  have e : 4294967296 * p.1 + p.2 = 4294967296 * q.1 + q.2 := by
    unfold sh K at h
    simp only at h
    exact_mod_cast h
  unfold Small at hp hq
  apply Prod.ext <;> omega

/-- the exact cross product -/
def crossI (a o b : P) : Int := (a.1 - o.1) * (b.2 - o.2) - (a.2 - o.2) * (b.1 - o.1)

theorem mul_lt {a b : Int} (ha : -2147483648 < a ∧ a < 2147483648) (hb : -2147483648 < b ∧ b < 2147483648) :
    -4611686018427387904 < a * b ∧ a * b < 4611686018427387904 := by
  have h1 : a.natAbs ≤ 2147483647 := by omega
  have h2 : b.natAbs ≤ 2147483647 := by omega
  have h3 : (a * b).natAbs ≤ 2147483647 * 2147483647 := by
    rw [Int.natAbs_mul]; exact Nat.mul_le_mul h1 h2
  omega

theorem cross3_eq {a o b : P} (ha : Small a) (ho : Small o) (hb : Small b) : cross3 a o b = some (crossI a o b) := by
  unfold Small at ha ho hb
  have d : ∀ x y : Int, (-1073741824 ≤ x ∧ x < 1073741824) → (-1073741824 ≤ y ∧ y < 1073741824) →
      Matq.dimSub x y = some (x - y) := by
    intro x y hx hy
    unfold Matq.dimSub Matq.chk32
    rw [if_pos (by simp only [Matq.I32] at *; omega)]
  have m : ∀ x y : Int, (-2147483648 < x ∧ x < 2147483648) → (-2147483648 < y ∧ y < 2147483648) →
      Matq.dimMul x y = some (x * y) := by
    intro x y hx hy
    have := mul_lt hx hy
    unfold Matq.dimMul Matq.chk64
    rw [if_pos (by simp only [Matq.I64] at *; omega)]
  unfold cross3 Matq.rightCross3Z Matq.crossZ
  rw [d _ _ ha.1 ho.1, d _ _ ha.2 ho.2, d _ _ hb.1 ho.1, d _ _ hb.2 ho.2]
  simp only [Option.bind_eq_bind, Option.bind_some]
  have h1 := mul_lt (a := a.1 - o.1) (b := b.2 - o.2) (by omega) (by omega)
  have h2 := mul_lt (a := a.2 - o.2) (b := b.1 - o.1) (by omega) (by omega)
  rw [m _ _ (by omega) (by omega), m _ _ (by omega) (by omega)]
  simp only [Option.bind_some]
  unfold Matq.dimwSub Matq.chk64
  rw [if_pos (by simp only [Matq.I64] at *; omega)]
  rfl

/-- the shear multiplies areas -/
theorem cross_sh (a o b : P) : ((sh a).1 - (sh o).1) * ((sh b).2 - (sh o).2) - ((sh a).2 - (sh o).2) * ((sh b).1 - (sh o).1) =
    K * (crossI a o b : ℚ) := by
  unfold crossI sh
  push_cast
  ring

theorem K_pos : (0 : ℚ) < K := by unfold K; norm_num

theorem cross_neg_sh {a o b : P} (h : crossI a o b < 0) :
    ((sh a).1 - (sh o).1) * ((sh b).2 - (sh o).2) - ((sh a).2 - (sh o).2) * ((sh b).1 - (sh o).1) < 0 := by
  rw [cross_sh]
  have : (crossI a o b : ℚ) < 0 := by exact_mod_cast h
  exact mul_neg_of_pos_of_neg K_pos this

/-- non-crossing edges in sheared coordinates -/
theorem apart_sh {a b c d : P} (h1 : (sh a).1 < (sh b).1) (h2 : (sh c).1 < (sh d).1) (h : NonCrossing a b c d) :
    Apart (sh a, sh b) (sh c, sh d) := by
  have key : ∀ (a b : P), (sh a).1 < (sh b).1 → ∀ u, Seg.has (sh a, sh b) u →
      ∃ s, 0 ≤ s ∧ s ≤ 1 ∧ pointAt a b s = ((u - Seg.y (sh a, sh b) u) / K, Seg.y (sh a, sh b) u) ∧
        (s = 0 → u = (sh a).1) ∧ (s = 1 → u = (sh b).1) := by
    intro a b h u ⟨hu1, hu2⟩
    simp only at hu1 hu2
    have hpos : 0 < (sh b).1 - (sh a).1 := by linarith
    obtain ⟨s, hs⟩ : ∃ s, s = (u - (sh a).1) / ((sh b).1 - (sh a).1) := ⟨_, rfl⟩
    have hs' : s * ((sh b).1 - (sh a).1) = u - (sh a).1 := by rw [hs]; field_simp
    have hy : Seg.y (sh a, sh b) u = (sh a).2 + s * ((sh b).2 - (sh a).2) := by
      unfold Seg.y Seg.slope
      rw [hs]; simp only; ring
    refine ⟨s, ?_, ?_, ?_, ?_, ?_⟩
    · rw [hs]; exact div_nonneg (by linarith) hpos.le
    · rw [hs, div_le_one₀ hpos]; linarith
    · rw [hy]
      unfold pointAt
      have : (a.1 : ℚ) + s * (b.1 - a.1) = (u - ((sh a).2 + s * ((sh b).2 - (sh a).2))) / K := by
        rw [eq_div_iff K_pos.ne']
        unfold sh at hs' ⊢
        simp only at hs' ⊢
        linarith
      rw [this]
      rfl
    · intro h0; rw [h0] at hs'; linarith
    · intro h0; rw [h0] at hs'; linarith
  intro u hu1 hu2 heq
  obtain ⟨s, s0, s1, hs, e1, e2⟩ := key a b h1 u hu1
  obtain ⟨t, t0, t1, ht, e3, e4⟩ := key c d h2 u hu2
  obtain ⟨h3, h4⟩ := h s t s0 s1 t0 t1 (by rw [hs, ht, heq])
  exact ⟨h3.imp e1 e2, h4.imp e3 e4⟩

end Hob3l.Poly
