/- Helper lemmas for the division functions of matq.c. -/
import Verif.Matq.Model
import Mathlib.Tactic.Linarith
import Mathlib.Tactic.Ring
import Mathlib.Algebra.Order.Ring.Abs
import Mathlib.Algebra.Order.Ring.Int
import Mathlib.Algebra.Order.Group.Int

namespace Hob3l.Matq

theorem chk32_eq {x y : Int} : chk32 x = some y ↔ I32 x ∧ y = x := by
  unfold chk32; split <;> simp_all [eq_comm]
theorem chk64_eq {x y : Int} : chk64 x = some y ↔ I64 x ∧ y = x := by
  unfold chk64; split <;> simp_all [eq_comm]
theorem chk32_some {x : Int} (h : I32 x) : chk32 x = some x := by simp [chk32, h]
theorem chk64_some {x : Int} (h : I64 x) : chk64 x = some x := by simp [chk64, h]

theorem tdiv_tmod_facts (x d : Int) (hd : d ≠ 0) :
    x = x.tdiv d * d + x.tmod d ∧ (0 ≤ x → 0 ≤ x.tmod d) ∧ (x ≤ 0 → x.tmod d ≤ 0) ∧
    (x.tmod d).natAbs < d.natAbs := by
  refine ⟨?_, ?_, ?_, ?_⟩
  · have := Int.tmod_add_mul_tdiv x d; rw [Int.mul_comm]; omega
  · intro h; exact Int.tmod_nonneg _ h
  · intro h
    have := Int.tmod_nonneg (a := -x) d (by omega)
    rw [Int.neg_tmod] at this; omega
  · rw [Int.natAbs_tmod]; exact Nat.mod_lt _ (by omega)

/-- Euclidean quotient and remainder are unique. -/
theorem euclid_unique {x d q r q' r' : Int} (h : x = q * d + r) (h0 : 0 ≤ r) (h1 : r < |d|)
    (h' : x = q' * d + r') (h0' : 0 ≤ r') (h1' : r' < |d|) : q = q' ∧ r = r' := by
  have e : (q - q') * d = r' - r := by linarith [sub_mul q q' d]
  have hlt : |(q - q') * d| < |d| := by
    rw [e, abs_lt]; constructor <;> linarith
  rw [abs_mul] at hlt
  have : |q - q'| < 1 := by
    by_contra hc
    have : 1 ≤ |q - q'| := by omega
    nlinarith [abs_nonneg d]
  have hq : q = q' := by
    have := Int.abs_lt_one_iff.mp this; omega
  subst hq
  simp at e
  exact ⟨rfl, by omega⟩

/-- range facts for the generic division -/
theorem divmodG_spec (chk : Int → Option Int) (B : Int) (hB4 : 4 ≤ B)
    (hchk : ∀ z, chk z = if -B ≤ z ∧ z ≤ B - 1 then some z else none)
    (x d : Int) (hx : -B ≤ x ∧ x ≤ B - 1) (hd : -B ≤ d ∧ d ≤ B - 1) (q r : Int) :
    divmodG chk x d = some ⟨q, r⟩ ↔
      d ≠ 0 ∧ ¬(x = -B ∧ d = -1) ∧ x = q * d + r ∧ 0 ≤ r ∧ r < |d| := by
  have hB : 0 < B := by omega
  by_cases hd0 : d = 0
  · simp [divmodG, hd0]
  obtain ⟨e, hp, hn, hlt⟩ := tdiv_tmod_facts x d hd0
  have habs : |x.tdiv d| * |d| ≤ |x| := by
    rw [Int.abs_eq_natAbs, Int.abs_eq_natAbs, Int.abs_eq_natAbs, Int.natAbs_tdiv]
    exact_mod_cast Nat.div_mul_le_self _ _
  generalize hQ : x.tdiv d = Q at *
  generalize hR : x.tmod d = R at *
  have habsd : 1 ≤ |d| := Int.one_le_abs hd0
  have hRd : |R| < |d| := by rw [Int.abs_eq_natAbs, Int.abs_eq_natAbs]; exact_mod_cast hlt
  have hQle : |Q| ≤ |x| := by nlinarith [abs_nonneg Q]
  have hxB : |x| ≤ B := abs_le.mpr ⟨by omega, by omega⟩
  have hQB : -B ≤ Q ∧ Q ≤ B := abs_le.mp (hQle.trans hxB)
  have hub : ¬(x = -B ∧ d = -1) → Q ≤ B - 1 := by
    intro hne
    by_contra hc
    have hQe : Q = B := by omega
    have hx2 : |x| = B := by
      have : |Q| = B := by rw [hQe]; exact abs_of_pos hB
      omega
    have hd1 : |d| = 1 := by
      rw [hQe, abs_of_pos hB, hx2] at habs
      nlinarith
    have hxe : x = -B := by
      rcases abs_eq (by omega : (0:Int) ≤ B) |>.mp hx2 with h | h <;> omega
    rcases abs_eq (by omega : (0:Int) ≤ 1) |>.mp hd1 with h | h
    · subst h; rw [hQe] at e
      have := abs_lt.mp (show |R| < 1 by simpa using hRd)
      omega
    · exact hne ⟨hxe, h⟩
  by_cases hubx : x = -B ∧ d = -1
  · have hQe : Q = B := by
      have hR0 := abs_lt.mp (show |R| < 1 by simpa [hubx.2] using hRd)
      rw [hubx.1, hubx.2] at e; omega
    have hQ' : chk Q = none := by rw [hchk, if_neg (by omega)]
    constructor
    · intro h; simp [divmodG, hd0, hQ, hQ'] at h
    · rintro ⟨-, h, -⟩; exact absurd hubx h
  have hQc : chk Q = some Q := by rw [hchk, if_pos ⟨hQB.1, hub hubx⟩]
  have hmain : ∃ q0 r0, divmodG chk x d = some ⟨q0, r0⟩ ∧ x = q0 * d + r0 ∧ 0 ≤ r0 ∧ r0 < |d| := by
    by_cases hR0 : 0 ≤ R
    · refine ⟨Q, R, ?_, e, hR0, ?_⟩
      · simp [divmodG, hd0, hQ, hR, hQc, hR0]
      · rwa [abs_of_nonneg hR0] at hRd
    · have hRneg : R < 0 := by omega
      have hd2 : 2 ≤ |d| := by rw [abs_of_neg hRneg] at hRd; omega
      have hQ2 : |Q| * 2 ≤ B := by nlinarith [abs_nonneg Q]
      have hQ3 := abs_le.mp (show |Q| ≤ B / 2 by omega)
      by_cases hdp : 0 ≤ d
      · rw [abs_of_nonneg hdp] at *
        rw [abs_of_neg hRneg] at hRd
        refine ⟨Q - 1, R + d, ?_, by linarith [sub_mul Q 1 d], by omega, by omega⟩
        have c1 : chk (Q - 1) = some (Q - 1) := by rw [hchk, if_pos (by omega)]
        have c2 : chk (R + d) = some (R + d) := by rw [hchk, if_pos (by omega)]
        simp [divmodG, hd0, hQ, hR, hQc, hR0, hdp, c1, c2]
      · have hdn : d < 0 := by omega
        rw [abs_of_neg hdn] at *
        rw [abs_of_neg hRneg] at hRd
        refine ⟨Q + 1, R - d, ?_, by linarith [add_mul Q 1 d], by omega, by omega⟩
        have c1 : chk (Q + 1) = some (Q + 1) := by rw [hchk, if_pos (by omega)]
        have c2 : chk (R - d) = some (R - d) := by rw [hchk, if_pos (by omega)]
        simp [divmodG, hd0, hQ, hR, hQc, hR0, hdp, c1, c2]
  obtain ⟨q0, r0, h1, h2, h3, h4⟩ := hmain
  rw [h1]
  constructor
  · intro h
    simp only [Option.some.injEq, DivMod.mk.injEq] at h
    obtain ⟨rfl, rfl⟩ := h
    exact ⟨hd0, hubx, h2, h3, h4⟩
  · rintro ⟨-, -, h5, h6, h7⟩
    obtain ⟨rfl, rfl⟩ := euclid_unique h2 h3 h4 h5 h6 h7
    rfl

theorem divmod_spec (x d : Int) (hx : I32 x) (hd : I32 d) (q r : Int) :
    divmod x d = some ⟨q, r⟩ ↔
      d ≠ 0 ∧ ¬(x = -2147483648 ∧ d = -1) ∧ x = q * d + r ∧ 0 ≤ r ∧ r < |d| :=
  divmodG_spec chk32 2147483648 (by decide) (fun _ => rfl) x d hx hd q r

theorem divmodw_spec (x d : Int) (hx : I64 x) (hd : I64 d) (q r : Int) :
    divmodw x d = some ⟨q, r⟩ ↔
      d ≠ 0 ∧ ¬(x = -9223372036854775808 ∧ d = -1) ∧ x = q * d + r ∧ 0 ≤ r ∧ r < |d| :=
  divmodG_spec chk64 9223372036854775808 (by decide) (fun _ => rfl) x d hx hd q r

/-- for `d > 0` the division agrees with Lean's Euclidean `/` and `%` -/
theorem divmodw_pos (x d : Int) (hx : I64 x) (hd : I64 d) (h : 0 < d) :
    divmodw x d = some ⟨x / d, x % d⟩ := by
  rw [divmodw_spec x d hx hd]
  refine ⟨by omega, by omega, ?_, Int.emod_nonneg _ (by omega), ?_⟩
  · have := Int.mul_ediv_add_emod x d; rw [Int.mul_comm] at this; exact this.symm
  · rw [abs_of_pos h]; exact Int.emod_lt_of_pos _ h

end Hob3l.Matq
