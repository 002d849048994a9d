import Verif.Deg.Lemmas
/-!
# Property C117: sine and cosine of degrees are exact if they are rational
-/
namespace Hob3l.Deg

/-- **C117**: `cp_f_get_int` finds the integer `i` in a double iff the value of the double is `i` and `i` is not 0 and less than 2^53. -/
theorem C117_int (u : Nat) (hu : u < 2 ^ 64) (i : Int) :
    getInt u = some i ↔ value u = some (i : ℚ) ∧ 1 ≤ |i| ∧ |i| < 2 ^ 53 :=
  getInt_iff u hu i

/-- **C117**: whenever a result is taken from the table, it is the sine. -/
theorem C117_sound (u : Nat) (hu : u < 2 ^ 64) (q : ℚ) :
    (sinDeg u = some q → ∃ x, value u = some x ∧ Real.sin (angle x) = q) ∧
    (cosDeg u = some q → ∃ x, value u = some x ∧ Real.cos (angle x) = q) := by
  constructor <;> intro h
  · obtain ⟨i, hi, h⟩ := Option.bind_eq_some_iff.mp h
    exact ⟨i, ((getInt_iff u hu i).mp hi).1, exactSin_sound i q h⟩
  · obtain ⟨i, hi, h⟩ := Option.bind_eq_some_iff.mp h
    refine ⟨i, ((getInt_iff u hu i).mp hi).1, ?_⟩
    have := exactSin_sound _ _ h
    push_cast at this
    rw [cos_eq, this]

/-- **C117, the part that holds**: for every angle except 0 and angles of 2^53 degrees and more: if the sine is a rational number
`q`, the result is exactly `q`, and vice versa.  Missing: 0 and large angles, see `C117_angle_wrong`. -/
theorem C117_sin_partial (u : Nat) (hu : u < 2 ^ 64) (x : ℚ) (hx : value u = some x) (h0 : x ≠ 0) (h1 : |x| < 2 ^ 53) (q : ℚ) :
    sinDeg u = some q ↔ Real.sin (angle x) = q := by
  constructor
  · intro h
    obtain ⟨y, hy, e⟩ := (C117_sound u hu q).1 h
    rw [hx, Option.some.injEq] at hy
    rw [hy, e]
  · intro h
    obtain ⟨i, hi, q', hq⟩ := sin_rat x q h
    have hg := (getInt_iff u hu i).mpr ⟨by rw [hx, hi], int_range hi h0 h1⟩
    have hs : sinDeg u = some q' := by unfold sinDeg; rw [hg, Option.bind_some, hq]
    have := exactSin_sound i q' hq
    rw [← hi, h] at this
    rw [hs]
    congr 1
    exact_mod_cast this.symm

/-- **C117, the part that holds**: the same for the cosine. -/
theorem C117_cos_partial (u : Nat) (hu : u < 2 ^ 64) (x : ℚ) (hx : value u = some x) (h0 : x ≠ 0) (h1 : |x| < 2 ^ 53) (q : ℚ) :
    cosDeg u = some q ↔ Real.cos (angle x) = q := by
  constructor
  · intro h
    obtain ⟨y, hy, e⟩ := (C117_sound u hu q).2 h
    rw [hx, Option.some.injEq] at hy
    rw [hy, e]
  · intro h
    rw [cos_eq] at h
    obtain ⟨j, hj, q', hq⟩ := sin_rat (x + 90) q h
    have hi : x = (j - 90 : Int) := by push_cast; linarith
    have hg := (getInt_iff u hu (j - 90)).mpr ⟨by rw [hx, hi], int_range hi h0 h1⟩
    have hs : cosDeg u = some q' := by unfold cosDeg; rw [hg, Option.bind_some, sub_add_cancel, hq]
    have := exactSin_sound j q' hq
    rw [← hj, h] at this
    rw [hs]
    congr 1
    exact_mod_cast this.symm

/-- **C117**: a rotation by a multiple of 90 degrees, except 0 and large ones, is exact: sine and cosine are 0, 1, or -1. -/
theorem C117_quarter (u : Nat) (hu : u < 2 ^ 64) (n : Int) (hx : value u = some (90 * n : ℚ)) (h0 : n ≠ 0) (h1 : |90 * n| < 2 ^ 53) :
    ∃ s c : ℤ, sinDeg u = some (s : ℚ) ∧ cosDeg u = some (c : ℚ) ∧ s ^ 2 + c ^ 2 = 1 := by
  have hg : getInt u = some (90 * n) :=
    (getInt_iff u hu (90 * n)).mpr ⟨by rw [hx]; push_cast; rfl, Int.one_le_abs (by omega), h1⟩
  unfold sinDeg cosDeg
  rw [hg, Option.bind_some, Option.bind_some, exactSin_eq, exactSin_eq]
  have : n % 4 = 0 ∨ n % 4 = 1 ∨ n % 4 = 2 ∨ n % 4 = 3 := by omega
  rcases this with h | h | h | h
  · rw [if_pos (by omega), if_neg (by omega), if_pos (by omega)]
    exact ⟨0, 1, by simp, by simp, by norm_num⟩
  · rw [if_neg (by omega), if_pos (by omega), if_pos (by omega)]
    exact ⟨1, 0, by simp, by simp, by norm_num⟩
  · rw [if_pos (by omega), if_neg (by omega), if_neg (by omega), if_pos (by omega)]
    exact ⟨0, -1, by simp, by simp, by norm_num⟩
  · rw [if_neg (by omega), if_neg (by omega), if_pos (by omega), if_pos (by omega)]
    exact ⟨-1, 0, by simp, by simp, by norm_num⟩

/-- **C117 fails for 0 and for large angles**: they are never looked up, so the result is that of the C library, also for angles that
have a rational sine. -/
theorem C117_angle_wrong (u : Nat) (hu : u < 2 ^ 64) (x : ℚ) (hx : value u = some x) (h : x = 0 ∨ 2 ^ 53 ≤ |x|) :
    sinDeg u = none ∧ cosDeg u = none := by
  have hg : getInt u = none := by
    cases hg : getInt u with
    | none => rfl
    | some i =>
      obtain ⟨a, b, c⟩ := (getInt_iff u hu i).mp hg
      rw [hx, Option.some.injEq] at a
      subst a
      rcases h with h | h
      · have : i = 0 := by exact_mod_cast h
        subst this
        simp at b
      · rw [← Int.cast_abs] at h
        have : 2 ^ 53 ≤ |i| := by exact_mod_cast h
        omega
  unfold sinDeg cosDeg
  rw [hg]
  exact ⟨rfl, rfl⟩

/-! ## Examples -/

/-- 30, 180, -90, 45, 0.5 -/
example : getInt 0x403e000000000000 = some 30 ∧ sinDeg 0x403e000000000000 = some (1 / 2) ∧ cosDeg 0x403e000000000000 = none ∧
    sinDeg 0x4066800000000000 = some 0 ∧ cosDeg 0x4066800000000000 = some (-1) ∧ getInt 0xc056800000000000 = some (-90) ∧
    sinDeg 0xc056800000000000 = some (-1) ∧ sinDeg 0x4046800000000000 = none ∧ getInt 0x3fe0000000000000 = none := by
  decide +kernel

/-- the hypotheses of the theorems can be met: the double 30 -/
example : value 0x403e000000000000 = some 30 ∧ (30 : ℚ) ≠ 0 ∧ |(30 : ℚ)| < 2 ^ 53 := by
  refine ⟨?_, by norm_num, by norm_num [abs_of_pos]⟩
  have := ((getInt_iff 0x403e000000000000 (by decide) 30).mp (by decide +kernel)).1
  exact_mod_cast this

/-- the hypotheses of `C117_quarter` can be met -/
example : value 0xc056800000000000 = some (90 * ((-1 : Int) : ℚ)) ∧ |90 * (-1 : Int)| < 2 ^ 53 := by
  refine ⟨?_, by decide⟩
  have := ((getInt_iff 0xc056800000000000 (by decide) (-90)).mp (by decide +kernel)).1
  rw [this]
  norm_num

/-- the hypotheses of `C117_angle_wrong` can be met, with rational sine: 0, and 180 times 2^46 -/
example : value 0 = some 0 ∧ value (0x4066800000000000 + 46 * 2 ^ 52) = some (180 * 2 ^ 46) ∧ (2 : ℚ) ^ 53 ≤ |180 * 2 ^ 46| ∧
    Real.sin (angle (180 * 2 ^ 46)) = 0 := by
  refine ⟨?_, ?_, ?_, ?_⟩
  · rw [value_eq, if_neg (by decide +kernel), if_pos (by decide +kernel), show fr 0 = 0 by decide +kernel]
    simp
  · rw [value_eq, show sg (0x4066800000000000 + 46 * 2 ^ 52) = 1 by decide +kernel,
      show ex (0x4066800000000000 + 46 * 2 ^ 52) = 1076 by decide +kernel,
      show fr (0x4066800000000000 + 46 * 2 ^ 52) = 0x6800000000000 by decide +kernel, if_neg (by decide), if_neg (by decide),
      pow_succ (2 : ℚ) 1075, mul_comm ((2 : ℚ) ^ 1075) 2, ← mul_assoc, mul_div_cancel_right₀ _ (by positivity)]
    norm_num
  · rw [abs_of_pos (by positivity)]
    norm_num
  · have := exactSin_sound (180 * 2 ^ 46) 0 (by decide +kernel)
    push_cast at this
    rw [show (180 * 2 ^ 46 : ℚ) = 12666373951979520 by norm_num, this]

end Hob3l.Deg
