import Verif.Range.Model
import Mathlib.Tactic.Linarith
import Mathlib.Tactic.Ring
import Mathlib.Tactic.NormNum
import Mathlib.Tactic.Positivity

/-!
C63: the layers cover the bounding box.

True for models that are at least half a layer high; thinner ones are cut at height 0, wherever they are
(`C63_thin_wrong`).
-/

namespace Hob3l.Range

/-- the count of `cp_range_init`, made at least 1 -/
theorem rangeInit_ok {eps min max step : ℚ} (he : 0 < eps) (hs : 0 < step) (h : min ≤ max) :
    (rangeInit eps min max step).min = min ∧ (rangeInit eps min max step).step = step ∧
    max - min ≤ (rangeInit eps min max step).cnt * step + eps * (1 + step) ∧
    ((rangeInit eps min max step).cnt = 0 ∨ min + ((rangeInit eps min max step).cnt - 1) * step ≤ max) := by
  have hng : ¬ min > max := not_lt.2 h
  have hes : 0 < eps * step := mul_pos he hs
  unfold rangeInit
  by_cases h1 : eq eps min max = true
  · rw [if_pos h1]
    have h2 : |min - max| < eps := by simpa [eq] using h1
    have h3 := (abs_lt.1 h2).1
    refine ⟨rfl, rfl, ?_, .inr ?_⟩
    · push_cast; linarith
    · push_cast; linarith
  · rw [if_neg h1, if_neg hng]
    simp only
    have hq : 0 ≤ (max - min) / step := div_nonneg (by linarith) hs.le
    by_cases hc : ⌈((max - min) / step) - eps⌉ > 0
    · rw [if_pos hc]
      obtain ⟨n, hn⟩ := Int.eq_ofNat_of_zero_le hc.le
      refine ⟨rfl, rfl, ?_, .inr ?_⟩
      · have := Int.le_ceil (((max - min) / step) - eps)
        rw [hn] at this ⊢
        simp only [Int.toNat_natCast, Int.cast_natCast] at this ⊢
        have h3 : (max - min) / step ≤ n + eps := by linarith
        rw [div_le_iff₀ hs] at h3
        linarith
      · have := Int.ceil_lt_add_one (((max - min) / step) - eps)
        rw [hn] at this ⊢
        simp only [Int.toNat_natCast, Int.cast_natCast] at this ⊢
        have h3 : n - 1 + eps < (max - min) / step := by linarith
        rw [lt_div_iff₀ hs] at h3
        linarith
    · rw [if_neg hc]
      refine ⟨rfl, rfl, ?_, .inl rfl⟩
      have h3 : ((max - min) / step) - eps ≤ 0 := by
        have := Int.ceil_le.1 (not_lt.1 hc)
        simpa using this
      have h4 : (max - min) / step ≤ eps := by linarith
      rw [div_le_iff₀ hs] at h4
      push_cast
      linarith

theorem layerRange_ok {eps bbMin bbMax step : ℚ} (he : 0 < eps) (hs : 0 < step) (h : bbMin + step / 2 ≤ bbMax) :
    let r := layerRange eps bbMin bbMax step none none
    r.min = bbMin + step / 2 ∧ r.step = step ∧ 1 ≤ r.cnt ∧
    bbMax - bbMin ≤ r.cnt * step + step / 2 + eps * (1 + step) ∧
    r.min + (r.cnt - 1) * step ≤ bbMax := by
  obtain ⟨h1, h2, h3, h4⟩ := rangeInit_ok he hs h
  intro r
  have hr : r = (if (rangeInit eps (bbMin + step / 2) bbMax step).cnt = 0 then
      ⟨(rangeInit eps (bbMin + step / 2) bbMax step).min, (rangeInit eps (bbMin + step / 2) bbMax step).step, 1⟩
      else rangeInit eps (bbMin + step / 2) bbMax step) := rfl
  by_cases h0 : (rangeInit eps (bbMin + step / 2) bbMax step).cnt = 0
  · rw [if_pos h0] at hr
    rw [h0] at h3
    push_cast at h3
    rw [hr]
    refine ⟨h1, h2, le_refl _, ?_, ?_⟩
    · push_cast; linarith
    · simp only [h1]; push_cast; linarith
  · rw [if_neg h0] at hr
    rw [hr]
    rcases h4 with h4 | h4
    · exact absurd h4 h0
    · exact ⟨h1, h2, Nat.one_le_iff_ne_zero.2 h0, by linarith, by rw [h1]; exact h4⟩

/-- Every layer is inside of the bounding box (for a model that is at least half a layer high). -/
theorem C63_inside_partial {eps bbMin bbMax step : ℚ} (he : 0 < eps) (hs : 0 < step) (h : bbMin + step / 2 ≤ bbMax)
    (zi : Nat) (hz : zi < (layerRange eps bbMin bbMax step none none).cnt) :
    bbMin < zOf (layerRange eps bbMin bbMax step none none) zi ∧
    zOf (layerRange eps bbMin bbMax step none none) zi ≤ bbMax := by
  obtain ⟨h1, h2, h3, h4, h5⟩ := layerRange_ok he hs h
  unfold zOf
  rw [h1] at h5 ⊢
  rw [h2]
  have hz' : (zi : ℚ) ≤ (layerRange eps bbMin bbMax step none none).cnt - 1 := by
    have : (zi : ℚ) + 1 ≤ ((layerRange eps bbMin bbMax step none none).cnt : ℚ) := by exact_mod_cast hz
    linarith
  have h6 : (zi : ℚ) * step ≤ ((layerRange eps bbMin bbMax step none none).cnt - 1) * step :=
    mul_le_mul_of_nonneg_right hz' hs.le
  have h7 : 0 ≤ step * (zi : ℚ) := by positivity
  constructor <;> linarith

/-- There is at least one layer, and the layers, each one `step` high, have together the height of the bounding box up to
half a layer (and the epsilon). -/
theorem C63_height_partial {eps bbMin bbMax step : ℚ} (he : 0 < eps) (hs : 0 < step) (h : bbMin + step / 2 ≤ bbMax) :
    1 ≤ (layerRange eps bbMin bbMax step none none).cnt ∧
    |(layerRange eps bbMin bbMax step none none).cnt * step - (bbMax - bbMin)| ≤ step / 2 + eps * (1 + step) := by
  obtain ⟨h1, h2, h3, h4, h5⟩ := layerRange_ok he hs h
  have hes : 0 < eps * (1 + step) := mul_pos he (by linarith)
  rw [h1] at h5
  refine ⟨h3, abs_le.2 ⟨by linarith, by linarith⟩⟩

/-- Each height of the bounding box (except for the rest of half a layer at the top) belongs to a layer: it is at most half
a layer away from the height where this layer is cut. -/
theorem C63_cover_partial {eps bbMin bbMax step : ℚ} (he : 0 < eps) (hs : 0 < step) (h : bbMin + step / 2 ≤ bbMax)
    (z : ℚ) (hz0 : bbMin ≤ z) (hz1 : z ≤ bbMax - step / 2 - eps * (1 + step)) :
    ∃ zi, zi < (layerRange eps bbMin bbMax step none none).cnt ∧
      |z - zOf (layerRange eps bbMin bbMax step none none) zi| ≤ step / 2 := by
  obtain ⟨h1, h2, h3, h4, h5⟩ := layerRange_ok he hs h
  generalize (layerRange eps bbMin bbMax step none none) = r at *
  have hq : 0 ≤ (z - bbMin) / step := div_nonneg (by linarith) hs.le
  have hfl := Nat.floor_le hq
  have hlt := Nat.lt_floor_add_one ((z - bbMin) / step)
  rw [le_div_iff₀ hs] at hfl
  rw [div_lt_iff₀ hs] at hlt
  by_cases hn : ⌊(z - bbMin) / step⌋₊ < r.cnt
  · refine ⟨_, hn, ?_⟩
    unfold zOf
    rw [h1, h2, abs_le]
    constructor <;> linarith
  · -- only possible at the very top of the last layer
    refine ⟨r.cnt - 1, by omega, ?_⟩
    have h6 : (r.cnt : ℚ) ≤ (⌊(z - bbMin) / step⌋₊ : ℚ) := by exact_mod_cast not_lt.1 hn
    have h7 : (r.cnt : ℚ) * step ≤ (⌊(z - bbMin) / step⌋₊ : ℚ) * step := mul_le_mul_of_nonneg_right h6 hs.le
    unfold zOf
    rw [h1, h2, Nat.cast_sub h3, abs_le]
    push_cast
    constructor <;> linarith

/-- A model that is thinner than half a layer is cut exactly once, at height 0. -/
theorem C63_thin_partial {eps bbMin bbMax step : ℚ} (h : bbMax + eps ≤ bbMin + step / 2) (he : 0 < eps) :
    layerRange eps bbMin bbMax step none none = ⟨0, step, 1⟩ := by
  have h1 : rangeInit eps (bbMin + step / 2) bbMax step = ⟨0, step, 0⟩ := by
    unfold rangeInit
    rw [if_neg, if_pos (by linarith)]
    simp only [eq, decide_eq_true_eq, not_lt]
    rw [abs_of_nonneg (by linarith)]
    linarith
  show (if (rangeInit eps (bbMin + step / 2) bbMax step).cnt = 0 then
      (⟨(rangeInit eps (bbMin + step / 2) bbMax step).min, (rangeInit eps (bbMin + step / 2) bbMax step).step, 1⟩ : Range)
      else rangeInit eps (bbMin + step / 2) bbMax step) = _
  rw [h1, if_pos rfl]

/-- A plate from 10 to 10.05 mm with the default layer height of 0.2 mm is cut at height 0: no layer is inside of the
bounding box. -/
theorem C63_thin_wrong :
    ∃ bbMin bbMax : ℚ, bbMin < bbMax ∧ ∀ zi, zi < (layerRange (1/100000000) bbMin bbMax (1/5) none none).cnt →
      ¬ (bbMin ≤ zOf (layerRange (1/100000000) bbMin bbMax (1/5) none none) zi) := by
  refine ⟨10, 10 + 1/20, by norm_num, fun zi hz => ?_⟩
  rw [C63_thin_partial (by norm_num) (by norm_num)] at hz ⊢
  have : zi = 0 := by simp only at hz; omega
  subst this
  norm_num [zOf]

/-- If the user gives the height with `-z`, there is exactly one layer, at that height. -/
theorem C63_single (eps bbMin bbMax step z : ℚ) (he : 0 < eps) :
    layerRange eps bbMin bbMax step (some z) (some z) = ⟨z, step, 1⟩ := by
  have h1 : rangeInit eps z z step = ⟨z, step, 1⟩ := by
    unfold rangeInit
    rw [if_pos]
    simp [eq, he]
  show (if (rangeInit eps z z step).cnt = 0 then
      (⟨(rangeInit eps z z step).min, (rangeInit eps z z step).step, 1⟩ : Range) else rangeInit eps z z step) = _
  rw [h1, if_neg Nat.one_ne_zero]

/-! A concrete case: from 0 to 1 mm with 0.2 mm layers: 5 layers at 0.1, 0.3, 0.5, 0.7, 0.9. -/
example : layerRange (1/100000000) 0 1 (1/5) none none = ⟨1/10, 1/5, 5⟩ := by decide +kernel
example : (0 : ℚ) + (1/5) / 2 ≤ 1 := by norm_num

end Hob3l.Range
