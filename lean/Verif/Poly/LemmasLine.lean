import Mathlib.Tactic.Linarith
import Mathlib.Tactic.Ring
import Mathlib.Tactic.LinearCombination
import Mathlib.Tactic.FieldSimp
import Mathlib.Algebra.Order.Field.Rat

/-!
Line segments in the plane over the rationals, from left to right, that meet in ends only.
-/

namespace Hob3l.Poly

/-- a segment: left end, right end -/
abbrev Seg := (ℚ × ℚ) × (ℚ × ℚ)

def Seg.ok (e : Seg) : Prop := e.1.1 < e.2.1
def Seg.has (e : Seg) (u : ℚ) : Prop := e.1.1 ≤ u ∧ u ≤ e.2.1
def Seg.slope (e : Seg) : ℚ := (e.2.2 - e.1.2) / (e.2.1 - e.1.1)
/-- the height of the segment at `u` -/
def Seg.y (e : Seg) (u : ℚ) : ℚ := e.1.2 + (u - e.1.1) * e.slope

/-- common points are ends of both -/
def Apart (e f : Seg) : Prop :=
  ∀ u, e.has u → f.has u → e.y u = f.y u → (u = e.1.1 ∨ u = e.2.1) ∧ (u = f.1.1 ∨ u = f.2.1)

/-- somewhere, `e` is below `f` -/
def Below (e f : Seg) : Prop := ∃ u, e.has u ∧ f.has u ∧ e.y u < f.y u

theorem Apart.symm {e f : Seg} (h : Apart e f) : Apart f e := fun u h1 h2 h3 => (h u h2 h1 h3.symm).symm

theorem y_left (e : Seg) : e.y e.1.1 = e.1.2 := by simp [Seg.y]

theorem slope_mul {e : Seg} (h : e.ok) : (e.2.1 - e.1.1) * e.slope = e.2.2 - e.1.2 := by
  unfold Seg.ok at h
  unfold Seg.slope
  rw [mul_div_cancel₀]
  linarith

theorem y_from_right {e : Seg} (h : e.ok) (u : ℚ) : e.y u = e.2.2 + (u - e.2.1) * e.slope := by
  have := slope_mul h
  unfold Seg.y
  linarith

theorem y_right {e : Seg} (h : e.ok) : e.y e.2.1 = e.2.2 := by
  rw [y_from_right h]; simp

theorem y_diff (e : Seg) (u v : ℚ) : e.y v = e.y u + (v - u) * e.slope := by unfold Seg.y; ring

/-- the sides do not change -/
theorem Below.le {e f : Seg} (ha : Apart e f) (hb : Below e f) {u : ℚ} (he : e.has u) (hf : f.has u) :
    e.y u ≤ f.y u := by
  obtain ⟨v, ve, vf, hv⟩ := hb
  by_contra hc
  rw [not_le] at hc
  -- the point between
  have h1 := y_diff e v u
  have h2 := y_diff f v u
  obtain ⟨d0, hd0⟩ : ∃ d0, d0 = f.y v - e.y v := ⟨_, rfl⟩
  obtain ⟨d1, hd1⟩ : ∃ d1, d1 = e.y u - f.y u := ⟨_, rfl⟩
  have p0 : 0 < d0 := by linarith
  have p1 : 0 < d1 := by linarith
  have ps : 0 < d0 + d1 := by linarith
  obtain ⟨w, hw⟩ : ∃ w, w = (d1 * v + d0 * u) / (d0 + d1) := ⟨_, rfl⟩
  have hw' : (d0 + d1) * w = d1 * v + d0 * u := by rw [hw]; field_simp
  have hslope : (u - v) * (f.slope - e.slope) = - (d0 + d1) := by rw [hd0, hd1]; linarith
  have hne : u ≠ v := by
    intro h; rw [h] at hc; linarith
  have heq : e.y w = f.y w := by
    have e1 := y_diff e v w
    have e2 := y_diff f v w
    have e3 : (d0 + d1) * (w - v) = d0 * (u - v) := by linarith
    have e4 : (d0 + d1) * ((w - v) * (f.slope - e.slope)) = (d0 + d1) * (- d0) := by
      calc (d0 + d1) * ((w - v) * (f.slope - e.slope)) = ((d0 + d1) * (w - v)) * (f.slope - e.slope) := by ring
        _ = d0 * ((u - v) * (f.slope - e.slope)) := by rw [e3]; ring
        _ = _ := by rw [hslope]; ring
    have e5 : (w - v) * (f.slope - e.slope) = - d0 := mul_left_cancel₀ (ne_of_gt ps) e4
    linarith
  have hbet : (v < w ∧ w < u) ∨ (u < w ∧ w < v) := by
    rcases lt_or_gt_of_ne hne with h | h
    · right
      constructor <;> nlinarith
    · left
      constructor <;> nlinarith
  unfold Seg.has at he hf ve vf
  obtain ⟨h5, -⟩ := ha w (by unfold Seg.has; rcases hbet with h | h <;> constructor <;> linarith)
    (by unfold Seg.has; rcases hbet with h | h <;> constructor <;> linarith) heq
  rcases hbet with h | h <;> rcases h5 with h5 | h5 <;> linarith

theorem Below.asymm {e f : Seg} (ha : Apart e f) (h1 : Below e f) (h2 : Below f e) : False := by
  obtain ⟨u, ue, uf, hu⟩ := h1
  have := h2.le ha.symm uf ue
  linarith

/-- the side of a point -/
theorem side_eq {e : Seg} (h : e.ok) (p : ℚ × ℚ) :
    (p.1 - e.2.1) * (e.1.2 - e.2.2) - (p.2 - e.2.2) * (e.1.1 - e.2.1) = (p.2 - e.y p.1) * (e.2.1 - e.1.1) := by
  have := slope_mul h
  rw [y_from_right h]
  linear_combination (p.1 - e.2.1) * this

theorem slope_lt {e f : Seg} (he : e.ok) (hf : f.ok)
    (h : (e.2.2 - e.1.2) * (f.2.1 - f.1.1) < (f.2.2 - f.1.2) * (e.2.1 - e.1.1)) : e.slope < f.slope := by
  unfold Seg.ok at he hf
  unfold Seg.slope
  rw [div_lt_div_iff₀ (by linarith) (by linarith)]
  exact h

theorem below_left {e f : Seg} (he : e.ok) (hf : f.ok) (hp : e.1 = f.1) (h : e.slope < f.slope) : Below e f := by
  unfold Seg.ok at he hf
  refine ⟨min e.2.1 f.2.1, ⟨?_, min_le_left _ _⟩, ⟨?_, min_le_right _ _⟩, ?_⟩
  · rw [hp] at he ⊢; exact le_min (le_of_lt he) (le_of_lt hf)
  · rw [hp] at he; exact le_min (le_of_lt he) (le_of_lt hf)
  · unfold Seg.y
    rw [hp] at he ⊢
    have : f.1.1 < min e.2.1 f.2.1 := lt_min he hf
    nlinarith

theorem below_right {e f : Seg} (he : e.ok) (hf : f.ok) (hp : e.2 = f.2) (h : f.slope < e.slope) : Below e f := by
  have he' := he
  have hf' := hf
  unfold Seg.ok at he hf
  refine ⟨max e.1.1 f.1.1, ⟨le_max_left _ _, ?_⟩, ⟨le_max_right _ _, ?_⟩, ?_⟩
  · rw [hp] at he ⊢; exact max_le (le_of_lt he) (le_of_lt hf)
  · rw [hp] at he; exact max_le (le_of_lt he) (le_of_lt hf)
  · rw [y_from_right he', y_from_right hf']
    rw [hp] at he ⊢
    have : max e.1.1 f.1.1 < f.2.1 := max_lt he hf
    nlinarith

end Hob3l.Poly
