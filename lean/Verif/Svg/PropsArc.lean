import Verif.Svg.LemmasArc
import Mathlib.Analysis.SpecialFunctions.Trigonometric.Bounds
import Mathlib.Analysis.Real.Pi.Bounds

/-!
C102: elliptical arcs are drawn as SVG defines them.
-/

namespace Hob3l.Svg

open Real

/-- half the chord of an arc in the system of the ellipse, i.e., rotated by `-ph` degrees -/
noncomputable def halfChord (p1 p2 : P ℝ) (ph : ℝ) : P ℝ :=
  let f := ph * (π / 180)
  ⟨Real.cos f * ((p1.x - p2.x) / 2) + Real.sin f * ((p1.y - p2.y) / 2),
   -Real.sin f * ((p1.x - p2.x) / 2) + Real.cos f * ((p1.y - p2.y) / 2)⟩

/-- C102: for all end points that differ, radii, rotations and flags, the points that are drawn are on the arc that SVG
defines, and they divide it evenly into `n` parts.

Partial: the radii must not be below the epsilon, the arc must not be flat (`C102_flat_wrong`), and the radii and the chord
must not both be small (`C102_small_wrong`). -/
theorem C102_arc_partial {eps : ℝ} (he : 0 < eps) (n : Nat) (p1 p2 : P ℝ) (hp : p1 ≠ p2) (rx ry ph : ℝ) (fa fs : Bool)
    (hrx : eps ≤ |rx|) (hry : eps ≤ |ry|)
    (hd : 1 < (halfChord p1 p2 ph).x ^ 2 / rx ^ 2 + (halfChord p1 p2 ph).y ^ 2 / ry ^ 2 ∨
      eps ≤ rx ^ 2 * (halfChord p1 p2 ph).y ^ 2 + ry ^ 2 * (halfChord p1 p2 ph).x ^ 2) :
    ∃ c s th d, IsArc p1 rx ry ph fa fs p2 c s th d ∧
      (eps ≤ |d| → arcOf eps n p1 rx ry ph fa fs p2 =
        (true, (List.range (n - 1)).map fun i => ellipse c (s * |rx|) (s * |ry|) ph (th + d * (((i + 1 : ℕ) : ℝ) / (n : ℝ))))) := by
  obtain ⟨s, hs1, h1, h2, h3, h4, h5⟩ := arc_ok he p1 p2 hp rx ry ph fa fs hrx hry (by
    show 1 < (halfChord p1 p2 ph).x ^ 2 / |rx| ^ 2 + (halfChord p1 p2 ph).y ^ 2 / |ry| ^ 2 ∨
      eps ≤ |rx| ^ 2 * (halfChord p1 p2 ph).y ^ 2 + |ry| ^ 2 * (halfChord p1 p2 ph).x ^ 2
    rw [sq_abs, sq_abs]; exact hd)
  set a := arcPar eps p1 rx ry ph fa fs p2 with ha
  refine ⟨a.c, s, a.th1, a.dth, h5, fun hd' => ?_⟩
  show arc2 eps n a = _
  have hx : eps ≤ a.rx := by rw [h1]; nlinarith
  have hy : eps ≤ a.ry := by rw [h2]; nlinarith
  unfold arc2
  rw [if_neg (by
    unfold eqR
    simp only [sub_zero, not_or, not_lt]
    exact ⟨by rw [abs_of_nonneg (by linarith)]; exact hx, by rw [abs_of_nonneg (by linarith)]; exact hy, hd'⟩)]
  rw [List.range'_eq_map_range, List.map_map]
  congr 1
  refine List.map_congr_left fun i _ => ?_
  simp only [Function.comp]
  rw [show 1 + i = i + 1 by omega]
  unfold arcPoint ellipse xform
  simp only [h1, h2, h3, h4, P.mk.injEq]
  constructor <;> ring

/-- a case that meets the hypotheses: a quarter of a circle, which is not small, with a sweep that is not small -/
example : (1 : ℝ) / 2 ^ 15 ≤ |1| ∧ (⟨1, 0⟩ : P ℝ) ≠ ⟨0, 1⟩ ∧
    (1 : ℝ) / 2 ^ 15 ≤ 1 ^ 2 * (halfChord ⟨1, 0⟩ ⟨0, 1⟩ 0).y ^ 2 + 1 ^ 2 * (halfChord ⟨1, 0⟩ ⟨0, 1⟩ 0).x ^ 2 := by
  refine ⟨by norm_num, by simp, ?_⟩
  simp only [halfChord, zero_mul, Real.cos_zero, Real.sin_zero]
  norm_num

/-- the sweep of an arc of a circle in terms of the chord -/
theorem IsArc.cos_sweep {p1 p2 c : P ℝ} {r ph s th d : ℝ} {fa fs : Bool} (h : IsArc p1 r r ph fa fs p2 c s th d) :
    (p1.x - p2.x) ^ 2 + (p1.y - p2.y) ^ 2 = 2 * (s * |r|) ^ 2 * (1 - Real.cos d) := by
  have h1 := h.start
  have h2 := h.stop
  have hd : Real.cos d = Real.cos (th + d) * Real.cos th + Real.sin (th + d) * Real.sin th := by
    rw [← Real.cos_sub]; congr 1; ring
  rw [← h1, ← h2, hd]
  unfold ellipse
  simp only
  have e1 := Real.sin_sq_add_cos_sq (ph * (π / 180))
  have e2 := Real.sin_sq_add_cos_sq th
  have e3 := Real.sin_sq_add_cos_sq (th + d)
  generalize Real.sin (ph * (π / 180)) = sf at *
  generalize Real.cos (ph * (π / 180)) = cf at *
  generalize Real.sin (th + d) = se at *
  generalize Real.cos (th + d) = ce at *
  generalize Real.sin th = st at *
  generalize Real.cos th = ct at *
  linear_combination ((s * |r|) ^ 2 * ((ct - ce) ^ 2 + (st - se) ^ 2)) * e1 + (s * |r|) ^ 2 * e2 + (s * |r|) ^ 2 * e3

/-- a circle -/
theorem ellipse_circle (c : P ℝ) (r ph t : ℝ) :
    ((ellipse c r r ph t).x - c.x) ^ 2 + ((ellipse c r r ph t).y - c.y) ^ 2 = r ^ 2 := by
  unfold ellipse
  simp only
  have e1 := Real.sin_sq_add_cos_sq (ph * (π / 180))
  have e2 := Real.sin_sq_add_cos_sq t
  generalize Real.sin (ph * (π / 180)) = sf at *
  generalize Real.cos (ph * (π / 180)) = cf at *
  generalize Real.sin t = st at *
  generalize Real.cos t = ct at *
  linear_combination (r ^ 2 * (ct ^ 2 + st ^ 2)) * e1 + r ^ 2 * e2

/-- C102: a flat arc, here with a radius of 100000 and a chord of 1, is drawn without its start point: `path_arc2_abs`
returns before `path_start` (626-631) -/
theorem C102_flat_wrong (n : Nat) (c : Cfg ℝ) (hc : c.eps = 1 / 2 ^ 15) (ha : ∀ p1 rx ry ph fa fs p2, c.arc p1 rx ry ph fa fs p2 = arcOf (1 / 2 ^ 15) n p1 rx ry ph fa fs p2) :
    (pathArcAbs c St.new 100000 100000 0 false true ⟨1, 0⟩).pts = [(⟨1, 0⟩, 0, 0)] := by
  have hr : arcOf (1 / 2 ^ 15) n ⟨0, 0⟩ 100000 100000 0 false true ⟨1, 0⟩ = (false, []) := by
    obtain ⟨s, hs1, h1, h2, h3, h4, h5⟩ := arc_ok (eps := 1 / 2 ^ 15) (by norm_num) ⟨0, 0⟩ ⟨1, 0⟩ (by simp) 100000 100000 0 false true
      (by norm_num) (by norm_num) (by
        right
        simp only [arcV, xform, zero_mul, Real.cos_zero, Real.sin_zero]
        norm_num)
    set a := arcPar (1 / 2 ^ 15) ⟨0, 0⟩ 100000 100000 0 false true ⟨1, 0⟩ with ha
    show arc2 _ n a = _
    unfold arc2
    rw [if_pos]
    right; right
    unfold eqR
    rw [sub_zero]
    have hpi := h5.small rfl
    have hcs := h5.cos_sweep
    have hq := Real.cos_le_one_sub_mul_cos_sq hpi
    have hp4 := Real.pi_lt_four
    have hp0 := Real.pi_pos
    simp only at hcs
    have hS : 100000 ^ 2 ≤ (s * |(100000 : ℝ)|) ^ 2 := by
      rw [abs_of_pos (by norm_num)]
      apply pow_le_pow_left₀ (by norm_num); linarith
    have h6 : 2 / π ^ 2 * a.dth ^ 2 ≤ 1 - Real.cos a.dth := by linarith
    have h7 : 0 ≤ 1 - Real.cos a.dth := by linarith [Real.cos_le_one a.dth]
    have h8 : 1 - Real.cos a.dth ≤ 1 / (2 * 100000 ^ 2) := by
      rw [le_div_iff₀ (by norm_num)]
      nlinarith
    have h9 : a.dth ^ 2 ≤ π ^ 2 / (4 * 100000 ^ 2) := by
      have : 2 / π ^ 2 * a.dth ^ 2 ≤ 1 / (2 * 100000 ^ 2) := le_trans h6 h8
      have h10 : a.dth ^ 2 = (2 / π ^ 2 * a.dth ^ 2) * (π ^ 2 / 2) := by field_simp
      rw [h10]
      calc _ ≤ 1 / (2 * 100000 ^ 2) * (π ^ 2 / 2) := mul_le_mul_of_nonneg_right this (by positivity)
        _ = _ := by ring
    apply abs_lt_of_sq_lt_sq _ (by norm_num)
    calc a.dth ^ 2 ≤ π ^ 2 / (4 * 100000 ^ 2) := h9
      _ < 4 ^ 2 / (4 * 100000 ^ 2) := by
        apply div_lt_div_of_pos_right _ (by norm_num)
        exact pow_lt_pow_left₀ hp4 hp0.le (by norm_num)
      _ < _ := by norm_num
  have hz : (St.new : St ℝ).cur = ⟨0, 0⟩ := rfl
  unfold pathArcAbs
  rw [hz, if_neg (by unfold ceq; rw [hc]; norm_num), if_neg (by unfold ceq; rw [hc]; norm_num), ha]
  simp only [hr]
  rfl

/-- C102: a small arc, here of a circle with radius 0.05 and with a chord of 0.05, is drawn as if the centre were the middle
of the chord: the point that is drawn is on no arc that meets the definition (`cp_div0` in 699 yields 0, as the
denominator is below the epsilon) -/
theorem C102_small_wrong :
    arcOf (1 / 2 ^ 15) 2 ⟨0, 0⟩ (1 / 20) (1 / 20) 0 false true ⟨1 / 20, 0⟩ = (true, [⟨1 / 40, -1 / 20⟩]) ∧
    ¬ ∃ c s th d t, IsArc ⟨0, 0⟩ (1 / 20) (1 / 20) 0 false true ⟨1 / 20, 0⟩ c s th d ∧
      ellipse c (s * |1 / 20|) (s * |1 / 20|) 0 t = ⟨1 / 40, -1 / 20⟩ := by
  constructor
  · have hv : arcV 1 0 (⟨0, 0⟩ : P ℝ) ⟨1 / 20, 0⟩ = ⟨-1 / 40, 0⟩ := by
      unfold arcV xform; norm_num
    have hr : arcRadii (1 / 20) (1 / 20) ⟨-1 / 40, 0⟩ = (1 / 20, 1 / 20) := by
      unfold arcRadii
      rw [abs_of_pos (by norm_num)]
      rw [if_neg (by norm_num)]
    have hc : arcCentre (1 / 2 ^ 15) (1 / 20) (1 / 20) ⟨-1 / 40, 0⟩ false true = ⟨0, 0⟩ := by
      unfold arcCentre
      have : ∀ a, div0 (1 / 2 ^ 15) a ((1 / 20) ^ 2 * 0 ^ 2 + (1 / 20) ^ 2 * (-1 / 40) ^ 2) = 0 := by
        intro a; unfold div0; rw [if_pos]; unfold eqR; rw [abs_of_pos (by norm_num)]; norm_num
      simp only [this, Real.sqrt_zero]
      norm_num
    have hd : ∀ a, div0 (1 / 2 ^ 15) a (1 / 20) = 20 * a := by
      intro a
      rw [div0_of (by rw [abs_of_pos (by norm_num)]; norm_num)]; ring
    have a0 : atan2 0 1 = 0 := by
      unfold atan2
      rw [show (⟨1, 0⟩ : ℂ) = ((1 : ℝ) : ℂ) from rfl]; exact Complex.arg_ofReal_of_nonneg (by norm_num)
    have a1 : atan2 0 (20 * (-1 / 40)) = π := by
      unfold atan2
      rw [show (⟨20 * (-1 / 40), 0⟩ : ℂ) = ((20 * (-1 / 40) : ℝ) : ℂ) from rfl]; exact Complex.arg_ofReal_of_neg (by norm_num)
    have a2 : atan2 0 (20 * (1 / 40)) = 0 := by
      unfold atan2
      rw [show (⟨20 * (1 / 40), 0⟩ : ℂ) = ((20 * (1 / 40) : ℝ) : ℂ) from rfl]; exact Complex.arg_ofReal_of_nonneg (by norm_num)
    have hp0 := Real.pi_pos
    have v1 : vec2Angle ⟨1, 0⟩ ⟨20 * (-1 / 40), 0⟩ = π := by
      unfold vec2Angle
      simp only [a0, a1]
      rw [if_neg (show ¬ π - 0 ≤ -π by linarith), if_neg (by linarith)]; ring
    have v2 : vec2Angle ⟨20 * (-1 / 40), 0⟩ ⟨20 * (1 / 40), 0⟩ = π := by
      unfold vec2Angle
      simp only [a1, a2]
      rw [if_pos (show 0 - π ≤ -π by linarith), if_neg (by linarith)]; ring
    have hp : arcPar (1 / 2 ^ 15) ⟨0, 0⟩ (1 / 20) (1 / 20) 0 false true ⟨1 / 20, 0⟩
        = ⟨1 / 20, 1 / 20, π, π, ⟨1 / 40, 0⟩, 1, 0⟩ := by
      unfold arcPar
      simp only [zero_mul, Real.sin_zero, Real.cos_zero, hv, hr, hc, hd]
      rw [show (20 * (0 - 0) : ℝ) = 0 by norm_num, show (20 * (-0 - 0) : ℝ) = 0 by norm_num,
        show (20 * (-1 / 40 - 0) : ℝ) = 20 * (-1 / 40) by norm_num, show (20 * (-(-1 / 40) - 0) : ℝ) = 20 * (1 / 40) by norm_num,
        v1, v2]
      simp only [not_true, false_and, if_false, true_and]
      rw [if_neg (not_lt.2 hp0.le)]
      unfold xform
      norm_num
    unfold arcOf arc2
    rw [hp, if_neg]
    · simp only [Nat.add_one_sub_one, List.range'_one, List.map_cons, List.map_nil]
      have hs : Real.sin (π + π * (((1 : ℕ) : ℝ) / ((2 : ℕ) : ℝ))) = -1 := by
        rw [show π + π * (((1 : ℕ) : ℝ) / ((2 : ℕ) : ℝ)) = π / 2 + π by push_cast; ring, Real.sin_add_pi, Real.sin_pi_div_two]
      have hcs : Real.cos (π + π * (((1 : ℕ) : ℝ) / ((2 : ℕ) : ℝ))) = 0 := by
        rw [show π + π * (((1 : ℕ) : ℝ) / ((2 : ℕ) : ℝ)) = π / 2 + π by push_cast; ring, Real.cos_add_pi, Real.cos_pi_div_two]; simp
      unfold arcPoint xform
      simp only [hs, hcs]
      norm_num
    · unfold eqR
      simp only [sub_zero, not_or, not_lt]
      rw [abs_of_pos (by norm_num), abs_of_pos hp0]
      have := Real.pi_gt_three
      refine ⟨by norm_num, by norm_num, ?_⟩
      calc (1 / 2 ^ 15 : ℝ) ≤ 3 := by norm_num
        _ ≤ π := this.le
  · rintro ⟨c, s, th, d, t, h, e⟩
    have h1 := ellipse_circle c (s * |1 / 20|) 0 th
    have h2 := ellipse_circle c (s * |1 / 20|) 0 (th + d)
    have h3 := ellipse_circle c (s * |1 / 20|) 0 t
    rw [h.start] at h1
    rw [h.stop] at h2
    rw [e] at h3
    simp only at h1 h2 h3
    have hs : 1 ≤ s := by rcases h.scale with h | ⟨h, -⟩ <;> linarith
    have hS : (1 / 20 : ℝ) ^ 2 ≤ (s * |1 / 20|) ^ 2 := by
      rw [abs_of_pos (by norm_num)]
      apply pow_le_pow_left₀ (by norm_num); linarith
    have hx : c.x = 1 / 40 := by linarith
    have hy : c.y = -3 / 160 := by rw [hx] at *; linarith
    rw [hx, hy] at h1
    norm_num at h1 hS
    linarith

end Hob3l.Svg
