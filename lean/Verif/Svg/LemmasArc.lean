import Verif.Svg.ArcModel
import Verif.Svg.ArcSpec
import Mathlib.Tactic.Ring
import Mathlib.Tactic.Linarith
import Mathlib.Tactic.FieldSimp
import Mathlib.Tactic.LinearCombination
import Mathlib.Tactic.Positivity

/-! Lemmas about elliptical arcs. -/

namespace Hob3l.Svg

open Real

theorem atan2_cos_sin {x y : ℝ} (h : x ^ 2 + y ^ 2 = 1) : Real.cos (atan2 y x) = x ∧ Real.sin (atan2 y x) = y := by
  unfold atan2
  have hn : ‖(⟨x, y⟩ : ℂ)‖ = 1 := by
    have h2 : ‖(⟨x, y⟩ : ℂ)‖ ^ 2 = 1 := by
      rw [← Complex.normSq_eq_norm_sq, Complex.normSq_mk]; linarith
    nlinarith [norm_nonneg (⟨x, y⟩ : ℂ)]
  have h0 : (⟨x, y⟩ : ℂ) ≠ 0 := by
    intro h0; rw [h0] at hn; simp at hn
  rw [Complex.cos_arg h0, Complex.sin_arg, hn]
  simp

theorem atan2_bounds (y x : ℝ) : -π < atan2 y x ∧ atan2 y x ≤ π := Complex.arg_mem_Ioc _

theorem vec2Angle_spec {a b : P ℝ} (ha : a.x ^ 2 + a.y ^ 2 = 1) (hb : b.x ^ 2 + b.y ^ 2 = 1) :
    Real.cos (vec2Angle a b) = a.x * b.x + a.y * b.y ∧ Real.sin (vec2Angle a b) = a.x * b.y - a.y * b.x ∧
    -π < vec2Angle a b ∧ vec2Angle a b ≤ π := by
  obtain ⟨ca, sa⟩ := atan2_cos_sin ha
  obtain ⟨cb, sb⟩ := atan2_cos_sin hb
  obtain ⟨la, ua⟩ := atan2_bounds a.y a.x
  obtain ⟨lb, ub⟩ := atan2_bounds b.y b.x
  have hpi := Real.pi_pos
  have key : ∀ r, r = atan2 b.y b.x - atan2 a.y a.x ∨ r = atan2 b.y b.x - atan2 a.y a.x + 2 * π ∨
      r = atan2 b.y b.x - atan2 a.y a.x - 2 * π →
      Real.cos r = a.x * b.x + a.y * b.y ∧ Real.sin r = a.x * b.y - a.y * b.x := by
    intro r hr
    have : Real.cos r = Real.cos (atan2 b.y b.x - atan2 a.y a.x) ∧ Real.sin r = Real.sin (atan2 b.y b.x - atan2 a.y a.x) := by
      rcases hr with rfl | rfl | rfl
      · exact ⟨rfl, rfl⟩
      · exact ⟨Real.cos_add_two_pi _, Real.sin_add_two_pi _⟩
      · exact ⟨Real.cos_sub_two_pi _, Real.sin_sub_two_pi _⟩
    rw [this.1, this.2, Real.cos_sub, Real.sin_sub, ca, sa, cb, sb]
    constructor <;> ring
  unfold vec2Angle
  simp only
  by_cases h1 : atan2 b.y b.x - atan2 a.y a.x ≤ -π
  · rw [if_pos h1]
    by_cases h2 : atan2 b.y b.x - atan2 a.y a.x + 2 * π > π
    · exfalso; linarith
    · rw [if_neg h2]
      obtain ⟨k1, k2⟩ := key _ (.inr (.inl rfl))
      exact ⟨k1, k2, by linarith, by linarith⟩
  · rw [if_neg h1]
    by_cases h2 : atan2 b.y b.x - atan2 a.y a.x > π
    · rw [if_pos h2]
      obtain ⟨k1, k2⟩ := key _ (.inr (.inr rfl))
      exact ⟨k1, k2, by linarith, by linarith⟩
    · rw [if_neg h2]
      obtain ⟨k1, k2⟩ := key _ (.inl rfl)
      exact ⟨k1, k2, by linarith, by linarith⟩

/-- the angle from the x axis -/
theorem vec2Angle_axis {b : P ℝ} (hb : b.x ^ 2 + b.y ^ 2 = 1) :
    Real.cos (vec2Angle ⟨1, 0⟩ b) = b.x ∧ Real.sin (vec2Angle ⟨1, 0⟩ b) = b.y := by
  obtain ⟨h1, h2, -⟩ := vec2Angle_spec (a := ⟨1, 0⟩) (by simp) hb
  refine ⟨by rw [h1]; simp, by rw [h2]; simp⟩

/-- the sign of the angle and of its sine agree -/
theorem angle_sign {d : ℝ} (h1 : -π < d) (h2 : d ≤ π) :
    (0 < Real.sin d → 0 < d ∧ d < π) ∧ (Real.sin d < 0 → d < 0) ∧ (Real.sin d = 0 → Real.cos d < 0 → d = π) := by
  refine ⟨fun h => ⟨?_, ?_⟩, fun h => ?_, fun h hc => ?_⟩
  · by_contra hd
    have := Real.sin_nonpos_of_nonpos_of_neg_pi_le (by linarith : d ≤ 0) h1.le
    linarith
  · rcases h2.lt_or_eq with h | h'
    · exact h
    · rw [h', Real.sin_pi] at h; exact absurd h (lt_irrefl _)
  · by_contra hd
    have := Real.sin_nonneg_of_nonneg_of_le_pi (by linarith : 0 ≤ d) h2
    linarith
  · by_contra hne
    have hlt : d < π := lt_of_le_of_ne h2 hne
    rcases lt_trichotomy d 0 with hd | hd | hd
    · have := Real.sin_neg_of_neg_of_neg_pi_lt hd h1; linarith
    · rw [hd, Real.cos_zero] at hc; linarith
    · have := Real.sin_pos_of_pos_of_lt_pi hd hlt; linarith

/-- the sweep angle: 720-722 -/
noncomputable def sweepOf (fs : Bool) (d0 : ℝ) : ℝ :=
  let d := if ¬ fs = true ∧ d0 > 0 then d0 - 2 * π else d0
  if fs = true ∧ d < 0 then d + 2 * π else d

theorem sweepOf_cos_sin (fs : Bool) (d0 : ℝ) :
    Real.cos (sweepOf fs d0) = Real.cos d0 ∧ Real.sin (sweepOf fs d0) = Real.sin d0 := by
  have h : sweepOf fs d0 = d0 - 2 * π ∨ sweepOf fs d0 = d0 + 2 * π ∨ sweepOf fs d0 = d0 := by
    unfold sweepOf
    cases fs with
    | true =>
      simp only [not_true, false_and, if_false, true_and]
      by_cases h : d0 < 0
      · rw [if_pos h]; exact .inr (.inl rfl)
      · rw [if_neg h]; exact .inr (.inr rfl)
    | false =>
      simp only [Bool.false_eq_true, not_false_eq_true, true_and, false_and, if_false]
      by_cases h : d0 > 0
      · rw [if_pos h]; exact .inl rfl
      · rw [if_neg h]; exact .inr (.inr rfl)
  rcases h with h | h | h <;> rw [h]
  · exact ⟨Real.cos_sub_two_pi _, Real.sin_sub_two_pi _⟩
  · exact ⟨Real.cos_add_two_pi _, Real.sin_add_two_pi _⟩
  · exact ⟨rfl, rfl⟩

/-- the range of the sweep -/
theorem sweep_range (k N d0 d : ℝ) (fa fs : Bool) (hdef : d = sweepOf fs d0) (hN : 0 < N) (hk : k ^ 2 * N = 1 - N)
    (hs1 : fa = fs → k ≤ 0) (hs2 : fa ≠ fs → 0 ≤ k) (hsin : Real.sin d0 = 2 * k * N) (hcos : Real.cos d0 = 1 - 2 * N)
    (ld : -π < d0) (ud : d0 ≤ π) :
    (fs = true → 0 < d ∧ d < 2 * π) ∧ (fs = false → d < 0 ∧ -(2 * π) < d) ∧
    (fa = false → |d| ≤ π) ∧ (fa = true → π ≤ |d|) ∧ (k = 0 → |d| = π) := by
  have hpi := Real.pi_pos
  obtain ⟨sg1, sg2, sg3⟩ := angle_sign ld ud
  rcases lt_trichotomy k 0 with hk0 | hk0 | hk0
  · have : d0 < 0 := sg2 (by rw [hsin]; nlinarith)
    have hfa : fa = fs := by
      by_contra hne; have := hs2 hne; linarith
    subst hfa
    cases fa with
    | true =>
      have hd : d = d0 + 2 * π := by
        rw [hdef]; unfold sweepOf; simp only [not_true, false_and, if_false, true_and]
        rw [if_pos this]
      refine ⟨fun _ => ⟨by linarith, by linarith⟩, (fun e => by cases e), (fun e => by cases e), fun _ => ?_, fun e => by linarith⟩
      rw [abs_of_pos (by linarith)]; linarith
    | false =>
      have hd : d = d0 := by
        rw [hdef]; unfold sweepOf
        simp only [Bool.false_eq_true, not_false_eq_true, true_and, false_and, if_false]
        rw [if_neg (by linarith)]
      refine ⟨(fun e => by cases e), fun _ => ⟨by linarith, by linarith⟩, fun _ => ?_, (fun e => by cases e), fun e => by linarith⟩
      rw [abs_of_neg (by linarith)]; linarith
  · have hN1 : N = 1 := by rw [hk0] at hk; linarith
    have h0 : d0 = π := sg3 (by rw [hsin, hk0]; ring) (by rw [hcos, hN1]; norm_num)
    cases fs with
    | true =>
      have hd : d = π := by
        rw [hdef]; unfold sweepOf; simp only [not_true, false_and, if_false, true_and]
        rw [if_neg (by linarith), h0]
      refine ⟨fun _ => ⟨by linarith, by linarith⟩, (fun e => by cases e), fun _ => ?_, fun _ => ?_, fun _ => ?_⟩ <;>
        rw [hd, abs_of_pos hpi]
    | false =>
      have hd : d = -π := by
        rw [hdef]; unfold sweepOf
        simp only [Bool.false_eq_true, not_false_eq_true, true_and, false_and, if_false]
        rw [if_pos (by linarith), h0]; ring
      refine ⟨(fun e => by cases e), fun _ => ⟨by linarith, by linarith⟩, fun _ => ?_, fun _ => ?_, fun _ => ?_⟩ <;>
        rw [hd, abs_neg, abs_of_pos hpi]
  · obtain ⟨h1, h2⟩ : 0 < d0 ∧ d0 < π := sg1 (by rw [hsin]; positivity)
    have hfa : fa ≠ fs := by
      intro hne; have := hs1 hne; linarith
    cases fs with
    | true =>
      have hfa' : fa = false := by cases fa <;> simp_all
      subst hfa'
      have hd : d = d0 := by
        rw [hdef]; unfold sweepOf; simp only [not_true, false_and, if_false, true_and]
        rw [if_neg (by linarith)]
      refine ⟨fun _ => ⟨by linarith, by linarith⟩, (fun e => by cases e), fun _ => ?_, (fun e => by cases e), fun e => by linarith⟩
      rw [abs_of_pos (by linarith)]; linarith
    | false =>
      have hfa' : fa = true := by cases fa <;> simp_all
      subst hfa'
      have hd : d = d0 - 2 * π := by
        rw [hdef]; unfold sweepOf
        simp only [Bool.false_eq_true, not_false_eq_true, true_and, false_and, if_false]
        rw [if_pos h1]
      refine ⟨(fun e => by cases e), fun _ => ⟨by linarith, by linarith⟩, (fun e => by cases e), fun _ => ?_, fun e => by linarith⟩
      rw [abs_of_neg (by linarith)]; linarith

/-- the angles in terms of the half chord `u` on the unit circle, whose centre is at distance `k` times that of the half
chord -/
theorem arc_angles (ux uy k : ℝ) (fa fs : Bool) (hN : 0 < ux ^ 2 + uy ^ 2) (hk : k ^ 2 * (ux ^ 2 + uy ^ 2) = 1 - (ux ^ 2 + uy ^ 2))
    (hs1 : fa = fs → k ≤ 0) (hs2 : fa ≠ fs → 0 ≤ k) :
    let g : P ℝ := ⟨ux - k * uy, uy + k * ux⟩
    let h : P ℝ := ⟨-ux - k * uy, -uy + k * ux⟩
    let th := vec2Angle ⟨1, 0⟩ g
    let d := sweepOf fs (vec2Angle g h)
    (Real.cos th = g.x ∧ Real.sin th = g.y) ∧ (Real.cos (th + d) = h.x ∧ Real.sin (th + d) = h.y) ∧
    (fs = true → 0 < d ∧ d < 2 * π) ∧ (fs = false → d < 0 ∧ -(2 * π) < d) ∧
    (fa = false → |d| ≤ π) ∧ (fa = true → π ≤ |d|) ∧ (k = 0 → |d| = π) := by
  intro g h th d
  have hg : g.x ^ 2 + g.y ^ 2 = 1 := by
    show (ux - k * uy) ^ 2 + (uy + k * ux) ^ 2 = 1
    nlinarith
  have hh : h.x ^ 2 + h.y ^ 2 = 1 := by
    show (-ux - k * uy) ^ 2 + (-uy + k * ux) ^ 2 = 1
    nlinarith
  obtain ⟨ct, st⟩ := vec2Angle_axis hg
  obtain ⟨cd, sd, ld, ud⟩ := vec2Angle_spec hg hh
  have hsin : Real.sin (vec2Angle g h) = 2 * k * (ux ^ 2 + uy ^ 2) := by
    rw [sd]
    show (ux - k * uy) * (-uy + k * ux) - (uy + k * ux) * (-ux - k * uy) = _
    ring
  have hcos : Real.cos (vec2Angle g h) = 1 - 2 * (ux ^ 2 + uy ^ 2) := by
    rw [cd]
    show (ux - k * uy) * (-ux - k * uy) + (uy + k * ux) * (-uy + k * ux) = _
    nlinarith
  have hcs := sweepOf_cos_sin fs (vec2Angle g h)
  have hend : Real.cos (th + d) = h.x ∧ Real.sin (th + d) = h.y := by
    rw [Real.cos_add, Real.sin_add, hcs.1, hcs.2, cd, sd, ct, st]
    constructor
    · linear_combination h.x * hg
    · linear_combination h.y * hg
  exact ⟨⟨ct, st⟩, hend, sweep_range k _ _ d fa fs rfl hN hk hs1 hs2 hsin hcos ld ud⟩

theorem div0_of {eps a b : ℝ} (h : eps ≤ |b|) : div0 eps a b = a / b := by
  unfold div0
  rw [if_neg (by unfold eqR; rw [sub_zero]; exact not_lt.2 h)]

/-- the factor by which the radii are scaled -/
noncomputable def arcScale (rx ry : ℝ) (v : P ℝ) : ℝ :=
  let la := v.x ^ 2 / |rx| ^ 2 + v.y ^ 2 / |ry| ^ 2
  if la > 1 then Real.sqrt la else 1

theorem arcRadii_eq (rx ry : ℝ) (v : P ℝ) : arcRadii rx ry v = (arcScale rx ry v * |rx|, arcScale rx ry v * |ry|) := by
  unfold arcRadii arcScale
  simp only
  split_ifs
  · exact Prod.ext (mul_comm _ _) (mul_comm _ _)
  · simp

theorem arcScale_props {rx ry : ℝ} (hrx : 0 < |rx|) (hry : 0 < |ry|) (v : P ℝ) :
    let s := arcScale rx ry v
    let n := (v.x / (s * |rx|)) ^ 2 + (v.y / (s * |ry|)) ^ 2
    1 ≤ s ∧ n ≤ 1 ∧ (s = 1 ∨ (1 < s ∧ n = 1)) ∧ (1 < s ↔ 1 < v.x ^ 2 / |rx| ^ 2 + v.y ^ 2 / |ry| ^ 2) := by
  intro s n
  set la := v.x ^ 2 / |rx| ^ 2 + v.y ^ 2 / |ry| ^ 2 with hla
  have hs : s = if la > 1 then Real.sqrt la else 1 := rfl
  by_cases h : la > 1
  · have hs' : s = Real.sqrt la := by rw [hs, if_pos h]
    have hsq : s ^ 2 = la := by rw [hs', Real.sq_sqrt (by linarith)]
    have h1 : 1 < s := by rw [hs']; exact Real.lt_sqrt_of_sq_lt (by linarith)
    have hn : n = 1 := by
      show (v.x / (s * |rx|)) ^ 2 + (v.y / (s * |ry|)) ^ 2 = 1
      have : (v.x / (s * |rx|)) ^ 2 + (v.y / (s * |ry|)) ^ 2 = la / s ^ 2 := by
        rw [hla]; field_simp
      rw [this, hsq, div_self (by linarith)]
    exact ⟨h1.le, hn.le, .inr ⟨h1, hn⟩, ⟨fun _ => h, fun _ => h1⟩⟩
  · have hs' : s = 1 := by rw [hs, if_neg h]
    have hn : n = la := by
      show (v.x / (s * |rx|)) ^ 2 + (v.y / (s * |ry|)) ^ 2 = la
      rw [hs', hla]; simp [div_pow]
    exact ⟨hs'.ge, by rw [hn]; linarith, .inl hs', ⟨fun h' => by linarith, fun h' => absurd h' h⟩⟩

/-- half the chord in the system of the ellipse is not zero -/
theorem arcV_norm (t : ℝ) (p1 p2 : P ℝ) :
    (arcV (Real.cos t) (Real.sin t) p1 p2).x ^ 2 + (arcV (Real.cos t) (Real.sin t) p1 p2).y ^ 2
      = ((p1.x - p2.x) / 2) ^ 2 + ((p1.y - p2.y) / 2) ^ 2 := by
  unfold arcV xform
  simp only
  have := Real.sin_sq_add_cos_sq t
  linear_combination (((p1.x - p2.x) / 2) ^ 2 + ((p1.y - p2.y) / 2) ^ 2) * this

theorem arc_ok {eps : ℝ} (he : 0 < eps) (p1 p2 : P ℝ) (hp : p1 ≠ p2) (rx ry ph : ℝ) (fa fs : Bool)
    (hrx : eps ≤ |rx|) (hry : eps ≤ |ry|)
    (hd : let v := arcV (Real.cos (ph * (π / 180))) (Real.sin (ph * (π / 180))) p1 p2
      1 < v.x ^ 2 / |rx| ^ 2 + v.y ^ 2 / |ry| ^ 2 ∨ eps ≤ |rx| ^ 2 * v.y ^ 2 + |ry| ^ 2 * v.x ^ 2) :
    let a := arcPar eps p1 rx ry ph fa fs p2
    ∃ s, 1 ≤ s ∧ a.rx = s * |rx| ∧ a.ry = s * |ry| ∧ a.co = Real.cos (ph * (π / 180)) ∧ a.si = Real.sin (ph * (π / 180)) ∧
      IsArc p1 rx ry ph fa fs p2 a.c s a.th1 a.dth := by
  intro a
  have hx0 : 0 < |rx| := lt_of_lt_of_le he hrx
  have hy0 : 0 < |ry| := lt_of_lt_of_le he hry
  set co := Real.cos (ph * (π / 180)) with hco
  set si := Real.sin (ph * (π / 180)) with hsi
  have hcs : co ^ 2 + si ^ 2 = 1 := by rw [hco, hsi, Real.cos_sq_add_sin_sq]
  set v := arcV co si p1 p2 with hv
  simp only at hd
  set s := arcScale rx ry v with hs
  obtain ⟨hs1, hn1, hs2, hs3⟩ := arcScale_props hx0 hy0 v
  rw [← hs] at hs1 hn1 hs2 hs3
  set r1 := s * |rx| with hr1
  set r2 := s * |ry| with hr2
  have hr1e : eps ≤ r1 := by rw [hr1]; nlinarith
  have hr2e : eps ≤ r2 := by rw [hr2]; nlinarith
  have hr1p : 0 < r1 := by linarith
  have hr2p : 0 < r2 := by linarith
  set ux := v.x / r1 with hux
  set uy := v.y / r2 with huy
  have hvx : v.x = ux * r1 := by rw [hux]; field_simp
  have hvy : v.y = uy * r2 := by rw [huy]; field_simp
  have hN0 : 0 < ux ^ 2 + uy ^ 2 := by
    have hvn : 0 < v.x ^ 2 + v.y ^ 2 := by
      rw [hv, hco, hsi, arcV_norm]
      by_contra hc
      have e1 : (p1.x - p2.x) / 2 = 0 := by nlinarith [sq_nonneg ((p1.x - p2.x) / 2), sq_nonneg ((p1.y - p2.y) / 2)]
      have e2 : (p1.y - p2.y) / 2 = 0 := by nlinarith [sq_nonneg ((p1.x - p2.x) / 2), sq_nonneg ((p1.y - p2.y) / 2)]
      apply hp
      cases p1; cases p2
      simp only [P.mk.injEq] at *
      constructor <;> linarith
    by_contra hc
    have e1 : ux = 0 := by nlinarith [sq_nonneg ux, sq_nonneg uy]
    have e2 : uy = 0 := by nlinarith [sq_nonneg ux, sq_nonneg uy]
    rw [hvx, hvy, e1, e2] at hvn
    simp at hvn
  -- the coefficient
  set q := Real.sqrt (div0 eps (max 0 (r1 ^ 2 * r2 ^ 2 - r1 ^ 2 * v.y ^ 2 - r2 ^ 2 * v.x ^ 2))
    (r1 ^ 2 * v.y ^ 2 + r2 ^ 2 * v.x ^ 2)) with hq
  have hq0 : 0 ≤ q := Real.sqrt_nonneg _
  have hnum : r1 ^ 2 * r2 ^ 2 - r1 ^ 2 * v.y ^ 2 - r2 ^ 2 * v.x ^ 2 = r1 ^ 2 * r2 ^ 2 * (1 - (ux ^ 2 + uy ^ 2)) := by
    rw [hvx, hvy]; ring
  have hden : r1 ^ 2 * v.y ^ 2 + r2 ^ 2 * v.x ^ 2 = r1 ^ 2 * r2 ^ 2 * (ux ^ 2 + uy ^ 2) := by
    rw [hvx, hvy]; ring
  have hq2 : q ^ 2 * (ux ^ 2 + uy ^ 2) = 1 - (ux ^ 2 + uy ^ 2) := by
    by_cases hN1 : ux ^ 2 + uy ^ 2 = 1
    · have : q = 0 := by
        rw [hq, hnum, hN1]
        simp [div0]
      rw [this, hN1]; ring
    · have hs1' : s = 1 := by
        rcases hs2 with h | ⟨-, h⟩
        · exact h
        · exact absurd h hN1
      have hde : eps ≤ r1 ^ 2 * v.y ^ 2 + r2 ^ 2 * v.x ^ 2 := by
        rcases hd with h | h
        · have := hs3.2 h; linarith
        · rw [hr1, hr2, hs1', one_mul, one_mul]; exact h
      have hq' : q ^ 2 = (1 - (ux ^ 2 + uy ^ 2)) / (ux ^ 2 + uy ^ 2) := by
        rw [hq, div0_of (by rw [abs_of_nonneg (by linarith)]; exact hde), hnum, hden,
          max_eq_right (by have : 0 ≤ 1 - (ux ^ 2 + uy ^ 2) := by linarith
                           positivity),
          mul_div_mul_left _ _ (by positivity), Real.sq_sqrt]
        exact div_nonneg (by linarith) hN0.le
      rw [hq']; field_simp
  set k := (if fa = fs then -q else q) with hk
  have hk2 : k ^ 2 * (ux ^ 2 + uy ^ 2) = 1 - (ux ^ 2 + uy ^ 2) := by
    rw [hk]; split_ifs
    · rw [neg_sq]; exact hq2
    · exact hq2
  have key := arc_angles ux uy k fa fs hN0 hk2 (fun h => by rw [hk, if_pos h]; linarith) (fun h => by rw [hk, if_neg h]; exact hq0)
  -- the model computes exactly these
  have hrad : arcRadii rx ry v = (r1, r2) := arcRadii_eq rx ry v
  have ab1 : eps ≤ |r1| := by rw [abs_of_pos hr1p]; exact hr1e
  have ab2 : eps ≤ |r2| := by rw [abs_of_pos hr2p]; exact hr2e
  have hcp : arcCentre eps r1 r2 v fa fs = ⟨k * (r1 * v.y / r2), -k * (r2 * v.x / r1)⟩ := by
    unfold arcCentre
    simp only
    rw [div0_of ab2, div0_of ab1]
  have hcx : k * (r1 * v.y / r2) = k * uy * r1 := by rw [hvy]; field_simp
  have hcy : -k * (r2 * v.x / r1) = -(k * ux * r2) := by rw [hvx]; field_simp
  have e1 : div0 eps (v.x - k * (r1 * v.y / r2)) r1 = ux - k * uy := by
    rw [div0_of ab1, hcx, hvx]; field_simp
  have e2 : div0 eps (v.y - -k * (r2 * v.x / r1)) r2 = uy + k * ux := by
    rw [div0_of ab2, hcy, hvy]; field_simp; ring
  have e3 : div0 eps (-v.x - k * (r1 * v.y / r2)) r1 = -ux - k * uy := by
    rw [div0_of ab1, hcx, hvx]; field_simp
  have e4 : div0 eps (-v.y - -k * (r2 * v.x / r1)) r2 = -uy + k * ux := by
    rw [div0_of ab2, hcy, hvy]; field_simp; ring
  have ha : a = ⟨r1, r2, vec2Angle ⟨1, 0⟩ ⟨ux - k * uy, uy + k * ux⟩,
      sweepOf fs (vec2Angle ⟨ux - k * uy, uy + k * ux⟩ ⟨-ux - k * uy, -uy + k * ux⟩),
      ⟨(xform co (-si) si co ⟨k * uy * r1, -(k * ux * r2)⟩).x + (p1.x + p2.x) / 2,
       (xform co (-si) si co ⟨k * uy * r1, -(k * ux * r2)⟩).y + (p1.y + p2.y) / 2⟩, co, si⟩ := by
    show arcPar eps p1 rx ry ph fa fs p2 = _
    unfold arcPar
    simp only [← hco, ← hsi, ← hv, hrad, hcp, e1, e2, e3, e4]
    simp only [hcx, hcy]
    rfl
  obtain ⟨⟨k1, k2⟩, ⟨k3, k4⟩, k5, k6, k7, k8, k9⟩ := key
  simp only at k1 k2 k3 k4
  have hvd : v = ⟨co * ((p1.x - p2.x) / 2) + si * ((p1.y - p2.y) / 2), -si * ((p1.x - p2.x) / 2) + co * ((p1.y - p2.y) / 2)⟩ := rfl
  have vx' : ux * r1 = co * ((p1.x - p2.x) / 2) + si * ((p1.y - p2.y) / 2) := by rw [← hvx, hvd]
  have vy' : uy * r2 = -si * ((p1.x - p2.x) / 2) + co * ((p1.y - p2.y) / 2) := by rw [← hvy, hvd]
  refine ⟨s, hs1, ?_, ?_, ?_, ?_, ?_, ?_, ?_, ?_, ?_, ?_, ?_⟩
  · rw [ha]
  · rw [ha]
  · rw [ha]
  · rw [ha]
  · rw [ha]
    unfold ellipse xform
    simp only [← hco, ← hsi, ← hr1, ← hr2, k1, k2]
    cases p1 with | mk x1 y1 =>
    cases p2 with | mk x2 y2 =>
    simp only [P.mk.injEq] at *
    constructor
    · linear_combination co * vx' - si * vy' + (x1 - x2) / 2 * hcs
    · linear_combination si * vx' + co * vy' + (y1 - y2) / 2 * hcs
  · rw [ha]
    unfold ellipse xform
    simp only [← hco, ← hsi, ← hr1, ← hr2, k3, k4]
    cases p1 with | mk x1 y1 =>
    cases p2 with | mk x2 y2 =>
    simp only [P.mk.injEq] at *
    constructor
    · linear_combination -co * vx' + si * vy' - (x1 - x2) / 2 * hcs
    · linear_combination -si * vx' - co * vy' - (y1 - y2) / 2 * hcs
  · rcases hs2 with h | ⟨h, h'⟩
    · exact .inl h
    · refine .inr ⟨h, ?_⟩
      rw [ha]
      have : k = 0 := by
        have h'' : ux ^ 2 + uy ^ 2 = 1 := h'
        rw [h''] at hk2
        have : k ^ 2 = 0 := by linarith
        exact pow_eq_zero_iff (by norm_num) |>.1 this
      exact k9 this
  · rw [ha]; exact k5
  · rw [ha]; exact k6
  · rw [ha]; exact k7
  · rw [ha]; exact k8

end Hob3l.Svg
