import Verif.Matq.LemmasIntersect
import Verif.Matq.Spec
import Mathlib.Tactic.FieldSimp
import Mathlib.Tactic.LinearCombination
import Mathlib.Tactic.Positivity

namespace Hob3l.Matq

/-- Cramer's rule: the common points of two non-parallel segments -/
theorem common_iff (a b c d : Pt) (D T U : ℚ)
    (hD : D = (b.1 - a.1) * (d.2 - c.2) - (b.2 - a.2) * (d.1 - c.1))
    (hT : T = (c.1 - a.1) * (d.2 - c.2) - (c.2 - a.2) * (d.1 - c.1))
    (hU : U = (c.1 - a.1) * (b.2 - a.2) - (c.2 - a.2) * (b.1 - a.1)) (h0 : D ≠ 0) (X : Pt) :
    (OnSeg a b X ∧ OnSeg c d X) ↔
      (0 ≤ T / D ∧ T / D ≤ 1 ∧ 0 ≤ U / D ∧ U / D ≤ 1 ∧
        X = (a.1 + T / D * (b.1 - a.1), a.2 + T / D * (b.2 - a.2))) := by
  have k1 : T * (b.1 - a.1) - U * (d.1 - c.1) = (c.1 - a.1) * D := by rw [hD, hT, hU]; ring
  have k2 : T * (b.2 - a.2) - U * (d.2 - c.2) = (c.2 - a.2) * D := by rw [hD, hT, hU]; ring
  constructor
  · rintro ⟨⟨s, s0, s1, sx, sy⟩, ⟨r, r0, r1, rx, ry⟩⟩
    have e1 : s = T / D := by
      rw [eq_div_iff h0, hD, hT]
      linear_combination (-(d.2 - c.2)) * sx + (d.1 - c.1) * sy + (d.2 - c.2) * rx - (d.1 - c.1) * ry
    have e2 : r = U / D := by
      rw [eq_div_iff h0, hD, hU]
      linear_combination (-(b.2 - a.2)) * sx + (b.1 - a.1) * sy + (b.2 - a.2) * rx - (b.1 - a.1) * ry
    rw [← e1, ← e2]
    exact ⟨s0, s1, r0, r1, Prod.ext sx sy⟩
  · rintro ⟨s0, s1, r0, r1, rfl⟩
    refine ⟨⟨T / D, s0, s1, rfl, rfl⟩, ⟨U / D, r0, r1, ?_, ?_⟩⟩
    · show a.1 + T / D * (b.1 - a.1) = c.1 + U / D * (d.1 - c.1)
      field_simp
      linear_combination k1
    · show a.2 + T / D * (b.2 - a.2) = c.2 + U / D * (d.2 - c.2)
      field_simp
      linear_combination k2

theorem in01_iff (D T : Int) (h0 : D ≠ 0) : In01 D T ↔ (0 ≤ (T : ℚ) / D ∧ (T : ℚ) / D ≤ 1) := by
  unfold In01
  rcases lt_or_gt_of_ne h0 with h | h
  · have hq : (D : ℚ) < 0 := by exact_mod_cast h
    rw [div_nonneg_iff, div_le_one_of_neg hq]
    constructor
    · rintro (⟨h1, -, -⟩ | ⟨h1, h2, h3⟩)
      · omega
      · exact ⟨Or.inr ⟨by exact_mod_cast h3, hq.le⟩, by exact_mod_cast h2⟩
    · rintro ⟨(⟨h1, h2⟩ | ⟨h1, h2⟩), h3⟩
      · exact absurd hq (not_lt.mpr h2)
      · exact Or.inr ⟨h, by exact_mod_cast h3, by exact_mod_cast h1⟩
  · have hq : (0 : ℚ) < D := by exact_mod_cast h
    rw [div_nonneg_iff, div_le_one hq]
    constructor
    · rintro (⟨h1, h2, h3⟩ | ⟨h1, h2, h3⟩)
      · exact ⟨Or.inl ⟨by exact_mod_cast h2, hq.le⟩, by exact_mod_cast h3⟩
      · omega
    · rintro ⟨(⟨h1, h2⟩ | ⟨h1, h2⟩), h3⟩
      · exact Or.inl ⟨h, by exact_mod_cast h1, by exact_mod_cast h3⟩
      · exact absurd hq (not_lt.mpr h2)

theorem abs_div_of_in01 {D T : Int} (h0 : D ≠ 0) (h : In01 D T) : ((|T| : Int) : ℚ) / ((|D| : Int) : ℚ) = (T : ℚ) / D := by
  rcases h with ⟨h1, h2, h3⟩ | ⟨h1, h2, h3⟩
  · rw [abs_of_nonneg h2, abs_of_pos h1]
  · rw [abs_of_nonpos h3, abs_of_neg h1]; push_cast; rw [neg_div_neg_eq]

theorem bit_eq (b : Bool) (c : Prop) [Decidable c] (v : Int) (h : b = true ↔ c) :
    bit b v = if c then v else 0 := by
  unfold bit; by_cases hc : c <;> simp_all

/-- Summary of `intersect` over the rationals. -/
theorem intersect_main (debug : Bool) (p1 p2 p3 p4 : Vec2)
    (h1 : p1.InRange) (h2 : p2.InRange) (h3 : p3.InRange) (h4 : p4.InRange) :
    ∃ code pt, intersect debug p1 p2 p3 p4 = some (code, pt) ∧
      ((code = -1 ∧ pt = none ∧ Parallel p1.pt p2.pt p3.pt p4.pt) ∨
       (code = 0 ∧ pt = none ∧ ¬ Parallel p1.pt p2.pt p3.pt p4.pt ∧
          ¬ ∃ X, OnSeg p1.pt p2.pt X ∧ OnSeg p3.pt p4.pt X) ∨
       (¬ Parallel p1.pt p2.pt p3.pt p4.pt ∧ ∃ P, pt = some P ∧ P.Valid ∧
          (∀ X, (OnSeg p1.pt p2.pt X ∧ OnSeg p3.pt p4.pt X) ↔ X = P.pt) ∧
          code = 1 + (if P.pt = p1.pt then 2 else 0) + (if P.pt = p2.pt then 4 else 0)
            + (if P.pt = p3.pt then 8 else 0) + (if P.pt = p4.pt then 16 else 0))) := by
  obtain ⟨h1x, h1y⟩ := h1
  obtain ⟨h2x, h2y⟩ := h2
  obtain ⟨h3x, h3y⟩ := h3
  obtain ⟨h4x, h4y⟩ := h4
  obtain ⟨u1, u2, u3⟩ := intersect_unfold debug p1 p2 p3 p4 h1x h1y h2x h2y h3x h3y h4x h4y _ _ _ rfl rfl rfl
  have d1 := D31_sub h2x h1x
  have d2 := D31_sub h2y h1y
  have d3 := D31_sub h4x h3x
  have d4 := D31_sub h4y h3y
  have bD := cross_d31 d1 d4 d2 d3
  generalize hD : (p2.x - p1.x) * (p4.y - p3.y) - (p2.y - p1.y) * (p4.x - p3.x) = D at *
  generalize hT : (p3.x - p1.x) * (p4.y - p3.y) - (p3.y - p1.y) * (p4.x - p3.x) = T at *
  generalize hU : (p3.x - p1.x) * (p2.y - p1.y) - (p3.y - p1.y) * (p2.x - p1.x) = U at *
  have hDq : (D : ℚ) = (p2.pt.1 - p1.pt.1) * (p4.pt.2 - p3.pt.2) - (p2.pt.2 - p1.pt.2) * (p4.pt.1 - p3.pt.1) := by
    simp only [Vec2.pt]; exact_mod_cast hD.symm
  have hTq : (T : ℚ) = (p3.pt.1 - p1.pt.1) * (p4.pt.2 - p3.pt.2) - (p3.pt.2 - p1.pt.2) * (p4.pt.1 - p3.pt.1) := by
    simp only [Vec2.pt]; exact_mod_cast hT.symm
  have hUq : (U : ℚ) = (p3.pt.1 - p1.pt.1) * (p2.pt.2 - p1.pt.2) - (p3.pt.2 - p1.pt.2) * (p2.pt.1 - p1.pt.1) := by
    simp only [Vec2.pt]; exact_mod_cast hU.symm
  have hpar : Parallel p1.pt p2.pt p3.pt p4.pt ↔ D = 0 := by
    unfold Parallel
    rw [← sub_eq_zero, ← hDq]; exact_mod_cast Iff.rfl
  by_cases hD0 : D = 0
  · exact ⟨-1, none, u1 hD0, Or.inl ⟨rfl, rfl, hpar.mpr hD0⟩⟩
  have hD0q : (D : ℚ) ≠ 0 := by exact_mod_cast hD0
  have hcom := common_iff p1.pt p2.pt p3.pt p4.pt D T U hDq hTq hUq hD0q
  by_cases hin : In01 D T ∧ In01 D U
  swap
  · refine ⟨0, none, u2 hD0 hin, Or.inr (Or.inl ⟨rfl, rfl, fun h => hD0 (hpar.mp h), ?_⟩)⟩
    rintro ⟨X, hX⟩
    rw [hcom X] at hX
    apply hin
    rw [in01_iff D T hD0, in01_iff D U hD0]
    exact ⟨⟨hX.1, hX.2.1⟩, ⟨hX.2.2.1, hX.2.2.2.1⟩⟩
  obtain ⟨hinT, hinU⟩ := hin
  have eT := abs_div_of_in01 hD0 hinT
  have eU := abs_div_of_in01 hD0 hinU
  have hTq' := (in01_iff D T hD0).mp hinT
  have hUq' := (in01_iff D U hD0).mp hinU
  -- the unique common point
  have k1 : T * (p2.x - p1.x) - U * (p4.x - p3.x) = (p3.x - p1.x) * D := by rw [← hD, ← hT, ← hU]; ring
  have k2 : T * (p2.y - p1.y) - U * (p4.y - p3.y) = (p3.y - p1.y) * D := by rw [← hD, ← hT, ← hU]; ring
  have hne12 : ¬ (p2.x - p1.x = 0 ∧ p2.y - p1.y = 0) := by
    rintro ⟨a, b⟩; apply hD0; rw [← hD, a, b]; ring
  have hne34 : ¬ (p4.x - p3.x = 0 ∧ p4.y - p3.y = 0) := by
    rintro ⟨a, b⟩; apply hD0; rw [← hD, a, b]; ring
  -- X0 equals which end point
  have hX1 : ∀ s : ℚ, ((p1.pt.1 + s * (p2.pt.1 - p1.pt.1), p1.pt.2 + s * (p2.pt.2 - p1.pt.2)) : Pt) = p1.pt ↔ s = 0 := by
    intro s
    constructor
    · intro h
      by_contra hs
      apply hne12
      have a := congrArg Prod.fst h
      have b := congrArg Prod.snd h
      simp only [Vec2.pt, add_eq_left, mul_eq_zero, hs, false_or] at a b
      exact ⟨by exact_mod_cast a, by exact_mod_cast b⟩
    · rintro rfl; simp
  have hX2 : ∀ s : ℚ, ((p1.pt.1 + s * (p2.pt.1 - p1.pt.1), p1.pt.2 + s * (p2.pt.2 - p1.pt.2)) : Pt) = p2.pt ↔ s = 1 := by
    intro s
    constructor
    · intro h
      by_contra hs
      apply hne12
      have a := congrArg Prod.fst h
      have b := congrArg Prod.snd h
      simp only [Vec2.pt] at a b
      have hs' : s - 1 ≠ 0 := sub_ne_zero.mpr hs
      have a' : (s - 1) * ((p2.x : ℚ) - p1.x) = 0 := by linear_combination a
      have b' : (s - 1) * ((p2.y : ℚ) - p1.y) = 0 := by linear_combination b
      simp only [mul_eq_zero, hs', false_or] at a' b'
      exact ⟨by exact_mod_cast a', by exact_mod_cast b'⟩
    · rintro rfl; simp
  have hX3 : ∀ s : ℚ, ((p3.pt.1 + s * (p4.pt.1 - p3.pt.1), p3.pt.2 + s * (p4.pt.2 - p3.pt.2)) : Pt) = p3.pt ↔ s = 0 := by
    intro s
    constructor
    · intro h
      by_contra hs
      apply hne34
      have a := congrArg Prod.fst h
      have b := congrArg Prod.snd h
      simp only [Vec2.pt, add_eq_left, mul_eq_zero, hs, false_or] at a b
      exact ⟨by exact_mod_cast a, by exact_mod_cast b⟩
    · rintro rfl; simp
  have hX4 : ∀ s : ℚ, ((p3.pt.1 + s * (p4.pt.1 - p3.pt.1), p3.pt.2 + s * (p4.pt.2 - p3.pt.2)) : Pt) = p4.pt ↔ s = 1 := by
    intro s
    constructor
    · intro h
      by_contra hs
      apply hne34
      have a := congrArg Prod.fst h
      have b := congrArg Prod.snd h
      simp only [Vec2.pt] at a b
      have hs' : s - 1 ≠ 0 := sub_ne_zero.mpr hs
      have a' : (s - 1) * ((p4.x : ℚ) - p3.x) = 0 := by linear_combination a
      have b' : (s - 1) * ((p4.y : ℚ) - p3.y) = 0 := by linear_combination b
      simp only [mul_eq_zero, hs', false_or] at a' b'
      exact ⟨by exact_mod_cast a', by exact_mod_cast b'⟩
    · rintro rfl; simp
  set X0 : Pt := (p1.pt.1 + (T : ℚ) / D * (p2.pt.1 - p1.pt.1), p1.pt.2 + (T : ℚ) / D * (p2.pt.2 - p1.pt.2)) with hX0
  have hX0' : X0 = (p3.pt.1 + (U : ℚ) / D * (p4.pt.1 - p3.pt.1), p3.pt.2 + (U : ℚ) / D * (p4.pt.2 - p3.pt.2)) := by
    have k1q : (T : ℚ) * (p2.x - p1.x) - U * (p4.x - p3.x) = (p3.x - p1.x) * D := by exact_mod_cast k1
    have k2q : (T : ℚ) * (p2.y - p1.y) - U * (p4.y - p3.y) = (p3.y - p1.y) * D := by exact_mod_cast k2
    rw [hX0]
    ext
    · simp only [Vec2.pt]; field_simp; linear_combination k1q
    · simp only [Vec2.pt]; field_simp; linear_combination k2q
  have hcom' : ∀ X, (OnSeg p1.pt p2.pt X ∧ OnSeg p3.pt p4.pt X) ↔ X = X0 := by
    intro X; rw [hcom X]
    exact ⟨fun h => h.2.2.2.2, fun h => ⟨hTq'.1, hTq'.2, hUq'.1, hUq'.2, h⟩⟩
  have b1 : X0 = p1.pt ↔ |T| = 0 := by
    rw [hX0, hX1, div_eq_zero_iff, abs_eq_zero]; simp [hD0]
  have b3 : X0 = p3.pt ↔ |U| = 0 := by
    rw [hX0', hX3, div_eq_zero_iff, abs_eq_zero]; simp [hD0]
  have hDap : (((|D| : Int)) : ℚ) ≠ 0 := by
    have : |D| ≠ 0 := by simpa using hD0
    exact_mod_cast this
  have b2 : X0 = p2.pt ↔ |T| = |D| := by
    rw [hX0, hX2, ← eT, div_eq_one_iff_eq hDap]; exact_mod_cast Iff.rfl
  have b4 : X0 = p4.pt ↔ |U| = |D| := by
    rw [hX0', hX4, ← eU, div_eq_one_iff_eq hDap]; exact_mod_cast Iff.rfl
  have hgo := u3 hD0 hinT hinU
  have hnp : ¬ Parallel p1.pt p2.pt p3.pt p4.pt := fun h => hD0 (hpar.mp h)
  have hv2 : ∀ v : Vec2, (vec2ifi v.x v.y).pt = v.pt ∧ (vec2ifi v.x v.y).Valid := by
    intro v
    simp [vec2ifi, Vec2if.pt, Vec2.pt, Dimif.val, Vec2if.Valid, Dimif.Valid]
  have hDpos : 0 < |D| := by simpa using hD0
  have hbig : ∀ P : Vec2if, ∀ code, P.Valid → P.pt = X0 →
      intersect debug p1 p2 p3 p4 = some (code, some P) →
      code = 1 + (if |T| = 0 then 2 else 0) + (if |T| = |D| then 4 else 0)
            + (if |U| = 0 then 8 else 0) + (if |U| = |D| then 16 else 0) →
      ∃ code pt, intersect debug p1 p2 p3 p4 = some (code, pt) ∧
      ((code = -1 ∧ pt = none ∧ Parallel p1.pt p2.pt p3.pt p4.pt) ∨
       (code = 0 ∧ pt = none ∧ ¬ Parallel p1.pt p2.pt p3.pt p4.pt ∧
          ¬ ∃ X, OnSeg p1.pt p2.pt X ∧ OnSeg p3.pt p4.pt X) ∨
       (¬ Parallel p1.pt p2.pt p3.pt p4.pt ∧ ∃ P, pt = some P ∧ P.Valid ∧
          (∀ X, (OnSeg p1.pt p2.pt X ∧ OnSeg p3.pt p4.pt X) ↔ X = P.pt) ∧
          code = 1 + (if P.pt = p1.pt then 2 else 0) + (if P.pt = p2.pt then 4 else 0)
            + (if P.pt = p3.pt then 8 else 0) + (if P.pt = p4.pt then 16 else 0))) := by
    intro P code hP hPX hres hcode
    refine ⟨code, some P, hres, Or.inr (Or.inr ⟨hnp, P, rfl, hP, ?_, ?_⟩)⟩
    · rw [hPX]; exact hcom'
    · rw [hPX]; simp only [b1, b2, b3, b4]; exact hcode
  have bitd : ∀ (c : Prop) [Decidable c] (v : Int), bit (decide c) v = if c then v else 0 := by
    intro c _ v; exact bit_eq _ _ _ (by simp)
  unfold intersectCode at hgo
  by_cases t0 : |T| = 0
  · have htd : ¬ |T| = |D| := by omega
    rw [if_pos t0] at hgo
    refine hbig (vec2ifi p1.x p1.y) _ (hv2 p1).2 ?_ hgo ?_
    · rw [(hv2 p1).1]; exact (b1.mpr t0).symm
    · simp only [bitd, if_pos t0, if_neg htd]; ring
  rw [if_neg t0] at hgo
  by_cases td : |T| = |D|
  · rw [if_pos td] at hgo
    refine hbig (vec2ifi p2.x p2.y) _ (hv2 p2).2 ?_ hgo ?_
    · rw [(hv2 p2).1]; exact (b2.mpr td).symm
    · simp only [bitd, if_neg t0, if_pos td]; ring
  rw [if_neg td] at hgo
  by_cases hu0 : |U| = 0
  · have hud : ¬ |U| = |D| := by omega
    rw [if_pos hu0] at hgo
    refine hbig (vec2ifi p3.x p3.y) _ (hv2 p3).2 ?_ hgo ?_
    · rw [(hv2 p3).1]; exact (b3.mpr hu0).symm
    · rw [if_neg t0, if_neg td, if_pos hu0, if_neg hud]; norm_num
  rw [if_neg hu0] at hgo
  by_cases hud : |U| = |D|
  · rw [if_pos hud] at hgo
    refine hbig (vec2ifi p4.x p4.y) _ (hv2 p4).2 ?_ hgo ?_
    · rw [(hv2 p4).1]; exact (b4.mpr hud).symm
    · rw [if_neg t0, if_neg td, if_neg hu0, if_pos hud]; norm_num
  rw [if_neg hud] at hgo
  have hTle : |T| ≤ |D| := by
    rcases hinT with ⟨a, b, c⟩ | ⟨a, b, c⟩
    · rw [abs_of_nonneg b, abs_of_pos a]; exact c
    · rw [abs_of_nonpos c, abs_of_neg a]; omega
  have hUle : |U| ≤ |D| := by
    rcases hinU with ⟨a, b, c⟩ | ⟨a, b, c⟩
    · rw [abs_of_nonneg b, abs_of_pos a]; exact c
    · rw [abs_of_nonpos c, abs_of_neg a]; omega
  have hTn := abs_nonneg T
  have hUn := abs_nonneg U
  have hsg : (|T| = T ∧ |U| = U ∧ |D| = D) ∨ (|T| = -T ∧ |U| = -U ∧ |D| = -D) := by
    rcases hinT with ⟨a, b, c⟩ | ⟨a, b, c⟩
    · left; rcases hinU with ⟨a', b', c'⟩ | ⟨a', b', c'⟩
      · exact ⟨abs_of_nonneg b, abs_of_nonneg b', abs_of_pos a⟩
      · omega
    · right; rcases hinU with ⟨a', b', c'⟩ | ⟨a', b', c'⟩
      · omega
      · exact ⟨abs_of_nonpos c, abs_of_nonpos c', abs_of_neg a⟩
  have m1 : p1.x * |D| + (p2.x - p1.x) * |T| = p3.x * |D| + (p4.x - p3.x) * |U| := by
    rcases hsg with ⟨a, b, c⟩ | ⟨a, b, c⟩ <;> rw [a, b, c]
    · linear_combination k1
    · linear_combination -k1
  have m2 : p1.y * |D| + (p2.y - p1.y) * |T| = p3.y * |D| + (p4.y - p3.y) * |U| := by
    rcases hsg with ⟨a, b, c⟩ | ⟨a, b, c⟩ <;> rw [a, b, c]
    · linear_combination k2
    · linear_combination -k2
  have hDle : |D| ≤ 9223372036854775807 := abs_le.mpr ⟨by omega, by omega⟩
  obtain ⟨P, e1, e2, e3, e4, e5, e6, e7⟩ := intersectPoint_spec debug (p1 := p1) (p3 := p3)
    (t := |T|) (u := |U|) (d := |D|) (x2 := p2.x - p1.x)
    (y2 := p2.y - p1.y) (x4 := p4.x - p3.x) (y4 := p4.y - p3.y) h1x h1y h3x h3y
    (by rw [add_sub_cancel]; exact h2x) (by rw [add_sub_cancel]; exact h2y)
    (by rw [add_sub_cancel]; exact h4x) (by rw [add_sub_cancel]; exact h4y) d1 d2 d3 d4
    (by omega) (by omega) (by omega) (by omega) hDle m1 m2
  rw [e1] at hgo
  refine hbig P 1 ⟨⟨e4, by clear m1 m2 e6 e7; omega⟩, e5, by clear m1 m2 e6 e7; omega⟩ ?_ hgo ?_
  · have f6 : (P.x.i : ℚ) * ((|D| : Int) : ℚ) + P.x.n = p1.x * ((|D| : Int) : ℚ) + (p2.x - p1.x) * ((|T| : Int) : ℚ) := by
      exact_mod_cast e6
    have f7 : (P.y.i : ℚ) * ((|D| : Int) : ℚ) + P.y.n = p1.y * ((|D| : Int) : ℚ) + (p2.y - p1.y) * ((|T| : Int) : ℚ) := by
      exact_mod_cast e7
    have g2 : (P.x.d : ℚ) = ((|D| : Int) : ℚ) := by exact_mod_cast e2
    have g3 : (P.y.d : ℚ) = ((|D| : Int) : ℚ) := by exact_mod_cast e3
    rw [hX0, ← eT]
    ext
    · simp only [Vec2if.pt, Dimif.val, Vec2.pt, g2]
      generalize ((|D| : Int) : ℚ) = dd at *
      field_simp
      linear_combination f6
    · simp only [Vec2if.pt, Dimif.val, Vec2.pt, g3]
      generalize ((|D| : Int) : ℚ) = dd at *
      field_simp
      linear_combination f7
  · rw [if_neg t0, if_neg td, if_neg hu0, if_neg hud]; norm_num

end Hob3l.Matq
