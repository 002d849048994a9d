import Verif.Tri.SpecCover
import Mathlib.Tactic.Linarith
import Mathlib.Tactic.Ring
import Mathlib.Tactic.FieldSimp
import Mathlib.Algebra.Order.Field.Basic

/-!
Counting the crossings of a ray with the sides of a triangle.
-/

namespace Hob3l.Tri

open Hob3l.Poly (P)

/-- the side of a line on which a point is -/
def crossQ (a b : P) (p : ℚ × ℚ) : ℚ := (b.1 - a.1) * (p.2 - a.2) - (b.2 - a.2) * (p.1 - a.1)

/-- the crossing of the ray downward from a point with a directed line -/
def ray (p : ℚ × ℚ) (a b : P) : Int :=
  if (b.1 : ℚ) < p.1 ∧ p.1 < a.1 ∧ 0 < crossQ b a p then 1
  else if (a.1 : ℚ) < p.1 ∧ p.1 < b.1 ∧ 0 < crossQ a b p then -1 else 0

theorem ray_anti (p : ℚ × ℚ) (a b : P) : ray p a b = -ray p b a := by
  unfold ray
  by_cases h1 : (b.1 : ℚ) < p.1 ∧ p.1 < a.1 ∧ 0 < crossQ b a p
  · have h2 : ¬ ((a.1 : ℚ) < p.1 ∧ p.1 < b.1 ∧ 0 < crossQ a b p) := by
      rintro ⟨q1, -⟩; linarith [h1.2.1]
    rw [if_pos h1, if_neg h2, if_pos h1]; rfl
  · rw [if_neg h1]
    by_cases h2 : (a.1 : ℚ) < p.1 ∧ p.1 < b.1 ∧ 0 < crossQ a b p
    · rw [if_pos h2, if_pos h2]
    · rw [if_neg h2, if_neg h2, if_neg h1]; rfl

/-- the same in terms of signs -/
def sgnRay (X Y C : ℚ) : Int := if Y < 0 ∧ 0 < X ∧ C < 0 then 1 else if X < 0 ∧ 0 < Y ∧ 0 < C then -1 else 0

theorem ray_sgn (p : ℚ × ℚ) (a b : P) : ray p a b = sgnRay (a.1 - p.1) (b.1 - p.1) (crossQ a b p) := by
  have h : crossQ b a p = -crossQ a b p := by unfold crossQ; ring
  unfold ray sgnRay
  rw [h]
  simp only [sub_neg, sub_pos, Left.neg_pos_iff]

theorem sgn_sum {A B C X Y Z : ℚ} (h0 : A * X + B * Y + C * Z = 0) (hs : A + B + C < 0) (hX : X ≠ 0) (hY : Y ≠ 0) (hZ : Z ≠ 0)
    (hC : X * Y < 0 → C ≠ 0) (hA : Y * Z < 0 → A ≠ 0) (hB : Z * X < 0 → B ≠ 0) :
    sgnRay X Y C + sgnRay Y Z A + sgnRay Z X B = if A < 0 ∧ B < 0 ∧ C < 0 then 1 else 0 := by
  have key : ∀ {a b c x y z : ℚ}, a * x + b * y + c * z = 0 → (0 < x ∧ y < 0 ∧ z < 0 ∨ x < 0 ∧ 0 < y ∧ 0 < z) →
      (b < 0 → c < 0 → a < 0) ∧ (0 < b → 0 < c → 0 < a) := by
    rintro a b c x y z h (⟨h1, h2, h3⟩ | ⟨h1, h2, h3⟩)
    · constructor
      · intro hb hc
        have := mul_pos_of_neg_of_neg hb h2
        have := mul_pos_of_neg_of_neg hc h3
        by_contra hn
        have := mul_nonneg (not_lt.1 hn) h1.le
        linarith
      · intro hb hc
        have := mul_neg_of_pos_of_neg hb h2
        have := mul_neg_of_pos_of_neg hc h3
        by_contra hn
        have := mul_nonpos_of_nonpos_of_nonneg (not_lt.1 hn) h1.le
        linarith
    · constructor
      · intro hb hc
        have := mul_neg_of_neg_of_pos hb h2
        have := mul_neg_of_neg_of_pos hc h3
        by_contra hn
        have := mul_nonpos_of_nonneg_of_nonpos (not_lt.1 hn) h1.le
        linarith
      · intro hb hc
        have := mul_pos hb h2
        have := mul_pos hc h3
        by_contra hn
        have := mul_nonneg_of_nonpos_of_nonpos (not_lt.1 hn) h1.le
        linarith
  have same : (0 < X ∧ 0 < Y ∧ 0 < Z) ∨ (X < 0 ∧ Y < 0 ∧ Z < 0) → ¬ (A < 0 ∧ B < 0 ∧ C < 0) := by
    rintro (⟨h1, h2, h3⟩ | ⟨h1, h2, h3⟩) ⟨a, b, c⟩
    · have := mul_neg_of_neg_of_pos a h1
      have := mul_neg_of_neg_of_pos b h2
      have := mul_neg_of_neg_of_pos c h3
      linarith
    · have := mul_pos_of_neg_of_neg a h1
      have := mul_pos_of_neg_of_neg b h2
      have := mul_pos_of_neg_of_neg c h3
      linarith
  have kA := key (a := A) (b := B) (c := C) (x := X) (y := Y) (z := Z) h0
  have kB := key (a := B) (b := C) (c := A) (x := Y) (y := Z) (z := X) (by linarith)
  have kC := key (a := C) (b := A) (c := B) (x := Z) (y := X) (z := Y) (by linarith)
  have n1 : ∀ {u v : ℚ}, 0 < u → v < 0 → u * v < 0 := fun h1 h2 => mul_neg_of_pos_of_neg h1 h2
  have n2 : ∀ {u v : ℚ}, u < 0 → 0 < v → u * v < 0 := fun h1 h2 => mul_neg_of_neg_of_pos h1 h2
  unfold sgnRay
  rcases lt_or_gt_of_ne hX with x | x <;> rcases lt_or_gt_of_ne hY with y | y <;> rcases lt_or_gt_of_ne hZ with z | z
  · rw [if_neg (same (.inr ⟨x, y, z⟩))]
    simp [not_lt.2 x.le, not_lt.2 y.le, not_lt.2 z.le]
  · -- z alone
    have k := kC (.inl ⟨z, x, y⟩)
    simp only [x, y, z, not_lt.2 x.le, not_lt.2 y.le, not_lt.2 z.le, true_and, false_and, if_false, and_false]
    rcases lt_or_gt_of_ne (hA (n2 y z)) with a | a <;> rcases lt_or_gt_of_ne (hB (n1 z x)) with b | b
    · simp [a, b, not_lt.2 a.le, not_lt.2 b.le, k.1 a b]
    · simp [a, b, not_lt.2 a.le, not_lt.2 b.le]
    · simp [a, b, not_lt.2 a.le, not_lt.2 b.le]
    · have := k.2 a b; linarith
  · have k := kB (.inl ⟨y, z, x⟩)
    simp only [x, y, z, not_lt.2 x.le, not_lt.2 y.le, not_lt.2 z.le, true_and, false_and, if_false, and_false]
    rcases lt_or_gt_of_ne (hA (n1 y z)) with a | a <;> rcases lt_or_gt_of_ne (hC (n2 x y)) with b | b
    · simp [a, b, not_lt.2 a.le, not_lt.2 b.le, k.1 b a]
    · simp [a, b, not_lt.2 a.le, not_lt.2 b.le]
    · simp [a, b, not_lt.2 a.le, not_lt.2 b.le]
    · have := k.2 b a; linarith
  · have k := kA (.inr ⟨x, y, z⟩)
    simp only [x, y, z, not_lt.2 x.le, not_lt.2 y.le, not_lt.2 z.le, true_and, false_and, if_false, and_false]
    rcases lt_or_gt_of_ne (hB (n1 z x)) with a | a <;> rcases lt_or_gt_of_ne (hC (n2 x y)) with b | b
    · simp [a, b, not_lt.2 a.le, not_lt.2 b.le, k.1 a b]
    · simp [a, b, not_lt.2 a.le, not_lt.2 b.le]
    · simp [a, b, not_lt.2 a.le, not_lt.2 b.le]
    · have := k.2 a b; linarith
  · have k := kA (.inl ⟨x, y, z⟩)
    simp only [x, y, z, not_lt.2 x.le, not_lt.2 y.le, not_lt.2 z.le, true_and, false_and, if_false, and_false]
    rcases lt_or_gt_of_ne (hB (n2 z x)) with a | a <;> rcases lt_or_gt_of_ne (hC (n1 x y)) with b | b
    · simp [a, b, not_lt.2 a.le, not_lt.2 b.le, k.1 a b]
    · simp [a, b, not_lt.2 a.le, not_lt.2 b.le]
    · simp [a, b, not_lt.2 a.le, not_lt.2 b.le]
    · have := k.2 a b; linarith
  · have k := kB (.inr ⟨y, z, x⟩)
    simp only [x, y, z, not_lt.2 x.le, not_lt.2 y.le, not_lt.2 z.le, true_and, false_and, if_false, and_false]
    rcases lt_or_gt_of_ne (hA (n2 y z)) with a | a <;> rcases lt_or_gt_of_ne (hC (n1 x y)) with b | b
    · simp [a, b, not_lt.2 a.le, not_lt.2 b.le, k.1 b a]
    · simp [a, b, not_lt.2 a.le, not_lt.2 b.le]
    · simp [a, b, not_lt.2 a.le, not_lt.2 b.le]
    · have := k.2 b a; linarith
  · have k := kC (.inr ⟨z, x, y⟩)
    simp only [x, y, z, not_lt.2 x.le, not_lt.2 y.le, not_lt.2 z.le, true_and, false_and, if_false, and_false]
    rcases lt_or_gt_of_ne (hA (n1 y z)) with a | a <;> rcases lt_or_gt_of_ne (hB (n2 z x)) with b | b
    · simp [a, b, not_lt.2 a.le, not_lt.2 b.le, k.1 a b]
    · simp [a, b, not_lt.2 a.le, not_lt.2 b.le]
    · simp [a, b, not_lt.2 a.le, not_lt.2 b.le]
    · have := k.2 a b; linarith
  · rw [if_neg (same (.inl ⟨x, y, z⟩))]
    simp [not_lt.2 x.le, not_lt.2 y.le, not_lt.2 z.le]

theorem cross_total (a b c : P) (p : ℚ × ℚ) : crossQ b c p + crossQ c a p + crossQ a b p = -(area2 a b c : ℚ) := by
  unfold crossQ area2; push_cast; ring

/-- being inside in terms of signs -/
theorem inTri_iff {a b c : P} {p : ℚ × ℚ} (h : 0 < area2 a b c) :
    InTri a b c p ↔ crossQ b c p < 0 ∧ crossQ c a p < 0 ∧ crossQ a b p < 0 := by
  have hT : (0 : ℚ) < (area2 a b c : ℚ) := by exact_mod_cast h
  have ht := cross_total a b c p
  constructor
  · rintro ⟨u, v, w, hu, hv, hw, h1, rfl⟩
    have e1 : w = 1 - u - v := by linarith
    have q1 : crossQ b c (u * a.1 + v * b.1 + w * c.1, u * a.2 + v * b.2 + w * c.2) = -(u * (area2 a b c : ℚ)) := by
      subst e1; unfold crossQ area2; push_cast; ring
    have q2 : crossQ c a (u * a.1 + v * b.1 + w * c.1, u * a.2 + v * b.2 + w * c.2) = -(v * (area2 a b c : ℚ)) := by
      subst e1; unfold crossQ area2; push_cast; ring
    have q3 : crossQ a b (u * a.1 + v * b.1 + w * c.1, u * a.2 + v * b.2 + w * c.2) = -(w * (area2 a b c : ℚ)) := by
      subst e1; unfold crossQ area2; push_cast; ring
    rw [q1, q2, q3]
    have := mul_pos hu hT
    have := mul_pos hv hT
    have := mul_pos hw hT
    exact ⟨by linarith, by linarith, by linarith⟩
  · rintro ⟨h1, h2, h3⟩
    refine ⟨-crossQ b c p / area2 a b c, -crossQ c a p / area2 a b c, -crossQ a b p / area2 a b c, div_pos (by linarith) hT,
      div_pos (by linarith) hT, div_pos (by linarith) hT, ?_, ?_⟩
    · rw [← add_div, ← add_div, div_eq_one_iff_eq hT.ne']; linarith
    · have hT' := hT.ne'
      ext
      · show p.1 = -crossQ b c p / area2 a b c * a.1 + -crossQ c a p / area2 a b c * b.1 + -crossQ a b p / area2 a b c * c.1
        rw [div_mul_eq_mul_div, div_mul_eq_mul_div, div_mul_eq_mul_div, ← add_div, ← add_div, eq_div_iff hT']
        unfold crossQ area2; push_cast; ring
      · show p.2 = -crossQ b c p / area2 a b c * a.2 + -crossQ c a p / area2 a b c * b.2 + -crossQ a b p / area2 a b c * c.2
        rw [div_mul_eq_mul_div, div_mul_eq_mul_div, div_mul_eq_mul_div, ← add_div, ← add_div, eq_div_iff hT']
        unfold crossQ area2; push_cast; ring

/-- a point of the line between the ends is on the segment -/
theorem onSeg_of {a b : P} {p : ℚ × ℚ} (h : ((a.1 : ℚ) - p.1) * (b.1 - p.1) < 0) (hc : crossQ a b p = 0) : OnSeg a b p := by
  have hne : (b.1 : ℚ) - a.1 ≠ 0 := by
    intro hz
    have : (b.1 : ℚ) - p.1 = a.1 - p.1 := by linarith
    rw [this] at h
    nlinarith [mul_self_nonneg ((a.1 : ℚ) - p.1)]
  have hy : (p.2 - a.2) * (b.1 - a.1) = (p.1 - a.1) * ((b.2 : ℚ) - a.2) := by unfold crossQ at hc; linarith
  refine ⟨(p.1 - a.1) / (b.1 - a.1), ?_, ?_, ?_⟩
  · rcases lt_or_gt_of_ne hne with hn | hn
    · apply div_nonneg_of_nonpos _ hn.le
      by_contra hc2
      rw [not_le] at hc2
      nlinarith
    · apply div_nonneg _ hn.le
      by_contra hc2
      rw [not_le] at hc2
      nlinarith
  · rcases lt_or_gt_of_ne hne with hn | hn
    · rw [div_le_one_of_neg hn]
      by_contra hc2
      rw [not_le] at hc2
      nlinarith
    · rw [div_le_one hn]
      by_contra hc2
      rw [not_le] at hc2
      nlinarith
  · unfold Poly.pointAt
    ext
    · show (a.1 : ℚ) + (p.1 - a.1) / (b.1 - a.1) * (b.1 - a.1) = p.1
      rw [div_mul_cancel₀ _ hne]; ring
    · show (a.2 : ℚ) + (p.1 - a.1) / (b.1 - a.1) * (b.2 - a.2) = p.2
      rw [div_mul_eq_mul_div, ← hy, mul_div_assoc, div_self hne]; ring

/-- the sum of the crossings of the sides of a triangle -/
theorem tri_ray {a b c : P} {p : ℚ × ℚ} (h : 0 < area2 a b c) (ha : (a.1 : ℚ) ≠ p.1) (hb : (b.1 : ℚ) ≠ p.1) (hc : (c.1 : ℚ) ≠ p.1)
    (hab : ¬ OnSeg a b p) (hbc : ¬ OnSeg b c p) (hca : ¬ OnSeg c a p) [Decidable (InTri a b c p)] :
    ray p a b + ray p b c + ray p c a = if InTri a b c p then 1 else 0 := by
  have hT : (0 : ℚ) < (area2 a b c : ℚ) := by exact_mod_cast h
  have ht := cross_total a b c p
  rw [ray_sgn, ray_sgn, ray_sgn, sgn_sum (A := crossQ b c p) (B := crossQ c a p) (C := crossQ a b p) ?_ (by linarith)
    (sub_ne_zero.2 ha) (sub_ne_zero.2 hb) (sub_ne_zero.2 hc) (fun h1 h2 => hab (onSeg_of h1 h2)) (fun h1 h2 => hbc (onSeg_of h1 h2))
    (fun h1 h2 => hca (onSeg_of h1 h2))]
  · by_cases hi : InTri a b c p
    · rw [if_pos hi, if_pos ((inTri_iff h).1 hi)]
    · rw [if_neg hi, if_neg (fun hc => hi ((inTri_iff h).2 hc))]
  · unfold crossQ; ring

end Hob3l.Tri
