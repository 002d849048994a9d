import Verif.Matq.LemmasMulDiv
import Mathlib.Tactic.Linarith
import Mathlib.Tactic.Ring

namespace Hob3l.Matq

/-- coordinate range accepted by the intersection code: 30 magnitude bits -/
def C30 (x : Int) : Prop := -1073741824 ≤ x ∧ x ≤ 1073741823

theorem dimSub_c30 {a b : Int} (ha : C30 a) (hb : C30 b) : dimSub a b = some (a - b) := by
  unfold C30 at *; exact chk32_some (by unfold I32; omega)

/-- difference range -/
def D31 (x : Int) : Prop := -2147483647 ≤ x ∧ x ≤ 2147483647

theorem D31_sub {a b : Int} (ha : C30 a) (hb : C30 b) : D31 (a - b) := by
  unfold C30 D31 at *; omega

theorem mul_abs_le {a b A B : Int} (ha : -A ≤ a ∧ a ≤ A) (hb : -B ≤ b ∧ b ≤ B) :
    -(A * B) ≤ a * b ∧ a * b ≤ A * B := by
  have h := abs_mul a b
  have h1 := abs_le.mpr ha
  have h2 := abs_le.mpr hb
  have h3 : |a * b| ≤ A * B := by
    rw [h]; exact mul_le_mul h1 h2 (abs_nonneg _) (le_trans (abs_nonneg _) h1)
  exact abs_le.mp h3

theorem D31_mul {a b : Int} (ha : D31 a) (hb : D31 b) :
    -4611686014132420609 ≤ a * b ∧ a * b ≤ 4611686014132420609 := by
  have := mul_abs_le ha hb
  norm_num at this
  exact this

theorem dimMul_d31 {a b : Int} (ha : D31 a) (hb : D31 b) : dimMul a b = some (a * b) := by
  have := D31_mul ha hb
  exact chk64_some (by unfold I64; omega)

theorem cross_d31 {a b c d : Int} (ha : D31 a) (hb : D31 b) (hc : D31 c) (hd : D31 d) :
    -9223372028264841218 ≤ a * b - c * d ∧ a * b - c * d ≤ 9223372028264841218 := by
  have h1 := D31_mul ha hb
  have h2 := D31_mul hc hd
  omega

theorem dimwSub_d31 {a b c d : Int} (ha : D31 a) (hb : D31 b) (hc : D31 c) (hd : D31 d) :
    dimwSub (a * b) (c * d) = some (a * b - c * d) := by
  have := cross_d31 ha hb hc hd
  exact chk64_some (by unfold I64; omega)

/-- `0 ≤ t/D ≤ 1` on integers -/
def In01 (D t : Int) : Prop := (0 < D ∧ 0 ≤ t ∧ t ≤ D) ∨ (D < 0 ∧ D ≤ t ∧ t ≤ 0)

theorem clipParam_in {D t : Int} (ht : -9223372036854775807 ≤ t ∧ t ≤ 9223372036854775807)
    (h : In01 D t) : clipParam (decide (D < 0)) |D| t = some (some |t|) := by
  unfold In01 at h
  have hn : dimwNeg t = some (-t) := by
    unfold dimwNeg dimwSub; rw [chk64_some (by unfold I64; omega)]; simp
  unfold clipParam
  rcases h with ⟨h1, h2, h3⟩ | ⟨h1, h2, h3⟩
  · have e : ¬ (D < 0) := by omega
    have e2 : ¬ (t < 0) := by omega
    have e3 : ¬ (D < t) := by omega
    have e4 : |t| = t := abs_of_nonneg h2
    have e5 : |D| = D := abs_of_pos h1
    simp [e, e2, e3, e4, e5]
  · have e4 : |t| = -t := abs_of_nonpos h3
    have e5 : |D| = -D := abs_of_neg h1
    by_cases h0 : t = 0
    · simp [h0]
    · have e2 : t < 0 := by omega
      have e6 : ¬ (-D < -t) := by omega
      simp only [ne_eq, h0, not_false_eq_true, if_true, e2, hn, Option.bind_eq_bind, Option.bind_some, h1,
        decide_true, Bool.not_true, Bool.false_eq_true, false_or, gt_iff_lt, e4, e5, e6, if_false]

theorem clipParam_out {D t : Int} (hD : D ≠ 0) (ht : -9223372036854775807 ≤ t ∧ t ≤ 9223372036854775807)
    (h : ¬ In01 D t) : clipParam (decide (D < 0)) |D| t = some none := by
  unfold In01 at h
  have hn : dimwNeg t = some (-t) := by
    unfold dimwNeg dimwSub; rw [chk64_some (by unfold I64; omega)]; simp
  unfold clipParam
  have h0 : t ≠ 0 := by rintro rfl; omega
  rcases lt_or_gt_of_ne hD with h1 | h1
  · have e5 : |D| = -D := abs_of_neg h1
    by_cases e2 : t < 0
    · have e6 : -D < -t := by omega
      simp only [ne_eq, h0, not_false_eq_true, if_true, e2, hn, Option.bind_eq_bind, Option.bind_some, h1,
        decide_true, Bool.not_true, Bool.false_eq_true, false_or, gt_iff_lt, e5, e6]
    · simp [h0, h1, e2]
  · have e5 : |D| = D := abs_of_pos h1
    have e : ¬ (D < 0) := by omega
    by_cases e2 : t < 0
    · simp [h0, e, e2, hn]
    · have e6 : D < t := by omega
      simp [h0, e, e2, e5, e6]

/-- One coordinate of the intersection: `p + s*t/d` for `0 < t < d`. -/
theorem coord_spec {p s t d : Int} (hp : C30 p) (hps : C30 (p + s)) (hs : D31 s) (ht : 0 < t) (htd : t < d)
    (hd : d ≤ 9223372036854775807) :
    ∃ r i, mulDivNww s t d = some r ∧ dimAdd p r.i = some i ∧ i = p + r.i ∧ (r.d : Int) = d ∧ r.n < r.d ∧
      i * d + r.n = p * d + s * t := by
  obtain ⟨r, h1, h2, h3, h4, h5⟩ := mulDivNww_spec s t d hs (by omega) (by omega) (by omega)
  have hrd : (r.d : Int) = d := by omega
  have hn : (r.n : Int) < d := by omega
  have h6 : r.i * d + r.n = s * t := by
    rw [hrd] at h4
    exact mul_right_cancel₀ (by omega : d ≠ 0) h4
  have hb : C30 (p + r.i) := by
    have hdp : 0 < d := by omega
    have l1 : s < 0 → s ≤ r.i ∧ r.i ≤ 0 := by
      intro hs0
      constructor
      · by_contra hc
        nlinarith
      · by_contra hc
        nlinarith
    have l2 : 0 ≤ s → 0 ≤ r.i ∧ r.i ≤ s := by
      intro hs0
      constructor
      · by_contra hc
        nlinarith
      · by_contra hc
        nlinarith
    unfold C30 at *
    by_cases hs0 : s < 0
    · have := l1 hs0; omega
    · have := l2 (by omega); omega
  refine ⟨r, p + r.i, h1, ?_, rfl, hrd, h3, by linarith [h6, add_mul p r.i d]⟩
  exact chk32_some (by unfold C30 at hb; unfold I32; omega)

theorem divmod_unique {i j d : Int} {n m : Nat} (hn : (n : Int) < d) (hm : (m : Int) < d)
    (h : i * d + n = j * d + m) : i = j ∧ n = m := by
  have hij : i = j := by
    by_contra hc
    rcases lt_or_gt_of_ne hc with hc | hc
    · have : i + 1 ≤ j := hc
      nlinarith
    · have : j + 1 ≤ i := hc
      nlinarith
  subst hij
  exact ⟨rfl, by omega⟩

theorem intersectPoint_spec (debug : Bool) {p1 p3 : Vec2} {x2 y2 x4 y4 t u d : Int}
    (h1x : C30 p1.x) (h1y : C30 p1.y) (h3x : C30 p3.x) (h3y : C30 p3.y)
    (h2x : C30 (p1.x + x2)) (h2y : C30 (p1.y + y2)) (h4x : C30 (p3.x + x4)) (h4y : C30 (p3.y + y4))
    (dx2 : D31 x2) (dy2 : D31 y2) (dx4 : D31 x4) (dy4 : D31 y4)
    (ht : 0 < t) (htd : t < d) (hu : 0 < u) (hud : u < d) (hd : d ≤ 9223372036854775807)
    (hX : p1.x * d + x2 * t = p3.x * d + x4 * u) (hY : p1.y * d + y2 * t = p3.y * d + y4 * u) :
    ∃ P, intersectPoint debug p1 p3 x2 y2 x4 y4 t u d = some P ∧
      (P.x.d : Int) = d ∧ (P.y.d : Int) = d ∧ P.x.n < P.x.d ∧ P.y.n < P.y.d ∧
      P.x.i * d + P.x.n = p1.x * d + x2 * t ∧ P.y.i * d + P.y.n = p1.y * d + y2 * t := by
  obtain ⟨ix, ixi, a1, a2, a3, a4, a5, a6⟩ := coord_spec h1x h2x dx2 ht htd hd
  obtain ⟨iy, iyi, b1, b2, b3, b4, b5, b6⟩ := coord_spec h1y h2y dy2 ht htd hd
  obtain ⟨jx, jxi, c1, c2, c3, c4, c5, c6⟩ := coord_spec h3x h4x dx4 hu hud hd
  obtain ⟨jy, jyi, d1, d2, d3, d4, d5, d6⟩ := coord_spec h3y h4y dy4 hu hud hd
  refine ⟨⟨{ ix with i := ixi }, { iy with i := iyi }⟩, ?_, a4, b4, a5, b5, a6, b6⟩
  have ex := divmod_unique (i := ixi) (j := jxi) (d := d) (n := ix.n) (m := jx.n)
    (by omega) (by omega) (by rw [a6, c6, hX])
  have ey := divmod_unique (i := iyi) (j := jyi) (d := d) (n := iy.n) (m := jy.n)
    (by omega) (by omega) (by rw [b6, d6, hY])
  have e1 : ({ ix with i := ixi } : Dimif) = { jx with i := jxi } := by
    rw [ex.1, ex.2, show ix.d = jx.d by omega]
  have e2 : ({ iy with i := iyi } : Dimif) = { jy with i := jyi } := by
    rw [ey.1, ey.2, show iy.d = jy.d by omega]
  unfold intersectPoint
  simp only [a1, b1, a2, b2, c1, c2, d1, d2, Option.bind_eq_bind, Option.bind_some, ass_true e1, ass_true e2,
    ite_self]

/-- What `intersect` computes, in integers, for coordinates in range. -/
theorem intersect_unfold (debug : Bool) (p1 p2 p3 p4 : Vec2)
    (h1x : C30 p1.x) (h1y : C30 p1.y) (h2x : C30 p2.x) (h2y : C30 p2.y)
    (h3x : C30 p3.x) (h3y : C30 p3.y) (h4x : C30 p4.x) (h4y : C30 p4.y)
    (D T U : Int)
    (hD : D = (p2.x - p1.x) * (p4.y - p3.y) - (p2.y - p1.y) * (p4.x - p3.x))
    (hT : T = (p3.x - p1.x) * (p4.y - p3.y) - (p3.y - p1.y) * (p4.x - p3.x))
    (hU : U = (p3.x - p1.x) * (p2.y - p1.y) - (p3.y - p1.y) * (p2.x - p1.x)) :
    (D = 0 → intersect debug p1 p2 p3 p4 = some (-1, none)) ∧
    (D ≠ 0 → ¬ (In01 D T ∧ In01 D U) → intersect debug p1 p2 p3 p4 = some (0, none)) ∧
    (D ≠ 0 → In01 D T → In01 D U → intersect debug p1 p2 p3 p4 =
      intersectCode debug p1 p2 p3 p4 (p2.x - p1.x) (p2.y - p1.y) (p4.x - p3.x) (p4.y - p3.y) |T| |U| |D|) := by
  have d1 := D31_sub h2x h1x
  have d2 := D31_sub h2y h1y
  have d3 := D31_sub h4x h3x
  have d4 := D31_sub h4y h3y
  have d5 := D31_sub h3x h1x
  have d6 := D31_sub h3y h1y
  have bD := cross_d31 d1 d4 d2 d3
  have bT := cross_d31 d5 d4 d6 d3
  have bU := cross_d31 d5 d2 d6 d1
  rw [← hD] at bD
  rw [← hT] at bT
  rw [← hU] at bU
  have hneg : dSign D = some |D| := by
    unfold dSign
    by_cases h : D < 0
    · have : dimwNeg D = some (-D) := by
        unfold dimwNeg dimwSub; rw [chk64_some (by unfold I64; omega)]; simp
      rw [if_pos h, this, abs_of_neg h]
    · rw [if_neg h, abs_of_nonneg (by omega)]
  have hgo : intersect debug p1 p2 p3 p4 = (if D = 0 then some (-1, none) else
      (clipParam (decide (D < 0)) |D| T).bind fun ct =>
        match ct with
        | none => some (0, none)
        | some t => (clipParam (decide (D < 0)) |D| U).bind fun cu =>
          match cu with
          | none => some (0, none)
          | some u => intersectCode debug p1 p2 p3 p4 (p2.x - p1.x) (p2.y - p1.y) (p4.x - p3.x) (p4.y - p3.y) t u |D|) := by
    unfold intersect
    simp only [dimSub_c30 h2x h1x, dimSub_c30 h2y h1y, dimSub_c30 h4x h3x, dimSub_c30 h4y h3y,
      dimSub_c30 h3x h1x, dimSub_c30 h3y h1y, dimMul_d31 d1 d4, dimMul_d31 d2 d3, dimMul_d31 d5 d4,
      dimMul_d31 d6 d3, dimMul_d31 d5 d2, dimMul_d31 d6 d1, Option.bind_eq_bind, Option.bind_some,
      dimwSub_d31 d1 d4 d2 d3, dimwSub_d31 d5 d4 d6 d3, dimwSub_d31 d5 d2 d6 d1, ← hD, ← hT, ← hU, hneg]
    rfl
  rw [hgo]
  refine ⟨fun h => by rw [if_pos h], fun h h2 => ?_, fun h ht hu => ?_⟩
  · rw [if_neg h]
    by_cases h3 : In01 D T
    · have h4 : ¬ In01 D U := fun h4 => h2 ⟨h3, h4⟩
      rw [clipParam_in (by omega) h3, clipParam_out h (by omega) h4]; rfl
    · rw [clipParam_out h (by omega) h3]; rfl
  · rw [if_neg h, clipParam_in (by omega) ht, clipParam_in (by omega) hu]; rfl

end Hob3l.Matq
