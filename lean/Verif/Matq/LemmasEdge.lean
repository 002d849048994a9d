import Verif.Matq.LemmasGeo
import Mathlib.Algebra.Order.Field.Basic
import Mathlib.Tactic.Linarith

namespace Hob3l.Matq

/-- Three intervals `[l1,l2)`, `(m1,m2]`, `[0,1]` that meet pairwise have a common point. -/
theorem helly_mixed {l1 l2 m1 m2 : ℚ} (h1 : l1 < l2) (h2 : m1 < m2) (h3 : l1 ≤ m2) (h4 : m1 < l2)
    (h5 : l1 ≤ 1) (h6 : m1 < 1) (h7 : 0 < l2) (h8 : 0 ≤ m2) :
    ∃ s, l1 ≤ s ∧ s < l2 ∧ m1 < s ∧ s ≤ m2 ∧ 0 ≤ s ∧ s ≤ 1 := by
  refine ⟨(max (max l1 m1) 0 + min (min l2 m2) 1) / 2, ?_⟩
  rcases max_choice l1 m1 with e | e <;> rcases max_choice (max l1 m1) 0 with f | f <;>
    rcases min_choice l2 m2 with g | g <;> rcases min_choice (min l2 m2) 1 with h | h <;>
    (have a1 := le_max_left l1 m1; have a2 := le_max_right l1 m1;
     have a3 := le_max_left (max l1 m1) 0; have a4 := le_max_right (max l1 m1) 0;
     have b1 := min_le_left l2 m2; have b2 := min_le_right l2 m2;
     have b3 := min_le_left (min l2 m2) 1; have b4 := min_le_right (min l2 m2) 1;
     refine ⟨?_, ?_, ?_, ?_, ?_, ?_⟩ <;> linarith)

/-- Three intervals `[l1,l2)`, `[m1,m2)`, `[0,1]` that meet pairwise have a common point. -/
theorem helly_same {l1 l2 m1 m2 : ℚ} (h1 : l1 < l2) (h2 : m1 < m2) (h3 : l1 < m2) (h4 : m1 < l2)
    (h5 : l1 ≤ 1) (h6 : m1 ≤ 1) (h7 : 0 < l2) (h8 : 0 < m2) :
    ∃ s, l1 ≤ s ∧ s < l2 ∧ m1 ≤ s ∧ s < m2 ∧ 0 ≤ s ∧ s ≤ 1 := by
  refine ⟨max (max l1 m1) 0, ?_⟩
  refine ⟨le_trans (le_max_left _ _) (le_max_left _ _), ?_, le_trans (le_max_right _ _) (le_max_left _ _), ?_,
    le_max_right _ _, ?_⟩
  · exact max_lt (max_lt h1 h4) h7
  · exact max_lt (max_lt h3 h2) h8
  · exact max_le (max_le h5 h6) (by norm_num)

/-- the value of the line function of `k--l` at an arbitrary point -/
def lineF (l k : Vec2) (X : Pt) : ℚ := (X.1 - l.x) * (k.y - l.y) - (X.2 - l.y) * (k.x - l.x)

theorem lineF_onSeg {l k : Vec2} {X : Pt} (h : OnSeg k.pt l.pt X) : lineF l k X = 0 := by
  obtain ⟨s, -, -, hx, hy⟩ := h
  simp only [Vec2.pt] at hx hy
  unfold lineF
  rw [hx, hy]; ring

theorem lineF_shift (v l k : Vec2) (X : Pt) :
    lineF l k X = side v l k + (X.1 - v.x) * (k.y - l.y) - (X.2 - v.y) * (k.x - l.x) := by
  unfold lineF side; push_cast; ring

/-- the segment misses the pixel because the line function has no zero there -/
theorem miss_of_lineF {v l k : Vec2} (h : ∀ X, InPixel v X → lineF l k X ≠ 0) :
    ¬ ∃ X, OnSeg k.pt l.pt X ∧ InPixel v X := by
  rintro ⟨X, h1, h2⟩
  exact h X h2 (lineF_onSeg h1)

theorem lineF_far {v l k : Vec2} (hdx : D31 (k.x - l.x)) (hdy : D31 (k.y - l.y))
    (hb : side v l k ≥ 4294967296 ∨ side v l k ≤ -4294967296) (X : Pt) (hX : InPixel v X) :
    lineF l k X ≠ 0 := by
  rw [lineF_shift v]
  obtain ⟨a1, a2, b1, b2⟩ := hX
  set a := X.1 - v.x with ha
  set b := X.2 - v.y with hb'
  have a1 : -(1/2) ≤ a := by linarith
  have a2 : a ≤ 1/2 := by linarith
  have b1 : -(1/2) ≤ b := by linarith
  have b2 : b ≤ 1/2 := by linarith
  have dx1 : (-2147483647 : ℚ) ≤ (k.x : ℚ) - l.x := by have := hdx.1; exact_mod_cast this
  have dx2 : (k.x : ℚ) - l.x ≤ 2147483647 := by have := hdx.2; exact_mod_cast this
  have dy1 : (-2147483647 : ℚ) ≤ (k.y : ℚ) - l.y := by have := hdy.1; exact_mod_cast this
  have dy2 : (k.y : ℚ) - l.y ≤ 2147483647 := by have := hdy.2; exact_mod_cast this
  set dx := (k.x : ℚ) - l.x
  set dy := (k.y : ℚ) - l.y
  have m1 : |a * dy| ≤ 1/2 * 2147483647 := by
    rw [abs_mul]; exact mul_le_mul (abs_le.mpr ⟨a1, a2⟩) (abs_le.mpr ⟨dy1, dy2⟩) (abs_nonneg _) (by norm_num)
  have m2 : |b * dx| ≤ 1/2 * 2147483647 := by
    rw [abs_mul]; exact mul_le_mul (abs_le.mpr ⟨b1, b2⟩) (abs_le.mpr ⟨dx1, dx2⟩) (abs_nonneg _) (by norm_num)
  have m1 := abs_le.mp m1
  have m2 := abs_le.mp m2
  rcases hb with h | h
  · have : (side v l k : ℚ) ≥ 4294967296 := by exact_mod_cast h
    intro h0; linarith
  · have : (side v l k : ℚ) ≤ -4294967296 := by exact_mod_cast h
    intro h0; linarith

theorem lineF_pos {v l k : Vec2} (hdx : k.x ≤ l.x)
    (h1 : 2 * side v l k - (k.y - l.y) + (k.x - l.x) > 0)
    (h2 : 2 * side v l k + (k.y - l.y) + (k.x - l.x) ≥ 0) (X : Pt) (hX : InPixel v X) :
    0 < lineF l k X := by
  rw [lineF_shift v]
  obtain ⟨a1, a2, b1, b2⟩ := hX
  have e1 : (2 * side v l k - ((k.y:ℚ) - l.y) + (k.x - l.x)) > 0 := by exact_mod_cast h1
  have e2 : (2 * side v l k + ((k.y:ℚ) - l.y) + (k.x - l.x)) ≥ 0 := by exact_mod_cast h2
  have e3 : (k.x : ℚ) - l.x ≤ 0 := by have : (k.x : ℚ) ≤ l.x := by exact_mod_cast hdx
                                      linarith
  generalize (k.x : ℚ) - l.x = dx at *
  generalize (k.y : ℚ) - l.y = dy at *
  generalize (side v l k : ℚ) = bb at *
  have p1 : 0 < (1/2 - (X.1 - v.x)) * (2 * bb - dy + dx) := mul_pos (by linarith) e1
  have p2 : 0 ≤ (1/2 + (X.1 - v.x)) * (2 * bb + dy + dx) := mul_nonneg (by linarith) e2
  have p3 : 0 ≤ ((X.2 - v.y) + 1/2) * (-dx) := mul_nonneg (by linarith) (by linarith)
  nlinarith

theorem lineF_neg {v l k : Vec2} (hdx : k.x ≤ l.x) (hne : k ≠ l)
    (h1 : 2 * side v l k - (k.y - l.y) - (k.x - l.x) ≤ 0)
    (h2 : 2 * side v l k + (k.y - l.y) - (k.x - l.x) ≤ 0) (X : Pt) (hX : InPixel v X) :
    lineF l k X < 0 := by
  rw [lineF_shift v]
  obtain ⟨a1, a2, b1, b2⟩ := hX
  by_cases hx : k.x = l.x
  · have hy : k.y ≠ l.y := by
      intro h; apply hne; cases k; cases l; simp_all
    have hs : side v l k = (v.x - l.x) * (k.y - l.y) := by unfold side; rw [hx]; ring
    have i1 : 2 * side v l k - (k.y - l.y) < 0 := by
      rcases lt_or_eq_of_le h1 with h | h
      · omega
      · exfalso
        rw [hs, hx] at h
        have : (2 * (v.x - l.x) - 1) * (k.y - l.y) = 0 := by linarith [h]
        rcases mul_eq_zero.mp this with h | h <;> omega
    have i2 : 2 * side v l k + (k.y - l.y) < 0 := by
      rcases lt_or_eq_of_le h2 with h | h
      · omega
      · exfalso
        rw [hs, hx] at h
        have : (2 * (v.x - l.x) + 1) * (k.y - l.y) = 0 := by linarith [h]
        rcases mul_eq_zero.mp this with h | h <;> omega
    have e1 : (2 * side v l k - ((k.y:ℚ) - l.y)) < 0 := by exact_mod_cast i1
    have e2 : (2 * side v l k + ((k.y:ℚ) - l.y)) < 0 := by exact_mod_cast i2
    have e3 : (k.x : ℚ) - l.x = 0 := by rw [hx]; ring
    rw [e3]
    generalize (k.y : ℚ) - l.y = dy at *
    generalize (side v l k : ℚ) = bb at *
    have p1 : 0 < (1/2 - (X.1 - v.x)) * -(2 * bb - dy) := mul_pos (by linarith) (by linarith)
    have p2 : 0 ≤ (1/2 + (X.1 - v.x)) * -(2 * bb + dy) := mul_nonneg (by linarith) (by linarith)
    nlinarith
  · have e1 : (2 * side v l k - ((k.y:ℚ) - l.y) - (k.x - l.x)) ≤ 0 := by exact_mod_cast h1
    have e2 : (2 * side v l k + ((k.y:ℚ) - l.y) - (k.x - l.x)) ≤ 0 := by exact_mod_cast h2
    have e3 : (k.x : ℚ) - l.x < 0 := by
      have : (k.x : ℚ) < l.x := by exact_mod_cast (lt_of_le_of_ne hdx hx)
      linarith
    generalize (k.x : ℚ) - l.x = dx at *
    generalize (k.y : ℚ) - l.y = dy at *
    generalize (side v l k : ℚ) = bb at *
    have p1 : 0 ≤ (1/2 - (X.1 - v.x)) * -(2 * bb - dy - dx) := mul_nonneg (by linarith) (by linarith)
    have p2 : 0 ≤ (1/2 + (X.1 - v.x)) * -(2 * bb + dy - dx) := mul_nonneg (by linarith) (by linarith)
    have p3 : 0 < (1/2 - (X.2 - v.y)) * (-dx) := mul_pos (by linarith) (by linarith)
    nlinarith

/-- the code's remaining case: the segment does meet the pixel -/
theorem meet_of_corners {v l k : Vec2} (hdx : k.x ≤ l.x) (hne : k ≠ l)
    (bx : k.x ≤ v.x ∧ v.x ≤ l.x) (bY : (k.y ≤ v.y ∧ v.y ≤ l.y) ∨ (l.y ≤ v.y ∧ v.y ≤ k.y))
    (h1 : ¬ (2 * side v l k - (k.y - l.y) + (k.x - l.x) > 0 ∧ 2 * side v l k + (k.y - l.y) + (k.x - l.x) ≥ 0))
    (h2 : ¬ (2 * side v l k - (k.y - l.y) - (k.x - l.x) ≤ 0 ∧ 2 * side v l k + (k.y - l.y) - (k.x - l.x) ≤ 0)) :
    ∃ X, OnSeg k.pt l.pt X ∧ InPixel v X := by
  have hbb : (side v l k : ℚ) = ((v.x:ℚ) - l.x) * (k.y - l.y) - ((v.y:ℚ) - l.y) * (k.x - l.x) := by
    unfold side; push_cast; ring
  have q1 : (k.x : ℚ) ≤ v.x := by exact_mod_cast bx.1
  have q2 : (v.x : ℚ) ≤ l.x := by exact_mod_cast bx.2
  have h1' : ¬ (2 * side v l k - ((k.y:ℚ) - l.y) + (k.x - l.x) > 0 ∧ (2 * side v l k + ((k.y:ℚ) - l.y) + (k.x - l.x)) ≥ 0) := by
    exact_mod_cast h1
  have h2' : ¬ (2 * side v l k - ((k.y:ℚ) - l.y) - (k.x - l.x) ≤ 0 ∧ (2 * side v l k + ((k.y:ℚ) - l.y) - (k.x - l.x)) ≤ 0) := by
    exact_mod_cast h2
  rw [hbb] at h1' h2'
  by_cases hx : k.x = l.x
  · -- vertical: `v` is on the segment itself
    have hvx : v.x = k.x := by omega
    have hy : k.y ≠ l.y := by
      intro h; apply hne; cases k; cases l; simp_all
    have hyq : (l.y : ℚ) - k.y ≠ 0 := by
      rw [sub_ne_zero]; exact_mod_cast hy.symm
    refine ⟨v.pt, ⟨((v.y : ℚ) - k.y) / (l.y - k.y), ?_, ?_, ?_, ?_⟩, ?_⟩
    · rcases bY with ⟨a, b⟩ | ⟨a, b⟩
      · have a' : (k.y : ℚ) ≤ v.y := by exact_mod_cast a
        have b' : (v.y : ℚ) ≤ l.y := by exact_mod_cast b
        exact div_nonneg (by linarith) (by linarith)
      · have a' : (l.y : ℚ) ≤ v.y := by exact_mod_cast a
        have b' : (v.y : ℚ) ≤ k.y := by exact_mod_cast b
        exact div_nonneg_of_nonpos (by linarith) (by linarith)
    · rcases bY with ⟨a, b⟩ | ⟨a, b⟩
      · have a' : (k.y : ℚ) ≤ v.y := by exact_mod_cast a
        have b' : (v.y : ℚ) ≤ l.y := by exact_mod_cast b
        exact div_le_one_of_le₀ (by linarith) (by linarith)
      · have a' : (l.y : ℚ) ≤ v.y := by exact_mod_cast a
        have b' : (v.y : ℚ) ≤ k.y := by exact_mod_cast b
        have : (l.y : ℚ) - k.y < 0 := lt_of_le_of_ne (by linarith) hyq
        rw [div_le_one_of_neg this]; linarith
    · simp only [Vec2.pt]; rw [hvx, hx]; ring
    · simp only [Vec2.pt]; field_simp; ring
    · simp only [InPixel, Vec2.pt]
      refine ⟨?_, ?_, ?_, ?_⟩ <;> linarith
  have exq : (0 : ℚ) < l.x - k.x := by
    have : (k.x : ℚ) < l.x := by exact_mod_cast (lt_of_le_of_ne hdx hx)
    linarith
  -- reduce to finding `s`
  suffices hs : ∃ s : ℚ, 0 ≤ s ∧ s ≤ 1 ∧ (v.x : ℚ) - 1/2 - k.x ≤ s * (l.x - k.x) ∧ s * (l.x - k.x) < v.x + 1/2 - k.x ∧
      (v.y : ℚ) - 1/2 - k.y ≤ s * (l.y - k.y) ∧ s * (l.y - k.y) < v.y + 1/2 - k.y by
    obtain ⟨s, s0, s1, a, b, c, d⟩ := hs
    refine ⟨(k.x + s * (l.x - k.x), k.y + s * (l.y - k.y)), ⟨s, s0, s1, rfl, rfl⟩, ?_⟩
    simp only [InPixel]
    refine ⟨?_, ?_, ?_, ?_⟩ <;> linarith
  rcases lt_trichotomy k.y l.y with hy | hy | hy
  · -- rising
    have eyq : (0 : ℚ) < l.y - k.y := by
      have : (k.y : ℚ) < l.y := by exact_mod_cast hy
      linarith
    obtain ⟨y1, y2⟩ : (k.y : ℚ) ≤ v.y ∧ (v.y : ℚ) ≤ l.y := by
      rcases bY with ⟨a, b⟩ | ⟨a, b⟩
      · exact ⟨by exact_mod_cast a, by exact_mod_cast b⟩
      · omega
    have c1 : ((v.x:ℚ) - 1/2 - k.x) / (l.x - k.x) < ((v.y:ℚ) + 1/2 - k.y) / (l.y - k.y) := by
      rw [div_lt_div_iff₀ exq eyq]
      by_contra hc
      apply h2'
      constructor <;> nlinarith
    have c2 : ((v.y:ℚ) - 1/2 - k.y) / (l.y - k.y) < ((v.x:ℚ) + 1/2 - k.x) / (l.x - k.x) := by
      rw [div_lt_div_iff₀ eyq exq]
      by_contra hc
      apply h1'
      constructor <;> nlinarith
    obtain ⟨s, s1, s2, s3, s4, s5, s6⟩ := helly_same
      (l1 := ((v.x:ℚ) - 1/2 - k.x) / (l.x - k.x)) (l2 := ((v.x:ℚ) + 1/2 - k.x) / (l.x - k.x))
      (m1 := ((v.y:ℚ) - 1/2 - k.y) / (l.y - k.y)) (m2 := ((v.y:ℚ) + 1/2 - k.y) / (l.y - k.y))
      (by rw [div_lt_div_iff_of_pos_right exq]; linarith) (by rw [div_lt_div_iff_of_pos_right eyq]; linarith) c1 c2
      (by rw [div_le_one exq]; linarith) (by rw [div_le_one eyq]; linarith)
      (div_pos (by linarith) exq) (div_pos (by linarith) eyq)
    exact ⟨s, s5, s6, (div_le_iff₀ exq).mp s1, (lt_div_iff₀ exq).mp s2, (div_le_iff₀ eyq).mp s3, (lt_div_iff₀ eyq).mp s4⟩
  · -- horizontal
    have hvy : v.y = k.y := by omega
    have hl : ((l.y : ℚ)) = k.y := by exact_mod_cast hy.symm
    have hv : ((v.y : ℚ)) = k.y := by exact_mod_cast hvy
    refine ⟨((v.x : ℚ) - k.x) / (l.x - k.x), div_nonneg (by linarith) exq.le, by rw [div_le_one exq]; linarith, ?_, ?_, ?_, ?_⟩
    · rw [div_mul_cancel₀ _ exq.ne']; linarith
    · rw [div_mul_cancel₀ _ exq.ne']; linarith
    · rw [hl, hv]; norm_num
    · rw [hl, hv]; norm_num
  · -- falling
    have eyq : (0 : ℚ) < k.y - l.y := by
      have : (l.y : ℚ) < k.y := by exact_mod_cast hy
      linarith
    obtain ⟨y1, y2⟩ : (l.y : ℚ) ≤ v.y ∧ (v.y : ℚ) ≤ k.y := by
      rcases bY with ⟨a, b⟩ | ⟨a, b⟩
      · omega
      · exact ⟨by exact_mod_cast a, by exact_mod_cast b⟩
    -- s*(ky-ly) in (ky-vy-1/2, ky-vy+1/2]
    have c1 : ((v.x:ℚ) - 1/2 - k.x) / (l.x - k.x) ≤ ((k.y:ℚ) + 1/2 - v.y) / (k.y - l.y) := by
      rw [div_le_div_iff₀ exq eyq]
      by_contra hc
      apply h1'
      constructor <;> nlinarith
    have c2 : ((k.y:ℚ) - 1/2 - v.y) / (k.y - l.y) < ((v.x:ℚ) + 1/2 - k.x) / (l.x - k.x) := by
      rw [div_lt_div_iff₀ eyq exq]
      by_contra hc
      apply h2'
      constructor <;> nlinarith
    obtain ⟨s, s1, s2, s3, s4, s5, s6⟩ := helly_mixed
      (l1 := ((v.x:ℚ) - 1/2 - k.x) / (l.x - k.x)) (l2 := ((v.x:ℚ) + 1/2 - k.x) / (l.x - k.x))
      (m1 := ((k.y:ℚ) - 1/2 - v.y) / (k.y - l.y)) (m2 := ((k.y:ℚ) + 1/2 - v.y) / (k.y - l.y))
      (by rw [div_lt_div_iff_of_pos_right exq]; linarith) (by rw [div_lt_div_iff_of_pos_right eyq]; linarith) c1 c2
      (by rw [div_le_one exq]; linarith) (by rw [div_lt_one eyq]; linarith)
      (div_pos (by linarith) exq) (div_nonneg (by linarith) eyq.le)
    have t1 := (div_le_iff₀ exq).mp s1
    have t2 := (lt_div_iff₀ exq).mp s2
    have t3 := (div_lt_iff₀ eyq).mp s3
    have t4 := (le_div_iff₀ eyq).mp s4
    exact ⟨s, s5, s6, t1, t2, by nlinarith, by nlinarith⟩

theorem cpSign_ne {b : Int} (h : b ≠ 0) : (cpSign b = 1 ∧ 0 < b) ∨ (cpSign b = -1 ∧ b < 0) := by
  unfold cpSign
  rcases lt_or_gt_of_ne h with h | h
  · right; simp [h]
  · left; simp [h, not_lt.mpr h.le]

theorem rightCross3Z_spec (v l k : Vec2) (hv : v.InRange) (hl : l.InRange) (hk : k.InRange) :
    rightCross3Z v.x v.y l.x l.y k.x k.y = some (side v l k) := by
  have a1 := D31_sub hv.1 hl.1
  have a2 := D31_sub hv.2 hl.2
  have a3 := D31_sub hk.1 hl.1
  have a4 := D31_sub hk.2 hl.2
  unfold rightCross3Z crossZ side
  simp only [dimSub_c30 hv.1 hl.1, dimSub_c30 hv.2 hl.2, dimSub_c30 hk.1 hl.1, dimSub_c30 hk.2 hl.2,
    Option.bind_eq_bind, Option.bind_some, dimMul_d31 a1 a4, dimMul_d31 a2 a3, dimwSub_d31 a1 a4 a2 a3]

/-- full description of `cq_cmp_edge_rnd` -/
theorem cmpEdgeRnd_main (v l k : Vec2) (hv : v.InRange) (hl : l.InRange) (hk : k.InRange)
    (hdx : k.x ≤ l.x) (hne : k ≠ l) :
    ∃ r, cmpEdgeRnd v.x v.y l.x l.y k.x k.y = some r ∧ (r = -1 ∨ r = 0 ∨ r = 1) ∧
      (r = 0 ↔ ∃ X, OnSeg k.pt l.pt X ∧ InPixel v X) ∧
      (r = 1 → 0 ≤ side v l k) ∧ (r = -1 → side v l k ≤ 0) := by
  have hcr := rightCross3Z_spec v l k hv hl hk
  have d3 := D31_sub hk.1 hl.1
  have d4 := D31_sub hk.2 hl.2
  have sx := dimSub_c30 hk.1 hl.1
  have sy := dimSub_c30 hk.2 hl.2
  unfold cmpEdgeRnd
  simp only [hcr, Option.bind_eq_bind, Option.bind_some, sx, sy]
  have hW : ((W : Nat) : Int) = 4294967296 := rfl
  rw [hW]
  by_cases f1 : side v l k ≥ 4294967296
  · rw [if_pos f1]
    refine ⟨1, rfl, by omega, ?_, by omega, by omega⟩
    have := miss_of_lineF (v := v) (l := l) (k := k) (lineF_far d3 d4 (Or.inl f1))
    simp [this]
  rw [if_neg f1]
  by_cases f2 : side v l k ≤ -4294967296
  · rw [if_pos f2]
    refine ⟨-1, rfl, by omega, ?_, by omega, by omega⟩
    have := miss_of_lineF (v := v) (l := l) (k := k) (lineF_far d3 d4 (Or.inr f2))
    simp [this]
  rw [if_neg f2]
  -- the plausibility exits
  have hexit : ∀ e : Int, (e = 1 ∨ e = -1) → (¬ ∃ X, OnSeg k.pt l.pt X ∧ InPixel v X) →
      ∃ r, (pure (if side v l k = 0 then e else cpSign (side v l k)) : Option Int) = some r ∧ (r = -1 ∨ r = 0 ∨ r = 1) ∧
      (r = 0 ↔ ∃ X, OnSeg k.pt l.pt X ∧ InPixel v X) ∧
      (r = 1 → 0 ≤ side v l k) ∧ (r = -1 → side v l k ≤ 0) := by
    intro e he hmiss
    by_cases h0 : side v l k = 0
    · rw [if_pos h0]
      refine ⟨e, rfl, by omega, ?_, by omega, by omega⟩
      simp only [hmiss, iff_false]; omega
    · rw [if_neg h0]
      rcases cpSign_ne h0 with ⟨h, h'⟩ | ⟨h, h'⟩
      · exact ⟨1, by rw [h]; rfl, by omega, by simp [hmiss], by omega, by omega⟩
      · exact ⟨-1, by rw [h]; rfl, by omega, by simp [hmiss], by omega, by omega⟩
  by_cases g1 : v.x < l.x ∧ v.x < k.x
  · rw [if_pos g1]
    refine hexit (-1) (Or.inr rfl) ?_
    rintro ⟨X, ⟨s, s0, s1, x1, -⟩, a, b, -, -⟩
    simp only [Vec2.pt] at x1
    have p1 : (v.x : ℚ) + 1 ≤ l.x := by exact_mod_cast g1.1
    have p2 : (v.x : ℚ) + 1 ≤ k.x := by exact_mod_cast g1.2
    nlinarith
  rw [if_neg g1]
  by_cases g2 : v.x > l.x ∧ v.x > k.x
  · rw [if_pos g2]
    refine hexit 1 (Or.inl rfl) ?_
    rintro ⟨X, ⟨s, s0, s1, x1, -⟩, a, b, -, -⟩
    simp only [Vec2.pt] at x1
    have p1 : (l.x : ℚ) + 1 ≤ v.x := by exact_mod_cast g2.1
    have p2 : (k.x : ℚ) + 1 ≤ v.x := by exact_mod_cast g2.2
    nlinarith
  rw [if_neg g2]
  by_cases g3 : v.y < l.y ∧ v.y < k.y
  · rw [if_pos g3]
    refine hexit (-1) (Or.inr rfl) ?_
    rintro ⟨X, ⟨s, s0, s1, -, x1⟩, -, -, a, b⟩
    simp only [Vec2.pt] at x1
    have p1 : (v.y : ℚ) + 1 ≤ l.y := by exact_mod_cast g3.1
    have p2 : (v.y : ℚ) + 1 ≤ k.y := by exact_mod_cast g3.2
    nlinarith
  rw [if_neg g3]
  by_cases g4 : v.y > l.y ∧ v.y > k.y
  · rw [if_pos g4]
    refine hexit 1 (Or.inl rfl) ?_
    rintro ⟨X, ⟨s, s0, s1, -, x1⟩, -, -, a, b⟩
    simp only [Vec2.pt] at x1
    have p1 : (l.y : ℚ) + 1 ≤ v.y := by exact_mod_cast g4.1
    have p2 : (k.y : ℚ) + 1 ≤ v.y := by exact_mod_cast g4.2
    nlinarith
  rw [if_neg g4]
  unfold D31 at d3 d4
  have e1 : dimwAdd (side v l k * 2) (k.y - l.y) = some (side v l k * 2 + (k.y - l.y)) :=
    chk64_some (by unfold I64; omega)
  have e2 : dimwSub (side v l k * 2) (k.y - l.y) = some (side v l k * 2 - (k.y - l.y)) :=
    chk64_some (by unfold I64; omega)
  have e3 : dimwAdd (side v l k * 2 - (k.y - l.y)) (k.x - l.x) = some (side v l k * 2 - (k.y - l.y) + (k.x - l.x)) :=
    chk64_some (by unfold I64; omega)
  have e4 : dimwAdd (side v l k * 2 + (k.y - l.y)) (k.x - l.x) = some (side v l k * 2 + (k.y - l.y) + (k.x - l.x)) :=
    chk64_some (by unfold I64; omega)
  have e5 : dimwSub (side v l k * 2 - (k.y - l.y)) (k.x - l.x) = some (side v l k * 2 - (k.y - l.y) - (k.x - l.x)) :=
    chk64_some (by unfold I64; omega)
  have e6 : dimwSub (side v l k * 2 + (k.y - l.y)) (k.x - l.x) = some (side v l k * 2 + (k.y - l.y) - (k.x - l.x)) :=
    chk64_some (by unfold I64; omega)
  simp only [e1, e2, e3, e4, e5, e6, Option.bind_some, Option.pure_def]
  by_cases k1 : 2 * side v l k - (k.y - l.y) + (k.x - l.x) > 0 ∧ 2 * side v l k + (k.y - l.y) + (k.x - l.x) ≥ 0
  · refine ⟨1, ?_, by omega, ?_, ?_, by omega⟩
    · rw [if_pos (by omega), if_pos (by omega)]
    · have := miss_of_lineF (v := v) (l := l) (k := k) fun X hX => (lineF_pos hdx k1.1 k1.2 X hX).ne'
      simp [this]
    · intro _; omega
  by_cases k2 : 2 * side v l k - (k.y - l.y) - (k.x - l.x) ≤ 0 ∧ 2 * side v l k + (k.y - l.y) - (k.x - l.x) ≤ 0
  · refine ⟨-1, ?_, by omega, ?_, by omega, ?_⟩
    · split_ifs <;> first | rfl | omega
    · have := miss_of_lineF (v := v) (l := l) (k := k) fun X hX => (lineF_neg hdx hne k2.1 k2.2 X hX).ne
      simp [this]
    · intro _; omega
  · refine ⟨0, ?_, by omega, ?_, by omega, by omega⟩
    · split_ifs <;> first | rfl | omega
    · have := meet_of_corners hdx hne (v := v) (by omega) (by omega) k1 k2
      simp [this]

end Hob3l.Matq
