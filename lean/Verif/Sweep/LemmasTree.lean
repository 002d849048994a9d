import Verif.Sweep.LemmasOrder

namespace Hob3l.Sweep

open Hob3l.Matq

theorem cpSign_sign {c : Int} : (cpSign c < 0 ↔ c < 0) ∧ (cpSign c > 0 ↔ c > 0) ∧ (cpSign c = 0 ↔ c = 0) := by
  unfold cpSign; split_ifs <;> simp <;> omega

theorem height_sign {l r v : Vec2} (h : l.x < r.x) :
    (side v r l < 0 ↔ (v.y : ℚ) < heightAt l r v) ∧ (side v r l > 0 ↔ heightAt l r v < (v.y : ℚ)) ∧
    (side v r l = 0 ↔ (v.y : ℚ) = heightAt l r v) := by
  have hW : (0 : ℚ) < r.x - l.x := by
    have : (l.x : ℚ) < r.x := by exact_mod_cast h
    linarith
  have e : ((side v r l : Int) : ℚ) = (r.x - l.x) * (v.y - heightAt l r v) := by
    unfold side heightAt
    rw [if_neg (by omega)]
    push_cast
    field_simp
    ring
  refine ⟨?_, ?_, ?_⟩
  · rw [← Int.cast_lt (R := ℚ), e, Int.cast_zero]
    constructor
    · intro h'; by_contra hc; push Not at hc
      have := mul_nonneg hW.le (sub_nonneg.mpr hc); linarith
    · intro h'; exact mul_neg_of_pos_of_neg hW (by linarith)
  · rw [gt_iff_lt, ← Int.cast_lt (R := ℚ), e, Int.cast_zero]
    constructor
    · intro h'; by_contra hc; push Not at hc
      have := mul_nonneg hW.le (sub_nonneg.mpr hc); linarith
    · intro h'; exact mul_pos hW (by linarith)
  · rw [← Int.cast_inj (α := ℚ), e, Int.cast_zero, mul_eq_zero]
    constructor
    · rintro (h' | h'); · exact absurd h' hW.ne'
      · linarith
    · intro h'; right; linarith

theorem slope_sign {l r v w : Vec2} (h : l.x < r.x) (hv : v.x < r.x) (hon : (v.y : ℚ) = heightAt l r v) (hw : LexLt v w) :
    (side r v w < 0 ↔ slope v w < slope l r) ∧ (side r v w > 0 ↔ slope l r < slope v w) := by
  have hW : (0 : ℚ) < r.x - l.x := by
    have : (l.x : ℚ) < r.x := by exact_mod_cast h
    linarith
  have ha : (0 : ℚ) < r.x - v.x := by
    have : (v.x : ℚ) < r.x := by exact_mod_cast hv
    linarith
  unfold heightAt at hon
  rw [if_neg (by omega)] at hon
  set S : ℚ := ((r.y : ℚ) - l.y) / (r.x - l.x) with hS
  have hry : (r.y : ℚ) - v.y = (r.x - v.x) * S := by
    rw [hon, hS]; field_simp; ring
  have e : ((side r v w : Int) : ℚ) = (r.x - v.x) * ((w.y - v.y) - S * (w.x - v.x)) := by
    unfold side; push_cast; rw [hry]; ring
  have hsl : slope l r = (S : WithTop ℚ) := by unfold slope; rw [if_neg (by omega)]
  have pos : (side r v w > 0 ↔ 0 < ((w.y : ℚ) - v.y) - S * (w.x - v.x)) := by
    rw [gt_iff_lt, ← Int.cast_lt (R := ℚ), e, Int.cast_zero]; exact mul_pos_iff_of_pos_left ha
  have neg : (side r v w < 0 ↔ ((w.y : ℚ) - v.y) - S * (w.x - v.x) < 0) := by
    rw [← Int.cast_lt (R := ℚ), e, Int.cast_zero]
    constructor
    · intro h'; by_contra hc; push Not at hc
      have := mul_nonneg ha.le hc; linarith
    · intro h'; exact mul_neg_of_pos_of_neg ha h'
  rw [pos, neg, hsl]
  rcases hw with hw | ⟨hw, hw'⟩
  · have hb : (0 : ℚ) < w.x - v.x := by
      have : (v.x : ℚ) < w.x := by exact_mod_cast hw
      linarith
    have hs2 : slope v w = ((((w.y : ℚ) - v.y) / (w.x - v.x) : ℚ) : WithTop ℚ) := by
      unfold slope; rw [if_neg (by omega)]
    rw [hs2, WithTop.coe_lt_coe, WithTop.coe_lt_coe, div_lt_iff₀ hb, lt_div_iff₀ hb]
    constructor <;> constructor <;> intro h' <;> linarith
  · have hs2 : slope v w = ⊤ := by unfold slope; rw [if_pos hw]
    have hy : (v.y : ℚ) < w.y := by exact_mod_cast hw'
    rw [hs2, hw]
    simp only [sub_self, mul_zero, sub_zero, not_top_lt, iff_false, WithTop.coe_lt_top, iff_true]
    exact ⟨by linarith, by linarith⟩

/-- the tree comparison is the comparison by height at the sweep position, then by slope -/
theorem tree_spec {v w l r : Vec2} (hv : v.InRange) (hw : w.InRange) (hl : l.InRange) (hr : r.InRange)
    (hvw : LexLt v w) (hlv : ¬ LexLt v l) (hvr : LexLt v r) :
    ∃ i, treeVertexEdgeCmp v w l r = some i ∧
      (i < 0 ↔ BelowKey v.y (slope v w) (heightAt l r v) (slope l r)) ∧
      (i > 0 ↔ BelowKey (heightAt l r v) (slope l r) v.y (slope v w)) := by
  have hne : vec2Cmp v r ≠ 0 := fun h => hvr.ne (vec2Cmp_eq.mp h)
  have hunf : treeVertexEdgeCmp v w l r = some (lexThen (cpSign (side v r l)) (cpSign (side r v w))) := by
    unfold treeVertexEdgeCmp lexThen
    rw [cross3_some hv hr hl, cross3_some hr hv hw]
    simp only [Option.bind_eq_bind, Option.bind_some, Option.pure_def]
    by_cases h1 : cpSign (side v r l) = 0
    · by_cases h2 : cpSign (side r v w) = 0
      · simp [h1, h2, hne]
      · simp [h1, h2]
    · simp [h1]
  refine ⟨_, hunf, ?_⟩
  by_cases hx : l.x < r.x
  · obtain ⟨a1, a2, a3⟩ := height_sign (v := v) hx
    unfold BelowKey lexThen
    by_cases hz : side v r l = 0
    · have hon := a3.mp hz
      have hvx : v.x < r.x := by
        rcases hvr with h | ⟨h, h'⟩
        · exact h
        · exfalso
          -- v on the line with the same x as r, so v = r
          have : heightAt l r v = r.y := by
            unfold heightAt; rw [if_neg (by omega), h]
            have : (0 : ℚ) < r.x - l.x := by
              have : (l.x : ℚ) < r.x := by exact_mod_cast hx
              linarith
            field_simp; ring
          rw [this] at hon
          have : v.y = r.y := by exact_mod_cast hon
          omega
      obtain ⟨b1, b2⟩ := slope_sign hx hvx hon hvw
      rw [(cpSign_sign (c := side v r l)).2.2.mpr hz]
      simp only [ne_eq, not_true_eq_false, if_false]
      rw [cpSign_sign.1, cpSign_sign.2.1, b1, b2, hon]
      simp
    · have hz' : cpSign (side v r l) ≠ 0 := fun h => hz (cpSign_sign.2.2.mp h)
      rw [if_pos hz', cpSign_sign.1, cpSign_sign.2.1, a1, a2]
      have hne' : (v.y : ℚ) ≠ heightAt l r v := fun h => hz (a3.mpr h)
      simp [hne', hne'.symm]
  · -- vertical edge
    have e1 : l.x = r.x ∧ v.x = r.x ∧ v.y < r.y := by
      unfold LexLt at *; omega
    obtain ⟨e1, e2, e3⟩ := e1
    have hz : side v r l = 0 := by unfold side; rw [e2, e1]; ring
    have hs : side r v w = -((r.y - v.y) * (w.x - v.x)) := by unfold side; rw [e2]; ring
    have hh : heightAt l r v = v.y := by unfold heightAt; rw [if_pos e1]
    have hsl : slope l r = ⊤ := by unfold slope; rw [if_pos e1]
    rw [hh, hsl, hz, hs]
    unfold BelowKey lexThen
    rw [(cpSign_sign (c := 0)).2.2.mpr rfl]
    simp only [ne_eq, not_true_eq_false, if_false, lt_irrefl, true_and, false_or, not_top_lt, iff_false]
    rw [cpSign_sign.1, cpSign_sign.2.1]
    rcases hvw with h | ⟨h, h'⟩
    · have : slope v w < ⊤ := by unfold slope; rw [if_neg (by omega)]; exact WithTop.coe_lt_top _
      have p : 0 < (r.y - v.y) * (w.x - v.x) := mul_pos (by omega) (by omega)
      simp only [this, iff_true]
      omega
    · have : slope v w = ⊤ := by unfold slope; rw [if_pos h]
      have p : (r.y - v.y) * (w.x - v.x) = 0 := by rw [h]; ring
      rw [this, p]; simp

end Hob3l.Sweep
