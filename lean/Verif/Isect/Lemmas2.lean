import Verif.Isect.Lemmas

namespace Hob3l.Isect

open Hob3l.Matq Hob3l.Sweep

theorem on_a (l : Line) : l.On l.a.pt := ⟨0, le_refl _, by norm_num, by ring, by ring⟩
theorem on_b (l : Line) : l.On l.b.pt := ⟨1, by norm_num, le_refl _, by ring, by ring⟩

theorem Found.not_free {i : Vec2if} {a b : Line} {gon : List Line} (ha : a ∈ gon) (hb : b ∈ gon) (h : Bad a b) :
    ¬ Free gon := by
  intro hf
  rcases h with ⟨X, h1, h2, h3⟩ | ⟨-, h⟩
  · rcases hf a ha b hb with hs | hs
    · have : a.a.pt = X := h3 _ (on_a a) (by
        rcases hs with ⟨e, -⟩ | ⟨e, -⟩
        · rw [e]; exact on_a b
        · rw [e]; exact on_b b)
      exact h1.2.1 this.symm
    · rcases (hs X h1.1 h2.1).1 with e | e
      · exact h1.2.1 e
      · exact h1.2.2 e
  · have key : ∀ l m : Line, l.Same m ∨ (∀ X, l.On X → m.On X → l.Ends X ∧ m.Ends X) →
        ¬ m.Inner l.a.pt ∧ ¬ m.Inner l.b.pt := by
      intro l m h
      rcases h with (⟨e1, e2⟩ | ⟨e1, e2⟩) | h
      · exact ⟨fun k => k.2.1 (by rw [e1]), fun k => k.2.2 (by rw [e2])⟩
      · exact ⟨fun k => k.2.2 (by rw [e1]), fun k => k.2.1 (by rw [e2])⟩
      · refine ⟨fun k => ?_, fun k => ?_⟩
        · exact (h _ (on_a l) k.1).2.elim k.2.1 k.2.2
        · exact (h _ (on_b l) k.1).2.elim k.2.1 k.2.2
    have k1 := key a b (hf a ha b hb)
    have k2 := key b a (hf b hb a ha)
    rcases h with h | h | h | h
    · exact k1.1 h
    · exact k1.2 h
    · exact k2.1 h
    · exact k2.2 h

/-- parameter of a point on the line of `l` -/
theorem param {l : Line} (hl : l.Ok) {X : Pt}
    (h : (l.b.pt.1 - l.a.pt.1) * (X.2 - l.a.pt.2) = (l.b.pt.2 - l.a.pt.2) * (X.1 - l.a.pt.1)) :
    ∃ u : ℚ, X.1 = l.a.pt.1 + u * (l.b.pt.1 - l.a.pt.1) ∧ X.2 = l.a.pt.2 + u * (l.b.pt.2 - l.a.pt.2) := by
  rcases hl.ne with k | k
  · exact ⟨(X.1 - l.a.pt.1) / (l.b.pt.1 - l.a.pt.1), by field_simp; ring, by field_simp; linear_combination h⟩
  · exact ⟨(X.2 - l.a.pt.2) / (l.b.pt.2 - l.a.pt.2), by field_simp; linear_combination -h, by field_simp; ring⟩

theorem param_inj {l : Line} (hl : l.Ok) {u w : ℚ}
    (h1 : l.a.pt.1 + u * (l.b.pt.1 - l.a.pt.1) = l.a.pt.1 + w * (l.b.pt.1 - l.a.pt.1))
    (h2 : l.a.pt.2 + u * (l.b.pt.2 - l.a.pt.2) = l.a.pt.2 + w * (l.b.pt.2 - l.a.pt.2)) : u = w := by
  rcases hl.ne with k | k
  · exact mul_right_cancel₀ k (by linarith)
  · exact mul_right_cancel₀ k (by linarith)

/-- parallel lines with a common point that is an inner point of `l`: same line or partial overlap -/
theorem parallel_common {l m : Line} (hl : l.Ok) (hm : m.Ok) (hp : Parallel l.a.pt l.b.pt m.a.pt m.b.pt) {X : Pt}
    (h1 : l.Inner X) (h2 : m.On X) (hno : ¬ Touch l m) : l.Same m := by
  have hc := side_rat.mp (collinear_of hl hm hp h1.1 h2)
  have ha : (l.b.pt.1 - l.a.pt.1) * (m.a.pt.2 - l.a.pt.2) = (l.b.pt.2 - l.a.pt.2) * (m.a.pt.1 - l.a.pt.1) := by
    unfold Parallel at hp; linear_combination hc - hp
  obtain ⟨u, u1, u2⟩ := param hl ha
  obtain ⟨w, w1, w2⟩ := param hl hc
  obtain ⟨⟨s, s0, s1, sx, sy⟩, n1, n2⟩ := h1
  obtain ⟨t, t0, t1, tx, ty⟩ := h2
  have hs0 : 0 < s := lt_of_le_of_ne s0 (fun e => n1 (by subst e; exact Prod.ext (by rw [sx]; ring) (by rw [sy]; ring)))
  have hs1 : s < 1 := lt_of_le_of_ne s1 (fun e => n2 (by subst e; exact Prod.ext (by rw [sx]; ring) (by rw [sy]; ring)))
  have hst : s = u + t * (w - u) := by
    apply param_inj hl
    · rw [← sx, tx, u1, w1]; ring
    · rw [← sy, ty, u2, w2]; ring
  have inl : ∀ v : Vec2, ∀ r : ℚ, v.pt.1 = l.a.pt.1 + r * (l.b.pt.1 - l.a.pt.1) →
      v.pt.2 = l.a.pt.2 + r * (l.b.pt.2 - l.a.pt.2) → 0 < r → r < 1 → l.Inner v.pt := by
    intro v r e1 e2 r0 r1
    refine ⟨⟨r, r0.le, r1.le, e1, e2⟩, fun e => ?_, fun e => ?_⟩
    · have : r = 0 := param_inj hl (by rw [← e1, e]; ring) (by rw [← e2, e]; ring)
      linarith
    · have : r = 1 := param_inj hl (by rw [← e1, e]; ring) (by rw [← e2, e]; ring)
      linarith
  have inm : ∀ v : Vec2, ∀ r : ℚ, v.pt.1 = l.a.pt.1 + r * (l.b.pt.1 - l.a.pt.1) →
      v.pt.2 = l.a.pt.2 + r * (l.b.pt.2 - l.a.pt.2) → (u < r ∧ r < w) ∨ (w < r ∧ r < u) → m.Inner v.pt := by
    intro v r e1 e2 hr
    have hne : w - u ≠ 0 := by rcases hr with ⟨a, b⟩ | ⟨a, b⟩ <;> intro h <;> linarith
    refine ⟨⟨(r - u) / (w - u), ?_, ?_, ?_, ?_⟩, fun e => ?_, fun e => ?_⟩
    · rcases hr with ⟨a, b⟩ | ⟨a, b⟩
      · apply div_nonneg <;> linarith
      · apply div_nonneg_of_nonpos <;> linarith
    · rcases hr with ⟨a, b⟩ | ⟨a, b⟩
      · rw [div_le_one (by linarith)]; linarith
      · rw [div_le_one_of_neg (by linarith)]; linarith
    · rw [e1, u1, w1]; field_simp; ring
    · rw [e2, u2, w2]; field_simp; ring
    · have : r = u := param_inj hl (by rw [← e1, e, u1]) (by rw [← e2, e, u2])
      rcases hr with ⟨a, b⟩ | ⟨a, b⟩ <;> linarith
    · have : r = w := param_inj hl (by rw [← e1, e, w1]) (by rw [← e2, e, w2])
      rcases hr with ⟨a, b⟩ | ⟨a, b⟩ <;> linarith
  unfold Touch at hno
  push Not at hno
  obtain ⟨no1, no2, no3, no4⟩ := hno
  have no1 : ¬ ((u < 0 ∧ 0 < w) ∨ (w < 0 ∧ 0 < u)) := fun h => no1 (inm l.a 0 (by ring) (by ring) h)
  have no2 : ¬ ((u < 1 ∧ 1 < w) ∨ (w < 1 ∧ 1 < u)) := fun h => no2 (inm l.b 1 (by ring) (by ring) h)
  have no3 : ¬ (0 < u ∧ u < 1) := fun h => no3 (inl m.a u u1 u2 h.1 h.2)
  have no4 : ¬ (0 < w ∧ w < 1) := fun h => no4 (inl m.b w w1 w2 h.1 h.2)
  push Not at no1 no2 no3 no4
  rcases le_total u w with huw | huw
  · have h1 : u ≤ s := by nlinarith
    have h2 : s ≤ w := by nlinarith
    have hu : u ≤ 0 := by
      by_contra hc; push Not at hc; linarith [no3 hc]
    have hw : 1 ≤ w := no4 (by linarith)
    have hu0 : u = 0 := by
      by_contra hc
      have : u < 0 := lt_of_le_of_ne hu hc
      linarith [no1.1 this]
    have hw1 : w = 1 := by
      have := no2.1 (by linarith); linarith
    left
    constructor
    · apply pt_inj; exact Prod.ext (by rw [u1, hu0]; ring) (by rw [u2, hu0]; ring)
    · apply pt_inj; exact Prod.ext (by rw [w1, hw1]; ring) (by rw [w2, hw1]; ring)
  · have h1 : s ≤ u := by nlinarith
    have h2 : w ≤ s := by nlinarith
    have hw : w ≤ 0 := by
      by_contra hc; push Not at hc; linarith [no4 hc]
    have hu : 1 ≤ u := no3 (by linarith)
    have hw0 : w = 0 := by
      by_contra hc
      have : w < 0 := lt_of_le_of_ne hw hc
      linarith [no1.2 this]
    have hu1 : u = 1 := by
      have := no2.2 (by linarith); linarith
    right
    constructor
    · apply pt_inj; exact Prod.ext (by rw [w1, hw0]; ring) (by rw [w2, hw0]; ring)
    · apply pt_inj; exact Prod.ext (by rw [u1, hu1]; ring) (by rw [u2, hu1]; ring)

/-- lines that are not parallel have at most one common point -/
theorem unique_common {l m : Line} (hp : ¬ Parallel l.a.pt l.b.pt m.a.pt m.b.pt) {X Y : Pt}
    (h1 : l.On X) (h2 : m.On X) (h3 : l.On Y) (h4 : m.On Y) : Y = X := by
  have e1 := on_line h1
  have e2 := on_line h2
  have e3 := on_line h3
  have e4 := on_line h4
  unfold Parallel at hp
  have hd : (l.b.pt.1 - l.a.pt.1) * (m.b.pt.2 - m.a.pt.2) - (l.b.pt.2 - l.a.pt.2) * (m.b.pt.1 - m.a.pt.1) ≠ 0 :=
    fun h => hp (by linarith)
  apply Prod.ext
  · apply mul_left_cancel₀ hd
    linear_combination (l.b.pt.1 - l.a.pt.1) * (e2 - e4) - (m.b.pt.1 - m.a.pt.1) * (e1 - e3)
  · apply mul_left_cancel₀ hd
    linear_combination (l.b.pt.2 - l.a.pt.2) * (e2 - e4) - (m.b.pt.2 - m.a.pt.2) * (e1 - e3)

theorem free_of {gon : List Line} (hg : ∀ l ∈ gon, l.Ok) (h1 : ∀ l ∈ gon, ∀ m ∈ gon, ¬ Bad l m)
    (h2 : ∀ l ∈ gon, ∀ m ∈ gon, ¬ Parallel l.a.pt l.b.pt m.a.pt m.b.pt → ¬ Touch l m) : Free gon := by
  intro l hl m hm
  have hno : ¬ Touch l m := by
    by_cases hp : Parallel l.a.pt l.b.pt m.a.pt m.b.pt
    · exact fun h => h1 l hl m hm (Or.inr ⟨hp, h⟩)
    · exact h2 l hl m hm hp
  by_cases hs : l.Same m
  · exact Or.inl hs
  right
  intro X x1 x2
  have el : l.Ends X := by
    by_contra hc
    unfold Line.Ends at hc
    push Not at hc
    have hin : l.Inner X := ⟨x1, hc.1, hc.2⟩
    by_cases hp : Parallel l.a.pt l.b.pt m.a.pt m.b.pt
    · exact hs (parallel_common (hg l hl) (hg m hm) hp hin x2 hno)
    · by_cases hme : m.Ends X
      · rcases hme with rfl | rfl
        · exact hno (Or.inr (Or.inr (Or.inl hin)))
        · exact hno (Or.inr (Or.inr (Or.inr hin)))
      · unfold Line.Ends at hme
        push Not at hme
        exact h1 l hl m hm (Or.inl ⟨X, hin, ⟨x2, hme.1, hme.2⟩, fun Y y1 y2 => unique_common hp x1 x2 y1 y2⟩)
  refine ⟨el, ?_⟩
  by_contra hc
  unfold Line.Ends at hc
  push Not at hc
  have hin : m.Inner X := ⟨x2, hc.1, hc.2⟩
  rcases el with rfl | rfl
  · exact hno (Or.inl hin)
  · exact hno (Or.inr (Or.inl hin))

end Hob3l.Isect
