import Verif.Isect.Spec
import Verif.Sweep.LemmasOrder
import Verif.Sweep.Lemmas
import Verif.Matq.LemmasIntersect
import Mathlib.Tactic.FieldSimp
import Mathlib.Tactic.LinearCombination
import Mathlib.Tactic.SplitIfs

namespace Hob3l.Isect

open Hob3l.Matq Hob3l.Sweep

theorem inner_x {c d v : Pt} (h : c.1 ≠ d.1) (hs : (d.1 - c.1) * (v.2 - c.2) = (d.2 - c.2) * (v.1 - c.1)) :
    (OnSeg c d v ∧ v ≠ c ∧ v ≠ d) ↔ (c.1 < v.1 ∧ v.1 < d.1) ∨ (d.1 < v.1 ∧ v.1 < c.1) := by
  have hd : d.1 - c.1 ≠ 0 := fun e => h (by linarith)
  constructor
  · rintro ⟨⟨s, s0, s1, hx, hy⟩, n1, n2⟩
    have s0' : s ≠ 0 := by
      rintro rfl; exact n1 (Prod.ext (by rw [hx]; ring) (by rw [hy]; ring))
    have s1' : s ≠ 1 := by
      rintro rfl; exact n2 (Prod.ext (by rw [hx]; ring) (by rw [hy]; ring))
    have s0 := lt_of_le_of_ne s0 (Ne.symm s0')
    have s1 := lt_of_le_of_ne s1 s1'
    rcases lt_or_gt_of_ne h with h | h
    · exact Or.inl ⟨by rw [hx]; nlinarith, by rw [hx]; nlinarith⟩
    · exact Or.inr ⟨by rw [hx]; nlinarith, by rw [hx]; nlinarith⟩
  · intro hv
    refine ⟨⟨(v.1 - c.1) / (d.1 - c.1), ?_, ?_, ?_, ?_⟩, ?_, ?_⟩
    · rcases hv with ⟨h1, h2⟩ | ⟨h1, h2⟩
      · apply div_nonneg <;> linarith
      · apply div_nonneg_of_nonpos <;> linarith
    · rcases hv with ⟨h1, h2⟩ | ⟨h1, h2⟩
      · rw [div_le_one (by linarith)]; linarith
      · rw [div_le_one_of_neg (by linarith)]; linarith
    · field_simp; ring
    · field_simp; linear_combination hs
    · rintro rfl; rcases hv with ⟨h1, h2⟩ | ⟨h1, h2⟩ <;> linarith
    · rintro rfl; rcases hv with ⟨h1, h2⟩ | ⟨h1, h2⟩ <;> linarith

theorem onSeg_swap {c d v : Pt} : OnSeg c d v ↔ OnSeg (c.2, c.1) (d.2, d.1) (v.2, v.1) := by
  constructor <;> rintro ⟨s, s0, s1, hx, hy⟩ <;> exact ⟨s, s0, s1, hy, hx⟩

theorem inner_y {c d v : Pt} (h : c.2 ≠ d.2) (hs : (d.1 - c.1) * (v.2 - c.2) = (d.2 - c.2) * (v.1 - c.1)) :
    (OnSeg c d v ∧ v ≠ c ∧ v ≠ d) ↔ (c.2 < v.2 ∧ v.2 < d.2) ∨ (d.2 < v.2 ∧ v.2 < c.2) := by
  rw [← inner_x (c := (c.2, c.1)) (d := (d.2, d.1)) (v := (v.2, v.1)) h hs.symm, onSeg_swap]
  have e : ∀ p q : Pt, p ≠ q ↔ (p.2, p.1) ≠ (q.2, q.1) := by
    intro p q
    constructor
    · intro hn he; exact hn (Prod.ext (congrArg Prod.snd he) (congrArg Prod.fst he))
    · rintro hn rfl; exact hn rfl
  rw [e v c, e v d]

/-- strictly between -/
def Btw (x y m : Int) : Prop := (x < m ∧ m < y) ∨ (y < m ∧ m < x)

theorem tests_spec (a b : Line) {x1 x2 y1 y2 : Int} (hx : x1 ≠ x2) (hy : y1 ≠ y2) :
    ∃ r, overlapTests a b (sorted x1 x2).1 (sorted x1 x2).2 (sorted y1 y2).1 (sorted y1 y2).2 = some r ∧
      (r.isSome ↔ Btw y1 y2 x1 ∨ Btw y1 y2 x2 ∨ Btw x1 x2 y1 ∨ Btw x1 x2 y2) ∧
      ∀ i, r = some i → i = vec2ifi a.a.x a.a.y ∨ i = vec2ifi a.b.x a.b.y ∨ i = vec2ifi b.a.x b.a.y ∨
        i = vec2ifi b.b.x b.b.y := by
  obtain ⟨a1, a2, ha⟩ : ∃ a1 a2, sorted x1 x2 = (a1, a2) := ⟨_, _, rfl⟩
  obtain ⟨b1, b2, hb⟩ : ∃ b1 b2, sorted y1 y2 = (b1, b2) := ⟨_, _, rfl⟩
  have ka : (a1 = x1 ∧ a2 = x2 ∧ x1 < x2) ∨ (a1 = x2 ∧ a2 = x1 ∧ x2 < x1) := by
    unfold sorted at ha; split_ifs at ha with c <;> simp only [Prod.mk.injEq] at ha <;> omega
  have kb : (b1 = y1 ∧ b2 = y2 ∧ y1 < y2) ∨ (b1 = y2 ∧ b2 = y1 ∧ y2 < y1) := by
    unfold sorted at hb; split_ifs at hb with c <;> simp only [Prod.mk.injEq] at hb <;> omega
  rw [ha, hb]
  have na : a1 ≠ a2 := by omega
  have nb : b1 ≠ b2 := by omega
  simp only [overlapTests, ass, if_pos na, if_pos nb, Option.bind_eq_bind, Option.bind_some, Option.pure_def]
  unfold Btw
  by_cases c1 : b1 < a1 ∧ a1 < b2
  · rw [if_pos c1]
    refine ⟨_, rfl, ?_, fun i hi => Or.inl (Option.some.inj hi).symm⟩
    simp only [Option.isSome_some, true_iff]; clear hx hy ha hb na nb; omega
  rw [if_neg c1]
  by_cases c2 : b1 < a2 ∧ a2 < b2
  · rw [if_pos c2]
    refine ⟨_, rfl, ?_, fun i hi => Or.inr (Or.inl (Option.some.inj hi).symm)⟩
    simp only [Option.isSome_some, true_iff]; clear hx hy ha hb na nb; omega
  rw [if_neg c2]
  by_cases c3 : a1 < b1 ∧ b1 < a2
  · rw [if_pos c3]
    refine ⟨_, rfl, ?_, fun i hi => Or.inr (Or.inr (Or.inl (Option.some.inj hi).symm))⟩
    simp only [Option.isSome_some, true_iff]; clear hx hy ha hb na nb; omega
  rw [if_neg c3]
  by_cases c4 : a1 < b2 ∧ b2 < a2
  · rw [if_pos c4]
    refine ⟨_, rfl, ?_, fun i hi => Or.inr (Or.inr (Or.inr (Option.some.inj hi).symm))⟩
    simp only [Option.isSome_some, true_iff]; clear hx hy ha hb na nb; omega
  rw [if_neg c4]
  refine ⟨_, rfl, ?_, fun i hi => absurd hi (by simp)⟩
  simp only [Option.isSome_none, Bool.false_eq_true, false_iff]
  rcases ka with ⟨rfl, rfl, h⟩ | ⟨rfl, rfl, h⟩ <;> rcases kb with ⟨rfl, rfl, k⟩ | ⟨rfl, rfl, k⟩ <;>
    rintro ((u | u) | (u | u) | (u | u) | (u | u)) <;>
    first
    | exact c1 u
    | exact c2 u
    | exact c3 u
    | exact c4 u
    | exact lt_asymm k (u.1.trans u.2)
    | exact lt_asymm h (u.1.trans u.2)

theorem side_rat {a o b : Vec2} : side a o b = 0 ↔
    (a.pt.1 - o.pt.1) * (b.pt.2 - o.pt.2) = (a.pt.2 - o.pt.2) * (b.pt.1 - o.pt.1) := by
  unfold side Vec2.pt
  simp only
  constructor
  · intro h
    have : (((a.x - o.x) * (b.y - o.y) - (a.y - o.y) * (b.x - o.x) : Int) : ℚ) = 0 := by rw [h]; simp
    push_cast at this; linarith
  · intro h
    have : (((a.x - o.x) * (b.y - o.y) - (a.y - o.y) * (b.x - o.x) : Int) : ℚ) = 0 := by push_cast; linarith
    exact_mod_cast this

theorem lt_cast {a b : Int} : ((a : ℚ) < b) ↔ a < b := by exact_mod_cast Iff.rfl

theorem btw_cast {x y m : Int} : ((x : ℚ) < m ∧ (m : ℚ) < y ∨ (y : ℚ) < m ∧ (m : ℚ) < x) ↔ Btw x y m := by
  unfold Btw; simp only [lt_cast]

theorem inner_line_x {l : Line} {v : Vec2} (h : l.a.x ≠ l.b.x)
    (hs : (l.b.pt.1 - l.a.pt.1) * (v.pt.2 - l.a.pt.2) = (l.b.pt.2 - l.a.pt.2) * (v.pt.1 - l.a.pt.1)) :
    l.Inner v.pt ↔ Btw l.a.x l.b.x v.x := by
  unfold Line.Inner Line.On
  rw [inner_x (by simp only [Vec2.pt]; exact_mod_cast h) hs]
  exact btw_cast

theorem inner_line_y {l : Line} {v : Vec2} (h : l.a.y ≠ l.b.y)
    (hs : (l.b.pt.1 - l.a.pt.1) * (v.pt.2 - l.a.pt.2) = (l.b.pt.2 - l.a.pt.2) * (v.pt.1 - l.a.pt.1)) :
    l.Inner v.pt ↔ Btw l.a.y l.b.y v.y := by
  unfold Line.Inner Line.On
  rw [inner_y (by simp only [Vec2.pt]; exact_mod_cast h) hs]
  exact btw_cast

theorem on_line {l : Line} {X : Pt} (h : l.On X) :
    (l.b.pt.1 - l.a.pt.1) * (X.2 - l.a.pt.2) = (l.b.pt.2 - l.a.pt.2) * (X.1 - l.a.pt.1) := by
  obtain ⟨s, -, -, hx, hy⟩ := h
  rw [hx, hy]; ring

theorem Line.Ok.ne {l : Line} (h : l.Ok) : l.b.pt.1 - l.a.pt.1 ≠ 0 ∨ l.b.pt.2 - l.a.pt.2 ≠ 0 := by
  by_contra hc
  push Not at hc
  apply h.2.2
  apply pt_inj
  exact Prod.ext (by linarith [hc.1]) (by linarith [hc.2])

/-- for parallel lines: one point in common makes them lie on one line -/
theorem collinear_of {a b : Line} (ha : a.Ok) (hb : b.Ok) (hp : Parallel a.a.pt a.b.pt b.a.pt b.b.pt) {X : Pt}
    (h1 : a.On X) (h2 : b.On X) : side a.b a.a b.b = 0 := by
  rw [side_rat]
  have e1 := on_line h1
  have e2 := on_line h2
  unfold Parallel at hp
  rcases hb.ne with h | h
  · apply mul_left_cancel₀ h
    linear_combination (b.b.pt.1 - b.a.pt.1) * e1 - (a.b.pt.1 - a.a.pt.1) * e2 + (b.b.pt.1 - X.1) * hp
  · apply mul_left_cancel₀ h
    linear_combination (b.b.pt.2 - b.a.pt.2) * e1 - (a.b.pt.2 - a.a.pt.2) * e2 + (b.b.pt.2 - X.2) * hp

theorem parallel_spec {a b : Line} (ha : a.Ok) (hb : b.Ok) (hp : Parallel a.a.pt a.b.pt b.a.pt b.b.pt) :
    ∃ r, parallelCase a b = some r ∧ (r.isSome ↔ PartOverlap a b) ∧
      ∀ i, r = some i → i = vec2ifi a.a.x a.a.y ∨ i = vec2ifi a.b.x a.b.y ∨ i = vec2ifi b.a.x b.a.y ∨
        i = vec2ifi b.b.x b.b.y := by
  unfold parallelCase
  rw [cross3_some ha.2.1 ha.1 hb.2.1]
  simp only [Option.bind_eq_bind, Option.bind_some, Option.pure_def]
  by_cases hc : side a.b a.a b.b = 0
  · rw [if_pos hc]
    have q1 := side_rat.mp hc
    unfold Parallel at hp
    have q2 : (a.b.pt.1 - a.a.pt.1) * (b.a.pt.2 - a.a.pt.2) = (a.b.pt.2 - a.a.pt.2) * (b.a.pt.1 - a.a.pt.1) := by
      linear_combination q1 - hp
    -- the ends of `a` on the line of `b`
    have q3 : (b.b.pt.1 - b.a.pt.1) * (a.a.pt.2 - b.a.pt.2) = (b.b.pt.2 - b.a.pt.2) * (a.a.pt.1 - b.a.pt.1) := by
      rcases ha.ne with h | h
      · apply mul_left_cancel₀ h
        linear_combination (b.a.pt.1 - b.b.pt.1) * q2 - (a.a.pt.1 - b.a.pt.1) * hp
      · apply mul_left_cancel₀ h
        linear_combination (b.a.pt.2 - b.b.pt.2) * q2 - (a.a.pt.2 - b.a.pt.2) * hp
    have q4 : (b.b.pt.1 - b.a.pt.1) * (a.b.pt.2 - b.a.pt.2) = (b.b.pt.2 - b.a.pt.2) * (a.b.pt.1 - b.a.pt.1) := by
      linear_combination q3 - hp
    by_cases hx : a.a.x = a.b.x
    · have hy : a.a.y ≠ a.b.y := by
        intro h; apply ha.2.2
        have : ∀ u w : Vec2, u.x = w.x → u.y = w.y → u = w := by rintro ⟨_, _⟩ ⟨_, _⟩ h1 h2; simp_all
        exact this _ _ hx h
      have hbx : b.b.pt.1 - b.a.pt.1 = 0 := by
        have : a.b.pt.1 - a.a.pt.1 = 0 := by simp only [Vec2.pt, hx]; ring
        rw [this] at hp
        have hne : a.b.pt.2 - a.a.pt.2 ≠ 0 := by
          simp only [Vec2.pt]; intro h
          apply hy
          have : (a.b.y : ℚ) = a.a.y := by linarith
          exact_mod_cast this.symm
        have := mul_eq_zero.mp (show (a.b.pt.2 - a.a.pt.2) * (b.b.pt.1 - b.a.pt.1) = 0 by rw [← hp]; ring)
        exact this.resolve_left hne
      have hby : b.a.y ≠ b.b.y := by
        intro h
        rcases hb.ne with k | k
        · exact k hbx
        · apply k; simp only [Vec2.pt, h]; ring
      rw [if_pos hx]
      obtain ⟨r, h1, h2, h3⟩ := tests_spec a b hy hby
      refine ⟨r, h1, ?_, h3⟩
      rw [h2]
      unfold PartOverlap
      rw [inner_line_y hby q3, inner_line_y hby q4, inner_line_y hy q2, inner_line_y hy q1]
      exact ⟨fun h => ⟨hp, h⟩, fun h => h.2⟩
    · have hbx : b.a.x ≠ b.b.x := by
        intro h
        have h0 : b.b.pt.1 - b.a.pt.1 = 0 := by simp only [Vec2.pt, h]; ring
        have hne : a.b.pt.1 - a.a.pt.1 ≠ 0 := by
          simp only [Vec2.pt]; intro h
          apply hx
          have : (a.b.x : ℚ) = a.a.x := by linarith
          exact_mod_cast this.symm
        rw [h0, mul_zero] at hp
        rcases hb.ne with k | k
        · exact k h0
        · exact (mul_eq_zero.mp hp).elim hne k
      rw [if_neg hx]
      obtain ⟨r, h1, h2, h3⟩ := tests_spec a b hx hbx
      refine ⟨r, h1, ?_, h3⟩
      rw [h2]
      unfold PartOverlap
      rw [inner_line_x hbx q3, inner_line_x hbx q4, inner_line_x hx q2, inner_line_x hx q1]
      exact ⟨fun h => ⟨hp, h⟩, fun h => h.2⟩
  · rw [if_neg hc]
    refine ⟨none, rfl, ?_, by simp⟩
    simp only [Option.isSome_none, Bool.false_eq_true, false_iff]
    rintro ⟨-, h⟩
    apply hc
    rcases h with h | h | h | h
    · exact collinear_of ha hb hp ⟨0, le_refl _, by norm_num, by ring, by ring⟩ h.1
    · exact collinear_of ha hb hp ⟨1, by norm_num, le_refl _, by ring, by ring⟩ h.1
    · exact collinear_of ha hb hp h.1 ⟨0, le_refl _, by norm_num, by ring, by ring⟩
    · exact collinear_of ha hb hp h.1 ⟨1, by norm_num, le_refl _, by ring, by ring⟩

theorem crosses_not_parallel {a b : Line} (ha : a.Ok) (hb : b.Ok) {X : Pt} (h : Crosses a b X) :
    ¬ Parallel a.a.pt a.b.pt b.a.pt b.b.pt := by
  intro hp
  obtain ⟨h1, h2, hu⟩ := h
  -- move from X a bit along `a` towards its ends
  obtain ⟨⟨s, s0, s1, hx, hy⟩, n1, n2⟩ := h1
  obtain ⟨⟨t, t0, t1, kx, ky⟩, m1, m2⟩ := h2
  have hs0 : 0 < s := lt_of_le_of_ne s0 (fun e => n1 (by subst e; exact Prod.ext (by rw [hx]; ring) (by rw [hy]; ring)))
  have hs1 : s < 1 := lt_of_le_of_ne s1 (fun e => n2 (by subst e; exact Prod.ext (by rw [hx]; ring) (by rw [hy]; ring)))
  have ht0 : 0 < t := lt_of_le_of_ne t0 (fun e => m1 (by subst e; exact Prod.ext (by rw [kx]; ring) (by rw [ky]; ring)))
  have ht1 : t < 1 := lt_of_le_of_ne t1 (fun e => m2 (by subst e; exact Prod.ext (by rw [kx]; ring) (by rw [ky]; ring)))
  -- direction of `b` as multiple of that of `a`
  obtain ⟨k, k1, k2⟩ : ∃ k : ℚ, b.b.pt.1 - b.a.pt.1 = k * (a.b.pt.1 - a.a.pt.1) ∧
      b.b.pt.2 - b.a.pt.2 = k * (a.b.pt.2 - a.a.pt.2) := by
    unfold Parallel at hp
    rcases ha.ne with h | h
    · exact ⟨(b.b.pt.1 - b.a.pt.1) / (a.b.pt.1 - a.a.pt.1), by field_simp, by field_simp; linear_combination hp⟩
    · exact ⟨(b.b.pt.2 - b.a.pt.2) / (a.b.pt.2 - a.a.pt.2), by field_simp; linear_combination -hp, by field_simp⟩
  have hk : k ≠ 0 := by
    rintro rfl
    rcases hb.ne with h | h
    · exact h (by rw [k1]; ring)
    · exact h (by rw [k2]; ring)
  -- a small step
  obtain ⟨e, e0, e1, e2, e3⟩ : ∃ e : ℚ, 0 < e ∧ e ≤ 1 - s ∧ t + e / k ≤ 1 ∧ 0 ≤ t + e / k := by
    refine ⟨min (1 - s) (|k| * min t (1 - t)), ?_, min_le_left _ _, ?_, ?_⟩
    · exact lt_min (by linarith) (mul_pos (abs_pos.mpr hk) (lt_min ht0 (by linarith)))
    · have hb' : |min (1 - s) (|k| * min t (1 - t)) / k| ≤ min t (1 - t) := by
        rw [abs_div, div_le_iff₀ (abs_pos.mpr hk), abs_of_pos (lt_min (by linarith) (mul_pos (abs_pos.mpr hk) (lt_min ht0 (by linarith))))]
        rw [mul_comm]; exact min_le_right _ _
      have := (abs_le.mp hb').2
      linarith [min_le_right t (1 - t)]
    · have hb' : |min (1 - s) (|k| * min t (1 - t)) / k| ≤ min t (1 - t) := by
        rw [abs_div, div_le_iff₀ (abs_pos.mpr hk), abs_of_pos (lt_min (by linarith) (mul_pos (abs_pos.mpr hk) (lt_min ht0 (by linarith))))]
        rw [mul_comm]; exact min_le_right _ _
      have := (abs_le.mp hb').1
      linarith [min_le_left t (1 - t)]
  have hY := hu (X.1 + e * (a.b.pt.1 - a.a.pt.1), X.2 + e * (a.b.pt.2 - a.a.pt.2))
    ⟨s + e, by linarith, by linarith, by simp only [hx]; ring, by simp only [hy]; ring⟩
    ⟨t + e / k, e3, e2, by simp only [kx, k1]; field_simp; ring, by simp only [ky, k2]; field_simp; ring⟩
  rcases ha.ne with h | h
  · have := congrArg Prod.fst hY
    simp only at this
    have : e * (a.b.pt.1 - a.a.pt.1) = 0 := by linarith
    exact (mul_eq_zero.mp this).elim (fun k => by linarith) h
  · have := congrArg Prod.snd hY
    simp only at this
    have : e * (a.b.pt.2 - a.a.pt.2) = 0 := by linarith
    exact (mul_eq_zero.mp this).elim (fun k => by linarith) h

theorem pair_spec (debug : Bool) {a b : Line} (ha : a.Ok) (hb : b.Ok) :
    ∃ r, pairCase debug a b = some r ∧ (r.isSome ↔ (∃ X, Crosses a b X) ∨ PartOverlap a b) ∧
      ∀ i, r = some i → Crosses a b i.pt ∨ (PartOverlap a b ∧
        (i = vec2ifi a.a.x a.a.y ∨ i = vec2ifi a.b.x a.b.y ∨ i = vec2ifi b.a.x b.a.y ∨ i = vec2ifi b.b.x b.b.y)) := by
  obtain ⟨code, pt, hres, hcase⟩ := intersect_main debug a.a a.b b.a b.b ha.1 ha.2.1 hb.1 hb.2.1
  unfold pairCase
  rw [hres]
  simp only [Option.bind_eq_bind, Option.bind_some, Option.pure_def]
  rcases hcase with ⟨rfl, rfl, hpar⟩ | ⟨rfl, rfl, hpar, hno⟩ | ⟨hpar, P, rfl, hPv, hX, hcode⟩
  · rw [if_neg (by decide), if_pos rfl]
    obtain ⟨r, h1, h2, h3⟩ := parallel_spec ha hb hpar
    refine ⟨r, h1, ?_, ?_⟩
    · rw [h2]
      constructor
      · exact Or.inr
      · rintro (⟨X, h⟩ | h)
        · exact absurd hpar (crosses_not_parallel ha hb h)
        · exact h
    · intro i hi
      exact Or.inr ⟨h2.mp (by rw [hi]; rfl), h3 i hi⟩
  · rw [if_neg (by decide), if_neg (by decide)]
    refine ⟨none, rfl, ?_, by simp⟩
    simp only [Option.isSome_none, Bool.false_eq_true, false_iff]
    rintro (⟨X, h⟩ | h)
    · exact hno ⟨X, h.1.1, h.2.1.1⟩
    · exact hpar h.1
  · have hPP := (hX P.pt).mpr rfl
    by_cases hc : code = 1
    · rw [if_pos hc]
      have hcr : Crosses a b P.pt := by
        rw [hc] at hcode
        have n1 : ¬ P.pt = a.a.pt := fun e => by rw [if_pos e] at hcode; split_ifs at hcode <;> omega
        have n2 : ¬ P.pt = a.b.pt := fun e => by rw [if_pos e] at hcode; split_ifs at hcode <;> omega
        have n3 : ¬ P.pt = b.a.pt := fun e => by rw [if_pos e] at hcode; split_ifs at hcode <;> omega
        have n4 : ¬ P.pt = b.b.pt := fun e => by rw [if_pos e] at hcode; split_ifs at hcode <;> omega
        exact ⟨⟨hPP.1, n1, n2⟩, ⟨hPP.2, n3, n4⟩, fun Y h1 h2 => (hX Y).mp ⟨h1, h2⟩⟩
      refine ⟨_, rfl, ?_, ?_⟩
      · simp only [Option.isSome_some, true_iff]; exact Or.inl ⟨_, hcr⟩
      · intro i hi; obtain rfl := Option.some.inj hi; exact Or.inl hcr
    · have hc' : ¬ code = -1 := by rw [hcode]; split_ifs <;> omega
      rw [if_neg hc, if_neg hc']
      refine ⟨none, rfl, ?_, by simp⟩
      simp only [Option.isSome_none, Bool.false_eq_true, false_iff]
      rintro (⟨X, h⟩ | h)
      · apply hc
        have : X = P.pt := (hX X).mp ⟨h.1.1, h.2.1.1⟩
        rw [hcode, ← this, if_neg h.1.2.1, if_neg h.1.2.2, if_neg h.2.1.2.1, if_neg h.2.1.2.2]
        norm_num
      · exact hpar h.1

/-- what is found for a pair -/
def Bad (a b : Line) : Prop := (∃ X, Crosses a b X) ∨ PartOverlap a b

def Found (i : Vec2if) (a b : Line) : Prop :=
  Crosses a b i.pt ∨ (PartOverlap a b ∧
    (i = vec2ifi a.a.x a.a.y ∨ i = vec2ifi a.b.x a.b.y ∨ i = vec2ifi b.a.x b.a.y ∨ i = vec2ifi b.b.x b.b.y))

theorem inner_spec (debug : Bool) {a : Line} (ha : a.Ok) (bs : List Line) (hb : ∀ b ∈ bs, b.Ok) :
    ∃ r, inner debug a bs = some r ∧ (r.isSome ↔ ∃ b ∈ bs, Bad a b) ∧
      ∀ i c b, r = some (i, c, b) → c = a ∧ b ∈ bs ∧ Found i a b := by
  induction bs with
  | nil => exact ⟨none, rfl, by simp, by simp⟩
  | cons b bs ih =>
    obtain ⟨r, h1, h2, h3⟩ := pair_spec debug ha (hb b (by simp))
    obtain ⟨r', k1, k2, k3⟩ := ih (fun x hx => hb x (List.mem_cons_of_mem _ hx))
    rw [inner, h1]
    simp only [Option.bind_eq_bind, Option.bind_some, Option.pure_def]
    cases r with
    | some i =>
      refine ⟨_, rfl, ?_, ?_⟩
      · simp only [Option.isSome_some, true_iff]
        exact ⟨b, by simp, h2.mp rfl⟩
      · intro j c b' hj
        simp only [Option.some.injEq, Prod.mk.injEq] at hj
        obtain ⟨rfl, rfl, rfl⟩ := hj
        exact ⟨rfl, by simp, h3 i rfl⟩
    | none =>
      refine ⟨r', k1, ?_, ?_⟩
      · rw [k2]
        constructor
        · rintro ⟨x, hx, h⟩; exact ⟨x, List.mem_cons_of_mem _ hx, h⟩
        · rintro ⟨x, hx, h⟩
          rcases List.mem_cons.mp hx with rfl | hx
          · exact absurd (h2.mpr h) (by simp)
          · exact ⟨x, hx, h⟩
      · intro j c b' hj
        obtain ⟨q1, q2, q3⟩ := k3 j c b' hj
        exact ⟨q1, List.mem_cons_of_mem _ q2, q3⟩

theorem outer_spec (debug : Bool) (gon : List Line) (hg : ∀ b ∈ gon, b.Ok) (as : List Line) (ha : ∀ a ∈ as, a.Ok) :
    ∃ r, outer debug gon as = some r ∧ (r.isSome ↔ ∃ a ∈ as, ∃ b ∈ gon, Bad a b) ∧
      ∀ i a b, r = some (i, a, b) → a ∈ as ∧ b ∈ gon ∧ Found i a b := by
  induction as with
  | nil => exact ⟨none, rfl, by simp, by simp⟩
  | cons a as ih =>
    obtain ⟨r, h1, h2, h3⟩ := inner_spec debug (ha a (by simp)) gon hg
    obtain ⟨r', k1, k2, k3⟩ := ih (fun x hx => ha x (List.mem_cons_of_mem _ hx))
    rw [outer, h1]
    simp only [Option.bind_eq_bind, Option.bind_some, Option.pure_def]
    cases r with
    | some q =>
      refine ⟨_, rfl, ?_, ?_⟩
      · simp only [Option.isSome_some, true_iff]
        obtain ⟨b, hb, h⟩ := h2.mp rfl
        exact ⟨a, by simp, b, hb, h⟩
      · intro i c b hj
        obtain ⟨rfl, q2, q3⟩ := h3 i c b hj
        exact ⟨by simp, q2, q3⟩
    | none =>
      refine ⟨r', k1, ?_, ?_⟩
      · rw [k2]
        constructor
        · rintro ⟨x, hx, h⟩; exact ⟨x, List.mem_cons_of_mem _ hx, h⟩
        · rintro ⟨x, hx, h⟩
          rcases List.mem_cons.mp hx with rfl | hx
          · exact absurd (h2.mpr h) (by simp)
          · exact ⟨x, hx, h⟩
      · intro i c b hj
        obtain ⟨q1, q2, q3⟩ := k3 i c b hj
        exact ⟨List.mem_cons_of_mem _ q1, q2, q3⟩

end Hob3l.Isect
