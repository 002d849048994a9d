import Verif.Sweep.ReduceSpec
import Verif.Sweep.LemmasTree
import Verif.Sweep.LemmasReduce

/-
Geometry for the reduction: the order of edges of a planar set along a scan line.
-/

namespace Hob3l.Sweep

open Hob3l.Matq

def PlanarPair (e f : Edge) : Prop := ∀ X, e.On X → f.On X → e.End X ∧ f.End X

theorem PlanarPair.symm {e f : Edge} (h : PlanarPair e f) : PlanarPair f e := fun X h1 h2 => (h X h2 h1).symm

/-- somewhere `e` is directly below `f` -/
def Low (e f : Edge) : Prop := ∃ x y y' : ℚ, e.On (x, y) ∧ f.On (x, y') ∧ y < y'

theorem vec2_pt_inj {a b : Vec2} (h : a.pt = b.pt) : a = b := by
  have h1 := congrArg Prod.fst h
  have h2 := congrArg Prod.snd h
  simp only [Vec2.pt] at h1 h2
  have h1' : a.x = b.x := by exact_mod_cast h1
  have h2' : a.y = b.y := by exact_mod_cast h2
  exact vec2_ext h1' h2'

theorem pt_ext {X Y : Pt} (h1 : X.1 = Y.1) (h2 : X.2 = Y.2) : X = Y := Prod.ext h1 h2

/-- a point strictly between two different points of an edge is no end of it -/
theorem between_not_end {e : Edge} (hne : e.left ≠ e.rigt) {P Q X : Pt} (hP : e.On P) (hQ : e.On Q) (hPQ : P ≠ Q) (t : ℚ)
    (h0 : 0 < t) (h1 : t < 1) (hx : X.1 = (1 - t) * P.1 + t * Q.1) (hy : X.2 = (1 - t) * P.2 + t * Q.2) :
    ¬ e.End X := by
  obtain ⟨s, s0, s1, sx, sy⟩ := hP
  obtain ⟨u, u0, u1, ux, uy⟩ := hQ
  have hsu : s ≠ u := by
    rintro rfl
    exact hPQ (pt_ext (by rw [sx, ux]) (by rw [sy, uy]))
  have hX1 : X.1 = e.left.pt.1 + ((1 - t) * s + t * u) * (e.rigt.pt.1 - e.left.pt.1) := by rw [hx, sx, ux]; ring
  have hX2 : X.2 = e.left.pt.2 + ((1 - t) * s + t * u) * (e.rigt.pt.2 - e.left.pt.2) := by rw [hy, sy, uy]; ring
  have hd : e.rigt.pt.1 - e.left.pt.1 ≠ 0 ∨ e.rigt.pt.2 - e.left.pt.2 ≠ 0 := by
    by_contra hc
    push Not at hc
    exact hne (vec2_pt_inj (pt_ext (by linarith [hc.1]) (by linarith [hc.2])))
  have hw0 : 0 < (1 - t) * s + t * u := by
    rcases lt_or_eq_of_le s0 with h | h
    · have := mul_pos (sub_pos.mpr h1) h
      have := mul_nonneg h0.le u0
      linarith
    · have : 0 < u := lt_of_le_of_ne u0 (fun hu => hsu (by rw [← h, ← hu]))
      have := mul_pos h0 this
      rw [← h]; linarith
  have hw1 : (1 - t) * s + t * u < 1 := by
    rcases lt_or_eq_of_le s1 with h | h
    · have := mul_pos (sub_pos.mpr h1) (sub_pos.mpr h)
      have := mul_nonneg h0.le (sub_nonneg.mpr u1)
      nlinarith
    · have hu : u < 1 := lt_of_le_of_ne u1 (fun hu => hsu (by rw [h, hu]))
      have := mul_pos h0 (sub_pos.mpr hu)
      rw [h]; nlinarith
  generalize (1 - t) * s + t * u = w at *
  rintro (h | h)
  · have e1 : w * (e.rigt.pt.1 - e.left.pt.1) = 0 := by rw [h] at hX1; linarith
    have e2 : w * (e.rigt.pt.2 - e.left.pt.2) = 0 := by rw [h] at hX2; linarith
    rcases hd with hd | hd
    · exact (mul_ne_zero hw0.ne' hd) e1
    · exact (mul_ne_zero hw0.ne' hd) e2
  · have e1 : (1 - w) * (e.rigt.pt.1 - e.left.pt.1) = 0 := by rw [h] at hX1; linarith
    have e2 : (1 - w) * (e.rigt.pt.2 - e.left.pt.2) = 0 := by rw [h] at hX2; linarith
    rcases hd with hd | hd
    · exact (mul_ne_zero (sub_pos.mpr hw1).ne' hd) e1
    · exact (mul_ne_zero (sub_pos.mpr hw1).ne' hd) e2

theorem on_convex {e : Edge} {P Q X : Pt} (hP : e.On P) (hQ : e.On Q) (t : ℚ) (h0 : 0 ≤ t) (h1 : t ≤ 1)
    (hx : X.1 = (1 - t) * P.1 + t * Q.1) (hy : X.2 = (1 - t) * P.2 + t * Q.2) : e.On X := by
  obtain ⟨s, s0, s1, sx, sy⟩ := hP
  obtain ⟨u, u0, u1, ux, uy⟩ := hQ
  refine ⟨(1 - t) * s + t * u, ?_, ?_, by rw [hx, sx, ux]; ring, by rw [hy, sy, uy]; ring⟩
  · have := mul_nonneg (sub_nonneg.mpr h1) s0
    have := mul_nonneg h0 u0
    linarith
  · have := mul_nonneg (sub_nonneg.mpr h1) (sub_nonneg.mpr s1)
    have := mul_nonneg h0 (sub_nonneg.mpr u1)
    nlinarith

/-- two edges of a planar set cannot be below each other -/
theorem Low.asymm {e f : Edge} (he : e.left ≠ e.rigt) (hf : f.left ≠ f.rigt) (hp : PlanarPair e f) (h : Low e f) :
    ¬ Low f e := by
  rintro ⟨x2, y2, y2', f2, e2, l2⟩
  obtain ⟨x1, y1, y1', e1, f1, l1⟩ := h
  have ha : 0 < y1' - y1 := by linarith
  have hb : 0 < y2' - y2 := by linarith
  have hab : 0 < (y1' - y1) + (y2' - y2) := by linarith
  obtain ⟨t, ht⟩ : ∃ t, t = (y1' - y1) / ((y1' - y1) + (y2' - y2)) := ⟨_, rfl⟩
  have h0 : 0 < t := by rw [ht]; exact div_pos ha hab
  have h1 : t < 1 := by rw [ht, div_lt_one hab]; linarith
  have hz : (1 - t) * (y1' - y1) = t * (y2' - y2) := by rw [ht]; field_simp; ring
  have hX : (1 - t) * y1 + t * y2' = (1 - t) * y1' + t * y2 := by linarith
  have one : e.On ((1 - t) * x1 + t * x2, (1 - t) * y1 + t * y2') := on_convex e1 e2 t h0.le h1.le rfl rfl
  have two : f.On ((1 - t) * x1 + t * x2, (1 - t) * y1 + t * y2') := on_convex f1 f2 t h0.le h1.le rfl hX
  obtain ⟨ee, fe⟩ := hp _ one two
  by_cases hPQ : (x1, y1) = (x2, y2')
  · have hx : x1 = x2 := congrArg Prod.fst hPQ
    have hy : y1 = y2' := congrArg Prod.snd hPQ
    refine between_not_end hf f1 f2 ?_ t h0 h1 rfl hX fe
    intro h
    have : y1' = y2 := congrArg Prod.snd h
    linarith
  · exact between_not_end he e1 e2 hPQ t h0 h1 rfl rfl ee

/-- `e` has a point directly below `X` -/
def Blw (e : Edge) (X : Pt) : Prop := ∃ y, e.On (X.1, y) ∧ y < X.2
/-- `e` has a point directly above `X` -/
def Abv (e : Edge) (X : Pt) : Prop := ∃ y, e.On (X.1, y) ∧ X.2 < y

theorem Blw.low {e f : Edge} {X : Pt} (h1 : Blw e X) (h2 : f.On X ∨ Abv f X) : Low e f := by
  obtain ⟨y, o, l⟩ := h1
  rcases h2 with h2 | ⟨y', o', l'⟩
  · exact ⟨X.1, y, X.2, o, h2, l⟩
  · exact ⟨X.1, y, y', o, o', by linarith⟩

theorem Abv.low {e f : Edge} {X : Pt} (h1 : Abv f X) (h2 : e.On X ∨ Blw e X) : Low e f := by
  obtain ⟨y, o, l⟩ := h1
  rcases h2 with h2 | ⟨y', o', l'⟩
  · exact ⟨X.1, X.2, y, h2, o, l⟩
  · exact ⟨X.1, y', y, o', o, by linarith⟩

theorem on_left (e : Edge) : e.On e.left.pt := ⟨0, le_refl _, zero_le_one, by ring, by ring⟩
theorem on_rigt (e : Edge) : e.On e.rigt.pt := ⟨1, zero_le_one, le_refl _, by ring, by ring⟩

/-- an edge has a point over each position between its ends -/
theorem point_over {e : Edge} (x : ℚ) (h1 : (e.left.x : ℚ) ≤ x) (h2 : x ≤ e.rigt.x) : ∃ y, e.On (x, y) := by
  by_cases h : (e.left.x : ℚ) = e.rigt.x
  · have : x = e.left.x := by linarith
    exact ⟨e.left.y, by rw [this]; exact on_left e⟩
  · have hd : (0 : ℚ) < e.rigt.x - e.left.x := by
      have : (e.left.x : ℚ) ≤ e.rigt.x := by linarith
      exact sub_pos.mpr (lt_of_le_of_ne this h)
    refine ⟨e.left.y + (x - e.left.x) / (e.rigt.x - e.left.x) * (e.rigt.y - e.left.y), (x - e.left.x) / (e.rigt.x - e.left.x),
      ?_, ?_, ?_, rfl⟩
    · exact div_nonneg (by linarith) hd.le
    · rw [div_le_one hd]; linarith
    · simp only [Vec2.pt]
      field_simp
      ring

/-- sign of the cross product: on which side of the edge the point is -/
theorem side_over {e : Edge} {q : Vec2} {y : ℚ} (h : e.On (q.x, y)) :
    ((side q e.rigt e.left : Int) : ℚ) = (q.y - y) * (e.rigt.x - e.left.x) := by
  obtain ⟨s, s0, s1, sx, sy⟩ := h
  simp only [Vec2.pt] at sx sy
  unfold side
  push_cast
  have h1 : (q.x : ℚ) - e.rigt.x = (1 - s) * (e.left.x - e.rigt.x) := by rw [sx]; ring
  rw [h1, sy]
  ring

/-- a point strictly between the ends in the sweep order that is not on the edge: the edge is not vertical, and is either
below or above the point -/
theorem aside {e : Edge} {q : Vec2} (h1 : LexLt e.left q) (h2 : LexLt q e.rigt) (h3 : ¬ e.On q.pt) :
    e.left.x < e.rigt.x ∧ ((Blw e q.pt ∧ 0 < side q e.rigt e.left) ∨ (Abv e q.pt ∧ side q e.rigt e.left < 0)) := by
  have hx : e.left.x ≤ q.x ∧ q.x ≤ e.rigt.x := by unfold LexLt at *; omega
  have hnv : e.left.x < e.rigt.x := by
    by_contra hc
    have e1 : e.left.x = q.x := by omega
    have e2 : e.rigt.x = q.x := by omega
    have y1 : e.left.y < q.y := by unfold LexLt at h1; omega
    have y2 : q.y < e.rigt.y := by unfold LexLt at h2; omega
    apply h3
    have d1 : (0 : ℚ) < (q.y : ℚ) - e.left.y := by
      have : (e.left.y : ℚ) < q.y := by exact_mod_cast y1
      linarith
    have d2 : (0 : ℚ) < (e.rigt.y : ℚ) - e.left.y := by
      have : (q.y : ℚ) < e.rigt.y := by exact_mod_cast y2
      linarith
    refine ⟨((q.y : ℚ) - e.left.y) / (e.rigt.y - e.left.y), (div_pos d1 d2).le, ?_, ?_, ?_⟩
    · rw [div_le_one d2]
      have : (q.y : ℚ) < e.rigt.y := by exact_mod_cast y2
      linarith
    · simp only [Vec2.pt]; rw [e1, e2]; ring
    · simp only [Vec2.pt]; field_simp; ring
  refine ⟨hnv, ?_⟩
  have hd : (0 : ℚ) < (e.rigt.x : ℚ) - e.left.x := by
    have : (e.left.x : ℚ) < e.rigt.x := by exact_mod_cast hnv
    linarith
  obtain ⟨y, hy⟩ := point_over (e := e) (q.x : ℚ) (by exact_mod_cast hx.1) (by exact_mod_cast hx.2)
  have hs := side_over hy
  have hne : y ≠ q.y := by rintro rfl; exact h3 hy
  rcases lt_or_gt_of_ne hne with h | h
  · left
    refine ⟨⟨y, hy, h⟩, ?_⟩
    have : (0 : ℚ) < (side q e.rigt e.left : Int) := by rw [hs]; exact mul_pos (by linarith) hd
    exact_mod_cast this
  · right
    refine ⟨⟨y, hy, h⟩, ?_⟩
    have : ((side q e.rigt e.left : Int) : ℚ) < 0 := by rw [hs]; exact mul_neg_of_neg_of_pos (by linarith) hd
    exact_mod_cast this

/-- two edges from the same point: the one that comes first in the result order is below -/
theorem fan_low {e f : Edge} (h : e.left = f.left) (he : LexLt e.left e.rigt) (hf : LexLt f.left f.rigt)
    (hs : side f.rigt e.left e.rigt < 0) : Low e f := by
  obtain ⟨q, hq⟩ : ∃ q, q = e.left := ⟨_, rfl⟩
  rw [← hq] at he hs h
  rw [← h] at hf
  have hs' : (((f.rigt.x : ℚ) - q.x) * (e.rigt.y - q.y) < (f.rigt.y - q.y) * (e.rigt.x - q.x)) := by
    have : ((side f.rigt q e.rigt : Int) : ℚ) < 0 := by exact_mod_cast hs
    unfold side at this
    push_cast at this
    linarith
  have oe : e.On q.pt := by rw [hq]; exact on_left e
  rcases hf with hf | ⟨hf, hf'⟩
  · rcases he with he | ⟨he, he'⟩
    · have d1 : (0 : ℚ) < f.rigt.x - q.x := by
        have : (q.x : ℚ) < f.rigt.x := by exact_mod_cast hf
        linarith
      have d2 : (0 : ℚ) < e.rigt.x - q.x := by
        have : (q.x : ℚ) < e.rigt.x := by exact_mod_cast he
        linarith
      obtain ⟨m, m0, m1, m2⟩ : ∃ m : ℚ, 0 < m ∧ m ≤ f.rigt.x - q.x ∧ m ≤ e.rigt.x - q.x :=
        ⟨min _ _, lt_min d1 d2, min_le_left _ _, min_le_right _ _⟩
      refine ⟨q.x + m, q.y + m / (e.rigt.x - q.x) * (e.rigt.y - q.y), q.y + m / (f.rigt.x - q.x) * (f.rigt.y - q.y),
        ⟨m / (e.rigt.x - q.x), (div_pos m0 d2).le, (div_le_one d2).mpr m2, ?_, ?_⟩,
        ⟨m / (f.rigt.x - q.x), (div_pos m0 d1).le, (div_le_one d1).mpr m1, ?_, ?_⟩, ?_⟩
      · simp only [Vec2.pt]; rw [← hq]; field_simp
      · simp only [Vec2.pt]; rw [← hq]
      · simp only [Vec2.pt]; rw [← h]; field_simp
      · simp only [Vec2.pt]; rw [← h]
      · have : (e.rigt.y - q.y) / (e.rigt.x - q.x) < ((f.rigt.y : ℚ) - q.y) / (f.rigt.x - q.x) := by
          rw [div_lt_div_iff₀ d2 d1]; linarith
        have := mul_lt_mul_of_pos_left this m0
        have e1 : m * (((e.rigt.y : ℚ) - q.y) / (e.rigt.x - q.x)) = m / (e.rigt.x - q.x) * (e.rigt.y - q.y) := by ring
        have e2 : m * (((f.rigt.y : ℚ) - q.y) / (f.rigt.x - q.x)) = m / (f.rigt.x - q.x) * (f.rigt.y - q.y) := by ring
        rw [e1, e2] at this
        linarith
    · exfalso
      have d1 : (0 : ℚ) < f.rigt.x - q.x := by
        have : (q.x : ℚ) < f.rigt.x := by exact_mod_cast hf
        linarith
      have d2 : (0 : ℚ) < e.rigt.y - q.y := by
        have : (q.y : ℚ) < e.rigt.y := by exact_mod_cast he'
        linarith
      have := mul_pos d1 d2
      have hz : (e.rigt.x : ℚ) - q.x = 0 := by rw [he]; ring
      rw [hz, mul_zero] at hs'
      linarith
  · refine ⟨q.x, q.y, f.rigt.y, oe, ?_, by exact_mod_cast hf'⟩
    rw [hf]
    exact on_rigt f

end Hob3l.Sweep
