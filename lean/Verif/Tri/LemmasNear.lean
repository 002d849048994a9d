import Verif.Tri.LemmasCover
import Mathlib.Order.Interval.Set.Infinite

/-!
Points close to a point.
-/

namespace Hob3l.Tri

open Hob3l.Poly (P Vtx Err ass Ins Small Lt Le Started Ended Below sg Proper Arranged IsSearch Crosses heightAt numBelow degree)

/-- strict sides are kept close to a point -/
theorem near_cross (p : ℚ × ℚ) : ∀ K : List (P × P), (∀ k ∈ K, crossQ k.1 k.2 p < 0) →
    ∃ d : ℚ, 0 < d ∧ ∀ q : ℚ × ℚ, p.1 ≤ q.1 → q.1 < p.1 + d → p.2 ≤ q.2 → q.2 < p.2 + d → ∀ k ∈ K, crossQ k.1 k.2 q < 0
  | [], _ => ⟨1, by norm_num, by simp⟩
  | k :: K, h => by
    obtain ⟨d, hd, hK⟩ := near_cross p K (fun k hk => h k (by simp [hk]))
    have hk := h k (by simp)
    obtain ⟨m, hm⟩ : ∃ m : ℚ, m = |(k.2.1 : ℚ) - k.1.1| + |(k.2.2 : ℚ) - k.1.2| + 1 := ⟨_, rfl⟩
    have a1 := abs_nonneg ((k.2.1 : ℚ) - k.1.1)
    have a2 := abs_nonneg ((k.2.2 : ℚ) - k.1.2)
    have hm0 : 0 < m := by linarith
    refine ⟨min d (-crossQ k.1 k.2 p / m), lt_min hd (div_pos (by linarith) hm0), ?_⟩
    intro q q1 q2 q3 q4 k' hk'
    rcases List.mem_cons.1 hk' with rfl | hk'
    · have b1 : q.1 - p.1 < -crossQ k'.1 k'.2 p / m := by
        have := min_le_right d (-crossQ k'.1 k'.2 p / m); linarith
      have b2 : q.2 - p.2 < -crossQ k'.1 k'.2 p / m := by
        have := min_le_right d (-crossQ k'.1 k'.2 p / m); linarith
      obtain ⟨c, hc⟩ : ∃ c, c = -crossQ k'.1 k'.2 p / m := ⟨_, rfl⟩
      rw [← hc] at b1 b2
      have hcm : c * m = -crossQ k'.1 k'.2 p := by rw [hc, div_mul_cancel₀ _ hm0.ne']
      have e1 : crossQ k'.1 k'.2 q = crossQ k'.1 k'.2 p + ((k'.2.1 : ℚ) - k'.1.1) * (q.2 - p.2) - ((k'.2.2 : ℚ) - k'.1.2) * (q.1 - p.1) := by
        unfold crossQ; ring
      have c1 : ((k'.2.1 : ℚ) - k'.1.1) * (q.2 - p.2) ≤ |(k'.2.1 : ℚ) - k'.1.1| * c :=
        (mul_le_mul_of_nonneg_right (le_abs_self _) (by linarith)).trans (mul_le_mul_of_nonneg_left b2.le a1)
      have c2 : -(((k'.2.2 : ℚ) - k'.1.2) * (q.1 - p.1)) ≤ |(k'.2.2 : ℚ) - k'.1.2| * c := by
        rw [← neg_mul]
        exact (mul_le_mul_of_nonneg_right (neg_le_abs _) (by linarith)).trans (mul_le_mul_of_nonneg_left b1.le a2)
      have hc0 : 0 < c := by linarith
      rw [hm] at hcm
      rw [e1]
      nlinarith
    · exact hK q q1 (lt_of_lt_of_le q2 (by have := min_le_left d (-crossQ k.1 k.2 p / m); linarith)) q3
        (lt_of_lt_of_le q4 (by have := min_le_left d (-crossQ k.1 k.2 p / m); linarith)) k' hk'

/-- there are numbers just above a number that are not in a list -/
theorem near_avoid (x d : ℚ) (hd : 0 < d) (L : List ℚ) : ∃ y, x < y ∧ y < x + d ∧ y ∉ L := by
  obtain ⟨y, hy, hn⟩ := (Set.Ioo_infinite (show x < x + d by linarith)).exists_notMem_finset L.toFinset
  exact ⟨y, hy.1, hy.2, by simpa using hn⟩

/-- the height of a line -/
def lineY (a b : P) (x : ℚ) : ℚ := a.2 + (x - a.1) * ((b.2 - a.2) / (b.1 - a.1))

theorem not_onSeg {a b : P} {p : ℚ × ℚ} (ha : (a.1 : ℚ) ≠ p.1) (h : p.2 ≠ lineY a b p.1) : ¬ OnSeg a b p := by
  rintro ⟨s, -, -, rfl⟩
  unfold Poly.pointAt at ha h
  simp only at ha h
  have hne : (b.1 : ℚ) - a.1 ≠ 0 := by
    intro hc; apply ha; rw [hc]; ring
  apply h
  unfold lineY
  field_simp
  ring

/-- the lines of the sides of triangles -/
def sideYs (pts : List P) (T : List Tri) (x : ℚ) : List ℚ :=
  T.flatMap fun t => [lineY (at' pts t.p0) (at' pts t.p1) x, lineY (at' pts t.p1) (at' pts t.p2) x, lineY (at' pts t.p2) (at' pts t.p0) x]

theorem at_mem {pts : List P} {i : Nat} (hi : i < pts.length) : at' pts i ∈ pts := by
  unfold at'
  rw [List.getElem?_eq_getElem hi]
  exact List.getElem_mem hi

theorem not_onSide {pts : List P} {T : List Tri} {p : ℚ × ℚ} (hx : ∀ q ∈ pts, (q.1 : ℚ) ≠ p.1) (hy : p.2 ∉ sideYs pts T p.1) {t : Tri}
    (ht : t ∈ T) (hok : TriOk pts t) : ¬ OnSide pts t p := by
  obtain ⟨h0, h1, h2, -⟩ := hok
  have hy' : ∀ y ∈ [lineY (at' pts t.p0) (at' pts t.p1) p.1, lineY (at' pts t.p1) (at' pts t.p2) p.1, lineY (at' pts t.p2) (at' pts t.p0) p.1],
      p.2 ≠ y := by
    rintro y hm rfl
    exact hy (List.mem_flatMap.2 ⟨t, ht, hm⟩)
  unfold OnSide
  rw [not_or, not_or]
  exact ⟨not_onSeg (hx _ (at_mem h0)) (hy' _ (by simp)), not_onSeg (hx _ (at_mem h1)) (hy' _ (by simp)),
    not_onSeg (hx _ (at_mem h2)) (hy' _ (by simp))⟩

/-- the sides of a triangle -/
def triK (pts : List P) (t : Tri) : List (P × P) :=
  [(at' pts t.p1, at' pts t.p2), (at' pts t.p2, at' pts t.p0), (at' pts t.p0, at' pts t.p1)]

theorem inside_iff {pts : List P} {t : Tri} {p : ℚ × ℚ} (h : TriOk pts t) : Inside pts t p ↔ ∀ k ∈ triK pts t, crossQ k.1 k.2 p < 0 := by
  unfold Inside triK
  rw [inTri_iff h.2.2.2]
  simp

/-- a vertical shift that does not pass an edge -/
theorem near_below {ed : Nat → Bool → P} {x y : ℚ} : ∀ {l : List Vtx}, (∀ v ∈ l, Crosses ed x v.edge → heightAt ed v.edge x ≠ y) →
    ∃ d : ℚ, 0 < d ∧ ∀ y', y < y' → y' < y + d → numBelow ed l x y' = numBelow ed l x y
  | [], _ => ⟨1, by norm_num, fun _ _ _ => rfl⟩
  | v :: l, h => by
    obtain ⟨d, hd, hl⟩ := near_below (l := l) (fun w hw => h w (by simp [hw]))
    by_cases hc : Crosses ed x v.edge ∧ y < heightAt ed v.edge x
    · refine ⟨min d (heightAt ed v.edge x - y), lt_min hd (by linarith [hc.2]), ?_⟩
      intro y' h1 h2
      have h3 := min_le_left d (heightAt ed v.edge x - y)
      have h4 := min_le_right d (heightAt ed v.edge x - y)
      have := hl y' h1 (by linarith)
      unfold numBelow at this ⊢
      rw [List.filter_cons, List.filter_cons, if_neg (by simp; intro _ _ _; linarith), if_neg (by simp; intro _ _ _; linarith)]
      exact this
    · refine ⟨d, hd, ?_⟩
      intro y' h1 h2
      have := hl y' h1 h2
      have hiff : (v.rigt = false ∧ Crosses ed x v.edge ∧ heightAt ed v.edge x < y') ↔
          (v.rigt = false ∧ Crosses ed x v.edge ∧ heightAt ed v.edge x < y) := by
        constructor
        · rintro ⟨q1, q2, q3⟩
          refine ⟨q1, q2, ?_⟩
          have hn := h v (by simp) q2
          rcases lt_or_gt_of_ne hn with h5 | h5
          · exact h5
          · exact absurd ⟨q2, h5⟩ hc
        · rintro ⟨q1, q2, q3⟩
          exact ⟨q1, q2, by linarith⟩
      unfold numBelow at this ⊢
      rw [List.filter_cons, List.filter_cons]
      by_cases h6 : v.rigt = false ∧ Crosses ed x v.edge ∧ heightAt ed v.edge x < y
      · rw [if_pos (by rw [decide_eq_true_eq]; exact hiff.2 h6), if_pos (by rw [decide_eq_true_eq]; exact h6), List.length_cons,
          List.length_cons, this]
      · rw [if_neg (by rw [decide_eq_true_eq, hiff]; exact h6), if_neg (by rw [decide_eq_true_eq]; exact h6), this]

end Hob3l.Tri
