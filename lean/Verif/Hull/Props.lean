import Verif.Hull.Lemmas
import Mathlib.Tactic.NormNum

/-!
Properties of the convex hull.
-/

namespace Hob3l.Hull

/-- C53 (for points that the epsilons tell apart): for three or more points there is a result, and every result, no matter how the
C library orders points that compare equal, consists of input points, contains all input points in its convex hull, and is a strictly
convex polygon with clockwise vertices unless all points are on one line, in which case two points are left.  No assertion fails.
Missing: points with coordinates, squared distances, or areas that differ by less than the epsilon, see `C53_wrong`. -/
theorem C53_hull_partial (e : Eps) (l : List V) (hs : Separated e l) (h3 : 3 ≤ l.length) :
    (∃ out, Hull e l out) ∧
    ∀ out, Hull e l out → ∃ o, out = some o ∧ (∀ v ∈ o, v ∈ l) ∧ Covers o l ∧
      (Collinear l → o.length = 2) ∧ (¬ Collinear l → ConvexCW o) := by
  have hne : l ≠ [] := by intro h; rw [h] at h3; simp at h3
  obtain ⟨hu, hge⟩ := first_spec hs (fun v hv => hv) hne
  simp only [Hull, if_neg (show ¬ l.length ≤ 2 by omega)]
  constructor
  · obtain ⟨l', h1, h2⟩ := exists_sorted l hge
    exact ⟨_, l', (qsort_iff hs hu (fun v hv => hv)).2 ⟨h1, h2⟩, rfl⟩
  · rintro out ⟨l', hq, rfl⟩
    rw [qsort_iff hs hu (fun v hv => hv)] at hq
    obtain ⟨hp, hL⟩ := hq
    have hmem : ∀ v, v ∈ l' ↔ v ∈ l := fun v => hp.mem_iff.symm
    have hlen := hp.length_eq
    cases l' with
    | nil => rw [hlen] at h3; simp at h3
    | cons x rest =>
      have hx : x = first e l := by
        rcases List.mem_cons.1 ((hmem _).2 hu) with h | h
        · exact h.symm
        · exact L_to_u ((List.pairwise_cons.1 hL).1 _ h)
      rw [← hx] at hL hge
      have hr : rest ≠ [] := by intro h; rw [h] at hlen; simp at hlen; omega
      obtain ⟨g1, g2, g3, g4⟩ := sorted_hull (fun v hv => hge v ((hmem v).1 hv)) hL hr
      have hcol : Collinear (x :: rest) ↔ Collinear l := by
        unfold Collinear
        constructor
        · intro h p hp q hq r hr
          exact h p ((hmem p).2 hp) q ((hmem q).2 hq) r ((hmem r).2 hr)
        · intro h p hp q hq r hr
          exact h p ((hmem p).1 hp) q ((hmem q).1 hq) r ((hmem r).1 hr)
      refine ⟨_, scan_stack hs (fun v hv => (hmem v).1 hv), fun v hv => (hmem v).1 (g1 v hv), ?_, ?_, ?_⟩
      · intro a b c h p hp
        exact g2 a b c h p ((hmem p).2 hp)
      · rw [← hcol]; exact g3
      · rw [← hcol]; exact g4

/-- a multiple of `h` that is not zero is at least `h` -/
theorem mult_ge {h a : ℚ} (h0 : 0 < h) (hm : ∃ m : ℤ, a = m * h) (ha : a ≠ 0) : h ≤ |a| := by
  obtain ⟨m, rfl⟩ := hm
  rw [abs_mul, abs_of_pos h0]
  have hm0 : m ≠ 0 := by rintro rfl; simp at ha
  have h1 : (1 : ℚ) ≤ |(m : ℚ)| := by exact_mod_cast Int.one_le_abs hm0
  nlinarith

/-- points on a grid that is coarse enough are told apart by the epsilons -/
theorem separated_of_grid (e : Eps) (g : ℚ) (g0 : 0 < g) (e0 : 0 < e.eq) (s0 : 0 < e.sqr) (h1 : e.eq ≤ g) (h2 : e.eq ≤ g * g)
    (h3 : e.sqr ≤ g * g) (l : List V) (hl : ∀ v ∈ l, OnGrid g v) : Separated e l := by
  refine ⟨e0, s0, fun a ha b hb => ⟨fun h => ?_, fun h => ?_⟩, fun u hu a ha b hb h => ?_, fun a ha b hb c hc h => ?_⟩
  · obtain ⟨⟨m, hm⟩, -⟩ := hl a ha
    obtain ⟨⟨n, hn⟩, -⟩ := hl b hb
    exact h1.trans (mult_ge g0 ⟨m - n, by rw [hm, hn]; push_cast; ring⟩ (sub_ne_zero.2 h))
  · obtain ⟨-, ⟨m, hm⟩⟩ := hl a ha
    obtain ⟨-, ⟨n, hn⟩⟩ := hl b hb
    exact h1.trans (mult_ge g0 ⟨m - n, by rw [hm, hn]; push_cast; ring⟩ (sub_ne_zero.2 h))
  · obtain ⟨⟨m1, e1⟩, ⟨n1, f1⟩⟩ := hl u hu
    obtain ⟨⟨m2, e2⟩, ⟨n2, f2⟩⟩ := hl a ha
    obtain ⟨⟨m3, e3⟩, ⟨n3, f3⟩⟩ := hl b hb
    exact h2.trans (mult_ge (mul_pos g0 g0)
      ⟨(m1 - m2) * (m1 - m2) + (n1 - n2) * (n1 - n2) - ((m1 - m3) * (m1 - m3) + (n1 - n3) * (n1 - n3)),
        by simp only [sqrDist, e1, e2, e3, f1, f2, f3]; push_cast; ring⟩ (sub_ne_zero.2 h))
  · obtain ⟨⟨m1, e1⟩, ⟨n1, f1⟩⟩ := hl a ha
    obtain ⟨⟨m2, e2⟩, ⟨n2, f2⟩⟩ := hl b hb
    obtain ⟨⟨m3, e3⟩, ⟨n3, f3⟩⟩ := hl c hc
    exact h3.trans (mult_ge (mul_pos g0 g0)
      ⟨(m1 - m2) * (n3 - n2) - (n1 - n2) * (m3 - m2),
        by simp only [turn, e1, e2, e3, f1, f2, f3]; push_cast; ring⟩ h)

/-- C53 (for the default epsilons): if all coordinates are multiples of 1/128 (mm), the result is the convex hull. -/
theorem C53_grid_partial (l : List V) (hl : ∀ v ∈ l, OnGrid (1 / 128) v) (h3 : 3 ≤ l.length) (hc : ¬ Collinear l)
    (out : Option (List V)) (h : Hull Eps.dflt l out) :
    ∃ o, out = some o ∧ (∀ v ∈ o, v ∈ l) ∧ Covers o l ∧ ConvexCW o := by
  have hs := separated_of_grid Eps.dflt (1 / 128) (by norm_num) (by norm_num [Eps.dflt]) (by norm_num [Eps.dflt])
    (by norm_num [Eps.dflt]) (by norm_num [Eps.dflt]) (by norm_num [Eps.dflt]) l hl
  obtain ⟨o, h1, h2, h4, -, h5⟩ := (C53_hull_partial _ l hs h3).2 out h
  exact ⟨o, h1, h2, h4, h5 hc⟩

/-- the points of the example: a square with a point inside and a point on an edge -/
def demo : List V := [⟨1, 1⟩, ⟨2, 0⟩, ⟨0, 2⟩, ⟨0, 1⟩, ⟨2, 2⟩, ⟨0, 0⟩]

/-- the hypotheses of `C53_hull_partial` and `C53_grid_partial` can be met -/
example : (∀ v ∈ demo, OnGrid (1 / 128) v) ∧ 3 ≤ demo.length ∧ ¬ Collinear demo ∧
    Hull Eps.dflt demo (some [⟨0, 0⟩, ⟨0, 2⟩, ⟨2, 2⟩, ⟨2, 0⟩]) := by
  refine ⟨?_, by decide, ?_, ?_⟩
  · have : ∀ v ∈ demo, (v.x = 0 ∨ v.x = 1 ∨ v.x = 2) ∧ (v.y = 0 ∨ v.y = 1 ∨ v.y = 2) := by decide +kernel
    have k : ∀ x : ℚ, x = 0 ∨ x = 1 ∨ x = 2 → ∃ m : ℤ, x = m * (1 / 128) := by
      rintro x (rfl | rfl | rfl)
      · exact ⟨0, by norm_num⟩
      · exact ⟨128, by norm_num⟩
      · exact ⟨256, by norm_num⟩
    exact fun v hv => ⟨k _ (this v hv).1, k _ (this v hv).2⟩
  · unfold Collinear; decide +kernel
  · unfold Hull
    rw [if_neg (by decide)]
    exact ⟨[⟨0, 0⟩, ⟨0, 1⟩, ⟨0, 2⟩, ⟨1, 1⟩, ⟨2, 2⟩, ⟨2, 0⟩], ⟨by decide +kernel, by decide +kernel⟩, by decide +kernel⟩

/-- C53 (the code): squared distances are compared with the epsilon for distances, so the order of points on a ray is lost below
about 0.0055 mm.  With the default epsilons, and for points that all differ by much more than the epsilon, a result is possible
that lacks a corner of the hull: the point (0, 0.004) is 0.003 mm outside of it. -/
theorem C53_wrong : ∃ l o : List V, 3 ≤ l.length ∧ (l.Pairwise fun a b => lexCmp Eps.dflt a b ≠ 0) ∧
    Hull Eps.dflt l (some o) ∧ ¬ Covers o l := by
  refine ⟨[⟨0, 0⟩, ⟨0, 4 / 1000⟩, ⟨0, 1 / 1000⟩, ⟨1, 0⟩], [⟨0, 0⟩, ⟨0, 1 / 1000⟩, ⟨1, 0⟩], by decide, by decide +kernel, ?_, ?_⟩
  · unfold Hull
    rw [if_neg (by decide)]
    exact ⟨[⟨0, 0⟩, ⟨0, 4 / 1000⟩, ⟨0, 1 / 1000⟩, ⟨1, 0⟩], ⟨.refl _, by decide +kernel⟩, by decide +kernel⟩
  · intro h
    have := h 0 1 (1 / 1000) (by decide +kernel) ⟨0, 4 / 1000⟩ (by simp)
    norm_num at this

end Hob3l.Hull
