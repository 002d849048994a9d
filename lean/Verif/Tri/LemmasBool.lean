import Verif.Poly.LemmasBool
import Verif.Tri.Props

/-!
The result of the reduction is what the triangulation expects.  Points may be moved a bit to the right, as edges are taken
without their right end.
-/

namespace Hob3l.Tri

open Hob3l.Poly (P Vtx Ins Proper Arranged IsSearch degree toVtx Numbered mem_out Crosses heightAt numBelow)
open Sweep (Edge RV Planar Directed SweepOrder)

/-- being below in terms of signs -/
theorem under_cross {e : Edge} {X : ℚ × ℚ} (h1 : (e.left.x : ℚ) ≤ X.1) (h2 : X.1 < e.rigt.x) :
    (e.Under X ↔ 0 < crossQ (e.left.x, e.left.y) (e.rigt.x, e.rigt.y) X) ∧
    (e.On X ↔ crossQ (e.left.x, e.left.y) (e.rigt.x, e.rigt.y) X = 0) := by
  obtain ⟨x, y⟩ := X
  simp only at h1 h2
  obtain ⟨w, hw⟩ : ∃ w : ℚ, w = (e.rigt.x : ℚ) - e.left.x := ⟨_, rfl⟩
  have hw0 : 0 < w := by linarith
  have key : ∀ z : ℚ, e.On (x, z) ↔ w * (z - e.left.y) = ((e.rigt.y : ℚ) - e.left.y) * (x - e.left.x) := by
    intro z
    constructor
    · rintro ⟨s, s0, s1, hx, hz⟩
      simp only [Matq.Vec2.pt] at hx hz
      rw [hx, hz, hw]
      ring
    · intro h
      refine ⟨(x - e.left.x) / w, div_nonneg (by linarith) hw0.le, (div_le_one hw0).mpr (by linarith), ?_, ?_⟩
      · show x = (e.left.x : ℚ) + (x - e.left.x) / w * (e.rigt.x - e.left.x)
        rw [← hw, div_mul_cancel₀ _ hw0.ne']; ring
      · show z = (e.left.y : ℚ) + (x - e.left.x) / w * (e.rigt.y - e.left.y)
        rw [div_mul_eq_mul_div, mul_comm (x - (e.left.x : ℚ)), ← h, mul_div_cancel_left₀ _ hw0.ne']; ring
  have hc : crossQ (e.left.x, e.left.y) (e.rigt.x, e.rigt.y) (x, y) =
      w * (y - e.left.y) - ((e.rigt.y : ℚ) - e.left.y) * (x - e.left.x) := by rw [hw]; rfl
  rw [hc]
  constructor
  · constructor
    · rintro ⟨-, -, z, hz, hlt⟩
      rw [key] at hz
      rw [← hz]
      have := mul_lt_mul_of_pos_left hlt hw0
      nlinarith
    · intro h
      refine ⟨h1, h2, e.left.y + ((e.rigt.y : ℚ) - e.left.y) * (x - e.left.x) / w, ?_, ?_⟩
      · rw [key]
        field_simp
        ring
      · have : ((e.rigt.y : ℚ) - e.left.y) * (x - e.left.x) / w < y - e.left.y := by
          rw [div_lt_iff₀ hw0]; linarith
        show _ < y
        linarith
  · rw [key]
    constructor <;> intro h <;> linarith

/-- a bit to the right, the same edges are below, and no edge is hit -/
theorem near_right (X : ℚ × ℚ) : ∀ E : List Edge, Directed E → (∀ e ∈ E, ¬ e.On X) →
    ∃ d : ℚ, 0 < d ∧ ∀ x, X.1 < x → x < X.1 + d → ∀ e ∈ E, (e.Under (x, X.2) ↔ e.Under X) ∧ ¬ e.On (x, X.2)
  | [], _, _ => ⟨1, by norm_num, by simp⟩
  | e :: E, hd, hX => by
    obtain ⟨d, d0, hE⟩ := near_right X E (fun f hf => hd f (by simp [hf])) (fun f hf => hX f (by simp [hf]))
    obtain ⟨c, c0, hc⟩ : ∃ c : ℚ, 0 < c ∧ ∀ x, X.1 < x → x < X.1 + c → (e.Under (x, X.2) ↔ e.Under X) ∧ ¬ e.On (x, X.2) := by
      have hlex := (hd e (by simp)).1
      have hle : (e.left.x : ℚ) ≤ e.rigt.x := by exact_mod_cast hlex.le_x
      have hout : ∀ x : ℚ, x < e.left.x ∨ (e.rigt.x : ℚ) < x → ¬ e.On (x, X.2) := by
        intro x hx ho
        have := Sweep.on_bounds hlex ho
        have h1 := this.1
        have h2 := this.2
        simp only at h1 h2
        rcases hx with hx | hx <;> linarith
      rcases lt_or_ge X.1 (e.left.x : ℚ) with h1 | h1
      · refine ⟨e.left.x - X.1, by linarith, fun x x1 x2 => ⟨⟨fun h => ?_, fun h => ?_⟩, hout x (.inl (by linarith))⟩⟩
        · have := h.1; simp only at this; linarith
        · have := h.1; linarith
      rcases le_or_gt (e.rigt.x : ℚ) X.1 with h2 | h2
      · refine ⟨1, by norm_num, fun x x1 x2 => ⟨⟨fun h => ?_, fun h => ?_⟩, hout x (.inr (by linarith))⟩⟩
        · have := h.2.1; simp only at this; linarith
        · have := h.2.1; linarith
      have hno := hX e (by simp)
      obtain ⟨u1, u2⟩ := under_cross h1 h2
      rw [u2] at hno
      have swap : ∀ q, crossQ (e.rigt.x, e.rigt.y) (e.left.x, e.left.y) q = -crossQ (e.left.x, e.left.y) (e.rigt.x, e.rigt.y) q := by
        intro q; unfold crossQ; ring
      rcases lt_or_gt_of_ne hno with hlt | hgt
      · obtain ⟨c, c0, hc⟩ := near_cross X [((e.left.x, e.left.y), (e.rigt.x, e.rigt.y))] (by simpa using hlt)
        refine ⟨min c (e.rigt.x - X.1), lt_min c0 (by linarith), fun x x1 x2 => ?_⟩
        have m1 := min_le_left c (e.rigt.x - X.1)
        have m2 := min_le_right c (e.rigt.x - X.1)
        obtain ⟨v1, v2⟩ := under_cross (e := e) (X := (x, X.2)) (by simp only; linarith) (by simp only; linarith)
        have := hc (x, X.2) x1.le (by simp only; linarith) (le_refl _) (by simp only; linarith) _ (List.mem_singleton_self _)
        simp only at this
        rw [v1, v2, u1]
        exact ⟨⟨fun h => by linarith, fun h => by linarith⟩, this.ne⟩
      · obtain ⟨c, c0, hc⟩ := near_cross X [((e.rigt.x, e.rigt.y), (e.left.x, e.left.y))] (by
          intro k hk
          simp only [List.mem_singleton] at hk
          subst hk
          rw [swap]; linarith)
        refine ⟨min c (e.rigt.x - X.1), lt_min c0 (by linarith), fun x x1 x2 => ?_⟩
        have m1 := min_le_left c (e.rigt.x - X.1)
        have m2 := min_le_right c (e.rigt.x - X.1)
        obtain ⟨v1, v2⟩ := under_cross (e := e) (X := (x, X.2)) (by simp only; linarith) (by simp only; linarith)
        have := hc (x, X.2) x1.le (by simp only; linarith) (le_refl _) (by simp only; linarith) _ (List.mem_singleton_self _)
        simp only at this
        rw [swap] at this
        rw [v1, v2, u1]
        exact ⟨⟨fun h => by linarith, fun h => by linarith⟩, fun h => by linarith⟩
    refine ⟨min d c, lt_min d0 c0, fun x x1 x2 f hf => ?_⟩
    have m1 := min_le_left d c
    have m2 := min_le_right d c
    rcases List.mem_cons.mp hf with rfl | hf
    · exact hc x x1 (by linarith)
    · exact hE x x1 (by linarith) f hf

theorem insideMask_congr {X Y : ℚ × ℚ} : ∀ {E : List Edge}, (∀ e ∈ E, (e.Under X ↔ e.Under Y)) →
    Sweep.insideMask E X = Sweep.insideMask E Y
  | [], _ => rfl
  | e :: E, h => by
    unfold Sweep.insideMask
    rw [insideMask_congr (E := E) (fun f hf => h f (by simp [hf]))]
    have := h e (by simp)
    by_cases hY : e.Under Y
    · rw [if_pos hY, if_pos (this.mpr hY)]
    · rw [if_neg hY, if_neg (fun c => hY (this.mp c))]

/-- the closed triangle -/
theorem closed_tri {a b c : P} {p : ℚ × ℚ} (h : 0 < area2 a b c) (h1 : crossQ b c p ≤ 0) (h2 : crossQ c a p ≤ 0)
    (h3 : crossQ a b p ≤ 0) : InTri a b c p ∨ OnSeg a b p ∨ OnSeg b c p ∨ OnSeg c a p := by
  have hT : (0 : ℚ) < (area2 a b c : ℚ) := by exact_mod_cast h
  have ht := cross_total a b c p
  -- one of the signs is zero
  have one : ∀ {a b c : P}, 0 < area2 a b c → crossQ b c p = 0 → crossQ c a p ≤ 0 → crossQ a b p ≤ 0 → OnSeg b c p := by
    intro a b c h h1 h2 h3
    have hT : (0 : ℚ) < (area2 a b c : ℚ) := by exact_mod_cast h
    have ht := cross_total a b c p
    refine ⟨-crossQ a b p / area2 a b c, div_nonneg (by linarith) hT.le, (div_le_one hT).mpr (by linarith), ?_⟩
    have hT' := hT.ne'
    unfold Poly.pointAt
    ext
    · show (b.1 : ℚ) + -crossQ a b p / area2 a b c * (c.1 - b.1) = p.1
      rw [div_mul_eq_mul_div, ← eq_sub_iff_add_eq', div_eq_iff hT']
      have e : -crossQ a b p * ((c.1 : ℚ) - b.1) - (p.1 - b.1) * (area2 a b c : ℚ) = (a.1 - b.1) * crossQ b c p := by
        unfold crossQ area2; push_cast; ring
      rw [h1] at e
      linarith
    · show (b.2 : ℚ) + -crossQ a b p / area2 a b c * (c.2 - b.2) = p.2
      rw [div_mul_eq_mul_div, ← eq_sub_iff_add_eq', div_eq_iff hT']
      have e : -crossQ a b p * ((c.2 : ℚ) - b.2) - (p.2 - b.2) * (area2 a b c : ℚ) = (a.2 - b.2) * crossQ b c p := by
        unfold crossQ area2; push_cast; ring
      rw [h1] at e
      linarith
  have r1 : area2 b c a = area2 a b c := by unfold area2; ring
  have r2 : area2 c a b = area2 a b c := by unfold area2; ring
  rcases lt_or_eq_of_le h1 with g1 | g1
  · rcases lt_or_eq_of_le h2 with g2 | g2
    · rcases lt_or_eq_of_le h3 with g3 | g3
      · exact .inl ((inTri_iff h).mpr ⟨g1, g2, g3⟩)
      · exact .inr (.inl (one (a := c) (r2.symm ▸ h) g3 h1 h2))
    · exact .inr (.inr (.inr (one (a := b) (r1.symm ▸ h) g2 h3 h1)))
  · exact .inr (.inr (.inl (one h g1 h2 h3)))

/-- a point of the closed triangle -/
theorem cross_le {pts : List P} {t : Tri} {p : ℚ × ℚ} (h : TriOk pts t) (hp : Inside pts t p ∨ OnSide pts t p) :
    ∀ k ∈ triK pts t, crossQ k.1 k.2 p ≤ 0 := by
  have seg : ∀ {a b c : P}, 0 < area2 a b c → OnSeg a b p → crossQ b c p ≤ 0 ∧ crossQ c a p ≤ 0 ∧ crossQ a b p ≤ 0 := by
    rintro a b c h ⟨s, s0, s1, rfl⟩
    have hT : (0 : ℚ) < (area2 a b c : ℚ) := by exact_mod_cast h
    have q1 : crossQ b c (Poly.pointAt a b s) = -((1 - s) * (area2 a b c : ℚ)) := by
      unfold crossQ area2 Poly.pointAt; push_cast; ring
    have q2 : crossQ c a (Poly.pointAt a b s) = -(s * (area2 a b c : ℚ)) := by
      unfold crossQ area2 Poly.pointAt; push_cast; ring
    have q3 : crossQ a b (Poly.pointAt a b s) = 0 := by
      unfold crossQ Poly.pointAt; ring
    rw [q1, q2, q3]
    have := mul_nonneg s0 hT.le
    have := mul_nonneg (show 0 ≤ 1 - s by linarith) hT.le
    exact ⟨by linarith, by linarith, le_refl _⟩
  obtain ⟨-, -, -, h4⟩ := id h
  intro k hk
  rcases hp with hp | hp
  · exact ((inside_iff h).mp hp k hk).le
  · have r1 : ∀ a b c : P, area2 b c a = area2 a b c := by intros; unfold area2; ring
    unfold OnSide at hp
    unfold triK at hk
    simp only [List.mem_cons, List.not_mem_nil, or_false] at hk
    have h5 : 0 < area2 (at' pts t.p1) (at' pts t.p2) (at' pts t.p0) := by rw [r1]; exact h4
    have h6 : 0 < area2 (at' pts t.p2) (at' pts t.p0) (at' pts t.p1) := by rw [r1]; exact h5
    rcases hp with hp | hp | hp
    · have := seg h4 hp
      rcases hk with rfl | rfl | rfl <;> simp only [this]
    · have := seg h5 hp
      rcases hk with rfl | rfl | rfl <;> simp only [this]
    · have := seg h6 hp
      rcases hk with rfl | rfl | rfl <;> simp only [this]

/-- a bit to the right of a point that is in none of the closed triangles -/
theorem near_out (p : ℚ × ℚ) {pts : List P} (T : List Tri) (hok : ∀ t ∈ T, TriOk pts t)
    (h : ∀ t ∈ T, ¬ (Inside pts t p ∨ OnSide pts t p)) :
    ∃ d : ℚ, 0 < d ∧ ∀ x, p.1 < x → x < p.1 + d → ∀ t ∈ T, ¬ (Inside pts t (x, p.2) ∨ OnSide pts t (x, p.2)) := by
  induction T with
  | nil => exact ⟨1, by norm_num, by simp⟩
  | cons t T ih =>
    obtain ⟨d, d0, hT⟩ := ih (fun u hu => hok u (List.mem_cons_of_mem _ hu)) (fun u hu => h u (List.mem_cons_of_mem _ hu))
    have ht := hok t (by simp)
    obtain ⟨k, hk, hgt⟩ : ∃ k ∈ triK pts t, 0 < crossQ k.1 k.2 p := by
      by_contra hc
      push Not at hc
      refine h t (by simp) ?_
      have k1 := hc (at' pts t.p1, at' pts t.p2) (by unfold triK; simp)
      have k2 := hc (at' pts t.p2, at' pts t.p0) (by unfold triK; simp)
      have k3 := hc (at' pts t.p0, at' pts t.p1) (by unfold triK; simp)
      exact closed_tri ht.2.2.2 k1 k2 k3
    have swap : ∀ q, crossQ k.2 k.1 q = -crossQ k.1 k.2 q := by
      intro q; unfold crossQ; ring
    obtain ⟨c, c0, hc⟩ := near_cross p [(k.2, k.1)] (by
      intro j hj
      simp only [List.mem_singleton] at hj
      subst hj
      show crossQ k.2 k.1 p < 0
      rw [swap]; linarith)
    refine ⟨min d c, lt_min d0 c0, fun x x1 x2 u hu => ?_⟩
    have m1 := min_le_left d c
    have m2 := min_le_right d c
    rcases List.mem_cons.mp hu with rfl | hu
    · intro hin
      have h1 := cross_le ht hin k hk
      have h2 := hc (x, p.2) x1.le (by simp only; linarith) (le_refl _) (by simp only; linarith) _ (List.mem_singleton_self _)
      simp only at h2
      rw [swap] at h2
      linarith
    · exact hT x x1 (by linarith) u hu

theorem numBelow_out {num : Edge → Nat} {ed : Nat → Bool → P} {K : List Edge} {out : List RV} (hnum : Numbered num ed K)
    (hd : Directed K) (ho : SweepOrder K out) {X : ℚ × ℚ} (hx : ∀ v ∈ out.map (toVtx num), (v.pos.1 : ℚ) ≠ X.1) :
    Sweep.oddBelow K X = decide (numBelow ed (out.map (toVtx num)) X.1 X.2 % 2 = 1) := by
  classical
  have hK : ∀ e ∈ K, ((e.left.x : ℚ) ≠ X.1) ∧ (Crosses ed X.1 (num e) ∧ heightAt ed (num e) X.1 < X.2 ↔ e.Under X) := by
    intro e he
    have hne : (e.left.x : ℚ) ≠ X.1 := hx (toVtx num ⟨e, false⟩) (List.mem_map_of_mem ((mem_out ho _).mpr he))
    refine ⟨hne, ?_⟩
    unfold Crosses heightAt
    rw [hnum.left e he, hnum.rigt e he]
    simp only
    constructor
    · rintro ⟨⟨h1, h2⟩, h3⟩
      rw [(under_cross h1.le h2).1]
      unfold crossQ
      simp only
      have hw : (0 : ℚ) < e.rigt.x - e.left.x := by linarith
      rw [mul_div_assoc', ← lt_sub_iff_add_lt', div_lt_iff₀ hw] at h3
      linarith
    · intro h
      have h1 := lt_of_le_of_ne h.1 hne
      have h2 := h.2.1
      refine ⟨⟨h1, h2⟩, ?_⟩
      rw [(under_cross h1.le h2).1] at h
      unfold crossQ at h
      simp only at h
      have hw : (0 : ℚ) < e.rigt.x - e.left.x := by linarith
      rw [mul_div_assoc', ← lt_sub_iff_add_lt', div_lt_iff₀ hw]
      linarith
  unfold Sweep.oddBelow
  have key : (K.filter fun e => e.Under X).length = numBelow ed (out.map (toVtx num)) X.1 X.2 := by
    unfold numBelow
    rw [← List.countP_eq_length_filter, ← List.countP_eq_length_filter, List.countP_map, ho.1.countP_eq]
    clear hx ho hd hnum
    induction K with
    | nil => rfl
    | cons e K ih =>
      have he := (hK e (by simp)).2
      rw [List.flatMap_cons, List.countP_append, ← ih (fun f hf => hK f (by simp [hf])), List.countP_cons]
      simp only [List.countP_cons, List.countP_nil, Function.comp, toVtx, decide_eq_true_eq, he]
      simp
      omega
  rw [key]

end Hob3l.Tri
