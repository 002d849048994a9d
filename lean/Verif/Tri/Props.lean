import Verif.Tri.LemmasNear
import Verif.Poly.PropsGeo

/-!
The properties of the triangulation.
-/

namespace Hob3l.Tri

open Hob3l.Poly (P Vtx Err ass Ins Small Lt Le Started Proper Arranged IsSearch Crosses heightAt numBelow degree)

section
variable {ed : Nat → Bool → P} {l : List Vtx}

/-- C86: For every arrangement of edges that have no common points except common ends, with the ends in the order of the sweep, the
triangulation violates no assertion and ends; it succeeds if and only if each point is an end of an even number of edges. -/
theorem C86_total (ring : Ring.St) (back : Nat → Bool) (idx : Nat → Bool → Option Nat) (rm : Nat → V) {ins : Ins} {n : Nat}
    {fuel : Nat} (hl : Proper l) (ha : Arranged ed l) (hins : IsSearch ed ins) (hn : ∀ v ∈ l, v.edge < n)
    (hfuel : n + l.length ≤ fuel) :
    ∃ ok st, trianglify ring back idx rm ed n ins fuel l = .ok (ok, st) ∧ (ok = true ↔ ∀ p, degree l p % 2 = 0) := by
  obtain ⟨ok, st, h1, h2, -⟩ := run_ok ring back idx rm hl ha hins hn hfuel
  exact ⟨ok, st, h1, h2⟩

/-- C87: All triangles that are made, even if the triangulation fails, have corners that are points of the result, are clockwise, and
have an area that is not zero. -/
theorem C87_triangles {ring : Ring.St} {back : Nat → Bool} {idx : Nat → Bool → Option Nat} {rm : Nat → V} {ins : Ins} {n : Nat}
    {fuel : Nat} {ok : Bool} {st : St} (hl : Proper l) (ha : Arranged ed l) (hins : IsSearch ed ins) (hn : ∀ v ∈ l, v.edge < n)
    (hfuel : n + l.length ≤ fuel) (h : trianglify ring back idx rm ed n ins fuel l = .ok (ok, st)) :
    ∀ t ∈ st.tris, t.p0 < st.points.length ∧ t.p1 < st.points.length ∧ t.p2 < st.points.length ∧
      0 < area2 (at' st.points t.p0) (at' st.points t.p1) (at' st.points t.p2) := by
  obtain ⟨ok, st, h1, -, h3, -⟩ := run_ok ring back idx rm hl ha hins hn hfuel
  rw [h] at h1
  cases h1
  exact h3

/-- C87: The points of the result are the ends of the edges, without repetition and from left to right: no point is added or lost. -/
theorem C87_points {ring : Ring.St} {back : Nat → Bool} {idx : Nat → Bool → Option Nat} {rm : Nat → V} {ins : Ins} {n : Nat}
    {fuel : Nat} {st : St} (hl : Proper l) (ha : Arranged ed l) (hins : IsSearch ed ins) (hn : ∀ v ∈ l, v.edge < n)
    (hfuel : n + l.length ≤ fuel) (h : trianglify ring back idx rm ed n ins fuel l = .ok (true, st)) :
    st.points.Pairwise Lt ∧ ∀ p, p ∈ st.points ↔ ∃ v ∈ l, v.pos = p := by
  obtain ⟨ok, st, h1, -, -, h4⟩ := run_ok ring back idx rm hl ha hins hn hfuel
  rw [h] at h1
  cases h1
  exact ⟨(h4 rfl).1.pts, (h4 rfl).2⟩

open Classical in
/-- C88: For every point that is not on a vertical line with an end of an edge, and not on a side of a triangle, the number of
triangles around the point is one if the number of edges below the point is odd, and zero if it is even: the triangles cover exactly
the inside by the even-odd rule, and cover it once. -/
theorem C88_cover {ring : Ring.St} {back : Nat → Bool} {idx : Nat → Bool → Option Nat} {rm : Nat → V} {ins : Ins} {n : Nat}
    {fuel : Nat} {st : St} (hl : Proper l) (ha : Arranged ed l) (hins : IsSearch ed ins) (hn : ∀ v ∈ l, v.edge < n)
    (hfuel : n + l.length ≤ fuel) (h : trianglify ring back idx rm ed n ins fuel l = .ok (true, st)) {p : ℚ × ℚ}
    (hx : ∀ v ∈ l, (v.pos.1 : ℚ) ≠ p.1) (hs : ∀ t ∈ st.tris, ¬ OnSide st.points t p) :
    (st.tris.filter fun t => Inside st.points t p).length = numBelow ed l p.1 p.2 % 2 :=
  cover hl ha hins hn hfuel h hx hs

/-- C88: No two triangles overlap: there is no point that is strictly inside of both. -/
theorem C88_disjoint {ring : Ring.St} {back : Nat → Bool} {idx : Nat → Bool → Option Nat} {rm : Nat → V} {ins : Ins} {n : Nat}
    {fuel : Nat} {st : St} (hl : Proper l) (ha : Arranged ed l) (hins : IsSearch ed ins) (hn : ∀ v ∈ l, v.edge < n)
    (hfuel : n + l.length ≤ fuel) (h : trianglify ring back idx rm ed n ins fuel l = .ok (true, st)) :
    st.tris.Pairwise fun t u => ∀ p, ¬ (Inside st.points t p ∧ Inside st.points u p) := by
  classical
  have hok := C87_triangles hl ha hins hn hfuel h
  have hpts := (C87_points hl ha hins hn hfuel h).2
  rw [List.pairwise_iff_forall_sublist]
  rintro t u hsub p ⟨ht, hu⟩
  have htm : t ∈ st.tris := hsub.subset (by simp)
  have hum : u ∈ st.tris := hsub.subset (by simp)
  obtain ⟨d, hd, hnear⟩ := near_cross p (triK st.points t ++ triK st.points u) (by
    intro k hk
    rcases List.mem_append.1 hk with hk | hk
    · exact (inside_iff (hok t htm)).1 ht k hk
    · exact (inside_iff (hok u hum)).1 hu k hk)
  obtain ⟨x, x1, x2, x3⟩ := near_avoid p.1 d hd (l.map fun v => (v.pos.1 : ℚ))
  obtain ⟨y, y1, y2, y3⟩ := near_avoid p.2 d hd (sideYs st.points st.tris x)
  have hall := hnear (x, y) x1.le x2 y1.le y2
  have hx : ∀ v ∈ l, (v.pos.1 : ℚ) ≠ x := fun v hv hc => x3 (List.mem_map.2 ⟨v, hv, hc⟩)
  have hxp : ∀ q ∈ st.points, (q.1 : ℚ) ≠ x := by
    intro q hq
    obtain ⟨v, hv, rfl⟩ := (hpts q).1 hq
    exact hx v hv
  have hc := C88_cover hl ha hins hn hfuel h (p := (x, y)) hx (fun v hv => not_onSide hxp y3 hv (hok v hv))
  have it : Inside st.points t (x, y) := (inside_iff (hok t htm)).2 fun k hk => hall k (by simp [hk])
  have iu : Inside st.points u (x, y) := (inside_iff (hok u hum)).2 fun k hk => hall k (by simp [hk])
  have hlen := (hsub.filter fun t => decide (Inside st.points t (x, y))).length_le
  simp only [List.filter_cons, it, iu, decide_true, if_true, List.filter_nil, List.length_cons, List.length_nil] at hlen
  omega

/-- C88: A point strictly inside a triangle is inside by the even-odd rule, if it is not on an edge and not on a vertical line with an
end of an edge; so nothing is filled outside. -/
theorem C88_only {ring : Ring.St} {back : Nat → Bool} {idx : Nat → Bool → Option Nat} {rm : Nat → V} {ins : Ins} {n : Nat}
    {fuel : Nat} {st : St} (hl : Proper l) (ha : Arranged ed l) (hins : IsSearch ed ins) (hn : ∀ v ∈ l, v.edge < n)
    (hfuel : n + l.length ≤ fuel) (h : trianglify ring back idx rm ed n ins fuel l = .ok (true, st)) {p : ℚ × ℚ}
    (hx : ∀ v ∈ l, (v.pos.1 : ℚ) ≠ p.1) (hy : ∀ v ∈ l, Crosses ed p.1 v.edge → heightAt ed v.edge p.1 ≠ p.2)
    {t : Tri} (ht : t ∈ st.tris) (hi : Inside st.points t p) : numBelow ed l p.1 p.2 % 2 = 1 := by
  classical
  have hok := C87_triangles hl ha hins hn hfuel h
  have hpts := (C87_points hl ha hins hn hfuel h).2
  obtain ⟨d, hd, hnear⟩ := near_cross p (triK st.points t) ((inside_iff (hok t ht)).1 hi)
  obtain ⟨d2, hd2, hnear2⟩ := near_below (l := l) hy
  obtain ⟨y, y1, y2, y3⟩ := near_avoid p.2 (min d d2) (lt_min hd hd2) (sideYs st.points st.tris p.1)
  have m1 := min_le_left d d2
  have m2 := min_le_right d d2
  have hxp : ∀ q ∈ st.points, (q.1 : ℚ) ≠ p.1 := by
    intro q hq
    obtain ⟨v, hv, rfl⟩ := (hpts q).1 hq
    exact hx v hv
  have hc := C88_cover hl ha hins hn hfuel h (p := (p.1, y)) hx (fun v hv => not_onSide (p := (p.1, y)) hxp y3 hv (hok v hv))
  have it : Inside st.points t (p.1, y) := (inside_iff (hok t ht)).2
    (hnear (p.1, y) le_rfl (by show p.1 < p.1 + d; linarith) y1.le (by show y < p.2 + d; linarith))
  have hpos : 0 < (st.tris.filter fun t => Inside st.points t (p.1, y)).length :=
    List.length_pos_of_mem (List.mem_filter.2 ⟨ht, by simpa using it⟩)
  rw [hc, hnear2 y y1 (by linarith)] at hpos
  omega

/-- C88: A point that is inside by the even-odd rule, and not on a vertical line with an end of an edge, is in a triangle or on its
boundary; so nothing inside is left out. -/
theorem C88_all {ring : Ring.St} {back : Nat → Bool} {idx : Nat → Bool → Option Nat} {rm : Nat → V} {ins : Ins} {n : Nat}
    {fuel : Nat} {st : St} (hl : Proper l) (ha : Arranged ed l) (hins : IsSearch ed ins) (hn : ∀ v ∈ l, v.edge < n)
    (hfuel : n + l.length ≤ fuel) (h : trianglify ring back idx rm ed n ins fuel l = .ok (true, st)) {p : ℚ × ℚ}
    (hx : ∀ v ∈ l, (v.pos.1 : ℚ) ≠ p.1) (hodd : numBelow ed l p.1 p.2 % 2 = 1) :
    ∃ t ∈ st.tris, Inside st.points t p ∨ OnSide st.points t p := by
  classical
  by_cases hs : ∃ t ∈ st.tris, OnSide st.points t p
  · obtain ⟨t, ht, h1⟩ := hs
    exact ⟨t, ht, .inr h1⟩
  · have hc := C88_cover hl ha hins hn hfuel h hx (fun t ht h1 => hs ⟨t, ht, h1⟩)
    rw [hodd] at hc
    have : 0 < (st.tris.filter fun t => Inside st.points t p).length := by omega
    obtain ⟨t, ht⟩ := List.exists_mem_of_length_pos this
    rw [List.mem_filter, decide_eq_true_eq] at ht
    exact ⟨t, ht.1, .inl ht.2⟩

/-- C89: Each edge is directed from right to left if and only if an even number of edges is below it, and the sum of the areas of
the triangles is the area that is enclosed by the edges in these directions: twice the area of each triangle, summed up, is the sum of
`a.y * b.x - a.x * b.y` over all edges directed from `a` to `b`. -/
theorem C89_area {ring : Ring.St} {back : Nat → Bool} {idx : Nat → Bool → Option Nat} {rm : Nat → V} {ins : Ins} {n : Nat}
    {fuel : Nat} {st : St} (hl : Proper l) (ha : Arranged ed l) (hins : IsSearch ed ins) (hn : ∀ v ∈ l, v.edge < n)
    (hfuel : n + l.length ≤ fuel) (h : trianglify ring back idx rm ed n ins fuel l = .ok (true, st)) :
    (∀ x : ℚ, (∀ v ∈ l, (v.pos.1 : ℚ) ≠ x) → ∀ v ∈ l, Crosses ed x v.edge →
      (st.back v.edge = true ↔ numBelow ed l x (heightAt ed v.edge x) % 2 = 0)) ∧
    (st.tris.map fun t => area2 (at' st.points t.p0) (at' st.points t.p1) (at' st.points t.p2)).sum =
      ((l.filter fun v => v.rigt).map fun v =>
        let a := ed v.edge (st.back v.edge)
        let b := ed v.edge (!st.back v.edge)
        a.2 * b.1 - a.1 * b.2).sum := by
  constructor
  · intro x hx v hv hc
    have hS := Poly.mem_started hl hv
    obtain ⟨Y, hY⟩ : ∃ Y, Y = heightAt ed v.edge x := ⟨_, rfl⟩
    obtain ⟨arms, hnd, hmem, hsort, hback⟩ := at_line hl ha hins hn hfuel h hx
    have hve : v.edge ∈ bt arms := (hmem _).2 ⟨hS, hc⟩
    obtain ⟨C, D, hCD⟩ := List.append_of_mem hve
    have hlt : ∀ f ∈ bt arms, (heightAt ed f x < heightAt ed v.edge x ↔ f ∈ C) := by
      intro f hf
      rw [hCD] at hnd hsort hf
      have hfl := (hmem f).1 (by rw [hCD]; exact hf)
      rw [List.pairwise_append] at hsort
      rw [List.nodup_append] at hnd
      rcases List.mem_append.1 hf with h | h
      · refine ⟨fun _ => h, fun _ => ?_⟩
        exact Poly.below_at hl ha hfl.1 hS (fun hc => hnd.2.2 f h v.edge List.mem_cons_self hc)
          (hsort.2.2 f h v.edge List.mem_cons_self) hfl.2 hc
      · rcases List.mem_cons.1 h with rfl | h
        · refine ⟨fun hc => absurd hc (lt_irrefl _), fun hc => ?_⟩
          exact absurd rfl (hnd.2.2 _ hc _ List.mem_cons_self)
        · have hb := (List.pairwise_cons.1 hsort.2.1).1 f h
          have hne : v.edge ≠ f := fun hc => (List.nodup_cons.1 hnd.2.1).1 (hc ▸ h)
          have := Poly.below_at hl ha hS hfl.1 hne hb hc hfl.2
          refine ⟨fun hc => ?_, fun hc => ?_⟩
          · exact absurd (lt_trans this hc) (lt_irrefl _)
          · exact absurd rfl (hnd.2.2 _ hc _ (List.mem_cons_of_mem _ h))
    have hperm : ((l.filter fun w => w.rigt = false ∧ (Crosses ed x w.edge ∧ heightAt ed w.edge x < heightAt ed v.edge x)).map
        (·.edge)).Perm C := by
      rw [List.perm_ext_iff_of_nodup (edges_nodup hl false _) (by rw [hCD] at hnd; exact (List.nodup_append.1 hnd).1)]
      intro f
      rw [List.mem_map]
      constructor
      · rintro ⟨w, hw, rfl⟩
        rw [List.mem_filter, decide_eq_true_eq] at hw
        exact (hlt w.edge ((hmem _).2 ⟨⟨w, hw.1, rfl, hw.2.1⟩, hw.2.2.1⟩)).1 hw.2.2.2
      · intro hf
        have hft : f ∈ bt arms := by rw [hCD]; exact List.mem_append_left _ hf
        obtain ⟨⟨w, hw, e1, e2⟩, hcr⟩ := (hmem f).1 hft
        refine ⟨w, ?_, e1⟩
        rw [List.mem_filter, decide_eq_true_eq, e1]
        exact ⟨hw, e2, hcr, (hlt f hft).2 hf⟩
    have hlen := hperm.length_eq
    rw [List.length_map] at hlen
    have hnum : numBelow ed l x (heightAt ed v.edge x) = C.length := hlen
    rw [hnum]
    obtain ⟨g, hg⟩ : ∃ g : Nat → Int, g = fun e => if st.back e then 1 else -1 := ⟨_, rfl⟩
    have hga : ∀ a ∈ arms, g a.b = 1 ∧ g a.t = -1 := fun a haa => by rw [hg]; simp [hback a haa]
    have s1 := alt_sum hga (C := C) (D := v.edge :: D) hCD
    have s2 := alt_sum hga (C := C ++ [v.edge]) (D := D) (by rw [hCD]; simp)
    rw [List.map_append, List.sum_append, s1] at s2
    simp only [List.map_cons, List.map_nil, List.sum_cons, List.sum_nil, List.length_append, List.length_cons, List.length_nil] at s2
    cases hb : st.back v.edge with
    | true =>
      have : g v.edge = 1 := by rw [hg]; simp [hb]
      simp only [true_iff]
      omega
    | false =>
      have : g v.edge = -1 := by rw [hg]; simp [hb]
      simp only [Bool.false_eq_true, false_iff]
      omega
  · obtain ⟨ok, st, h1, -, -, h4⟩ := run_ok ring back idx rm hl ha hins hn hfuel
    rw [h] at h1
    cases h1
    have hsum := (h4 rfl).1.sum (fun a b => a.2 * b.1 - a.1 * b.2) (by intro a b; ring)
    simp only [List.map_nil, List.sum_nil, add_zero] at hsum
    have e1 : (st.tris.map fun t => area2 (at' st.points t.p0) (at' st.points t.p1) (at' st.points t.p2)) =
        st.tris.map (sides (fun a b => a.2 * b.1 - a.1 * b.2) st.points) := by
      apply List.map_congr_left
      intro t _
      unfold area2 sides
      ring
    rw [e1, hsum]
    have e2 := sum_ite (fun v : Vtx => v.rigt = true) (fun v =>
        let a := ed v.edge (st.back v.edge)
        let b := ed v.edge (!st.back v.edge)
        a.2 * b.1 - a.1 * b.2) l
    simp only [Bool.decide_eq_true] at e2
    exact e2

end

/-! ### examples -/

section
open Hob3l.Poly (bow2 bowEnds linear linear_search)

/-- two triangles with a common corner: the run of the model -/
example : ((trianglify ⟨id, id⟩ (fun _ => false) (fun _ _ => none) (fun _ => (0, false)) bowEnds 6 (linear bowEnds) 20 bow2).toOption.map
    fun r => (r.1, r.2.points, r.2.tris)) =
    some (true, [(0, -2), (0, 2), (2, 0), (4, -2), (4, 2)], [⟨1, 2, 0, true, true, true⟩, ⟨2, 4, 3, true, true, true⟩]) := by
  decide +kernel

/-- the ends of the edges of a square with a square hole -/
def holeEnds : Nat → Bool → P
  | 0, false => (0, 0) | 0, true => (10, 0)
  | 1, false => (0, 0) | 1, true => (0, 10)
  | 2, false => (0, 10) | 2, true => (10, 10)
  | 3, false => (10, 0) | 3, true => (10, 10)
  | 4, false => (3, 3) | 4, true => (7, 3)
  | 5, false => (3, 3) | 5, true => (3, 7)
  | 6, false => (3, 7) | 6, true => (7, 7)
  | _, false => (7, 3) | _, true => (7, 7)

/-- in the order of the sweep -/
def hole : List Vtx :=
  [⟨0, false, (0, 0)⟩, ⟨1, false, (0, 0)⟩, ⟨1, true, (0, 10)⟩, ⟨2, false, (0, 10)⟩, ⟨4, false, (3, 3)⟩, ⟨5, false, (3, 3)⟩,
   ⟨5, true, (3, 7)⟩, ⟨6, false, (3, 7)⟩, ⟨4, true, (7, 3)⟩, ⟨7, false, (7, 3)⟩, ⟨6, true, (7, 7)⟩, ⟨7, true, (7, 7)⟩,
   ⟨0, true, (10, 0)⟩, ⟨3, false, (10, 0)⟩, ⟨2, true, (10, 10)⟩, ⟨3, true, (10, 10)⟩]

theorem hole_apart (e f : Nat) (he : e < 8) (hf : f < 8) (hne : e ≠ f) :
    Poly.NonCrossing (holeEnds e false) (holeEnds e true) (holeEnds f false) (holeEnds f true) := by
  intro s t s0 s1 t0 t1 h
  unfold Poly.pointAt at h
  rw [Prod.mk.injEq] at h
  obtain ⟨h1, h2⟩ := h
  interval_cases e <;> interval_cases f <;> first | exact absurd rfl hne | skip
  all_goals
    simp only [holeEnds] at h1 h2
    push_cast at h1 h2
    first
    | (exfalso; linarith)
    | exact ⟨.inl (by linarith), .inl (by linarith)⟩
    | exact ⟨.inl (by linarith), .inr (by linarith)⟩
    | exact ⟨.inr (by linarith), .inl (by linarith)⟩
    | exact ⟨.inr (by linarith), .inr (by linarith)⟩

theorem hole_proper : Proper hole := by
  intro e
  by_cases h : e < 8
  · have : e = 0 ∨ e = 1 ∨ e = 2 ∨ e = 3 ∨ e = 4 ∨ e = 5 ∨ e = 6 ∨ e = 7 := by omega
    rcases this with rfl | rfl | rfl | rfl | rfl | rfl | rfl | rfl <;> exact .inr ⟨_, _, by decide, rfl⟩
  · left
    rw [List.filter_eq_nil_iff]
    intro v hv
    have : ∀ v ∈ hole, v.edge < 8 := by decide
    have := this v hv
    simp; omega

theorem hole_arranged : Arranged holeEnds hole := by
  refine ⟨by decide, by unfold Small; decide, ?_, ?_⟩
  · have : hole.Pairwise fun v w => Poly.resultCmp holeEnds v w = some (-1) := by decide +kernel
    exact this.imp fun h => ⟨-1, h, by decide⟩
  · have : ∀ v ∈ hole, v.edge < 8 := by decide
    exact fun v hv w hw hne => hole_apart _ _ (this v hv) (this w hw) hne

/-- the hypotheses of all theorems can be met: a square with a hole, which is covered by eight triangles -/
example : Proper hole ∧ Arranged holeEnds hole ∧ IsSearch holeEnds (linear holeEnds) ∧ (∀ v ∈ hole, v.edge < 8) ∧
    ((trianglify ⟨id, id⟩ (fun _ => false) (fun _ _ => none) (fun _ => (0, false)) holeEnds 8 (linear holeEnds) 24 hole).toOption.map
      fun r => (r.1, r.2.points, r.2.tris.length,
        (r.2.tris.map fun t => area2 (at' r.2.points t.p0) (at' r.2.points t.p1) (at' r.2.points t.p2)).sum)) =
    some (true, [(0, 0), (0, 10), (3, 3), (3, 7), (7, 3), (7, 7), (10, 0), (10, 10)], 8, 168) :=
  ⟨hole_proper, hole_arranged, linear_search _, by decide, by decide +kernel⟩

/-- a point in the hole has two edges below it, a point beside the hole has one -/
example : numBelow holeEnds hole 5 5 = 2 ∧ numBelow holeEnds hole 5 1 = 1 ∧ (∀ v ∈ hole, (v.pos.1 : ℚ) ≠ 5) := by
  refine ⟨by decide +kernel, by decide +kernel, by decide +kernel⟩

/-- an edge is missing: the triangulation fails -/
example : ((trianglify ⟨id, id⟩ (fun _ => false) (fun _ _ => none) (fun _ => (0, false)) holeEnds 8 (linear holeEnds) 24
    (hole.filter fun v => v.edge ≠ 3)).toOption.map fun r => r.1) = some false := by decide +kernel

end

end Hob3l.Tri
