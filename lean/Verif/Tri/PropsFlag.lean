import Verif.Tri.LemmasOutline
import Verif.Export.Props

/-!
The properties of the sides of the triangles, and of the solids over them.
-/

namespace Hob3l.Tri

open Hob3l.Poly (P Vtx Err ass Ins Small Lt Le Started Proper Arranged IsSearch degree)

section
variable {ed : Nat → Bool → P} {l : List Vtx}

/-- C90: Every side of a triangle that is flagged as outline is one of the given edges. -/
theorem C90_flag_is_edge {ring : Ring.St} {back : Nat → Bool} {idx : Nat → Bool → Option Nat} {rm : Nat → V} {ins : Ins} {n : Nat}
    {fuel : Nat} {st : St} (hl : Proper l) (ha : Arranged ed l) (hins : IsSearch ed ins) (hn : ∀ v ∈ l, v.edge < n)
    (hfuel : n + l.length ≤ fuel) (h : trianglify ring back idx rm ed n ins fuel l = .ok (true, st)) :
    ∀ t ∈ st.tris, ∀ i j, Flagged t i j →
      ∃ v ∈ l, ∃ a b, st.points[i]? = some a ∧ st.points[j]? = some b ∧ EndsOf (ed v.edge) a b := by
  obtain ⟨ok, st, h1, -, -, h4⟩ := run_ok ring back idx rm hl ha hins hn hfuel
  rw [h] at h1
  cases h1
  intro t ht i j hf
  obtain ⟨e, a, b, ⟨v, hv, rfl, -⟩, g⟩ := (h4 rfl).1.snd t ht i j hf
  exact ⟨v, hv, a, b, g⟩

/-- C90: No directed line is a side of two triangles. -/
theorem C90_side_once {ring : Ring.St} {back : Nat → Bool} {idx : Nat → Bool → Option Nat} {rm : Nat → V} {ins : Ins} {n : Nat}
    {fuel : Nat} {st : St} (hl : Proper l) (ha : Arranged ed l) (hins : IsSearch ed ins) (hn : ∀ v ∈ l, v.edge < n)
    (hfuel : n + l.length ≤ fuel) (h : trianglify ring back idx rm ed n ins fuel l = .ok (true, st)) :
    (allSides st.points st.tris).Nodup :=
  List.nodup_iff_count_le_one.2 (side_count (C87_triangles hl ha hins hn hfuel h) (C88_disjoint hl ha hins hn hfuel h))

theorem side_balance {ring : Ring.St} {back : Nat → Bool} {idx : Nat → Bool → Option Nat} {rm : Nat → V} {ins : Ins} {n : Nat}
    {fuel : Nat} {st : St} (hl : Proper l) (ha : Arranged ed l) (hins : IsSearch ed ins) (hn : ∀ v ∈ l, v.edge < n)
    (hfuel : n + l.length ≤ fuel) (h : trianglify ring back idx rm ed n ins fuel l = .ok (true, st)) (x : P × P) :
    (allSides st.points st.tris).count x + (edgesDir ed st.back l).count x.swap =
      (edgesDir ed st.back l).count x + (allSides st.points st.tris).count x.swap := by
  obtain ⟨ok, st, h1, -, -, h4⟩ := run_ok ring back idx rm hl ha hins hn hfuel
  rw [h] at h1
  cases h1
  have hsum := (h4 rfl).1.sum (orient x) (orient_anti x)
  simp only [List.map_nil, List.sum_nil, add_zero] at hsum
  rw [sides_sum, orient_sum] at hsum
  have e2 := sum_ite (fun v : Vtx => v.rigt = true) (fun v =>
      orient x (ed v.edge (st.back v.edge)) (ed v.edge (!st.back v.edge))) l
  simp only [Bool.decide_eq_true] at e2
  have e3 := orient_sum x (edgesDir ed st.back l)
  unfold edgesDir at e3 ⊢
  rw [List.map_map] at e3
  have e4 : l.map (endF ed st.back (orient x)) =
    l.map fun v => if v.rigt = true then orient x (ed v.edge (st.back v.edge)) (ed v.edge (!st.back v.edge)) else 0 := rfl
  rw [e4, e2] at hsum
  have e5 : ((l.filter fun v => v.rigt).map fun v => orient x (ed v.edge (st.back v.edge)) (ed v.edge (!st.back v.edge))).sum = _ := e3
  rw [e5] at hsum
  omega

/-- C90: Every side of a triangle that is not one of the edges is also the side, in opposite direction, of another triangle: there
are no corners in the middle of sides of other triangles. -/
theorem C90_matched {ring : Ring.St} {back : Nat → Bool} {idx : Nat → Bool → Option Nat} {rm : Nat → V} {ins : Ins} {n : Nat}
    {fuel : Nat} {st : St} (hl : Proper l) (ha : Arranged ed l) (hins : IsSearch ed ins) (hn : ∀ v ∈ l, v.edge < n)
    (hfuel : n + l.length ≤ fuel) (h : trianglify ring back idx rm ed n ins fuel l = .ok (true, st)) {a b : P}
    (hs : (a, b) ∈ allSides st.points st.tris) (hne : ∀ v ∈ l, ¬ EndsOf (ed v.edge) a b) : (b, a) ∈ allSides st.points st.tris := by
  have hb := side_balance hl ha hins hn hfuel h (a, b)
  rw [Prod.swap_prod_mk] at hb
  have hno : ¬ ((a, b) ∈ edgesDir ed st.back l ∨ (b, a) ∈ edgesDir ed st.back l) := by
    rw [mem_edges_dir hl]
    rintro ⟨v, hv, hc⟩
    exact hne v hv hc
  rw [not_or] at hno
  rw [List.count_eq_zero.2 hno.1, List.count_eq_zero.2 hno.2] at hb
  have := List.count_pos_iff.2 hs
  exact List.count_pos_iff.1 (by omega)

/-- C90: Every edge is the side of exactly one triangle: in the direction of C89 it is a side, in the opposite direction it is not. -/
theorem C90_edge_side {ring : Ring.St} {back : Nat → Bool} {idx : Nat → Bool → Option Nat} {rm : Nat → V} {ins : Ins} {n : Nat}
    {fuel : Nat} {st : St} (hl : Proper l) (ha : Arranged ed l) (hins : IsSearch ed ins) (hn : ∀ v ∈ l, v.edge < n)
    (hfuel : n + l.length ≤ fuel) (h : trianglify ring back idx rm ed n ins fuel l = .ok (true, st)) {v : Vtx} (hv : v ∈ l) :
    (ed v.edge (st.back v.edge), ed v.edge (!st.back v.edge)) ∈ allSides st.points st.tris ∧
    (ed v.edge (!st.back v.edge), ed v.edge (st.back v.edge)) ∉ allSides st.points st.tris := by
  obtain ⟨r, hr, e3, e4⟩ := Poly.proper_end hl (Poly.mem_started hl hv)
  obtain ⟨x, hx⟩ : ∃ x, x = (ed v.edge (st.back v.edge), ed v.edge (!st.back v.edge)) := ⟨_, rfl⟩
  have hm : x ∈ edgesDir ed st.back l := by
    refine List.mem_map.2 ⟨r, List.mem_filter.2 ⟨hr, e4⟩, ?_⟩
    rw [e3, hx]
  have hb := side_balance hl ha hins hn hfuel h x
  have c1 := List.nodup_iff_count_le_one.1 (C90_side_once hl ha hins hn hfuel h) x
  rw [List.count_eq_zero.2 (edges_dir_swap hl ha _ hm)] at hb
  have := List.count_pos_iff.2 hm
  have e : (ed v.edge (!st.back v.edge), ed v.edge (st.back v.edge)) = x.swap := by rw [hx]; rfl
  rw [e, ← hx]
  exact ⟨List.count_pos_iff.1 (by omega), List.count_eq_zero.1 (by omega)⟩

theorem flag_counts {ring : Ring.St} {back : Nat → Bool} {idx : Nat → Bool → Option Nat} {rm : Nat → V} {ins : Ins} {n : Nat}
    {fuel : Nat} {st : St} (hl : Proper l) (ha : Arranged ed l) (hins : IsSearch ed ins) (hn : ∀ v ∈ l, v.edge < n)
    (hfuel : n + l.length ≤ fuel) (h : trianglify ring back idx rm ed n ins fuel l = .ok (true, st)) (ho : Once l) (x : P × P) :
    (outline st.points st.tris).count x = (edgesDir ed st.back l).count x ∧
    (innerSides st.points st.tris).count x = (innerSides st.points st.tris).count x.swap := by
  have hT := C87_triangles hl ha hins hn hfuel h
  have hb := side_balance hl ha hins hn hfuel h x
  have c1 := List.nodup_iff_count_le_one.1 (C90_side_once hl ha hins hn hfuel h) x
  have c2 := List.nodup_iff_count_le_one.1 (C90_side_once hl ha hins hn hfuel h) x.swap
  have d1 := List.nodup_iff_count_le_one.1 (edges_dir_nodup hl ha st.back) x
  have d2 := List.nodup_iff_count_le_one.1 (edges_dir_nodup hl ha st.back) x.swap
  have s1 := count_split st.points st.tris x
  have s2 := count_split st.points st.tris x.swap
  have hsw : ∀ y ∈ edgesDir ed st.back l, (edgesDir ed st.back l).count y.swap = 0 := fun y hy =>
    List.count_eq_zero.2 (edges_dir_swap hl ha _ hy)
  -- flagged sides are edges
  have f1 : ∀ y ∈ outline st.points st.tris, y ∈ edgesDir ed st.back l ∨ y.swap ∈ edgesDir ed st.back l := by
    rintro ⟨a, b⟩ hy
    obtain ⟨t, ht, i, j, hf, e1, e2⟩ := (mem_outline hT).1 hy
    obtain ⟨v, hv, a', b', g1, g2, g3⟩ := C90_flag_is_edge hl ha hins hn hfuel h t ht i j hf
    rw [e1] at g1; rw [e2] at g2
    cases g1; cases g2
    exact (mem_edges_dir hl st.back).2 ⟨v, hv, g3⟩
  -- edges are flagged sides
  have f2 : ∀ y ∈ edgesDir ed st.back l, y ∈ outline st.points st.tris ∨ y.swap ∈ outline st.points st.tris := by
    rintro ⟨a, b⟩ hy
    obtain ⟨v, hv, g⟩ := (mem_edges_dir hl st.back).1 (.inl hy)
    obtain ⟨ok, st, h1, -, -, h4⟩ := run_ok ring back idx rm hl ha hins hn hfuel
    rw [h] at h1
    cases h1
    rcases (h4 rfl).1.cmp ho v.edge (Poly.mem_started hl hv) with ⟨a, ha, -⟩ | ⟨t, ht, i, j, p, q, g1, g2, g3, g4⟩
    · cases ha
    · have hpq : (p, q) ∈ outline st.points st.tris := (mem_outline hT).2 ⟨t, ht, i, j, g1, g2, g3⟩
      unfold EndsOf at g g4
      rcases g with ⟨rfl, rfl⟩ | ⟨rfl, rfl⟩ <;> rcases g4 with ⟨rfl, rfl⟩ | ⟨rfl, rfl⟩ <;> simp [hpq]
  by_cases m1 : x ∈ edgesDir ed st.back l
  · have p1 := List.count_pos_iff.2 m1
    have p2 := hsw x m1
    rcases f2 x m1 with w | w <;> have := List.count_pos_iff.2 w <;> omega
  · have p1 := List.count_eq_zero.2 m1
    by_cases m2 : x.swap ∈ edgesDir ed st.back l
    · have p2 := List.count_pos_iff.2 m2
      have f2' := f2 x.swap m2
      rw [Prod.swap_swap] at f2'
      rcases f2' with w | w <;> have := List.count_pos_iff.2 w <;> omega
    · have p2 := List.count_eq_zero.2 m2
      have z1 : (outline st.points st.tris).count x = 0 := List.count_eq_zero.2 fun hc => (f1 x hc).elim m1 m2
      have z2 : (outline st.points st.tris).count x.swap = 0 := List.count_eq_zero.2 fun hc => by
        rcases f1 x.swap hc with w | w
        · exact m2 w
        · rw [Prod.swap_swap] at w; exact m1 w
      omega

/-- C90, partial: If the contours do not touch each other at a vertex, then the sides that are flagged as outline are exactly the
edges, each once and in the direction of C89.  (Full statement: the same without `Once l`, which is false, see `C90_not`.) -/
theorem C90_outline_partial {ring : Ring.St} {back : Nat → Bool} {idx : Nat → Bool → Option Nat} {rm : Nat → V} {ins : Ins} {n : Nat}
    {fuel : Nat} {st : St} (hl : Proper l) (ha : Arranged ed l) (hins : IsSearch ed ins) (hn : ∀ v ∈ l, v.edge < n)
    (hfuel : n + l.length ≤ fuel) (h : trianglify ring back idx rm ed n ins fuel l = .ok (true, st)) (ho : Once l) :
    (outline st.points st.tris).Perm (edgesDir ed st.back l) :=
  List.perm_iff_count.2 fun x => (flag_counts hl ha hins hn hfuel h ho x).1

/-- the triangle as it is exported -/
def toExport (t : Tri) : Export.Tri := ⟨t.p0, t.p1, t.p2, t.f01, t.f12, t.f20⟩

theorem inner_idx {pts : List P} (hp : pts.Nodup) : ∀ {T : List Tri}, (∀ t ∈ T, TriOk pts t) →
    Export.inner (T.map toExport) = (innerSides pts T).map fun e => (pts.idxOf e.1, pts.idxOf e.2)
  | [], _ => rfl
  | t :: T, h => by
    have ih := inner_idx hp (T := T) fun u hu => h u (by simp [hu])
    obtain ⟨h1, h2, h3, -⟩ := h t (by simp)
    have hat : ∀ {i : Nat}, i < pts.length → pts.idxOf (at' pts i) = i := by
      intro i hi
      unfold at'
      rw [List.getElem?_eq_getElem hi]
      exact hp.idxOf_getElem i hi
    unfold Export.inner innerSides at ih ⊢
    rw [List.map_cons, List.flatMap_cons, List.flatMap_cons, List.filter_append, List.filter_append, List.map_append, List.map_append,
      List.map_append, ih]
    congr 1
    unfold Export.Tri.edges toExport sidesOf
    cases t.f01 <;> cases t.f12 <;> cases t.f20 <;> simp [hat h1, hat h2, hat h3]

/-- C91, partial: If the contours do not touch each other at a vertex, the triangulation is exported to STL as a closed surface: in
the solid over it every directed line between two corners occurs as often as its reverse.  (Full statement: the same without
`Once l`, which is false, see `C91_not`.) -/
theorem C91_closed_partial {ring : Ring.St} {back : Nat → Bool} {idx : Nat → Bool → Option Nat} {rm : Nat → V} {ins : Ins} {n : Nat}
    {fuel : Nat} {st : St} (hl : Proper l) (ha : Arranged ed l) (hins : IsSearch ed ins) (hn : ∀ v ∈ l, v.edge < n)
    (hfuel : n + l.length ≤ fuel) (h : trianglify ring back idx rm ed n ins fuel l = .ok (true, st)) (ho : Once l) :
    Export.Balanced (Export.edgesOf (Export.corners (Export.solid false (st.tris.map toExport)))) := by
  rw [Export.C50_closed, inner_idx (nodup_lt (C87_points hl ha hins hn hfuel h).1) (C87_triangles hl ha hins hn hfuel h)]
  refine Export.balanced_map _ (fun p => st.points.idxOf p) ?_
  unfold Export.Balanced
  rw [List.perm_iff_count]
  intro x
  have h1 := (flag_counts hl ha hins hn hfuel h ho x).2
  rw [h1]
  conv_lhs => rw [← Prod.swap_swap x]
  exact List.count_map_of_injective _ _ Prod.swap_injective _

end

/-! ### two contours that touch each other -/

section
open Hob3l.Poly (linear linear_search)

/-- the ends of the edges of two triangles with a common corner -/
def touchEnds : Nat → Bool → P
  | 0, false => (0, 0) | 0, true => (4, 0)
  | 1, false => (0, 0) | 1, true => (1, 1)
  | 2, false => (1, 1) | 2, true => (4, 0)
  | 3, false => (0, 5) | 3, true => (4, 0)
  | 4, false => (0, 5) | 4, true => (8, 5)
  | _, false => (4, 0) | _, true => (8, 5)

/-- in the order of the sweep -/
def touch : List Vtx :=
  [⟨0, false, (0, 0)⟩, ⟨1, false, (0, 0)⟩, ⟨3, false, (0, 5)⟩, ⟨4, false, (0, 5)⟩, ⟨1, true, (1, 1)⟩, ⟨2, false, (1, 1)⟩,
   ⟨3, true, (4, 0)⟩, ⟨2, true, (4, 0)⟩, ⟨0, true, (4, 0)⟩, ⟨5, false, (4, 0)⟩, ⟨4, true, (8, 5)⟩, ⟨5, true, (8, 5)⟩]

theorem touch_apart (e f : Nat) (he : e < 6) (hf : f < 6) (hne : e ≠ f) :
    Poly.NonCrossing (touchEnds e false) (touchEnds e true) (touchEnds f false) (touchEnds f true) := by
  intro s t s0 s1 t0 t1 h
  unfold Poly.pointAt at h
  rw [Prod.mk.injEq] at h
  obtain ⟨h1, h2⟩ := h
  interval_cases e <;> interval_cases f <;> first | exact absurd rfl hne | skip
  all_goals
    simp only [touchEnds] at h1 h2
    push_cast at h1 h2
    first
    | (exfalso; linarith)
    | exact ⟨.inl (by linarith), .inl (by linarith)⟩
    | exact ⟨.inl (by linarith), .inr (by linarith)⟩
    | exact ⟨.inr (by linarith), .inl (by linarith)⟩
    | exact ⟨.inr (by linarith), .inr (by linarith)⟩

theorem touch_proper : Proper touch := by
  intro e
  by_cases h : e < 6
  · have : e = 0 ∨ e = 1 ∨ e = 2 ∨ e = 3 ∨ e = 4 ∨ e = 5 := by omega
    rcases this with rfl | rfl | rfl | rfl | rfl | rfl <;> exact .inr ⟨_, _, by decide, rfl⟩
  · left
    rw [List.filter_eq_nil_iff]
    intro v hv
    have : ∀ v ∈ touch, v.edge < 6 := by decide
    have := this v hv
    simp; omega

theorem touch_arranged : Arranged touchEnds touch := by
  refine ⟨by decide, by unfold Small; decide, ?_, ?_⟩
  · have : touch.Pairwise fun v w => Poly.resultCmp touchEnds v w = some (-1) := by decide +kernel
    exact this.imp fun h => ⟨-1, h, by decide⟩
  · have : ∀ v ∈ touch, v.edge < 6 := by decide
    exact fun v hv w hw hne => touch_apart _ _ (this v hv) (this w hw) hne

/-- the triangulation of the two triangles -/
theorem touch_run : ((trianglify ⟨id, id⟩ (fun _ => false) (fun _ _ => none) (fun _ => (0, false)) touchEnds 6 (linear touchEnds) 20
    touch).toOption.map fun r => (r.1, r.2.points, r.2.tris)) =
    some (true, [(0, 0), (0, 5), (1, 1), (4, 0), (8, 5)], [⟨2, 3, 0, true, true, true⟩, ⟨1, 4, 3, true, true, false⟩]) := by
  decide +kernel

theorem touch_ok : ∃ st, trianglify ⟨id, id⟩ (fun _ => false) (fun _ _ => none) (fun _ => (0, false)) touchEnds 6 (linear touchEnds) 20
    touch = .ok (true, st) ∧ st.points = [(0, 0), (0, 5), (1, 1), (4, 0), (8, 5)] ∧
    st.tris = [⟨2, 3, 0, true, true, true⟩, ⟨1, 4, 3, true, true, false⟩] := by
  have h := touch_run
  cases hr : trianglify ⟨id, id⟩ (fun _ => false) (fun _ _ => none) (fun _ => (0, false)) touchEnds 6 (linear touchEnds) 20 touch with
  | error e => rw [hr] at h; cases h
  | ok r =>
    rw [hr] at h
    obtain ⟨a, st⟩ := r
    simp only [Except.toOption, Option.map_some, Option.some.injEq, Prod.mk.injEq] at h
    obtain ⟨rfl, h2, h3⟩ := h
    exact ⟨st, rfl, h2, h3⟩

/-- C90 does not hold without the restriction: two triangles touch in one corner, and an edge of one of them, from (4, 0) to (0, 5),
is not flagged as outline. -/
theorem C90_not : ∃ (ed : Nat → Bool → P) (l : List Vtx) (st : St), Proper l ∧ Arranged ed l ∧ IsSearch ed (linear ed) ∧
    (∀ v ∈ l, v.edge < 6) ∧ 6 + l.length ≤ 20 ∧
    trianglify ⟨id, id⟩ (fun _ => false) (fun _ _ => none) (fun _ => (0, false)) ed 6 (linear ed) 20 l = .ok (true, st) ∧
    ∃ v ∈ l, (ed v.edge false, ed v.edge true) ∉ outline st.points st.tris ∧
      (ed v.edge true, ed v.edge false) ∉ outline st.points st.tris := by
  obtain ⟨st, h1, h2, h3⟩ := touch_ok
  refine ⟨touchEnds, touch, st, touch_proper, touch_arranged, linear_search _, by decide, by decide, h1, ⟨3, true, (4, 0)⟩, by decide, ?_⟩
  rw [h2, h3]
  decide +kernel

/-- C91 does not hold without the restriction: the solid over two triangles that touch in one corner is exported as an open surface. -/
theorem C91_not : ∃ (ed : Nat → Bool → P) (l : List Vtx) (st : St), Proper l ∧ Arranged ed l ∧ IsSearch ed (linear ed) ∧
    (∀ v ∈ l, v.edge < 6) ∧ 6 + l.length ≤ 20 ∧
    trianglify ⟨id, id⟩ (fun _ => false) (fun _ _ => none) (fun _ => (0, false)) ed 6 (linear ed) 20 l = .ok (true, st) ∧
    ¬ Export.Balanced (Export.edgesOf (Export.corners (Export.solid false (st.tris.map toExport)))) := by
  obtain ⟨st, h1, h2, h3⟩ := touch_ok
  refine ⟨touchEnds, touch, st, touch_proper, touch_arranged, linear_search _, by decide, by decide, h1, ?_⟩
  rw [h3]
  unfold Export.Balanced
  decide +kernel

/-- the hypotheses of all theorems can be met: the square with a hole of C88, which has no contours that touch each other -/
example : Proper hole ∧ Arranged holeEnds hole ∧ IsSearch holeEnds (linear holeEnds) ∧ Once hole ∧
    ((trianglify ⟨id, id⟩ (fun _ => false) (fun _ _ => none) (fun _ => (0, false)) holeEnds 8 (linear holeEnds) 24 hole).toOption.map
      fun r => (r.1, (allSides r.2.points r.2.tris).length, (outline r.2.points r.2.tris).length,
        ((Export.solid false (r.2.tris.map toExport)).length))) = some (true, 24, 8, 32) := by
  refine ⟨hole_proper, hole_arranged, linear_search _, ?_, by decide +kernel⟩
  intro p
  by_cases hp : ∃ v ∈ hole, v.pos = p
  · obtain ⟨v, hv, rfl⟩ := hp
    revert v
    decide
  · rw [List.countP_eq_zero.2 (by simpa using hp)]; omega

end

end Hob3l.Tri
