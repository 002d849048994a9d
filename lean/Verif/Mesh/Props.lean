import Verif.Mesh.Lemmas
import Verif.Solid.LemmasTower
import Mathlib.Tactic.NormNum
import Mathlib.Tactic.IntervalCases
import Mathlib.Tactic.SplitIfs

/-!
# C132: polyhedron and polygon are taken as they are given
-/

namespace Hob3l.Mesh

open Hob3l.Solid

theorem co3_inj : Function.Injective co3 := by
  intro a b h
  obtain ⟨x, y, z⟩ := a
  obtain ⟨x', y', z'⟩ := b
  simp only [co3, List.cons.injEq, and_true] at h
  obtain ⟨rfl, rfl, rfl⟩ := h
  rfl

theorem co2_inj : Function.Injective co2 := by
  intro a b h
  simp only [co2, List.cons.injEq, and_true] at h
  exact Prod.ext h.1 h.2

/-- the point with number `i` -/
def pt (pts : List P3) (i : Nat) : P3 := pts.getD i ⟨0, 0, 0⟩

theorem pt_map (m : Aff) (pts : List P3) {i : Nat} (h : i < pts.length) : pt (pts.map m.app) i = m.app (pt pts i) := by
  simp [pt, List.getD, h]

theorem faces_map (m : Aff) (pts : List P3) (F : List (List Nat)) (h : ∀ f ∈ F, ∀ i ∈ f, i < pts.length) :
    F.map (List.map (pt (pts.map m.app))) = F.map (List.map fun i => m.app (pt pts i)) := by
  apply List.map_congr_left
  intro f hf
  apply List.map_congr_left
  intro i hi
  exact pt_map m pts (h f hf i hi)

/-- **C132** (partial: for points with coordinates that are equal or at least epsilon apart, see `C132_sort_wrong`).  A polyhedron of at
least four different points and at least four faces gets exactly these points, moved by the surrounding transformation, and these
faces; they are all reversed if the transformation mirrors.  If the faces are closed and plane, then the volume is that of the
given solid, times the absolute value of the determinant. -/
theorem C132_polyhedron_partial (e : ℝ) (h0 : 0 < e) (q : QSort) (hq : q.Ok) (c : Env) (hi : c.inside = true) (m : Aff)
    (pts : List P3) (faces : List (List Nat)) (h4 : 4 ≤ pts.length) (hf : 4 ≤ faces.length)
    (hr : ∀ f ∈ faces, ∀ i ∈ f, i < pts.length) (hs : Spaced e (pts.map co3)) (hn : pts.Nodup) :
    ∃ F, polyhedron e q c m pts faces = .made (pts.map m.app) F ∧
      (m.det < 0 → F = faces.map List.reverse) ∧ (0 ≤ m.det → F = faces) ∧
      (Closed faces → (∀ f ∈ faces, Planar (f.map (pt pts))) →
        vol6 (F.map (List.map (pt (pts.map m.app)))) = |m.det| * vol6 (faces.map (List.map (pt pts)))) := by
  have hc := (check_spaced h0 q hq hs).1 (hn.map co3_inj)
  have he : polyhedron e q c m pts faces = .made (pts.map m.app) (faces.map (revPerhaps (decide (m.det < 0)))) := by
    unfold polyhedron
    simp only [hi, Bool.not_true, Bool.false_eq_true, if_false, not_lt.2 h4, not_lt.2 hf, hc]
  have hneg : m.det < 0 → faces.map (revPerhaps (decide (m.det < 0))) = faces.map List.reverse := by
    intro h
    apply List.map_congr_left
    intro f _
    simp [revPerhaps, h]
  have hpos : 0 ≤ m.det → faces.map (revPerhaps (decide (m.det < 0))) = faces := by
    intro h
    conv_rhs => rw [← List.map_id faces]
    apply List.map_congr_left
    intro f _
    simp [revPerhaps, not_lt.2 h]
  refine ⟨_, he, hneg, hpos, fun hcl hpl => ?_⟩
  by_cases h : m.det < 0
  · rw [hneg h, faces_map m pts _ (by
      intro f hf' i hi'
      obtain ⟨g, hg, rfl⟩ := List.mem_map.1 hf'
      exact hr g hg i (List.mem_reverse.1 hi')),
      vol6_affine m (pt pts) _ (closed_reverse hcl), abs_of_neg h]
    have e2 : (faces.map List.reverse).map (List.map (pt pts)) = (faces.map (List.map (pt pts))).map List.reverse := by
      rw [List.map_map, List.map_map]
      apply List.map_congr_left
      intro f _
      simp
    rw [e2, vol6_reverse (by
      intro f hf'
      obtain ⟨g, hg, rfl⟩ := List.mem_map.1 hf'
      exact hpl g hg)]
    ring
  · rw [hpos (not_lt.1 h), faces_map m pts _ hr, vol6_affine m (pt pts) _ hcl, abs_of_nonneg (not_lt.1 h)]

/-- **C132** (partial, as `C132_polyhedron_partial`).  A polygon of at least three different points gets exactly these points, moved by the
surrounding transformation, and these paths. -/
theorem C132_polygon_partial (e : ℝ) (h0 : 0 < e) (q : QSort) (hq : q.Ok) (c : Env) (hi : c.inside = true) (m : Aff)
    (pts : List (ℝ × ℝ)) (paths : List (List Nat)) (h3 : 3 ≤ pts.length) (hs : Spaced e (pts.map co2)) (hn : pts.Nodup) :
    ∃ P, polygon e q c m pts paths = .made P paths ∧ P.length = pts.length ∧
      ∀ i (h : i < pts.length) (h' : i < P.length),
        P[i] = (m.a.x * pts[i].1 + m.a.y * pts[i].2 + m.t.x, m.b.x * pts[i].1 + m.b.y * pts[i].2 + m.t.y) := by
  have hc := (check_spaced h0 q hq hs).1 (hn.map co2_inj)
  have he : polygon e q c m pts paths = .made (pts.map (xform2 m)) paths := by
    unfold polygon
    simp only [hi, Bool.not_true, Bool.false_eq_true, if_false, not_lt.2 h3, hc]
  refine ⟨_, he, by simp, fun i h h' => ?_⟩
  rw [List.getElem_map]
  simp [xform2, Aff.app]

/-- **C132**.  Two equal points are always found, wherever they are in the list, and so are, more generally, two points that are closer
than epsilon in all directions, if the comparison does not contradict itself; then it is an error.  Otherwise it is none. -/
theorem C132_duplicate (e : ℝ) (q : QSort) (hq : q.Ok) (c : Env) (hi : c.inside = true) (m : Aff) :
    (∀ (pts : List P3) faces, 4 ≤ pts.length → 4 ≤ faces.length → Consistent (lexCmp e) (pts.map co3) →
      (polyhedron e q c m pts faces = .fail ↔
        ∃ i j, ∃ (hij : i < j) (hj : j < pts.length), |pts[i].x - pts[j].x| < e ∧ |pts[i].y - pts[j].y| < e ∧ |pts[i].z - pts[j].z| < e)) ∧
    (∀ (pts : List (ℝ × ℝ)) paths, 3 ≤ pts.length → Consistent (lexCmp e) (pts.map co2) →
      (polygon e q c m pts paths = .fail ↔
        ∃ i j, ∃ (hij : i < j) (hj : j < pts.length), |pts[i].1 - pts[j].1| < e ∧ |pts[i].2 - pts[j].2| < e)) := by
  constructor
  · intro pts faces h4 hf hc
    obtain ⟨b, hb, hiff⟩ := check_eq e q hq _ hc
    have he : polyhedron e q c m pts faces = .fail ↔ b = true := by
      unfold polyhedron
      simp only [hi, Bool.not_true, Bool.false_eq_true, if_false, not_lt.2 h4, not_lt.2 hf, hb]
      cases b <;> simp
    rw [he]
    have h1 : b = true ↔ ¬ (pts.map co3).Pairwise fun a b => lexCmp e a b ≠ 0 := by rw [← hiff]; simp
    rw [h1, List.pairwise_map, List.pairwise_iff_getElem]
    simp only [not_forall, not_not]
    constructor
    · rintro ⟨i, j, hi', hj, hij, h⟩
      refine ⟨i, j, hij, hj, ?_⟩
      revert h
      simp only [co3, lexCmp]
      split_ifs <;> simp_all
    · rintro ⟨i, j, hij, hj, a1, a2, a3⟩
      refine ⟨i, j, hij.trans hj, hj, hij, ?_⟩
      simp [co3, lexCmp, a1, a2, a3]
  · intro pts paths h3 hc
    obtain ⟨b, hb, hiff⟩ := check_eq e q hq _ hc
    have he : polygon e q c m pts paths = .fail ↔ b = true := by
      unfold polygon
      simp only [hi, Bool.not_true, Bool.false_eq_true, if_false, not_lt.2 h3, hb]
      cases b <;> simp
    rw [he]
    have h1 : b = true ↔ ¬ (pts.map co2).Pairwise fun a b => lexCmp e a b ≠ 0 := by rw [← hiff]; simp
    rw [h1, List.pairwise_map, List.pairwise_iff_getElem]
    simp only [not_forall, not_not]
    constructor
    · rintro ⟨i, j, hi', hj, hij, h⟩
      refine ⟨i, j, hij, hj, ?_⟩
      revert h
      simp only [co2, lexCmp]
      split_ifs <;> simp_all
    · rintro ⟨i, j, hij, hj, a1, a2⟩
      refine ⟨i, j, hij.trans hj, hj, hij, ?_⟩
      simp [co2, lexCmp, a1, a2]

/-- **C132**.  What is refused or skipped before the points are looked at: the wrong context, too few points, too few faces. -/
theorem C132_refused (e : ℝ) (q : QSort) (c : Env) (m : Aff) :
    (∀ pts faces, c.inside = false → polyhedron e q c m pts faces = if c.outsideFails then .fail else .nothing) ∧
    (∀ pts faces, c.inside = true → pts.length < 4 ∨ faces.length < 4 →
      polyhedron e q c m pts faces = if c.emptyFails then .fail else .nothing) ∧
    (∀ pts paths, c.inside = false → polygon e q c m pts paths = if c.outsideFails then .fail else .nothing) ∧
    (∀ pts paths, c.inside = true → pts.length < 3 → polygon e q c m pts paths = if c.emptyFails then .fail else .nothing) := by
  refine ⟨fun pts faces h => by simp [polyhedron, h, msg], fun pts faces h h' => ?_, fun pts paths h => by simp [polygon, h, msg],
    fun pts paths h h' => by simp [polygon, h, h', msg]⟩
  by_cases h1 : pts.length < 4
  · simp [polyhedron, h, h1, msg]
  · have h2 : faces.length < 4 := h'.resolve_left h1
    simp [polyhedron, h, h1, h2, msg]

/-- three points, and a fourth one far away: the first is before the third, which is before the second, which is before the first -/
noncomputable def cyc (e : ℝ) : List P3 := [⟨0, 2 * e, 0⟩, ⟨3 / 5 * e, e, 0⟩, ⟨6 / 5 * e, 0, 0⟩, ⟨0, 0, 9 * e⟩]

/-- **C132** (the code is wrong here).  The comparison with epsilon that is used for sorting contradicts itself if coordinates are closer
than epsilon, although no two of the points are: the behaviour of `qsort` is undefined.  For every epsilon there are such
points. -/
theorem C132_sort_wrong (e : ℝ) (h0 : 0 < e) (q : QSort) (c : Env) (hi : c.inside = true) (m : Aff) (faces : List (List Nat))
    (hf : 4 ≤ faces.length) :
    (cyc e).length = 4 ∧ ((cyc e).Pairwise fun a b => e ≤ |a.x - b.x| ∨ e ≤ |a.y - b.y| ∨ e ≤ |a.z - b.z|) ∧
    polyhedron e q c m (cyc e) faces = .undef := by
  refine ⟨rfl, ?_, ?_⟩
  · simp only [cyc, List.pairwise_cons, List.mem_cons, List.not_mem_nil, or_false, forall_eq_or_imp, forall_eq, List.Pairwise.nil,
      and_true, IsEmpty.forall_iff, implies_true]
    refine ⟨⟨?_, ?_, ?_⟩, ⟨?_, ?_⟩, ?_⟩
    · right; left; rw [abs_of_nonneg (by linarith)]; linarith
    · left; rw [abs_of_nonpos (by linarith)]; linarith
    · right; right; rw [abs_of_nonpos (by linarith)]; linarith
    · right; left; rw [abs_of_nonneg (by linarith)]; linarith
    · right; right; rw [abs_of_nonpos (by linarith)]; linarith
    · right; right; rw [abs_of_nonpos (by linarith)]; linarith
  · have hc : ¬ Consistent (lexCmp e) ((cyc e).map co3) := by
      rintro ⟨-, h⟩
      have h1 : lexCmp e [6 / 5 * e, 0, 0] [3 / 5 * e, e, 0] = -1 := by
        have a : |6 / 5 * e - 3 / 5 * e| < e := by rw [abs_of_nonneg (by linarith)]; linarith
        have b : ¬ |0 - e| < e := by rw [abs_of_nonpos (by linarith)]; linarith
        simp only [lexCmp, a, b, not_true_eq_false, not_false_eq_true, if_true, if_false, h0]
      have h2 : lexCmp e [3 / 5 * e, e, 0] [0, 2 * e, 0] = -1 := by
        have a : |3 / 5 * e - 0| < e := by rw [abs_of_nonneg (by linarith)]; linarith
        have b : ¬ |e - 2 * e| < e := by rw [abs_of_nonpos (by linarith)]; linarith
        have d : e < 2 * e := by linarith
        simp only [lexCmp, a, b, not_true_eq_false, not_false_eq_true, if_true, if_false, d]
      have h3 : lexCmp e [6 / 5 * e, 0, 0] [0, 2 * e, 0] = 1 := by
        have a : ¬ |6 / 5 * e - 0| < e := by rw [abs_of_nonneg (by linarith)]; linarith
        have d : ¬ 6 / 5 * e < 0 := by linarith
        simp only [lexCmp, a, not_false_eq_true, if_true, if_false, d]
      have := h [6 / 5 * e, 0, 0] (by simp [cyc, co3]) [3 / 5 * e, e, 0] (by simp [cyc, co3]) [0, 2 * e, 0] (by simp [cyc, co3])
        (by rw [h1]; decide) (by rw [h2]; decide)
      rw [h3] at this
      exact absurd this (by decide)
    have h4 : ¬ (cyc e).length < 4 := by simp [cyc]
    unfold polyhedron
    simp only [hi, Bool.not_true, Bool.false_eq_true, if_false, h4, not_lt.2 hf, check, hc]

/-! ### examples -/

theorem insert_sorted (cmp : List ℝ → List ℝ → Int) (a : List ℝ) (l : List (List ℝ)) (hc : Consistent cmp (a :: l))
    (hs : l.Pairwise fun a b => cmp a b ≤ 0) : ∃ l', (a :: l).Perm l' ∧ l'.Pairwise fun a b => cmp a b ≤ 0 := by
  induction l with
  | nil => exact ⟨[a], List.Perm.refl _, by simp⟩
  | cons b l ih =>
    obtain ⟨h1, h2⟩ := List.pairwise_cons.1 hs
    by_cases hab : cmp a b ≤ 0
    · refine ⟨a :: b :: l, List.Perm.refl _, List.pairwise_cons.2 ⟨fun x hx => ?_, hs⟩⟩
      rcases List.mem_cons.1 hx with rfl | hx
      · exact hab
      · exact hc.2 a (by simp) b (by simp) x (by simp [hx]) hab (h1 x hx)
    · have hba : cmp b a ≤ 0 := by
        have := (hc.1 a (by simp) b (by simp)).not.1 hab
        omega
      have hsub : ∀ x ∈ a :: l, x ∈ a :: b :: l := by
        intro x hx
        rcases List.mem_cons.1 hx with rfl | hx
        · simp
        · simp [hx]
      obtain ⟨l', hp, hs'⟩ := ih ⟨fun x hx y hy => hc.1 x (hsub x hx) y (hsub y hy),
        fun x hx y hy z hz => hc.2 x (hsub x hx) y (hsub y hy) z (hsub z hz)⟩ h2
      refine ⟨b :: l', (List.Perm.swap b a l).trans (hp.cons b), List.pairwise_cons.2 ⟨fun x hx => ?_, hs'⟩⟩
      rcases List.mem_cons.1 (hp.mem_iff.2 hx) with rfl | hx
      · exact hba
      · exact h1 x hx

theorem exists_sorted (cmp : List ℝ → List ℝ → Int) (l : List (List ℝ)) (hc : Consistent cmp l) :
    ∃ l', l.Perm l' ∧ l'.Pairwise fun a b => cmp a b ≤ 0 := by
  induction l with
  | nil => exact ⟨[], List.Perm.refl _, .nil⟩
  | cons a l ih =>
    obtain ⟨l1, hp, hs⟩ := ih ⟨fun x hx y hy => hc.1 x (by simp [hx]) y (by simp [hy]),
      fun x hx y hy z hz => hc.2 x (by simp [hx]) y (by simp [hy]) z (by simp [hz])⟩
    obtain ⟨l2, hp2, hs2⟩ := insert_sorted cmp a l1 (consistent_perm (hp.cons a) hc) hs
    exact ⟨l2, (hp.cons a).trans hp2, hs2⟩

open Classical in
/-- there is a `qsort` as promised -/
example : ∃ q : QSort, q.Ok :=
  ⟨⟨fun cmp l => if h : Consistent cmp l then (exists_sorted cmp l h).choose else l⟩, fun cmp l h => by
    simp only [dif_pos h]
    exact (exists_sorted cmp l h).choose_spec⟩

/-- corners of a tetrahedron -/
def exPts : List P3 := [⟨0, 0, 0⟩, ⟨1, 0, 0⟩, ⟨0, 1, 0⟩, ⟨0, 0, 1⟩]

def exFaces : List (List Nat) := [[0, 2, 1], [0, 1, 3], [1, 2, 3], [2, 0, 3]]

example : Spaced (1 / 2) (exPts.map co3) := by
  simp only [Spaced, exPts, co3, List.map_cons, List.map_nil, List.mem_cons, List.not_mem_nil, or_false]
  rintro a (rfl | rfl | rfl | rfl) b (rfl | rfl | rfl | rfl) <;> refine ⟨rfl, fun i h _ => ?_⟩ <;>
    · have h' : i < 3 := h
      interval_cases i <;> norm_num

example : exPts.Nodup := by
  simp [exPts]

example : Closed exFaces := by
  have h : (allSides exFaces).Perm ((allSides exFaces).map Prod.swap) := by decide
  intro a b
  have c := List.count_map_of_injective (allSides exFaces) Prod.swap Prod.swap_injective
  rw [h.count_eq, show (a, b) = Prod.swap (b, a) from rfl, c]

example : ∀ f ∈ exFaces, Planar (f.map (pt exPts)) := by
  simp only [exFaces, List.mem_cons, List.not_mem_nil, or_false]
  rintro f (rfl | rfl | rfl | rfl)
  · exact ⟨⟨0, 0, 1⟩, 0, by norm_num, by simp [pt, exPts]⟩
  · exact ⟨⟨0, 1, 0⟩, 0, by norm_num, by simp [pt, exPts]⟩
  · exact ⟨⟨1, 1, 1⟩, 1, by norm_num, by simp [pt, exPts]⟩
  · exact ⟨⟨1, 0, 0⟩, 0, by norm_num, by simp [pt, exPts]⟩

example : vol6 (exFaces.map (List.map (pt exPts))) = 1 := by
  simp [vol6, exFaces, pt, exPts, faceVol, fan, det3]

end Hob3l.Mesh
