import Verif.Sweep.LemmasLoop2
import Verif.Sweep.LemmasLoopAdd
import Verif.Sweep.LoopExample

/-
Property theorems C108-C110: whole runs of the plane sweep (`cq_sweep_intersect`).
-/

namespace Hob3l.Sweep

open Hob3l.Matq

/-! ## C108 finding the intersections -/

/-- C108: whatever edges are added, when the first phase of the sweep is through, the edges left cover every point of the
plane exactly as the edges added did (in the sense of XOR of the polygons they belong to), the same number modulo 2 of
edges of every polygon ends at every grid point, every edge is a part of an edge added, and every crossing
recorded is a point of an edge added. -/
theorem C108_find_intersections (debug : Bool) (E : List Edge) (hE : Fresh E) (s : S1) (h : Phase1 debug ⟨E, [], []⟩ s) :
    (∀ X, coverAll s.edges X = coverAll E X) ∧ (∀ v, endXor v s.edges = endXor v E) ∧
    (∀ x ∈ s.edges, LexLt x.left x.rigt ∧ x.left.InRange ∧ x.rigt.InRange ∧ (∃ y ∈ E, x.Within y) ∧
      x.inState = false ∧ x.agL = false ∧ x.agR = false) ∧
    (∀ P ∈ s.found, P.Valid ∧ ∃ y ∈ E, OnSeg y.left.pt y.rigt.pt P.pt) := by
  obtain ⟨inv, ag⟩ := h.inv (inv1_init hE)
  refine ⟨inv.cov, inv.ends, ?_, inv.fo⟩
  intro x hx
  have ok := inv.ok x hx
  have ha := ag x hx
  refine ⟨ok.lt, ok.rl, ok.rr, ok.src, ?_⟩
  rcases ok.fl with f | f | f
  · exact f
  · unfold Edge.agenda at ha; rw [f.2.2] at ha; simp at ha
  · unfold Edge.agenda at ha; rw [f.2.2] at ha; simp at ha

example : Fresh [Ex.A, Ex.B] ∧ Phase1 false ⟨[Ex.A, Ex.B], [], []⟩ ⟨[Ex.A2, Ex.B2], [], [Ex.P]⟩ := by
  refine ⟨?_, Ex.phase1⟩
  unfold Fresh Vec2.InRange; decide

/-! ## C109 the result is closed again -/

/-- C109: for every run of the intersection sweep (whatever the geometric searches find), the number of edges of a polygon
that end at a grid point is, modulo 2, the same in the result as in the input, for every grid point and every polygon.
The result edges are directed from left to right, and no two leave a point in the same direction. -/
theorem C109_ends (debug : Bool) (E R : List Edge) (hE : Fresh E) (h : Intersect debug anySel E R) :
    (∀ v, endXor v R = endXor v E) ∧ (∀ x ∈ R, LexLt x.left x.rigt) ∧
    R.Pairwise (fun x y => x.left = y.left → side x.rigt x.left y.rigt ≠ 0) := by
  obtain ⟨F, -, pl⟩ := h.place (P := fun _ => True) (M := fun _ _ => True) hE
    (fun _ _ => ⟨fun _ _ => ⟨trivial, trivial, trivial⟩, fun _ _ _ _ _ => trivial, fun _ _ _ _ _ => trivial⟩)
  exact ⟨h.ends hE, pl.ok.lt, pl.ok.apart⟩

example : Fresh [Ex.A, Ex.B] ∧ Intersect false anySel [Ex.A, Ex.B] Ex.R ∧ endXor ⟨1, 1⟩ Ex.R = 1 ∧
    endXor ⟨1, 0⟩ Ex.R = 2 := by
  refine ⟨?_, Ex.run _ (fun _ _ _ => trivial), by decide, by decide⟩
  unfold Fresh Vec2.InRange; decide

/-- C109: polygons given by paths: all paths are added, each with its polygon's member mask -/
theorem C109_polygons (debug : Bool) (paths : List (List Vec2 × BitVec 64))
    (hr : ∀ q ∈ paths, ∀ v ∈ q.1, v.InRange) :
    ∃ E, addPaths paths = some E ∧ Closed E ∧ ∀ R, Intersect debug anySel E R → Closed R := by
  obtain ⟨E, h1, h2, h3⟩ := addPaths_spec paths hr
  exact ⟨E, h1, h3, fun R hR v => by rw [(C109_ends debug E R h2 hR).1 v]; exact h3 v⟩

/-! ## C110 rounding moves nothing by more than half a unit -/

/-- C110: every vertex of the result is not farther than half a unit (in each coordinate) from a point of an input edge -/
theorem C110_vertices (debug : Bool) (E R : List Edge) (hE : Fresh E) (h : Intersect debug anySel E R) :
    ∀ r ∈ R, (∃ y ∈ E, ∃ Y, OnSeg y.left.pt y.rigt.pt Y ∧ Near r.left.pt Y) ∧
      (∃ y ∈ E, ∃ Y, OnSeg y.left.pt y.rigt.pt Y ∧ Near r.rigt.pt Y) := by
  obtain ⟨F, -, pl⟩ := h.place
    (P := fun p => ∃ y ∈ E, ∃ Y, OnSeg y.left.pt y.rigt.pt Y ∧ Near p.pt Y) (M := fun _ _ => True) hE (by
      intro s inv
      refine ⟨fun e he => ?_, fun x hx p h1 h2 => ?_, fun _ _ _ _ _ => trivial⟩
      · obtain ⟨y, hy, w⟩ := (inv.ok e he).src
        exact ⟨⟨y, hy, _, w _ (onSeg_left _ _), near_of_pixel (inPixel_self _)⟩,
          ⟨y, hy, _, w _ (onSeg_right _ _), near_of_pixel (inPixel_self _)⟩, trivial⟩
      · obtain ⟨v, y, hy, hs⟩ := inv.fo x hx
        obtain ⟨-, r1, r2, -⟩ := hE y hy
        exact ⟨y, hy, _, hs, near_of_pixel (round_pixel v r1 r2 hs h1 h2).1⟩)
  intro r hr
  exact ⟨(pl.res r hr).1, (pl.res r hr).2.1⟩

/-- C110: if the trees are sorted whenever they are searched (so that the edges selected for a pixel are those that
compare equal to it), every point of every result edge is not farther than half a unit (in each coordinate) from a point
of an input edge.
What is missing: that the trees are sorted in every run. -/
theorem C110_edges_partial (debug : Bool) (E R : List Edge) (hE : Fresh E) (h : Intersect debug sortedSel E R) :
    ∀ r ∈ R, ∃ y ∈ E, ∀ X, OnSeg r.left.pt r.rigt.pt X → ∃ Y, OnSeg y.left.pt y.rigt.pt Y ∧ Near X Y := by
  obtain ⟨F, hF, pl⟩ := h.place (P := Vec2.InRange)
    (M := fun p e => ∃ X, OnSeg e.left.pt e.rigt.pt X ∧ InPixel p X) hE (by
      intro s inv
      refine ⟨fun e he => ?_, fun x hx p h1 h2 => ?_, fun p hp e he hs => ?_⟩
      · have ok := inv.ok e he
        exact ⟨ok.rl, ok.rr, _, onSeg_left _ _, inPixel_self _⟩
      · obtain ⟨v, y, hy, hs⟩ := inv.fo x hx
        obtain ⟨-, r1, r2, -⟩ := hE y hy
        exact (round_pixel v r1 r2 hs h1 h2).2
      · have ok := inv.ok e he
        have hx : e.left.x ≤ e.rigt.x := by have := ok.lt; unfold LexLt at this; omega
        obtain ⟨r, h1, h2, -⟩ := C13_pixel_edge p e.rigt e.left hp ok.rr ok.rl hx ok.lt.ne
        have : r = 0 := by
          unfold sortedSel at hs; rw [hs] at h1; exact (Option.some.inj h1).symm
        exact h2.mp this)
  intro r hr
  obtain ⟨-, -, e, he, ⟨A, a1, a2⟩, ⟨B, b1, b2⟩⟩ := pl.res r hr
  obtain ⟨y, hy, w⟩ := (hF e he).src
  refine ⟨y, hy, fun X hX => ?_⟩
  obtain ⟨Y, y1, y2⟩ := near_seg (near_of_pixel a2) (near_of_pixel b2) hX
  exact ⟨Y, w _ (onSeg_convex a1 b1 y1), y2⟩

example : Fresh [Ex.A, Ex.B] ∧ Intersect false sortedSel [Ex.A, Ex.B] Ex.R := by
  refine ⟨?_, Ex.run _ (fun _ _ h => h)⟩
  unfold Fresh Vec2.InRange; decide

end Hob3l.Sweep
