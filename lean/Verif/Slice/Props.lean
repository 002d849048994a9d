import Verif.Slice.LemmasMesh
import Mathlib.Data.List.Sort

/-
Property theorems C24 - C27, C58: slicing.
-/

namespace Hob3l.Slice

open Hob3l.Matq Hob3l.Sweep

/-- insertion sort by key: an instance of what is assumed of libc's sort -/
def msort : QSort := ⟨fun l => l.insertionSort (fun a b => a.1 ≤ b.1)⟩

theorem msort_ok : msort.Ok := by
  intro l
  have : Std.Total (fun a b : Int × Vec2 => a.1 ≤ b.1) := ⟨fun a b => by omega⟩
  have : IsTrans (Int × Vec2) (fun a b => a.1 ≤ b.1) := ⟨fun a b c h1 h2 => by omega⟩
  exact ⟨List.perm_insertionSort _ l, List.pairwise_insertionSort _ l⟩

/-- a tetrahedron -/
def tetra : List (List Vec3) :=
  let a : Vec3 := ⟨0, 0, 0⟩; let b : Vec3 := ⟨10, 0, 0⟩; let c : Vec3 := ⟨0, 10, 0⟩; let d : Vec3 := ⟨3, 3, 10⟩
  [[a, c, b], [a, b, d], [b, c, d], [c, a, d]]

/-! ## C24 even number of cut points -/

/-- C24: adding a face never fails, and appends an even number of points: exactly one (rounded) cut point for each side
that crosses the plane.  Faces with less than three vertices are ignored. -/
theorem C24_even_cut_points (qs : QSort) (hq : qs.Ok) (z : Int) (out : List Vec2) (face : List Vec3)
    (hf : ∀ v ∈ face, v.InRange) (he : out.length % 2 = 0) :
    ∃ t, addFace qs z out face = some (out ++ t) ∧ t.length % 2 = 0 ∧
      (face.length < 3 → t = []) ∧
      (3 ≤ face.length → ∃ cs, t.Perm cs ∧
        List.Forall₂ (fun s p => IsCut z s.1 s.2 p) ((sides face).filter fun s => decide (Crosses z s)) cs) := by
  by_cases h3 : 3 ≤ face.length
  · obtain ⟨t, h1, h2, -⟩ := addFace_spec qs hq z out face hf h3 he
    refine ⟨t, h1, by rw [h2.length_eq]; exact sides_parity z face, fun h => absurd h (by omega), fun _ => ⟨_, h2, ?_⟩⟩
    unfold cuts
    generalize (sides face).filter (fun s => decide (Crosses z s)) = S
    induction S with
    | nil => exact List.Forall₂.nil
    | cons s S ih => exact List.Forall₂.cons (isCut_cutPt z s.1 s.2) ih
  · refine ⟨[], ?_, rfl, fun _ => rfl, fun h => absurd h h3⟩
    rw [addFace, if_pos (by omega), List.append_nil]

/-- a face whose vertices partly lie exactly in the plane -/
example : addFace msort 5 [] [⟨0, 0, 5⟩, ⟨4, 0, 9⟩, ⟨8, 0, 5⟩, ⟨4, 0, 1⟩, ⟨2, 0, 5⟩] = some [⟨0, 0⟩, ⟨8, 0⟩] := by decide +kernel
example : (∀ v ∈ ([⟨0, 0, 5⟩, ⟨4, 0, 9⟩, ⟨8, 0, 5⟩, ⟨4, 0, 1⟩, ⟨2, 0, 5⟩] : List Vec3), v.InRange) := by
  simp [Vec3.InRange, Coord]

/-! ## C25 accuracy of cut points -/

/-- C25: the point computed for a side crossing the plane is the exact cut point rounded half up to the grid, it is inside
the bounding box of the side, and it is the same for both directions of the side. -/
theorem C25_cut_point (z : Int) (a b : Vec3) (ha : a.InRange) (hb : b.InRange) (h : Crosses z (a, b)) :
    ∃ p, polyline [] z a b = some [p] ∧ polyline [] z b a = some [p] ∧ IsCut z a b p ∧ IsCut z b a p ∧
      (min a.x b.x ≤ p.x ∧ p.x ≤ max a.x b.x) ∧ (min a.y b.y ≤ p.y ∧ p.y ≤ max a.y b.y) := by
  have h' := crosses_swap.mpr h
  have hs := cutPt_swap (z := z) h.ne
  simp only at hs
  refine ⟨cutPt z (a, b), ?_, ?_, isCut_cutPt z a b, hs ▸ isCut_cutPt z b a, (cutPt_bounds ha hb h)⟩
  · rw [polyline_spec [] ha hb, if_pos h]; rfl
  · rw [polyline_spec [] hb ha, if_pos h', hs]; rfl

/-- C25: a side that does not cross the plane adds nothing -/
theorem C25_no_cut (z : Int) (a b : Vec3) (ha : a.InRange) (hb : b.InRange) (h : ¬ Crosses z (a, b)) :
    polyline [] z a b = some [] := by
  rw [polyline_spec [] ha hb, if_neg h]

/-- C25: the exact cut point is on the side -/
theorem C25_exact_on_side (z : Int) (a b : Vec3) (h : Crosses z (a, b)) :
    ∃ s : ℚ, 0 ≤ s ∧ s ≤ 1 ∧ (z : ℚ) = a.z + s * (b.z - a.z) ∧ lerp z a.z b.z a.x b.x = a.x + s * (b.x - a.x) ∧
      lerp z a.z b.z a.y b.y = a.y + s * (b.y - a.y) := by
  have hz : ((b.z : ℚ) - a.z) ≠ 0 := by
    have : a.z ≠ b.z := h.ne
    have : (a.z : ℚ) ≠ b.z := by exact_mod_cast this
    intro h0; apply this; linarith
  refine ⟨((z : ℚ) - a.z) / (b.z - a.z), ?_, ?_, by field_simp; ring, by unfold lerp; ring, by unfold lerp; ring⟩
  · rcases h with ⟨h0, h1⟩ | ⟨h0, h1⟩ <;> simp only at h0 h1
    · have e0 : (a.z : ℚ) ≤ z := by exact_mod_cast h0
      have e1 : (z : ℚ) < b.z := by exact_mod_cast h1
      exact div_nonneg (by linarith) (by linarith)
    · have e0 : (b.z : ℚ) ≤ z := by exact_mod_cast h0
      have e1 : (z : ℚ) < a.z := by exact_mod_cast h1
      exact div_nonneg_of_nonpos (by linarith) (by linarith)
  · rcases h with ⟨h0, h1⟩ | ⟨h0, h1⟩ <;> simp only at h0 h1
    · have e0 : (a.z : ℚ) ≤ z := by exact_mod_cast h0
      have e1 : (z : ℚ) < b.z := by exact_mod_cast h1
      rw [div_le_one (by linarith)]; linarith
    · have e0 : (b.z : ℚ) ≤ z := by exact_mod_cast h0
      have e1 : (z : ℚ) < a.z := by exact_mod_cast h1
      rw [div_le_one_of_neg (by linarith)]; linarith

example : polyline [] 5 ⟨0, 0, 2⟩ ⟨10, -7, 9⟩ = some [⟨4, -3⟩] ∧ polyline [] 5 ⟨10, -7, 9⟩ ⟨0, 0, 2⟩ = some [⟨4, -3⟩] := by decide

/-! ## C26 watertight -/

/-- C26: the slice of a mesh in which every edge is used an even number of times exists, has no zero-length lines, and at
every point an even number of lines meet. -/
theorem C26_watertight (qs : QSort) (hq : qs.Ok) (z : Int) (faces : List (List Vec3))
    (hf : ∀ f ∈ faces, ∀ v ∈ f, v.InRange) (hw : Watertight faces) :
    ∃ L, sliceMesh qs z faces = some L ∧ (∀ l ∈ L, l.1 ≠ l.2) ∧ ∀ p, degree p L % 2 = 0 := by
  obtain ⟨t, h1, h2, h3⟩ := addFaces_spec qs hq z faces [] hf rfl
  obtain ⟨L, e1, e2⟩ := toLines_spec (t.length / 2) t (by omega)
  obtain ⟨R, hR, hp⟩ := finiLoop_perm L.length L 0 (by omega)
  simp only [List.take_zero, List.drop_zero, List.nil_append] at hp
  refine ⟨R, ?_, ?_, ?_⟩
  · unfold sliceMesh fini
    simp only [h1, e1, hR, List.nil_append, Option.bind_eq_bind, Option.bind_some, Option.pure_def]
  · intro l hl
    have := hp.mem_iff.mp hl
    simpa using (List.mem_filter.mp this).2
  · intro p
    rw [degree_perm p hp, degree_filter, degree_count, e2, h3 p]
    exact watertight_even z faces hw p

/-- C26: for any mesh (not necessarily closed), a point where an odd number of lines meet is the cut point of sides that
are used an odd number of times. -/
theorem C26_degree (qs : QSort) (hq : qs.Ok) (z : Int) (faces : List (List Vec3))
    (hf : ∀ f ∈ faces, ∀ v ∈ f, v.InRange) :
    ∃ L cs, sliceMesh qs z faces = some L ∧
      List.Forall₂ (fun s p => IsCut z s.1 s.2 p) ((faces.flatMap sides).filter fun s => decide (Crosses z s)) cs ∧
      ∀ p, degree p L % 2 = cs.count p % 2 := by
  obtain ⟨t, h1, h2, h3⟩ := addFaces_spec qs hq z faces [] hf rfl
  obtain ⟨L, e1, e2⟩ := toLines_spec (t.length / 2) t (by omega)
  obtain ⟨R, hR, hp⟩ := finiLoop_perm L.length L 0 (by omega)
  simp only [List.take_zero, List.drop_zero, List.nil_append] at hp
  refine ⟨R, cuts z (faces.flatMap sides), ?_, ?_, ?_⟩
  · unfold sliceMesh fini
    simp only [h1, e1, hR, List.nil_append, Option.bind_eq_bind, Option.bind_some, Option.pure_def]
  · unfold cuts
    generalize (faces.flatMap sides).filter (fun s => decide (Crosses z s)) = S
    induction S with
    | nil => exact List.Forall₂.nil
    | cons s S ih => exact List.Forall₂.cons (isCut_cutPt z s.1 s.2) ih
  · intro p
    rw [degree_perm p hp, degree_filter, degree_count, e2, h3 p]

theorem tetra_watertight : Watertight tetra := by
  intro a b hab
  unfold uses
  by_cases hm : (a, b) ∈ tetra.flatMap sides ∨ (b, a) ∈ tetra.flatMap sides
  · have hall : ∀ s ∈ tetra.flatMap sides,
        (tetra.flatMap sides).countP (fun t => decide (t = s ∨ t = (s.2, s.1))) % 2 = 0 := by decide +kernel
    rcases hm with hm | hm
    · exact hall _ hm
    · have := hall _ hm
      simp only at this
      rw [← this]
      congr 1
      apply List.countP_congr
      intro s _
      simp only [decide_eq_true_eq]
      tauto
  · rw [List.countP_eq_zero.mpr]
    intro s hs
    simp only [decide_eq_true_eq]
    rintro (rfl | rfl)
    · exact hm (Or.inl hs)
    · exact hm (Or.inr hs)

example : (∀ f ∈ tetra, ∀ v ∈ f, v.InRange) ∧
    sliceMesh msort 5 tetra = some [(⟨2, 2⟩, ⟨7, 2⟩), (⟨2, 7⟩, ⟨7, 2⟩), (⟨2, 2⟩, ⟨2, 7⟩)] := by
  refine ⟨by simp [tetra, Vec3.InRange, Coord], by decide +kernel⟩

/-! ## C27 finishing -/

/-- C27: finishing groups the points into consecutive pairs and removes exactly the zero-length ones. -/
theorem C27_fini (out : List Vec2) (he : out.length % 2 = 0) :
    ∃ (L R : List (Vec2 × Vec2)), L.flatMap (fun l => [l.1, l.2]) = out ∧ fini out = some R ∧
      R.Perm (L.filter fun l => decide (l.1 ≠ l.2)) := by
  obtain ⟨L, e1, e2⟩ := toLines_spec (out.length / 2) out (by omega)
  obtain ⟨R, hR, hp⟩ := finiLoop_perm L.length L 0 (by omega)
  refine ⟨L, R, e2, ?_, ?_⟩
  · unfold fini
    simp only [e1, hR, Option.bind_eq_bind, Option.bind_some, Option.pure_def]
  · simpa using hp

example : fini [⟨1, 1⟩, ⟨1, 1⟩, ⟨2, 2⟩, ⟨3, 3⟩, ⟨4, 4⟩, ⟨4, 4⟩, ⟨5, 5⟩, ⟨5, 5⟩] = some [(⟨2, 2⟩, ⟨3, 3⟩)] := by decide +kernel

/-! ## C58 faces that are cut in several pieces -/

theorem covers_parity (t : Vec2 → ℚ) (τ : ℚ) (L : List (Vec2 × Vec2)) :
    L.countP (fun l => decide (Covers t τ l)) % 2 =
      (L.flatMap (fun l => [l.1, l.2])).countP (fun p => decide (t p ≤ τ)) % 2 := by
  induction L with
  | nil => rfl
  | cons l L ih =>
    rw [List.countP_cons, List.flatMap_cons, List.countP_append, Nat.add_mod, ih, ← Nat.add_mod, Nat.add_comm,
      Nat.add_mod, Nat.add_mod (List.countP _ [l.1, l.2])]
    congr 2
    simp only [List.countP_cons, List.countP_nil, decide_eq_true_eq, Covers, min_le_iff, lt_max_iff]
    by_cases h1 : t l.1 ≤ τ <;> by_cases h2 : t l.2 ≤ τ
    · simp [h1, h2, not_lt.mpr h1, not_lt.mpr h2]
    · simp [h1, h2, not_le.mp h2]
    · simp [h1, h2, not_le.mp h1]
    · simp [h1, h2]

/-- C58: a face may be cut in any number of places.  If its cut points lie on a straight line (position `t`), then however
the points are sorted (also for ties in the distance) the lines drawn for this face cover a position an odd number of times
iff an odd number of cut points are at or before that position: the lines are, by the even-odd rule, the inside of the
face. -/
theorem C58_face_even_odd (qs : QSort) (hq : qs.Ok) (z : Int) (face : List Vec3)
    (hf : ∀ v ∈ face, v.InRange) (h3 : 3 ≤ face.length) (t : Vec2 → ℚ) (τ : ℚ) :
    ∃ L cs, sliceMesh qs z [face] = some L ∧
      List.Forall₂ (fun s p => IsCut z s.1 s.2 p) ((sides face).filter fun s => decide (Crosses z s)) cs ∧
      L.countP (fun l => decide (Covers t τ l)) % 2 = cs.countP (fun p => decide (t p ≤ τ)) % 2 := by
  obtain ⟨r, h1, h2, -⟩ := addFace_spec qs hq z [] face hf h3 rfl
  have hl : r.length % 2 = 0 := by rw [h2.length_eq]; exact sides_parity z face
  obtain ⟨L, e1, e2⟩ := toLines_spec (r.length / 2) r (by omega)
  obtain ⟨R, hR, hp⟩ := finiLoop_perm L.length L 0 (by omega)
  simp only [List.take_zero, List.drop_zero, List.nil_append] at hp
  refine ⟨R, cuts z (sides face), ?_, ?_, ?_⟩
  · unfold sliceMesh fini addFaces addFaces
    simp only [h1, e1, hR, List.nil_append, Option.bind_eq_bind, Option.bind_some, Option.pure_def]
  · unfold cuts
    generalize (sides face).filter (fun s => decide (Crosses z s)) = S
    induction S with
    | nil => exact List.Forall₂.nil
    | cons s S ih => exact List.Forall₂.cons (isCut_cutPt z s.1 s.2) ih
  · rw [hp.countP_eq, List.countP_filter]
    have : L.countP (fun l => decide (Covers t τ l) && decide (l.1 ≠ l.2)) = L.countP (fun l => decide (Covers t τ l)) := by
      apply List.countP_congr
      intro l _
      simp only [Bool.and_eq_true, decide_eq_true_eq]
      constructor
      · exact fun h => h.1
      · intro h
        refine ⟨h, fun he => ?_⟩
        have := lt_of_le_of_lt h.1 h.2
        rw [he] at this
        simp at this
    rw [this, covers_parity, e2, h2.countP_eq]

/-- an M-shaped face, cut in two pieces on a line of negative slope: the distance order pairs the points
differently from the order along the line (here the outer and the inner two), yet coverage is the same -/
example : sliceMesh msort 5 [[⟨0, 10, 0⟩, ⟨0, 10, 9⟩, ⟨2, 8, 9⟩, ⟨4, 6, 1⟩, ⟨8, 2, 9⟩, ⟨10, 0, 9⟩, ⟨10, 0, 0⟩]] =
    some [(⟨6, 4⟩, ⟨3, 7⟩), (⟨0, 10⟩, ⟨10, 0⟩)] := by decide +kernel

end Hob3l.Slice
