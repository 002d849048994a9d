import Verif.Solid.LemmasShape
import Verif.Slice.Props

/-
Property theorems C73 - C75: the solids made for `cube`, `cylinder`, `sphere`, `linear_extrude`, `rotate_extrude`.
-/

namespace Hob3l.Solid

open Hob3l.Slice (sides walk Vec3 Watertight QSort sliceMesh IsCut degree)
open Hob3l.Matq

/-! ## C73 the solids are closed surfaces -/

/-- C73: with a limit of at least 3 for `$fn`, making the solid for a shape violates no assertion, and the result is a
closed surface without self-contact: faces with at least three different points that exist, each edge shared by exactly
two faces in opposite directions, and Euler's formula for a sphere.  (A path of `linear_extrude` has at least three
points, see C66.) -/
theorem C73_solid (maxFn : Nat) (hm : 3 ≤ maxFn) (neg : Bool) (s : Shape)
    (hs : ∀ p k c t, s = .linext p k c t → 3 ≤ p) :
    ∃ r, make maxFn neg s = some r ∧ ∀ size fs, r = .poly size fs →
      ProperFaces size fs ∧ TwoSided fs ∧ Spherical size fs := by
  by_cases h1 : ∃ p k c t, s = .linext p k c t ∧ k < 1
  · obtain ⟨p, k, c, t, rfl, hk⟩ := h1
    exact ⟨.empty, by simp [make, hk], fun _ _ h => nomatch h⟩
  · by_cases h2 : ∃ d, s = .sphere d ∧ getFn d 3 maxFn true = 0
    · obtain ⟨d, rfl, hd⟩ := h2
      exact ⟨.exact, by simp [make, hd], fun _ _ h => nomatch h⟩
    · obtain ⟨e, hf, hz⟩ := make_run maxFn neg hm s
        (fun p k c t h => ⟨hs p k c t h, by by_contra hk; exact h1 ⟨p, k, c, t, h, by omega⟩⟩)
        (fun d h h0 => h2 ⟨d, h, h0⟩)
      refine ⟨_, e, fun size fs h => ?_⟩
      obtain ⟨rfl, rfl⟩ := Made.poly.inj h
      exact twoSided _ _ _ _ _ hf hz

/-- C73: numbers of points and faces: a cube has 8 and 6; a cylinder with `$fn = n` has `2n` and `n + 2`, a cone `n + 1`
and `n + 1`; a sphere `n * m` and `n * (m - 1) + 2` for `m` = half of `n`, rounded up; a `linear_extrude` of an outline
with `p` points in `k` slices has `p * (k + 1)` and `p * k + 2` without twist, with twist `p * k * 2 + 2`; if it ends in a
tip, `p * k + 1` and `p * k + 1`, with twist `p * (k - 1) * 2 + p + 1`. -/
theorem C73_numbers (maxFn n p k : Nat) (neg : Bool) (t : Int) (hn : 3 ≤ n) (hnm : n ≤ maxFn) (hp : 3 ≤ p) (hk : 1 ≤ k)
    (ht : t ≠ 0) :
    (∃ fs, make maxFn neg .cube = some (.poly 8 fs) ∧ fs.length = 6) ∧
    (∃ fs, make maxFn neg (.cylinder n false) = some (.poly (2 * n) fs) ∧ fs.length = n + 2) ∧
    (∃ fs, make maxFn neg (.cylinder n true) = some (.poly (n + 1) fs) ∧ fs.length = n + 1) ∧
    (∃ fs, make maxFn neg (.sphere n) = some (.poly (n * ((n + 1) / 2)) fs) ∧ fs.length = n * ((n + 1) / 2 - 1) + 2) ∧
    (∃ fs, make maxFn neg (.linext p k false 0) = some (.poly (p * (k + 1)) fs) ∧ fs.length = p * k + 2) ∧
    (∃ fs, make maxFn neg (.linext p k false t) = some (.poly (p * (k + 1)) fs) ∧ fs.length = p * k * 2 + 2) ∧
    (∃ fs, make maxFn neg (.linext p k true 0) = some (.poly (p * k + 1) fs) ∧ fs.length = p * k + 1) ∧
    (∃ fs, make maxFn neg (.linext p k true t) = some (.poly (p * k + 1) fs) ∧ fs.length = p * (k - 1) * 2 + p + 1) := by
  have hm : 3 ≤ maxFn := by omega
  have g1 : ∀ b, getFn n 3 maxFn b = n := by
    intro b; unfold getFn; rw [if_neg (by omega), if_neg (by omega), if_neg (by omega)]
  have len : ∀ s, ((towerOf maxFn s).faces neg).length = (ids (towerOf maxFn s).fn
      (layers (towerOf maxFn s).fnz (towerOf maxFn s).hasTop) (towerOf maxFn s).hasTop (towerOf maxFn s).tri).length := by
    intro s; simp [Tower.faces, tfaces]
  have run : ∀ s, (∀ p' k' c t, s = .linext p' k' c t → p' = p ∧ k' = k) → (∀ d, s = .sphere d → d = n) →
      make maxFn neg s = some (.poly (towerOf maxFn s).size ((towerOf maxFn s).faces neg)) := by
    intro s h1 h2
    refine (make_run maxFn neg hm s ?_ ?_).1
    · intro p' k' c t e
      obtain ⟨rfl, rfl⟩ := h1 p' k' c t e
      exact ⟨hp, hk⟩
    · intro d e
      rw [h2 d e, g1]; omega
  have tt : (if t = 0 then Tri.none else if t > 0 then Tri.right else Tri.left) ≠ .none := by
    rw [if_neg ht]; split_ifs <;> simp
  have fin : ∀ s size m, (∀ p' k' c t, s = .linext p' k' c t → p' = p ∧ k' = k) → (∀ d, s = .sphere d → d = n) →
      (towerOf maxFn s).size = size → (ids (towerOf maxFn s).fn (layers (towerOf maxFn s).fnz (towerOf maxFn s).hasTop)
        (towerOf maxFn s).hasTop (towerOf maxFn s).tri).length = m →
      ∃ fs, make maxFn neg s = some (.poly size fs) ∧ fs.length = m := by
    intro s size m h1 h2 h3 h4
    exact ⟨_, by rw [run s h1 h2, h3], by rw [len, h4]⟩
  obtain ⟨k, rfl⟩ : ∃ k', k = k' + 1 := ⟨k - 1, by omega⟩
  refine ⟨fin _ _ _ ?_ ?_ ?_ ?_, fin _ _ _ ?_ ?_ ?_ ?_, fin _ _ _ ?_ ?_ ?_ ?_, fin _ _ _ ?_ ?_ ?_ ?_, fin _ _ _ ?_ ?_ ?_ ?_,
    fin _ _ _ ?_ ?_ ?_ ?_, fin _ _ _ ?_ ?_ ?_ ?_, fin _ _ _ ?_ ?_ ?_ ?_⟩ <;>
  first
  | (rw [ids_length]; simp [towerOf, layers, g1, tt]; done)
  | (rw [ids_length]; simp [towerOf, layers, g1, tt]; ring)
  | (simp [Tower.size, towerOf, towerSize, layers, g1]; done)
  | (simp [Tower.size, towerOf, towerSize, layers, g1]; ring)
  | (simp; done)

/-- C73: a mirroring transformation reverses all faces, so that the outside stays the outside. -/
theorem C73_mirror (maxFn : Nat) (hm : 3 ≤ maxFn) (s : Shape) (hs : ∀ p k c t, s = .linext p k c t → 3 ≤ p) (neg : Bool)
    (size : Nat) (fs : List (List Nat)) (h : make maxFn neg s = some (.poly size fs)) :
    make maxFn (!neg) s = some (.poly size (fs.map List.reverse)) := by
  have h1 : ∀ p k c t, s = .linext p k c t → 3 ≤ p ∧ 1 ≤ k := by
    intro p k c t e
    refine ⟨hs p k c t e, ?_⟩
    by_contra hk
    subst e
    simp [make, show k < 1 by omega] at h
  have h2 : ∀ d, s = .sphere d → getFn d 3 maxFn true ≠ 0 := by
    intro d e h0
    subst e
    simp [make, h0] at h
  have a := (make_run maxFn neg hm s h1 h2).1
  have b := (make_run maxFn (!neg) hm s h1 h2).1
  rw [a] at h
  obtain ⟨rfl, rfl⟩ := Made.poly.inj (Option.some.inj h)
  rw [b]
  congr 2
  unfold Tower.faces
  rw [← tfaces_reverse]
  cases (towerOf maxFn s).rev <;> cases neg <;> rfl

/-- C73: whatever the coordinates of the points are, the slice of the solid at any height is made of closed outlines:
each point is an end of an even number of lines. -/
theorem C73_slice_closed (maxFn : Nat) (hm : 3 ≤ maxFn) (neg : Bool) (s : Shape)
    (hs : ∀ p k c t, s = .linext p k c t → 3 ≤ p) (size : Nat) (fs : List (List Nat))
    (h : make maxFn neg s = some (.poly size fs)) (qs : QSort) (hq : qs.Ok) (z : Int) (V : Nat → Vec3)
    (hV : ∀ i, (V i).InRange) :
    ∃ L, sliceMesh qs z (fs.map (List.map V)) = some L ∧ (∀ l ∈ L, l.1 ≠ l.2) ∧ ∀ p, degree p L % 2 = 0 := by
  obtain ⟨r, hr, hc⟩ := C73_solid maxFn hm neg s hs
  rw [h] at hr
  have hcl := (hc size fs (Option.some.inj hr).symm).2.1.1
  refine Slice.C26_watertight qs hq z _ ?_ (watertight_of_closed hcl V)
  intro f hf v hv
  rw [List.mem_map] at hf
  obtain ⟨g, -, rfl⟩ := hf
  rw [List.mem_map] at hv
  obtain ⟨i, -, rfl⟩ := hv
  exact hV i

/-- C73 is wrong for a lower limit: `--max-fn=2` is accepted, and then a cylinder without `$fn` violates an assertion. -/
theorem C73_max_fn_wrong : make 2 false (.cylinder 0 false) = none := by decide

/-- the cube -/
example : make 100 false .cube = some (.poly 8 [[0, 1, 2, 3], [7, 6, 5, 4], [4, 5, 1, 0], [5, 6, 2, 1], [6, 7, 3, 2],
    [7, 4, 0, 3]]) := by decide +kernel

/-- a twisted cone -/
example : make 100 true (.linext 3 2 true (-7)) = some (.poly 7 [[0, 1, 2], [3, 1, 0], [1, 3, 4], [4, 2, 1], [2, 4, 5],
    [5, 0, 2], [0, 5, 3], [6, 4, 3], [6, 5, 4], [6, 3, 5]]) := by decide +kernel

/-! ## C74 the solids made by rotate_extrude are closed surfaces -/

theorem rotext_run (maxFn detail : Nat) (hm : 2 ≤ maxFn) (neg : Bool) (angle : Angle) (ha : angle ≠ .none)
    (pts : List Side) (paths : List (List Nat)) (hp : ∀ p ∈ paths, ∀ i ∈ p, i < pts.length)
    (hb : ¬ (.pos ∈ pts ∧ .neg ∈ pts)) (h0 : paths = [] ∨ ∃ s ∈ pts, s ≠ .axis) :
    ∃ (R : Bool) (ns : List Nat), rotext maxFn detail neg angle pts paths =
        some (.polys (ns.map fun n => (pts.countP (· = .axis) + pts.countP (· ≠ .axis) * n, arcFaces (vnum pts) R paths n))) ∧
      (∀ n ∈ ns, 2 ≤ n) ∧ ns.length = if paths = [] then 0 else if angle = .full then 2 else 1 := by
  have run := rotextArc_run pts paths hp
  obtain ⟨idx, e1, -, -⟩ := partition_spec pts [] 0 0
  rcases hpt : partition pts [] 0 0 with ⟨ix, x0, xi⟩
  have exi : xi = pts.countP (· ≠ .axis) := by
    rw [hpt] at e1
    have := (Prod.ext_iff.mp (Prod.ext_iff.mp e1).2).2
    simpa using this
  rw [hpt] at run
  simp only at run
  by_cases hpe : paths = []
  · exact ⟨false, [], (by unfold rotext; rw [if_neg ha, if_pos hpe]; rfl), by simp, by simp [hpe]⟩
  · have hxi : 0 < xi := by
      rcases h0 with h0 | ⟨s, hs, hne⟩
      · exact absurd h0 hpe
      · rw [exi]
        exact List.countP_pos_iff.mpr ⟨s, hs, by simpa using hne⟩
    by_cases hf : angle = .full
    · have hseg : 2 ≤ getFn detail 3 maxFn false := by unfold getFn; split_ifs <;> simp_all <;> omega
      refine ⟨decide (.neg ∈ pts) ^^ neg, [getFn detail 3 maxFn false / 2 + 1, (getFn detail 3 maxFn false + 1) / 2 + 1], ?_,
        ?_, by simp [hpe, hf]⟩
      · subst hf
        have hs : getFn detail 3 maxFn false / 2 + (getFn detail 3 maxFn false + 1) / 2 = getFn detail 3 maxFn false := by omega
        simp only [rotext, if_neg ha, if_neg hpe, hpt, if_neg hb, ass, hxi, decide_true, if_true, minSeg, hs, beq_self_eq_true,
          Option.bind_eq_bind, Option.bind_some]
        rw [run _ (by omega), run _ (by omega)]
        rfl
      · intro n hn
        simp only [List.mem_cons, List.not_mem_nil, or_false] at hn
        omega
    · have hseg : 1 ≤ getFn detail (minSeg angle) maxFn false := by
        unfold getFn minSeg; cases angle <;> simp only <;> split_ifs <;> simp_all <;> omega
      refine ⟨!decide (.neg ∈ pts) ^^ neg, [getFn detail (minSeg angle) maxFn false + 1],
        ?_, ?_, by simp [hpe, hf]⟩
      · simp only [rotext, if_neg ha, if_neg hpe, hpt, if_neg hb, ass, hxi, decide_true, if_true, if_neg hf,
          Option.bind_eq_bind, Option.bind_some]
        rw [run _ (by omega)]
        rfl
      · intro n hn
        simp only [List.mem_cons, List.not_mem_nil, or_false] at hn
        omega

/-- C74: with a limit of at least 2 for `$fn`, `rotate_extrude` of outlines on one side of the axis (points on the axis
are allowed) violates no assertion and makes one solid (two for a full turn); each is a closed surface: faces with at least
three different points that exist, each edge shared by exactly two faces in opposite directions. -/
theorem C74_rotate_extrude (maxFn detail : Nat) (hm : 2 ≤ maxFn) (neg : Bool) (angle : Angle) (ha : angle ≠ .none)
    (pts : List Side) (paths : List (List Nat)) (hp : ∀ p ∈ paths, ∀ i ∈ p, i < pts.length) (hs : Simple paths)
    (hb : ¬ (.pos ∈ pts ∧ .neg ∈ pts)) (h0 : paths = [] ∨ ∃ s ∈ pts, s ≠ .axis) :
    ∃ l, rotext maxFn detail neg angle pts paths = some (.polys l) ∧
      (l.length = if paths = [] then 0 else if angle = .full then 2 else 1) ∧
      ∀ a ∈ l, ProperFaces a.1 a.2 ∧ TwoSided a.2 := by
  obtain ⟨R, ns, e, h2, hl⟩ := rotext_run maxFn detail hm neg angle ha pts paths hp hb h0
  refine ⟨_, e, by simpa using hl, ?_⟩
  intro a h
  rw [List.mem_map] at h
  obtain ⟨n, hn, rfl⟩ := h
  have hr := vnum_numbering pts
  exact ⟨arc_proper hr hs hp (h2 n hn) R _ (fun i j hi hj => vnum_lt pts hi hj),
    arc_closed pts.length (vnum pts) (fun i k j l hi hk h => (hr.inj i k j l hi hk h).1) R paths hp n,
    arc_nodup hr hs hp n R⟩

/-- C74: also if outlines touch or use points several times, the surface is closed, so that each slice (whatever the
coordinates are) is made of closed outlines. -/
theorem C74_slice_closed (maxFn detail : Nat) (hm : 2 ≤ maxFn) (neg : Bool) (angle : Angle) (ha : angle ≠ .none)
    (pts : List Side) (paths : List (List Nat)) (hp : ∀ p ∈ paths, ∀ i ∈ p, i < pts.length)
    (hb : ¬ (.pos ∈ pts ∧ .neg ∈ pts)) (h0 : paths = [] ∨ ∃ s ∈ pts, s ≠ .axis) (qs : QSort) (hq : qs.Ok) (z : Int)
    (V : Nat → Vec3) (hV : ∀ i, (V i).InRange) :
    ∃ l, rotext maxFn detail neg angle pts paths = some (.polys l) ∧ ∀ a ∈ l, Closed a.2 ∧
      ∃ L, sliceMesh qs z (a.2.map (List.map V)) = some L ∧ (∀ l ∈ L, l.1 ≠ l.2) ∧ ∀ p, degree p L % 2 = 0 := by
  obtain ⟨R, ns, e, h2, -⟩ := rotext_run maxFn detail hm neg angle ha pts paths hp hb h0
  refine ⟨_, e, ?_⟩
  intro a h
  rw [List.mem_map] at h
  obtain ⟨n, hn, rfl⟩ := h
  have hr := vnum_numbering pts
  have hc := arc_closed pts.length (vnum pts) (fun i k j l hi hk h => (hr.inj i k j l hi hk h).1) R paths hp n
  refine ⟨hc, Slice.C26_watertight qs hq z _ ?_ (watertight_of_closed hc V)⟩
  intro f hf v hv
  rw [List.mem_map] at hf
  obtain ⟨g, -, rfl⟩ := hf
  rw [List.mem_map] at hv
  obtain ⟨i, -, rfl⟩ := hv
  exact hV i

/-- C74: outlines on both sides of the axis are reported as an error. -/
theorem C74_both_sides (maxFn detail : Nat) (neg : Bool) (angle : Angle) (ha : angle ≠ .none) (pts : List Side)
    (paths : List (List Nat)) (hne : paths ≠ []) (hb : .pos ∈ pts ∧ .neg ∈ pts) :
    rotext maxFn detail neg angle pts paths = some .bothSides := by
  unfold rotext
  rw [if_neg ha, if_neg hne]
  rcases partition pts [] 0 0 with ⟨ix, x0, xi⟩
  simp only [if_pos hb]
  rfl

/-- C74 is wrong for a lower limit: with `--max-fn=1` a full turn violates an assertion. -/
theorem C74_max_fn_wrong : rotext 1 0 false .full [.axis, .pos, .pos] [[0, 1, 2]] = none := by decide

/-- the solid made from a triangle with one side on the axis -/
example : rotext 100 2 false .wide [.axis, .pos, .axis] [[0, 1, 2]] =
    some (.polys [(5, [[3, 2, 0], [3, 1, 2], [4, 3, 0], [4, 1, 3], [0, 2, 1], [1, 4, 0]])]) := by
  decide +kernel

example : Simple [[0, 1, 2]] ∧ (∀ p ∈ [[0, 1, 2]], ∀ i ∈ p, i < [Side.axis, .pos, .axis].length) := by
  unfold Simple; decide

/-! ## C75 the section of a solid -/

section
variable (qs : QSort) (hq : qs.Ok) (z : Int) (V : Nat → Vec3) (hV : ∀ i, (V i).InRange) (fn fnz : Nat) (hf : 3 ≤ fn)
  (hz : 2 ≤ fnz) (neg rev : Bool) (Z : Nat → Int)
include hq hV hf hz

/-- C75: the solid is a stack of `fnz` horizontal layers of `fn` points each, at heights that only go up or only go down.
At a height between two layers, the slice consists exactly of the sides of the outline through the (rounded) points in
which the connections of corresponding points of the two layers are cut (sides of length zero left out). -/
theorem C75_section (hZ : Stacked Z (fnz - 1)) (hl : ∀ k j, k < fnz → j < fn → (V (k * fn + j)).z = Z k)
    (i : Nat) (hi : i + 1 < fnz) (hb : Between z (Z i) (Z (i + 1))) :
    ∃ fs L P, towerFaces (fn * fnz) fn fnz neg rev .none = some fs ∧ sliceMesh qs z (fs.map (List.map V)) = some L ∧
      SameLines L (sides P) ∧ P.length = fn ∧
      ∀ j (h : j < P.length), IsCut z (V (i * fn + j)) (V ((i + 1) * fn + j)) P[j] := by
  have e := towerFaces_eq fn fnz true neg rev .none hf hz
  rw [towerSize_true] at e
  have hW : Heights (fun p => V (num fn p)) Z fn fnz true := ⟨fun k j hk hj => hl k j hk hj, fun h => nomatch h⟩
  obtain ⟨L, h1, h2⟩ := tower_section qs hq z V hV (rev ^^ neg) .none hf (by omega) hW _
    (want_in z _ .none (by omega) (hasTop := true) (by simpa [gaps] using hZ) (by simp [gaps]; omega) hb)
  refine ⟨_, L, _, e, h1, h2, ?_, ?_⟩
  · simp [outlinePts, hi]
  · intro j h
    simp only [outlinePts, if_pos hi, List.getElem_map, List.getElem_range]
    exact Slice.isCut_cutPt z _ _

/-- C75: the same for a twisted `linear_extrude`, where each side is split into two triangles: between the cuts of
corresponding points, the outline goes through the cut of the diagonal. -/
theorem C75_section_twisted (tri : Tri) (ht : tri ≠ .none) (hZ : Stacked Z (fnz - 1))
    (hl : ∀ k j, k < fnz → j < fn → (V (k * fn + j)).z = Z k)
    (i : Nat) (hi : i + 1 < fnz) (hb : Between z (Z i) (Z (i + 1))) :
    ∃ (fs : List (List Nat)) (L : List (Vec2 × Vec2)) (C D : Nat → Vec2), towerFaces (fn * fnz) fn fnz neg rev tri = some fs ∧ sliceMesh qs z (fs.map (List.map V)) = some L ∧
      SameLines L (sides ((List.range fn).flatMap fun j => [C j, D j])) ∧
      ∀ j, j < fn → IsCut z (V (i * fn + j)) (V ((i + 1) * fn + j)) (C j) ∧
        (if tri = .left then IsCut z (V (i * fn + (j + 1) % fn)) (V ((i + 1) * fn + j)) (D j)
        else IsCut z (V (i * fn + j)) (V ((i + 1) * fn + (j + 1) % fn)) (D j)) := by
  have e := towerFaces_eq fn fnz true neg rev tri hf hz
  rw [towerSize_true] at e
  have hW : Heights (fun p => V (num fn p)) Z fn fnz true := ⟨fun k j hk hj => hl k j hk hj, fun h => nomatch h⟩
  obtain ⟨L, h1, h2⟩ := tower_section qs hq z V hV (rev ^^ neg) tri hf (by omega) hW _
    (want_in z _ tri (by omega) (hasTop := true) (by simpa [gaps] using hZ) (by simp [gaps]; omega) hb)
  have wr : ∀ j, j < fn → wrapAdd1 j fn = (j + 1) % fn := by
    intro j hj
    unfold wrapAdd1
    split_ifs with c
    · rw [c, Nat.mod_self]
    · rw [Nat.mod_eq_of_lt (by omega)]
  cases tri with
  | none => exact absurd rfl ht
  | left =>
    simp only [outlinePts, if_pos hi] at h2
    refine ⟨_, L, _, _, e, h1, h2, fun j hj => ⟨Slice.isCut_cutPt z _ _, ?_⟩⟩
    rw [if_pos rfl, ← wr j hj]
    exact Slice.isCut_cutPt z _ _
  | right =>
    simp only [outlinePts, if_pos hi] at h2
    refine ⟨_, L, _, _, e, h1, h2, fun j hj => ⟨Slice.isCut_cutPt z _ _, ?_⟩⟩
    rw [if_neg (by simp), ← wr j hj]
    exact Slice.isCut_cutPt z _ _

/-- C75: the same between the last layer and the tip of a cone. -/
theorem C75_section_tip (tri : Tri) (hZ : Stacked Z (fnz - 1))
    (hl : ∀ k j, k < fnz - 1 → j < fn → (V (k * fn + j)).z = Z k) (ht : (V (fn * (fnz - 1))).z = Z (fnz - 1))
    (hb : Between z (Z (fnz - 2)) (Z (fnz - 1))) :
    ∃ fs L P, towerFaces (fn * (fnz - 1) + 1) fn fnz neg rev tri = some fs ∧
      sliceMesh qs z (fs.map (List.map V)) = some L ∧ SameLines L (sides P) ∧ P.length = fn ∧
      ∀ j (h : j < P.length), IsCut z (V ((fnz - 2) * fn + j)) (V (fn * (fnz - 1))) P[j] := by
  have e := towerFaces_eq fn fnz false neg rev tri hf hz
  rw [towerSize_false] at e
  have hW : Heights (fun p => V (num fn p)) Z fn (fnz - 1) false :=
    ⟨fun k j hk hj => hl k j hk hj, fun _ => by rw [← ht]; simp [num, Nat.mul_comm]⟩
  obtain ⟨L, h1, h2⟩ := tower_section qs hq z V hV (rev ^^ neg) tri hf (by omega) hW _
    (want_in z _ tri (by omega) (hasTop := false) (i := fnz - 2) (by simpa [gaps] using hZ) (by simp [gaps]; omega)
      (by rw [show fnz - 2 + 1 = fnz - 1 by omega]; exact hb))
  refine ⟨_, L, _, e, h1, h2, ?_, ?_⟩
  · simp [outlinePts, show ¬ (fnz - 2 + 1 < fnz - 1) by omega]
  · intro j h
    simp only [outlinePts, if_neg (show ¬ (fnz - 2 + 1 < fnz - 1) by omega), List.getElem_map, List.getElem_range]
    have := Slice.isCut_cutPt z (V ((fnz - 2) * fn + j)) (V (fn * (fnz - 1)))
    rw [cp, num, num, show fnz - 1 - 1 = fnz - 2 by omega, Nat.add_zero, Nat.mul_comm (fnz - 1) fn]
    exact this

/-- C75: below the lowest and above the highest layer, there is nothing. -/
theorem C75_outside (tri : Tri) (hasTip : Bool)
    (hl : ∀ k j, k < (if hasTip then fnz - 1 else fnz) → j < fn → (V (k * fn + j)).z = Z k)
    (ht : hasTip = true → (V (fn * (fnz - 1))).z = Z (fnz - 1))
    (hb : (∀ k, k < fnz → z < Z k) ∨ (∀ k, k < fnz → Z k ≤ z)) :
    ∃ fs, towerFaces (if hasTip then fn * (fnz - 1) + 1 else fn * fnz) fn fnz neg rev tri = some fs ∧
      sliceMesh qs z (fs.map (List.map V)) = some [] := by
  have e := towerFaces_eq fn fnz (!hasTip) neg rev tri hf hz
  have es : towerSize fn fnz (!hasTip) = if hasTip then fn * (fnz - 1) + 1 else fn * fnz := by
    cases hasTip
    · exact towerSize_true fn fnz
    · exact towerSize_false fn fnz
  rw [es] at e
  have hL : layers fnz (!hasTip) = if hasTip then fnz - 1 else fnz := by cases hasTip <;> rfl
  have hW : Heights (fun p => V (num fn p)) Z fn (layers fnz (!hasTip)) (!hasTip) := by
    refine ⟨fun k j hk hj => hl k j (by rw [← hL]; exact hk) hj, fun h => ?_⟩
    have : hasTip = true := by cases hasTip <;> simp_all
    subst this
    simp only [layers, Bool.not_true, Bool.false_eq_true, if_false]
    rw [← ht rfl]; simp [num, Nat.mul_comm]
  have hg : gaps (layers fnz (!hasTip)) (!hasTip) = fnz - 1 := by cases hasTip <;> rfl
  have hL1 : 1 ≤ layers fnz (!hasTip) := by rw [hL]; split_ifs <;> omega
  obtain ⟨L, h1, h2⟩ := tower_section qs hq z V hV (rev ^^ neg) tri hf hL1 hW []
    (by
      rw [want_out z _ tri hL1]
      rw [hg]
      intro i hi
      unfold Between
      rcases hb with hb | hb
      · have := hb i (by omega); have := hb (i + 1) (by omega); omega
      · have := hb i (by omega); have := hb (i + 1) (by omega); omega)
  refine ⟨_, e, ?_⟩
  have : L = [] := by
    have := h2.length_eq
    simpa using this
  rw [← this]
  exact h1

/-- C75: the slice of an upright prism (`cube`, `cylinder`, `linear_extrude` without twist and scale, not tilted) is exactly
its base outline, at each height from the bottom (included) to the top (excluded). -/
theorem C75_prism (base : List Vec2) (hlen : base.length = fn) (hZ : Stacked Z (fnz - 1))
    (hl : ∀ k j (hj : j < base.length), k < fnz → V (k * fn + j) = ⟨base[j].x, base[j].y, Z k⟩)
    (i : Nat) (hi : i + 1 < fnz) (hb : Between z (Z i) (Z (i + 1))) :
    ∃ fs L, towerFaces (fn * fnz) fn fnz neg rev .none = some fs ∧ sliceMesh qs z (fs.map (List.map V)) = some L ∧
      SameLines L (sides base) := by
  obtain ⟨fs, L, P, h1, h2, h3, h4, h5⟩ := C75_section qs hq z V hV fn fnz hf hz neg rev Z hZ
    (fun k j hk hj => by rw [hl k j (by omega) hk]) i hi hb
  refine ⟨fs, L, h1, h2, ?_⟩
  have : P = base := by
    apply List.ext_getElem (by omega)
    intro j hj1 hj2
    have hc := h5 j hj1
    rw [hl i j hj2 (by omega), hl (i + 1) j hj2 hi] at hc
    refine Slice.inPixel_unique hc ?_
    have := cp_vertical (z := z) (a := ⟨base[j].x, base[j].y, Z i⟩) (b := ⟨base[j].x, base[j].y, Z (i + 1)⟩) hb rfl rfl
    have c := Slice.isCut_cutPt z ⟨base[j].x, base[j].y, Z i⟩ ⟨base[j].x, base[j].y, Z (i + 1)⟩
    rw [this] at c
    exact c
  rw [← this]
  exact h3
end

/-- points of a cube with side 10 -/
def cube10 (i : Nat) : Vec3 :=
  match i with
  | 0 => ⟨0, 10, 10⟩ | 1 => ⟨10, 10, 10⟩ | 2 => ⟨10, 0, 10⟩ | 3 => ⟨0, 0, 10⟩
  | 4 => ⟨0, 10, 0⟩ | 5 => ⟨10, 10, 0⟩ | 6 => ⟨10, 0, 0⟩ | 7 => ⟨0, 0, 0⟩ | _ => ⟨0, 0, 0⟩

/-- the hypotheses of C75 are met by the cube -/
example : (∀ i, (cube10 i).InRange) ∧
    Stacked (fun k => if k = 0 then 10 else 0) 1 ∧
    (∀ k j (hj : j < [(⟨0, 10⟩ : Vec2), ⟨10, 10⟩, ⟨10, 0⟩, ⟨0, 0⟩].length), k < 2 → cube10 (k * 4 + j) =
      ⟨[(⟨0, 10⟩ : Vec2), ⟨10, 10⟩, ⟨10, 0⟩, ⟨0, 0⟩][j].x, [(⟨0, 10⟩ : Vec2), ⟨10, 10⟩, ⟨10, 0⟩, ⟨0, 0⟩][j].y,
        if k = 0 then 10 else 0⟩) ∧
    Between 0 10 0 ∧ ¬ Between 10 10 0 := by
  refine ⟨?_, Or.inr (by intro k hk; have : k = 0 := by omega
                         subst this; decide), ?_, by unfold Between; decide, by unfold Between; decide⟩
  · intro i
    unfold cube10 Slice.Vec3.InRange Slice.Coord
    split <;> decide
  · intro k j hj hk
    simp only [List.length_cons, List.length_nil] at hj
    have h1 : k = 0 ∨ k = 1 := by omega
    have h2 : j = 0 ∨ j = 1 ∨ j = 2 ∨ j = 3 := by omega
    rcases h1 with rfl | rfl <;> rcases h2 with rfl | rfl | rfl | rfl <;> rfl

example : (towerFaces 8 4 2 false false .none).bind (fun fs => sliceMesh Slice.msort 5 (fs.map (List.map cube10))) =
    some [(⟨0, 10⟩, ⟨10, 10⟩), (⟨10, 0⟩, ⟨10, 10⟩), (⟨0, 0⟩, ⟨10, 0⟩), (⟨0, 0⟩, ⟨0, 10⟩)] := by decide +kernel

end Hob3l.Solid
