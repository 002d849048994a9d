import Verif.Bbox.Lemmas
import Mathlib.Tactic.NormNum
import Mathlib.Tactic.FinCases
import Mathlib.Algebra.Order.Ring.Abs

/-!
C54: bounding boxes enclose what they were extended with, and are the smallest ones that do.
C60: the bounding box of a CSG tree, which determines the range of slices, encloses the object.
-/

namespace Hob3l.Bbox

open Hob3l.Matq

/-! ### C54: integers -/

/-- Extending a box by a point, a line, a list of points, or a list of lines yields the smallest box that encloses the old
one and contains all the points. -/
theorem C54_plane (r : Box2) :
    (∀ v, Least2 (vec2Minmax r v) r [v]) ∧ (∀ l, Least2 (line2Minmax r l) r [l.1, l.2]) ∧
    (∀ vs, Least2 (vVec2Minmax r vs) r vs) ∧
    (∀ ls, Least2 (vLine2Minmax r ls) r (ls.flatMap fun l => [l.1, l.2])) := by
  have hl : ∀ r l, Least2 (line2Minmax r l) r [l.1, l.2] := fun r l =>
    (vec2Minmax_least r l.1).append (vec2Minmax_least _ l.2)
  refine ⟨vec2Minmax_least r, hl r, ?_, ?_⟩
  · intro vs
    induction vs generalizing r with
    | nil => exact Least2.nil r
    | cons v vs ih => rw [vVec2Minmax]; exact (vec2Minmax_least r v).append (ih _)
  · intro ls
    induction ls generalizing r with
    | nil => exact Least2.nil r
    | cons l ls ih => rw [vLine2Minmax, List.flatMap_cons]; exact (hl r l).append (ih _)

/-- The box of the edges of a sweep is the smallest one that contains the ends of all edges that are not deleted. -/
theorem C54_sweep (r : Box2) (es : List SEdge) :
    Least2 (sweepMinmax r es) r ((es.filter fun e => !e.deleted).flatMap fun e => [e.left, e.right]) := by
  induction es generalizing r with
  | nil => exact Least2.nil r
  | cons e es ih =>
    rw [sweepMinmax]
    cases h : e.deleted
    · rw [if_neg (by simp), List.filter_cons_of_pos (by simp [h]), List.flatMap_cons]
      exact ((vec2Minmax_least r e.left).append (vec2Minmax_least _ e.right)).append (ih _)
    · rw [if_pos rfl, List.filter_cons_of_neg (by simp [h])]
      exact ih r

/-- The same in space: for a point, a face, and a polyhedron. -/
theorem C54_space (r : Box3) :
    (∀ v, Least3 (vec3Minmax r v) r [v]) ∧ (∀ vs, Least3 (vVec3Minmax r vs) r vs) ∧
    (∀ fs, Least3 (vvVec3Minmax r fs) r fs.flatten) := by
  have hv : ∀ r vs, Least3 (vVec3Minmax r vs) r vs := by
    intro r vs
    induction vs generalizing r with
    | nil => exact Least3.nil r
    | cons v vs ih => rw [vVec3Minmax]; exact (vec3Minmax_least r v).append (ih _)
  refine ⟨vec3Minmax_least r, hv r, ?_⟩
  intro fs
  induction fs generalizing r with
  | nil => exact Least3.nil r
  | cons f fs ih => rw [vvVec3Minmax, List.flatten_cons]; exact (hv r f).append (ih _)

example : vVec2Minmax init2 [⟨3, 4⟩, ⟨-1, 7⟩] = ⟨⟨-1, 4⟩, ⟨3, 7⟩⟩ := by decide

/-- Starting with the initial box, at least one point yields exactly the smallest box of the points, for all coordinates of
the integer type. -/
theorem C54_init (l : List V2) (hne : l ≠ []) (hr : ∀ p ∈ l, I32 p.x ∧ I32 p.y) (b : Box2) :
    b.Encloses (vVec2Minmax init2 l) ↔ ∀ p ∈ l, b.Has p := by
  rw [(C54_plane init2).2.2.1 l b]
  refine ⟨fun h => h.2, fun h => ⟨?_, h⟩⟩
  obtain ⟨p, hp⟩ := List.exists_mem_of_ne_nil l hne
  have h1 := hr p hp
  have h2 := h p hp
  simp only [I32, Box2.Has, Box2.Encloses, init2] at *
  omega

example : [V2.mk 3 4, ⟨-2147483648, 7⟩] ≠ [] ∧ ∀ p ∈ [V2.mk 3 4, ⟨-2147483648, 7⟩], I32 p.x ∧ I32 p.y := by
  refine ⟨by simp, ?_⟩
  intro p hp
  fin_cases hp <;> decide

/-- The same in space. -/
theorem C54_init_space (l : List (List V3)) (hne : l.flatten ≠ []) (hr : ∀ p ∈ l.flatten, I32 p.x ∧ I32 p.y ∧ I32 p.z)
    (b : Box3) : b.Encloses (vvVec3Minmax init3 l) ↔ ∀ p ∈ l.flatten, b.Has p := by
  rw [(C54_space init3).2.2 l b]
  refine ⟨fun h => h.2, fun h => ⟨?_, h⟩⟩
  obtain ⟨p, hp⟩ := List.exists_mem_of_ne_nil _ hne
  have h1 := hr p hp
  have h2 := h p hp
  simp only [I32, Box3.Has, Box3.Encloses, init3] at *
  omega

example : vvVec3Minmax init3 [[⟨1, 2, 3⟩, ⟨4, 0, 1⟩], [⟨0, 0, 9⟩]] = ⟨⟨0, 0, 1⟩, ⟨4, 2, 9⟩⟩ := by decide

/-- C54 fails for the projection of a box in space to two coordinates: the result does not enclose the projected box,
because only the minimum is used. -/
theorem C54_projection_wrong :
    minmaxMinmax2 init2 ⟨⟨0, 0, 0⟩, ⟨10, 10, 10⟩⟩ 0 1 = some ⟨⟨0, 0⟩, ⟨0, 0⟩⟩ ∧
    (⟨⟨0, 0, 0⟩, ⟨10, 10, 10⟩⟩ : Box3).Has ⟨5, 5, 5⟩ ∧ ¬ (⟨⟨0, 0⟩, ⟨0, 0⟩⟩ : Box2).Has ⟨5, 5⟩ := by
  refine ⟨by decide, ?_, ?_⟩
  · simp [Box3.Has]
  · simp [Box2.Has]

/-- What the projection does instead: it extends the box by the projected lower corner.

Missing for C54: it should also contain the projected upper corner. -/
theorem C54_projection_partial (r : Box2) (v : Box3) (c d : Nat) (hc : c < 3) (hd : d < 3) :
    ∃ x y q, v.min.nth c = some x ∧ v.min.nth d = some y ∧ minmaxMinmax2 r v c d = some q ∧ Least2 q r [⟨x, y⟩] := by
  obtain ⟨x, hx⟩ : ∃ x, v.min.nth c = some x := by
    match c, hc with
    | 0, _ => exact ⟨_, rfl⟩
    | 1, _ => exact ⟨_, rfl⟩
    | 2, _ => exact ⟨_, rfl⟩
  obtain ⟨y, hy⟩ : ∃ x, v.min.nth d = some x := by
    match d, hd with
    | 0, _ => exact ⟨_, rfl⟩
    | 1, _ => exact ⟨_, rfl⟩
    | 2, _ => exact ⟨_, rfl⟩
  refine ⟨x, y, vec2Minmax r ⟨x, y⟩, hx, hy, ?_, vec2Minmax_least _ _⟩
  unfold minmaxMinmax2
  simp only [hx, hy, Option.bind_eq_bind, Option.bind_some]
  rfl

example : minmaxMinmax2 ⟨⟨1, 2⟩, ⟨5, 6⟩⟩ ⟨⟨0, 7, 9⟩, ⟨10, 10, 10⟩⟩ 2 1 = some ⟨⟨1, 2⟩, ⟨9, 7⟩⟩ := by decide

/-! ### C54: rational numbers -/

/-- one box encloses another one -/
def Box.Encloses {n : Nat} (b a : Box n) : Prop := ∀ i, b.min i ≤ a.min i ∧ a.max i ≤ b.max i

/-- Extending a box by a point yields the smallest box that encloses the old one and contains the point. -/
theorem C54_point {n : Nat} (r : Box n) (p : P n) (b : Box n) :
    b.Encloses (minmax r p) ↔ b.Encloses r ∧ p ∈ b.pts := by
  simp only [Box.Encloses, minmax, emin_eq, emax_eq, le_min_iff, max_le_iff, Box.pts, Set.mem_setOf_eq]
  constructor
  · intro h
    exact ⟨fun i => ⟨(h i).1.1, (h i).2.1⟩, fun i => ⟨(h i).1.2, (h i).2.2⟩⟩
  · rintro ⟨h1, h2⟩ i
    exact ⟨⟨(h1 i).1, (h2 i).1⟩, ⟨(h1 i).2, (h2 i).2⟩⟩

/-- The union of two boxes contains both, and if both contain a point, it is the smallest box that does. -/
theorem C54_or {eps : Rat} (h0 : 0 ≤ eps) {n : Nat} (a b : Box n) :
    a.pts ∪ b.pts ⊆ (minmaxOr eps a b).pts ∧
    (a.pts.Nonempty → b.pts.Nonempty → ∀ c : Box n, c.Encloses (minmaxOr eps a b) ↔ c.Encloses a ∧ c.Encloses b) := by
  refine ⟨pts_or h0 a b, ?_⟩
  intro ha hb c
  have hva : ¬ valid eps a = false := fun h => by rw [pts_invalid h0 h] at ha; exact Set.not_nonempty_empty ha
  have hvb : ¬ valid eps b = false := fun h => by rw [pts_invalid h0 h] at hb; exact Set.not_nonempty_empty hb
  unfold minmaxOr
  rw [if_neg hva, if_neg hvb]
  simp only [Box.Encloses, emin_eq, emax_eq, le_min_iff, max_le_iff]
  constructor
  · intro h
    exact ⟨fun i => ⟨(h i).1.1, (h i).2.1⟩, fun i => ⟨(h i).1.2, (h i).2.2⟩⟩
  · rintro ⟨h1, h2⟩ i
    exact ⟨⟨(h1 i).1, (h2 i).1⟩, ⟨(h1 i).2, (h2 i).2⟩⟩

/-- The union with a box without points, e.g., the initial one, is the other box. -/
theorem C54_or_empty {eps : Rat} (h0 : 0 ≤ eps) {n : Nat} (hn : 0 < n) (b : Box n) :
    minmaxOr eps (empty n) b = b ∧ (valid eps b = true → minmaxOr eps b (empty n) = b) ∧ (empty n).pts = ∅ := by
  have he : valid eps (empty n) = false := by
    unfold valid
    simp only [decide_eq_false_iff_not, not_forall, Bool.not_eq_false]
    refine ⟨⟨0, hn⟩, ?_⟩
    show gt eps pinf ninf = true
    rfl
  refine ⟨?_, ?_, pts_empty hn⟩
  · unfold minmaxOr; rw [if_pos he]
  · intro hb
    unfold minmaxOr
    rw [hb, if_neg (by simp), if_pos he]

/-- The intersection of two boxes contains exactly the common points. -/
theorem C54_and {n : Nat} (a b : Box n) : (minmaxAnd a b).pts = a.pts ∩ b.pts := pts_and a b

/-- A box that contains a point is valid. -/
theorem C54_valid {eps : Rat} (h0 : 0 ≤ eps) {n : Nat} (a : Box n) (h : a.pts.Nonempty) : valid eps a = true := by
  by_contra hv
  rw [Bool.not_eq_true] at hv
  rw [pts_invalid h0 hv] at h
  exact Set.not_nonempty_empty h

/-- a box as in the hypotheses: the unit square contains the origin -/
example : (⟨fun _ => fin 0, fun _ => fin 1⟩ : Box 2).pts.Nonempty :=
  ⟨fun _ => 0, fun _ => ⟨le_rfl, fin_le.2 (by norm_num)⟩⟩

/-! ### C60 -/

/-- For every tree without spheres, and every possible meaning of its polyhedra: the bounding box encloses the object, and
what it enclosed before.

Missing for C60: trees with spheres, see `C60_wrong`. -/
theorem C60_encloses_partial (env : Env) (h0 : 0 ≤ env.eps) (solid : Leaf → Set (P 3)) (root : List Csg) (r : Box 3)
    (hl : ∀ a ∈ leavesAdd root, a.IsPoly ∧ LeafOk solid a) :
    r.pts ∪ ptsAdd solid root ⊆ (treeMinmax env r (some root) false).pts :=
  bbAdd_encl h0 solid root r hl

/-- With the parameter `max`, the box encloses all parts, including the subtracted ones.

Missing for C60: trees with spheres. -/
theorem C60_max_partial (env : Env) (solid : Leaf → Set (P 3)) (root : List Csg) (r : Box 3)
    (hl : ∀ a ∈ leavesAdd root, a.IsPoly ∧ LeafOk solid a) :
    ∀ a ∈ leavesAdd root, solid a ⊆ (treeMinmax env r (some root) true).pts := by
  intro a ha x hx
  exact bbAddMax_encl env solid root r hl (Or.inr ⟨a, ha, hx⟩)

/-- The box of an intersection is not larger than the box of any of its elements, except the first one: for elements `l` after the
first one, the box that `get_bb_cut` adds to the result lies in the box of each.

Missing for C60: the first element is not considered, see `C60_first_wrong`. -/
theorem C60_cut_tight_partial (env : Env) (h0 : 0 ≤ env.eps) (a : List Csg) (l : List (List Csg)) (r : Box 3) :
    ∃ c : Box 3, treeMinmax env r (some [.cut (a :: l)]) false = minmaxOr env.eps r c ∧
      ∀ e ∈ l, c.pts ⊆ (treeMinmax env (empty 3) (some e) false).pts := by
  refine ⟨bbCut env (full 3) l, by simp [treeMinmax, bbAdd, bb], ?_⟩
  have key : ∀ (l : List (List Csg)) (b : Box 3), (bbCut env b l).pts ⊆ b.pts ∧
      ∀ e ∈ l, (bbCut env b l).pts ⊆ (bbAdd env false (empty 3) e).pts := by
    intro l
    induction l with
    | nil => intro b; simp [bbCut]
    | cons x l ih =>
      intro b
      have hand := pts_and b (bbAdd env false (empty 3) x)
      rw [bbCut]
      by_cases hv : valid env.eps (minmaxAnd b (bbAdd env false (empty 3) x)) = false
      · rw [if_pos hv, pts_invalid h0 hv]
        simp
      · rw [if_neg hv]
        obtain ⟨h1, h2⟩ := ih (minmaxAnd b (bbAdd env false (empty 3) x))
        rw [hand] at h1
        refine ⟨fun y hy => (h1 hy).1, fun e he => ?_⟩
        rcases List.mem_cons.1 he with rfl | he
        · exact fun y hy => (h1 hy).2
        · exact h2 e he
  exact (key l (full 3)).2

/-- a tetrahedron -/
def tetra : List (P 3) := [![0, 0, 0], ![1, 0, 0], ![0, 1, 0], ![0, 0, 1]]

/-- The first element of an intersection is not considered: if there is only one, a tetrahedron, then the box is everything. -/
theorem C60_first_wrong (env : Env) (h0 : 0 ≤ env.eps) :
    (treeMinmax env (empty 3) (some [.cut [[.leaf (.poly tetra 4)]]]) false).pts = Set.univ := by
  have h : treeMinmax env (empty 3) (some [.cut [[.leaf (.poly tetra 4)]]]) false = minmaxOr env.eps (empty 3) (full 3) := by
    simp [treeMinmax, bbAdd, bb, bbCut]
  rw [h]
  have := pts_or h0 (empty 3) (full 3)
  rw [pts_full] at this
  exact Set.univ_subset_iff.1 (Set.subset_union_right.trans this)

/-- a leaf as in the hypotheses: the solid consists of the corners of the tetrahedron -/
example : (Leaf.poly tetra 4).IsPoly ∧ LeafOk (fun _ => {x | x ∈ tetra}) (.poly tetra 4) := by
  refine ⟨trivial, ?_, ?_⟩
  · intro x hx i
    exact ⟨⟨x, hx, le_rfl⟩, ⟨x, hx, le_rfl⟩⟩
  · intro h
    simp [tetra] at h

/-- A sphere alone gets the right box: it contains the image of the unit ball, if the square root is not too small and the
ellipsoid is not flat.  More generally this holds if the maxima found so far are not larger than the ones of the sphere. -/
theorem C60_sphere_partial (env : Env) (hs : ∀ b, 0 ≤ b → 0 ≤ env.sqrt b ∧ b ≤ env.sqrt b * env.sqrt b) (r : Box 3)
    (w : P 3) (m : Fin 3 → P 3)
    (hpos : ∀ i, 0 < m i 0 * m i 0 + m i 1 * m i 1 + m i 2 * m i 2)
    (hmax : ∀ i, r.max i ≤ fin (w i + env.sqrt (m i 0 * m i 0 + m i 1 * m i 1 + m i 2 * m i 2)))
    (solid : Leaf → Set (P 3)) (hl : LeafOk solid (.sphere w m)) :
    r.pts ∪ solid (.sphere w m) ⊆ (treeMinmax env r (some [.leaf (.sphere w m)]) false).pts := by
  have hbb : treeMinmax env r (some [.leaf (.sphere w m)]) false = sphereMinmax env r w m := by
    simp only [treeMinmax, bbAdd, bb, bbLeaf]
  rw [hbb]
  -- the maximum is always set
  have hset : ∀ i, (sphereMinmax env r w m).max i =
      fin (w i + env.sqrt (m i 0 * m i 0 + m i 1 * m i 1 + m i 2 * m i 2)) ∧
      (sphereMinmax env r w m).min i =
      min (r.min i) (fin (w i - env.sqrt (m i 0 * m i 0 + m i 1 * m i 1 + m i 2 * m i 2))) := by
    intro i
    obtain ⟨c0, c1⟩ := hs _ (le_of_lt (hpos i))
    have hc : 0 < env.sqrt (m i 0 * m i 0 + m i 1 * m i 1 + m i 2 * m i 2) := by
      rcases lt_or_eq_of_le c0 with h | h
      · exact h
      · rw [← h] at c1
        have := hpos i
        linarith
    simp only [sphereMinmax, sphereMinmax1]
    generalize env.sqrt (m i 0 * m i 0 + m i 1 * m i 1 + m i 2 * m i 2) = c at *
    have hlh : fin (w i - c) < fin (w i + c) := fin_lt.2 (by linarith)
    by_cases h1 : fin (w i - c) < r.min i
    · rw [if_pos h1, if_pos hlh]
      exact ⟨rfl, (min_eq_right (le_of_lt h1)).symm⟩
    · rw [if_neg h1]
      rw [if_pos (lt_of_le_of_lt (not_lt.1 h1) hlh)]
      exact ⟨rfl, (min_eq_left (not_lt.1 h1)).symm⟩
  rintro x (hx | hx) i
  · rw [(hset i).1, (hset i).2]
    exact ⟨le_trans (min_le_left _ _) (hx i).1, le_trans (hx i).2 (hmax i)⟩
  · obtain ⟨u, hu, hxi⟩ := hl x hx
    rw [(hset i).1, (hset i).2, hxi i]
    obtain ⟨c0, c1⟩ := hs _ (le_of_lt (hpos i))
    have hu' : u 0 * u 0 + u 1 * u 1 + u 2 * u 2 ≤ 1 := hu
    generalize env.sqrt (m i 0 * m i 0 + m i 1 * m i 1 + m i 2 * m i 2) = c at *
    -- Cauchy-Schwarz
    have hcs : (m i 0 * u 0 + m i 1 * u 1 + m i 2 * u 2) ^ 2 ≤ c ^ 2 := by
      have e : (m i 0 * u 0 + m i 1 * u 1 + m i 2 * u 2) ^ 2 ≤
          (m i 0 * m i 0 + m i 1 * m i 1 + m i 2 * m i 2) * (u 0 * u 0 + u 1 * u 1 + u 2 * u 2) := by
        nlinarith [sq_nonneg (m i 0 * u 1 - m i 1 * u 0), sq_nonneg (m i 0 * u 2 - m i 2 * u 0),
          sq_nonneg (m i 1 * u 2 - m i 2 * u 1)]
      have e2 : (m i 0 * m i 0 + m i 1 * m i 1 + m i 2 * m i 2) * (u 0 * u 0 + u 1 * u 1 + u 2 * u 2) ≤
          (m i 0 * m i 0 + m i 1 * m i 1 + m i 2 * m i 2) * 1 :=
        mul_le_mul_of_nonneg_left hu' (le_of_lt (hpos i))
      nlinarith
    have hd := abs_le.1 (abs_le_of_sq_le_sq hcs c0)
    refine ⟨le_trans (min_le_right _ _) (fin_le.2 ?_), fin_le.2 ?_⟩
    · linarith [hd.1]
    · linarith [hd.2]

/-- the unit sphere: the square root of 1 is 1 (and the one of anything else is rounded up coarsely) -/
def exEnv : Env := ⟨0, fun b => if b ≤ 1 then 1 else b⟩

/-- the linear part of the identity -/
def unit3 : Fin 3 → P 3 := fun i j => if i = j then 1 else 0

theorem unit3_sq (i : Fin 3) : unit3 i 0 * unit3 i 0 + unit3 i 1 * unit3 i 1 + unit3 i 2 * unit3 i 2 = 1 := by
  match i with
  | 0 => decide +kernel
  | 1 => decide +kernel
  | 2 => decide +kernel

/-- the unit sphere meets the hypotheses -/
example : (∀ b, 0 ≤ b → 0 ≤ exEnv.sqrt b ∧ b ≤ exEnv.sqrt b * exEnv.sqrt b) ∧
    (∀ i, (0 : Rat) < unit3 i 0 * unit3 i 0 + unit3 i 1 * unit3 i 1 + unit3 i 2 * unit3 i 2) ∧
    (∀ i : Fin 3, (empty 3).max i ≤ fin (0 + 1)) := by
  refine ⟨?_, ?_, fun i => bot_le⟩
  · intro b hb
    simp only [exEnv]
    split_ifs with h
    · exact ⟨by norm_num, by linarith⟩
    · exact ⟨hb, by nlinarith⟩
  · intro i
    rw [unit3_sq]
    norm_num

/-- the corners of a cube with edges of length 10 -/
def cube10 : List (P 3) :=
  [![0, 0, 0], ![10, 0, 0], ![0, 10, 0], ![10, 10, 0], ![0, 0, 10], ![10, 0, 10], ![0, 10, 10], ![10, 10, 10]]

/-- the union of a cube with edges of length 10 and a unit sphere at the origin -/
def cubeAndSphere : List Csg :=
  [.leaf (.poly cube10 6), .leaf (.sphere (fun _ => 0) unit3)]

/-- C60 fails: the bounding box of the union of a cube of size 10 and a unit sphere ends at 1, so that the upper part of
the cube is not in the box, whatever small value the epsilon has. -/
theorem C60_wrong (eps : Rat) :
    let env : Env := ⟨eps, fun b => if b ≤ 1 then 1 else b⟩
    (treeMinmax env (empty 3) (some cubeAndSphere) false).max 2 = fin 1 ∧
    ∀ x : P 3, x 2 = 5 → x ∉ (treeMinmax env (empty 3) (some cubeAndSphere) false).pts := by
  intro env
  have h : (treeMinmax env (empty 3) (some cubeAndSphere) false).max 2 = fin 1 := by
    have hb : treeMinmax env (empty 3) (some cubeAndSphere) false =
        sphereMinmax env (bbLeaf env (empty 3) (.poly cube10 6)) (fun _ => 0) unit3 := by
      simp only [treeMinmax, cubeAndSphere, bbAdd, bb, bbLeaf]
    rw [hb]
    have hmin : (bbLeaf env (empty 3) (.poly cube10 6)).min 2 ≤ fin 0 := by
      have h1 : bbLeaf env (empty 3) (.poly cube10 6) = polyLoop (empty 3) cube10 := by
        rw [bbLeaf, if_neg (by decide)]
      rw [h1]
      have := (polyLoop_grow cube10 (empty 3)).2.2 ![0, 0, 0] (by simp [cube10]) 2
      exact this.1
    simp only [sphereMinmax, sphereMinmax1]
    rw [unit3_sq]
    have hsq : env.sqrt 1 = 1 := rfl
    rw [hsq]
    have e1 : fin (0 + 1) = fin 1 := by norm_num
    rw [e1]
    split_ifs with h1 h2 h2
    · rfl
    · exact absurd (fin_lt.2 (by norm_num : (0 : Rat) - 1 < 1)) h2
    · rfl
    · exact absurd (lt_of_le_of_lt hmin (fin_lt.2 (by norm_num : (0 : Rat) < 1))) h2
  refine ⟨h, ?_⟩
  intro x hx hmem
  have := (hmem 2).2
  rw [h, hx, fin_le] at this
  norm_num at this

end Hob3l.Bbox
