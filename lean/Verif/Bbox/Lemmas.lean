import Verif.Bbox.Spec
import Mathlib.Tactic.Linarith
import Mathlib.Tactic.SplitIfs

namespace Hob3l.Bbox

/-! ### integers -/

theorem dimMinmax_spec (mn mx v lo hi : Int) :
    (lo ≤ (dimMinmax mn mx v).1 ↔ lo ≤ mn ∧ lo ≤ v) ∧ ((dimMinmax mn mx v).2 ≤ hi ↔ mx ≤ hi ∧ v ≤ hi) := by
  unfold dimMinmax
  constructor
  · show lo ≤ (if v < mn then v else mn) ↔ _
    split_ifs <;> constructor <;> intros <;> omega
  · show (if v > mx then v else mx) ≤ hi ↔ _
    split_ifs <;> constructor <;> intros <;> omega

theorem vec2Minmax_least (r : Box2) (v : V2) : Least2 (vec2Minmax r v) r [v] := by
  intro b
  have hx := dimMinmax_spec r.min.x r.max.x v.x b.min.x b.max.x
  have hy := dimMinmax_spec r.min.y r.max.y v.y b.min.y b.max.y
  simp only [Box2.Encloses, Box2.Has, List.mem_singleton, forall_eq, vec2Minmax]
  rw [hx.1, hx.2, hy.1, hy.2]
  constructor <;> intro h <;> omega

theorem vec3Minmax_least (r : Box3) (v : V3) : Least3 (vec3Minmax r v) r [v] := by
  intro b
  have hx := dimMinmax_spec r.min.x r.max.x v.x b.min.x b.max.x
  have hy := dimMinmax_spec r.min.y r.max.y v.y b.min.y b.max.y
  have hz := dimMinmax_spec r.min.z r.max.z v.z b.min.z b.max.z
  simp only [Box3.Encloses, Box3.Has, List.mem_singleton, forall_eq, vec3Minmax]
  rw [hx.1, hx.2, hy.1, hy.2, hz.1, hz.2]
  constructor <;> intro h <;> omega

theorem Least2.nil (r : Box2) : Least2 r r [] := by intro b; simp

theorem Least2.append {r s a : Box2} {l m : List V2} (h1 : Least2 r a l) (h2 : Least2 s r m) : Least2 s a (l ++ m) := by
  intro b
  rw [h2 b, h1 b]
  simp only [List.mem_append]
  constructor
  · rintro ⟨⟨p, q⟩, s⟩
    exact ⟨p, fun x hx => hx.elim (q x) (s x)⟩
  · rintro ⟨p, q⟩
    exact ⟨⟨p, fun x hx => q x (Or.inl hx)⟩, fun x hx => q x (Or.inr hx)⟩

theorem Least3.nil (r : Box3) : Least3 r r [] := by intro b; simp

theorem Least3.append {r s a : Box3} {l m : List V3} (h1 : Least3 r a l) (h2 : Least3 s r m) : Least3 s a (l ++ m) := by
  intro b
  rw [h2 b, h1 b]
  simp only [List.mem_append]
  constructor
  · rintro ⟨⟨p, q⟩, s⟩
    exact ⟨p, fun x hx => hx.elim (q x) (s x)⟩
  · rintro ⟨p, q⟩
    exact ⟨⟨p, fun x hx => q x (Or.inl hx)⟩, fun x hx => q x (Or.inr hx)⟩

/-! ### rational numbers -/

theorem emin_eq (a b : E) : emin a b = min a b := by
  unfold emin; rw [min_def]

theorem emax_eq (a b : E) : emax a b = max a b := by
  unfold emax
  split_ifs with h
  · exact (max_eq_left h).symm
  · exact (max_eq_right (le_of_lt (not_le.1 h))).symm

theorem fin_le {a b : Rat} : fin a ≤ fin b ↔ a ≤ b := by
  unfold fin
  rw [WithBot.coe_le_coe, WithTop.coe_le_coe]

theorem fin_lt {a b : Rat} : fin a < fin b ↔ a < b := by
  rw [← not_le, fin_le, not_le]

theorem gt_lt {eps : Rat} (h0 : 0 ≤ eps) {a b : E} (h : gt eps a b = true) : b < a := by
  unfold gt at h
  split at h
  · rename_i a b
    simp only [decide_eq_true_eq] at h
    show fin b < fin a
    rw [fin_lt]
    linarith
  · simpa using h

/-- an invalid box contains no points -/
theorem pts_invalid {eps : Rat} (h0 : 0 ≤ eps) {n : Nat} {a : Box n} (h : valid eps a = false) : a.pts = ∅ := by
  unfold valid at h
  simp only [decide_eq_false_iff_not, not_forall, Bool.not_eq_false] at h
  obtain ⟨i, hi⟩ := h
  have := gt_lt h0 hi
  ext p
  simp only [Set.mem_empty_iff_false, iff_false]
  intro hp
  have := hp i
  exact absurd (lt_of_le_of_lt (le_trans this.1 this.2) (by assumption)) (lt_irrefl _)

theorem pts_minmax {n : Nat} (r : Box n) (p : P n) : r.pts ⊆ (minmax r p).pts ∧ p ∈ (minmax r p).pts := by
  constructor
  · intro x hx i
    simp only [minmax, emin_eq, emax_eq]
    exact ⟨le_trans (min_le_left _ _) (hx i).1, le_trans (hx i).2 (le_max_left _ _)⟩
  · intro i
    simp only [minmax, emin_eq, emax_eq]
    exact ⟨min_le_right _ _, le_max_right _ _⟩

theorem pts_or {eps : Rat} (h0 : 0 ≤ eps) {n : Nat} (a b : Box n) : a.pts ∪ b.pts ⊆ (minmaxOr eps a b).pts := by
  unfold minmaxOr
  split_ifs with h1 h2
  · rw [pts_invalid h0 h1, Set.empty_union]
  · rw [pts_invalid h0 h2, Set.union_empty]
  · intro x hx i
    simp only [emin_eq, emax_eq]
    rcases hx with hx | hx
    · exact ⟨le_trans (min_le_left _ _) (hx i).1, le_trans (hx i).2 (le_max_left _ _)⟩
    · exact ⟨le_trans (min_le_right _ _) (hx i).1, le_trans (hx i).2 (le_max_right _ _)⟩

theorem pts_and {n : Nat} (a b : Box n) : (minmaxAnd a b).pts = a.pts ∩ b.pts := by
  ext x
  simp only [Box.pts, minmaxAnd, emin_eq, emax_eq, Set.mem_setOf_eq, Set.mem_inter_iff, max_le_iff, le_min_iff]
  constructor
  · intro h
    exact ⟨fun i => ⟨(h i).1.1, (h i).2.1⟩, fun i => ⟨(h i).1.2, (h i).2.2⟩⟩
  · rintro ⟨h1, h2⟩ i
    exact ⟨⟨(h1 i).1, (h2 i).1⟩, ⟨(h1 i).2, (h2 i).2⟩⟩

theorem pts_full (n : Nat) : (full n).pts = Set.univ := by
  ext x
  simp only [Box.pts, full, Set.mem_setOf_eq, Set.mem_univ, iff_true]
  intro i
  exact ⟨bot_le, le_top⟩

theorem pts_empty {n : Nat} (h : 0 < n) : (empty n).pts = ∅ := by
  ext x
  simp only [Box.pts, empty, Set.mem_setOf_eq, Set.mem_empty_iff_false, iff_false]
  intro hx
  have := (hx ⟨0, h⟩).2
  unfold fin ninf at this
  rw [le_bot_iff] at this
  exact WithBot.coe_ne_bot this

theorem polyLoop_grow (l : List (P 3)) : ∀ r : Box 3, r.pts ⊆ (polyLoop r l).pts ∧
    (∀ i, (polyLoop r l).min i ≤ r.min i ∧ r.max i ≤ (polyLoop r l).max i) ∧
    ∀ p ∈ l, p ∈ (polyLoop r l).pts := by
  induction l with
  | nil => intro r; exact ⟨subset_rfl, fun i => ⟨le_rfl, le_rfl⟩, by simp⟩
  | cons p ps ih =>
    intro r
    obtain ⟨h1, h2, h3⟩ := ih (minmax r p)
    obtain ⟨h4, h5⟩ := pts_minmax r p
    refine ⟨h4.trans h1, ?_, ?_⟩
    · intro i
      refine ⟨le_trans (h2 i).1 ?_, le_trans ?_ (h2 i).2⟩
      · simp only [minmax, emin_eq]; exact min_le_left _ _
      · simp only [minmax, emax_eq]; exact le_max_left _ _
    · intro q hq
      rcases List.mem_cons.1 hq with hq | hq
      · subst hq; exact h1 h5
      · exact h3 q hq

/-- a point within the bounds of some points -/
theorem polyLoop_hull {l : List (P 3)} {r : Box 3} {x : P 3}
    (h : ∀ i, (∃ p ∈ l, p i ≤ x i) ∧ ∃ p ∈ l, x i ≤ p i) : x ∈ (polyLoop r l).pts := by
  intro i
  obtain ⟨⟨p, hp, h1⟩, ⟨q, hq, h2⟩⟩ := h i
  have := (polyLoop_grow l r).2.2
  exact ⟨le_trans (this p hp i).1 (fin_le.2 h1), le_trans (fin_le.2 h2) (this q hq i).2⟩

theorem bbLeaf_encl (env : Env) (r : Box 3) (l : Leaf) (hp : l.IsPoly) (solid : Leaf → Set (P 3)) (hs : LeafOk solid l) :
    r.pts ∪ solid l ⊆ (bbLeaf env r l).pts := by
  cases l with
  | sphere w m => exact hp.elim
  | poly points faces =>
    rw [bbLeaf]
    split_ifs with h
    · rw [hs.2 h, Set.union_empty]
    · refine Set.union_subset (polyLoop_grow points r).1 ?_
      intro x hx
      exact polyLoop_hull (hs.1 x hx)

theorem ptsCount_sub (solid : Leaf → Set (P 3)) (x : P 3) : ∀ l, ptsCount solid x l → ∃ a ∈ l, x ∈ ptsAdd solid a
  | [], h => by rw [ptsCount] at h; exact h.elim
  | l :: ls, h => by
    rw [ptsCount] at h
    by_cases h1 : x ∈ ptsAdd solid l
    · exact ⟨l, by simp, h1⟩
    · have h2 : ptsCount solid x ls := by
        by_contra h2
        exact h ⟨fun a => absurd a h1, fun a => absurd a h2⟩
      obtain ⟨a, ha, hx⟩ := ptsCount_sub solid x ls h2
      exact ⟨a, List.mem_cons_of_mem _ ha, hx⟩

/-- the union of all leaves -/
def ptsLeaves (solid : Leaf → Set (P 3)) (l : List Leaf) : Set (P 3) := {x | ∃ a ∈ l, x ∈ solid a}

mutual
theorem pts_sub_leaves (solid : Leaf → Set (P 3)) : ∀ t : Csg, t.pts solid ⊆ ptsLeaves solid t.leaves
  | .leaf l => by
    rw [Csg.pts, Csg.leaves]; intro x hx; exact ⟨l, by simp, hx⟩
  | .add l => by rw [Csg.pts, Csg.leaves]; exact ptsAdd_sub_leaves solid l
  | .xor l => by
    rw [Csg.pts, Csg.leaves]
    intro x hx
    obtain ⟨a, ha, hx⟩ := ptsCount_sub solid x l hx
    exact ptsAll_sub_leaves solid l x a ha hx
  | .sub a b => by
    rw [Csg.pts, Csg.leaves]
    rintro x ⟨hx, -⟩
    obtain ⟨l, hl, h⟩ := ptsAdd_sub_leaves solid a hx
    exact ⟨l, List.mem_append_left _ hl, h⟩
  | .cut [] => by rw [Csg.pts]; exact Set.empty_subset _
  | .cut (a :: l) => by
    rw [Csg.pts, Csg.leaves]
    rintro x ⟨hx, -⟩
    exact ptsAll_sub_leaves solid (a :: l) x a (by simp) hx
theorem ptsAdd_sub_leaves (solid : Leaf → Set (P 3)) : ∀ l : List Csg, ptsAdd solid l ⊆ ptsLeaves solid (leavesAdd l)
  | [] => by rw [ptsAdd]; exact Set.empty_subset _
  | t :: ts => by
    rw [ptsAdd, leavesAdd]
    rintro x (hx | hx)
    · obtain ⟨l, hl, h⟩ := pts_sub_leaves solid t hx
      exact ⟨l, List.mem_append_left _ hl, h⟩
    · obtain ⟨l, hl, h⟩ := ptsAdd_sub_leaves solid ts hx
      exact ⟨l, List.mem_append_right _ hl, h⟩
theorem ptsAll_sub_leaves (solid : Leaf → Set (P 3)) : ∀ (l : List (List Csg)) (x : P 3), ∀ a ∈ l, x ∈ ptsAdd solid a →
    x ∈ ptsLeaves solid (leavesAll l)
  | [], x, a, ha, _ => by cases ha
  | b :: ls, x, a, ha, hx => by
    rw [leavesAll]
    by_cases hb : a = b
    · obtain ⟨l, hl, h⟩ := ptsAdd_sub_leaves solid b (hb ▸ hx)
      exact ⟨l, List.mem_append_left _ hl, h⟩
    · obtain ⟨l, hl, h⟩ := ptsAll_sub_leaves solid ls x a
        ((List.mem_cons.1 ha).resolve_left hb) hx
      exact ⟨l, List.mem_append_right _ hl, h⟩
end

/-- the leaves are polyhedra with possible meanings -/
def LeavesOk (solid : Leaf → Set (P 3)) (l : List Leaf) : Prop := ∀ a ∈ l, a.IsPoly ∧ LeafOk solid a

theorem LeavesOk.left {solid l m} (h : LeavesOk solid (l ++ m)) : LeavesOk solid l :=
  fun a ha => h a (List.mem_append_left _ ha)
theorem LeavesOk.right {solid l m} (h : LeavesOk solid (l ++ m)) : LeavesOk solid m :=
  fun a ha => h a (List.mem_append_right _ ha)

mutual
theorem bb_encl {env : Env} (h0 : 0 ≤ env.eps) (solid : Leaf → Set (P 3)) :
    ∀ (t : Csg) (r : Box 3), LeavesOk solid t.leaves → r.pts ∪ t.pts solid ⊆ (bb env false r t).pts
  | .leaf l, r, h => by
    rw [bb, Csg.pts]
    rw [Csg.leaves] at h
    exact bbLeaf_encl env r l (h l (by simp)).1 solid (h l (by simp)).2
  | .add l, r, h => by
    rw [bb, Csg.pts]
    rw [Csg.leaves] at h
    exact bbAdd_encl h0 solid l r h
  | .xor l, r, h => by
    rw [bb, Csg.pts]
    rw [Csg.leaves] at h
    obtain ⟨h1, h2⟩ := bbXor_encl h0 solid l r h
    refine Set.union_subset h1 ?_
    intro x hx
    obtain ⟨a, ha, hx⟩ := ptsCount_sub solid x l hx
    exact h2 a ha hx
  | .sub a b, r, h => by
    rw [bb, Csg.pts, if_neg (by decide)]
    rw [Csg.leaves] at h
    refine Set.Subset.trans ?_ (bbAdd_encl h0 solid a r h.left)
    exact Set.union_subset_union_right _ Set.diff_subset
  | .cut [], r, _ => by
    rw [bb, Csg.pts, Set.union_empty]
  | .cut (a :: l), r, h => by
    rw [bb, Csg.pts, if_neg (by decide)]
    rw [Csg.leaves, leavesAll] at h
    refine Set.Subset.trans ?_ (pts_or h0 _ _)
    refine Set.union_subset_union_right _ ?_
    refine Set.Subset.trans Set.inter_subset_right ?_
    refine Set.Subset.trans ?_ (bbCut_encl h0 solid l (full 3) h.right)
    rw [pts_full, Set.univ_inter]
theorem bbAdd_encl {env : Env} (h0 : 0 ≤ env.eps) (solid : Leaf → Set (P 3)) :
    ∀ (l : List Csg) (r : Box 3), LeavesOk solid (leavesAdd l) → r.pts ∪ ptsAdd solid l ⊆ (bbAdd env false r l).pts
  | [], r, _ => by rw [bbAdd, ptsAdd, Set.union_empty]
  | t :: ts, r, h => by
    rw [bbAdd, ptsAdd]
    rw [leavesAdd] at h
    have h1 := bb_encl h0 solid t r h.left
    have h2 := bbAdd_encl h0 solid ts (bb env false r t) h.right
    rw [← Set.union_assoc]
    exact Set.Subset.trans (Set.union_subset_union_left _ h1) h2
theorem bbXor_encl {env : Env} (h0 : 0 ≤ env.eps) (solid : Leaf → Set (P 3)) :
    ∀ (l : List (List Csg)) (r : Box 3), LeavesOk solid (leavesAll l) →
      r.pts ⊆ (bbXor env false r l).pts ∧ ∀ a ∈ l, ptsAdd solid a ⊆ (bbXor env false r l).pts
  | [], r, _ => by rw [bbXor]; exact ⟨subset_rfl, by simp⟩
  | b :: ls, r, h => by
    rw [bbXor]
    rw [leavesAll] at h
    have h1 := bbAdd_encl h0 solid b r h.left
    obtain ⟨h2, h3⟩ := bbXor_encl h0 solid ls (bbAdd env false r b) h.right
    refine ⟨(Set.subset_union_left.trans h1).trans h2, ?_⟩
    intro a ha
    rcases List.mem_cons.1 ha with ha | ha
    · rw [ha]; exact (Set.subset_union_right.trans h1).trans h2
    · exact h3 a ha
theorem bbCut_encl {env : Env} (h0 : 0 ≤ env.eps) (solid : Leaf → Set (P 3)) :
    ∀ (l : List (List Csg)) (r : Box 3), LeavesOk solid (leavesAll l) → r.pts ∩ ptsCut solid l ⊆ (bbCut env r l).pts
  | [], r, _ => by rw [bbCut, ptsCut, Set.inter_univ]
  | b :: ls, r, h => by
    rw [bbCut, ptsCut]
    rw [leavesAll] at h
    have h1 := bbAdd_encl h0 solid b (empty 3) h.left
    rw [← Set.inter_assoc]
    have h2 : r.pts ∩ ptsAdd solid b ⊆ (minmaxAnd r (bbAdd env false (empty 3) b)).pts := by
      rw [pts_and]
      exact Set.inter_subset_inter_right _ (Set.subset_union_right.trans h1)
    split_ifs with hv
    · exact Set.inter_subset_left.trans h2
    · exact (Set.inter_subset_inter_left _ h2).trans
        (bbCut_encl h0 solid ls (minmaxAnd r (bbAdd env false (empty 3) b)) h.right)
end

mutual
theorem bbMax_encl (env : Env) (solid : Leaf → Set (P 3)) :
    ∀ (t : Csg) (r : Box 3), LeavesOk solid t.leaves → r.pts ∪ ptsLeaves solid t.leaves ⊆ (bb env true r t).pts
  | .leaf l, r, h => by
    rw [bb, Csg.leaves]
    rw [Csg.leaves] at h
    refine Set.Subset.trans (Set.union_subset_union_right _ ?_)
      (bbLeaf_encl env r l (h l (by simp)).1 solid (h l (by simp)).2)
    rintro x ⟨a, ha, hx⟩
    rw [List.mem_singleton] at ha
    rwa [← ha]
  | .add l, r, h => by
    rw [bb, Csg.leaves]
    rw [Csg.leaves] at h
    exact bbAddMax_encl env solid l r h
  | .xor l, r, h => by
    rw [bb, Csg.leaves]
    rw [Csg.leaves] at h
    exact bbXorMax_encl env solid l r h
  | .sub a b, r, h => by
    rw [bb, Csg.leaves, if_pos rfl]
    rw [Csg.leaves] at h
    have h1 := bbAddMax_encl env solid a r h.left
    have h2 := bbAddMax_encl env solid b (bbAdd env true r a) h.right
    refine Set.Subset.trans ?_ h2
    rintro x (hx | ⟨l, hl, hx⟩)
    · exact Or.inl (h1 (Or.inl hx))
    · rcases List.mem_append.1 hl with hl | hl
      · exact Or.inl (h1 (Or.inr ⟨l, hl, hx⟩))
      · exact Or.inr ⟨l, hl, hx⟩
  | .cut [], r, _ => by
    rw [bb, Csg.leaves, leavesAll]
    rintro x (hx | ⟨l, hl, -⟩)
    · exact hx
    · cases hl
  | .cut (a :: ls), r, h => by
    rw [bb, Csg.leaves, leavesAll, if_pos rfl]
    rw [Csg.leaves, leavesAll] at h
    have h1 := bbAddMax_encl env solid a r h.left
    have h2 := bbXorMax_encl env solid ls (bbAdd env true r a) h.right
    refine Set.Subset.trans ?_ h2
    rintro x (hx | ⟨l, hl, hx⟩)
    · exact Or.inl (h1 (Or.inl hx))
    · rcases List.mem_append.1 hl with hl | hl
      · exact Or.inl (h1 (Or.inr ⟨l, hl, hx⟩))
      · exact Or.inr ⟨l, hl, hx⟩
theorem bbAddMax_encl (env : Env) (solid : Leaf → Set (P 3)) :
    ∀ (l : List Csg) (r : Box 3), LeavesOk solid (leavesAdd l) →
      r.pts ∪ ptsLeaves solid (leavesAdd l) ⊆ (bbAdd env true r l).pts
  | [], r, _ => by
    rw [bbAdd, leavesAdd]
    rintro x (hx | ⟨l, hl, -⟩)
    · exact hx
    · cases hl
  | t :: ts, r, h => by
    rw [bbAdd, leavesAdd]
    rw [leavesAdd] at h
    have h1 := bbMax_encl env solid t r h.left
    have h2 := bbAddMax_encl env solid ts (bb env true r t) h.right
    refine Set.Subset.trans ?_ h2
    rintro x (hx | ⟨l, hl, hx⟩)
    · exact Or.inl (h1 (Or.inl hx))
    · rcases List.mem_append.1 hl with hl | hl
      · exact Or.inl (h1 (Or.inr ⟨l, hl, hx⟩))
      · exact Or.inr ⟨l, hl, hx⟩
theorem bbXorMax_encl (env : Env) (solid : Leaf → Set (P 3)) :
    ∀ (l : List (List Csg)) (r : Box 3), LeavesOk solid (leavesAll l) →
      r.pts ∪ ptsLeaves solid (leavesAll l) ⊆ (bbXor env true r l).pts
  | [], r, _ => by
    rw [bbXor, leavesAll]
    rintro x (hx | ⟨l, hl, -⟩)
    · exact hx
    · cases hl
  | b :: ls, r, h => by
    rw [bbXor, leavesAll]
    rw [leavesAll] at h
    have h1 := bbAddMax_encl env solid b r h.left
    have h2 := bbXorMax_encl env solid ls (bbAdd env true r b) h.right
    refine Set.Subset.trans ?_ h2
    rintro x (hx | ⟨l, hl, hx⟩)
    · exact Or.inl (h1 (Or.inl hx))
    · rcases List.mem_append.1 hl with hl | hl
      · exact Or.inl (h1 (Or.inr ⟨l, hl, hx⟩))
      · exact Or.inr ⟨l, hl, hx⟩
end

end Hob3l.Bbox
