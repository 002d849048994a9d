import Verif.Solid.LemmasCut

/-
The section of a tower: the outline between two layers.
-/

namespace Hob3l.Solid

open Hob3l.Slice (sides walk QSort sliceMesh cuts cutPt Crosses Vec3)
open Hob3l.Matq

theorem stacked_le {Z : Nat → Int} {m : Nat} (h : ∀ k, k < m → Z k < Z (k + 1)) {a b : Nat} (hab : a ≤ b) (hb : b ≤ m) :
    Z a ≤ Z b := by
  induction b with
  | zero => have : a = 0 := by omega
            rw [this]
  | succ b ih =>
    by_cases e : a = b + 1
    · rw [e]
    · have := ih (by omega) (by omega)
      have := h b (by omega)
      omega

theorem stacked_ge {Z : Nat → Int} {m : Nat} (h : ∀ k, k < m → Z (k + 1) < Z k) {a b : Nat} (hab : a ≤ b) (hb : b ≤ m) :
    Z b ≤ Z a := by
  induction b with
  | zero => have : a = 0 := by omega
            rw [this]
  | succ b ih =>
    by_cases e : a = b + 1
    · rw [e]
    · have := ih (by omega) (by omega)
      have := h b (by omega)
      omega

theorem stacked_unique {Z : Nat → Int} {m : Nat} (h : Stacked Z m) {z : Int} {i k : Nat} (hi : i < m) (hk : k < m)
    (h1 : Between z (Z i) (Z (i + 1))) (h2 : Between z (Z k) (Z (k + 1))) : i = k := by
  have key : ∀ {i k : Nat}, i < m → k < m → Between z (Z i) (Z (i + 1)) → Between z (Z k) (Z (k + 1)) → ¬ i < k := by
    intro i k hi hk h1 h2 hlt
    rcases h with h | h
    · have a := stacked_le h (show i + 1 ≤ k by omega) (by omega)
      have b := h i hi
      have c := h k hk
      unfold Between at h1 h2
      omega
    · have a := stacked_ge h (show i + 1 ≤ k by omega) (by omega)
      have b := h i hi
      have c := h k hk
      unfold Between at h1 h2
      omega
  have a := key hi hk h1 h2
  have b := key hk hi h2 h1
  omega

theorem flatMap_single {β : Type} (n i : Nat) (g : Nat → List β) (hi : i < n) (h : ∀ k, k < n → k ≠ i → g k = []) :
    (List.range n).flatMap g = g i := by
  induction n with
  | zero => omega
  | succ n ih =>
    rw [List.range_succ, List.flatMap_append]
    simp only [List.flatMap_cons, List.flatMap_nil, List.append_nil]
    by_cases e : i = n
    · subst e
      have : (List.range i).flatMap g = [] := by
        rw [List.flatMap_eq_nil_iff]
        intro k hk
        rw [List.mem_range] at hk
        exact h k (by omega) (by omega)
      rw [this, List.nil_append]
    · rw [ih (by omega) (fun k hk => h k (by omega)), h n (by omega) (fun e' => e e'.symm), List.append_nil]

theorem walk_interleave {α β : Type} (C D : α → β) (a : α) (l : List α) (c : α) :
    walk (C a) (D a :: l.flatMap fun j => [C j, D j]) (C c) =
      (walk a l c).flatMap fun s => [(C s.1, D s.1), (D s.1, C s.2)] := by
  induction l generalizing a with
  | nil => rfl
  | cons b l ih =>
    have := ih b
    simp only [List.flatMap_cons, List.cons_append, List.nil_append, walk] at this ⊢
    rw [← this]

theorem sides_interleave {α β : Type} (C D : α → β) (l : List α) :
    sides (l.flatMap fun j => [C j, D j]) = (sides l).flatMap fun s => [(C s.1, D s.1), (D s.1, C s.2)] := by
  cases l with
  | nil => rfl
  | cons a l => exact walk_interleave C D a l a

/-- number of gaps between layers -/
def gaps (L : Nat) (hasTop : Bool) : Nat := if hasTop then L - 1 else L

section
variable (z : Int) (W : P → Vec3)

/-- the outline between layer `i` and the next -/
noncomputable def outlinePts (fn L : Nat) (tri : Tri) (i : Nat) : List Vec2 :=
  if i + 1 < L then
    match tri with
    | .none => (List.range fn).map fun j => cp z W (i, j) (i + 1, j)
    | .left => (List.range fn).flatMap fun j => [cp z W (i, j) (i + 1, j), cp z W (i, wrapAdd1 j fn) (i + 1, j)]
    | .right => (List.range fn).flatMap fun j => [cp z W (i, j) (i + 1, j), cp z W (i, j) (i + 1, wrapAdd1 j fn)]
  else (List.range fn).map fun j => cp z W (L - 1, j) (L, 0)

theorem flatMap_perm_congr {α β : Type} (l : List α) (f g : α → List β) (h : ∀ a ∈ l, (f a).Perm (g a)) :
    (l.flatMap f).Perm (l.flatMap g) := by
  induction l with
  | nil => exact List.Perm.refl _
  | cons a l ih =>
    rw [List.flatMap_cons, List.flatMap_cons]
    exact (h a (by simp)).append (ih fun b hb => h b (by simp [hb]))

theorem want_in {Z : Nat → Int} {fn L : Nat} {hasTop : Bool} (tri : Tri) (hL : 1 ≤ L) (hZ : Stacked Z (gaps L hasTop)) {i : Nat}
    (hi : i < gaps L hasTop) (hb : Between z (Z i) (Z (i + 1))) :
    ((ids fn L hasTop tri).flatMap (want z W Z fn L tri)).Perm (sides (outlinePts z W fn L tri i)) := by
  have hno : ∀ k, k < gaps L hasTop → k ≠ i → ¬ Between z (Z k) (Z (k + 1)) :=
    fun k hk hne h => hne (stacked_unique hZ hk hi h hb)
  have hside0 : ∀ k j, k < gaps L hasTop → k ≠ i → (sideIds tri k j).flatMap (want z W Z fn L tri) = [] := by
    intro k j hk hne
    cases tri <;> simp [sideIds, want, hno k hk hne]
  have hsplit : (ids fn L hasTop tri).flatMap (want z W Z fn L tri) =
      ((List.range (L - 1)).flatMap fun k => (List.range fn).flatMap fun j =>
        (sideIds tri k j).flatMap (want z W Z fn L tri)) ++
      (if hasTop then [] else (List.range fn).flatMap fun j => want z W Z fn L tri (.roof j)) := by
    unfold ids
    rw [List.flatMap_append, List.flatMap_append, List.flatMap_append, List.flatMap_assoc]
    have e1 : ([FaceId.bot] : List FaceId).flatMap (want z W Z fn L tri) = [] := rfl
    have e2 : (if hasTop = true then [FaceId.top] else []).flatMap (want z W Z fn L tri) = [] := by cases hasTop <;> rfl
    rw [e1, e2, List.nil_append, List.nil_append]
    congr 1
    · congr 1
      funext k
      rw [List.flatMap_assoc]
    · cases hasTop
      · simp [List.flatMap_map]
      · rfl
  have hsr : sides (List.range fn) = (List.range fn).map fun j => (j, wrapAdd1 j fn) := by
    have := sides_range fn (fun j => j)
    simpa using this
  rw [hsplit]
  by_cases hiL : i + 1 < L
  · have hroof : (if hasTop = true then [] else (List.range fn).flatMap fun j => want z W Z fn L tri (.roof j)) = [] := by
      cases hasTop
      · simp only [Bool.false_eq_true, if_false]
        rw [List.flatMap_eq_nil_iff]
        intro j _
        have := hno (L - 1) (by simp [gaps]; omega) (by omega)
        rw [show L - 1 + 1 = L by omega] at this
        simp [want, this]
      · rfl
    rw [hroof, List.append_nil, flatMap_single (L - 1) i _ (by omega)]
    · unfold outlinePts
      rw [if_pos hiL]
      cases tri
      · simp only
        rw [sides_range, ← List.flatMap_pure_eq_map]
        apply flatMap_perm_congr
        intro j _
        simp [sideIds, want, hb, pure]
      · simp only
        rw [sides_interleave (fun j => cp z W (i, j) (i + 1, j)) (fun j => cp z W (i, wrapAdd1 j fn) (i + 1, j)), hsr,
          List.flatMap_map]
        apply flatMap_perm_congr
        intro j _
        simp [sideIds, want, hb]
      · simp only
        rw [sides_interleave (fun j => cp z W (i, j) (i + 1, j)) (fun j => cp z W (i, j) (i + 1, wrapAdd1 j fn)), hsr,
          List.flatMap_map]
        apply flatMap_perm_congr
        intro j _
        simp only [sideIds, want, hb, List.flatMap_cons, List.flatMap_nil, if_true, List.append_nil, List.singleton_append]
        exact List.Perm.swap _ _ _
    · intro k hk hne
      rw [List.flatMap_eq_nil_iff]
      intro j _
      exact hside0 k j (by unfold gaps; split_ifs <;> omega) hne
  · have ht : hasTop = false := by
      cases hasTop
      · rfl
      · simp [gaps] at hi; omega
    subst ht
    have hil : i = L - 1 := by simp [gaps] at hi; omega
    have h1 : ((List.range (L - 1)).flatMap fun k => (List.range fn).flatMap fun j =>
        (sideIds tri k j).flatMap (want z W Z fn L tri)) = [] := by
      rw [List.flatMap_eq_nil_iff]
      intro k hk
      rw [List.mem_range] at hk
      rw [List.flatMap_eq_nil_iff]
      intro j _
      exact hside0 k j (by simp [gaps]; omega) (by omega)
    rw [h1, List.nil_append]
    unfold outlinePts
    rw [if_neg hiL, sides_range, ← List.flatMap_pure_eq_map]
    simp only [Bool.false_eq_true, if_false]
    apply flatMap_perm_congr
    intro j _
    rw [hil, show L - 1 + 1 = L by omega] at hb
    simp [want, hb, pure]

theorem want_out {Z : Nat → Int} {fn L : Nat} {hasTop : Bool} (tri : Tri) (hL : 1 ≤ L)
    (hb : ∀ i, i < gaps L hasTop → ¬ Between z (Z i) (Z (i + 1))) :
    (ids fn L hasTop tri).flatMap (want z W Z fn L tri) = [] := by
  rw [List.flatMap_eq_nil_iff]
  intro f hf
  rcases mem_ids hf with rfl | ⟨rfl, rfl⟩ | ⟨k, j, rfl, hk, hj⟩ | ⟨k, j, rfl, hk, hj, ht⟩ | ⟨j, rfl, hj, rfl⟩
  · rfl
  · rfl
  · have := hb k (by unfold gaps; split_ifs <;> omega)
    simp [want, this]
  · have := hb k (by unfold gaps; split_ifs <;> omega)
    simp [want, this]
  · have := hb (L - 1) (by simp [gaps]; omega)
    rw [show L - 1 + 1 = L by omega] at this
    simp [want, this]
end

/-- cutting all faces of a tower -/
theorem tower_section (qs : QSort) (hq : qs.Ok) (z : Int) (V : Nat → Vec3) (hV : ∀ i, (V i).InRange)
    {Z : Nat → Int} {fn L : Nat} {hasTop : Bool} (R : Bool) (tri : Tri) (hf : 3 ≤ fn) (hL : 1 ≤ L)
    (hW : Heights (fun p => V (num fn p)) Z fn L hasTop) (wanted : List (Vec2 × Vec2))
    (hw : ((ids fn L hasTop tri).flatMap (want z (fun p => V (num fn p)) Z fn L tri)).Perm wanted) :
    ∃ Ls, sliceMesh qs z (((ids fn L hasTop tri).map fun f => revPerhaps R ((gface fn L tri f).map (num fn))).map
      (List.map V)) = some Ls ∧ SameLines Ls wanted := by
  have e : ∀ f, (revPerhaps R ((gface fn L tri f).map (num fn))).map V =
      (if R then ((gface fn L tri f).map fun p => V (num fn p)).reverse else (gface fn L tri f).map fun p => V (num fn p)) := by
    intro f
    cases R <;> simp [revPerhaps, Function.comp_def, List.map_reverse]
  have hcut : ∀ f, (cuts z (sides ((revPerhaps R ((gface fn L tri f).map (num fn))).map V))).Perm
      (cuts z (sides ((gface fn L tri f).map fun p => V (num fn p)))) := by
    intro f
    rw [e f]
    cases R
    · exact List.Perm.refl _
    · exact cuts_reverse z _
  rw [List.map_map]
  apply sliceMesh_pairs qs hq z
  · intro f hf v hv
    rw [List.mem_map] at hf
    obtain ⟨g, -, rfl⟩ := hf
    rw [Function.comp, List.mem_map] at hv
    obtain ⟨i, -, rfl⟩ := hv
    exact hV i
  · intro f hfm
    rw [List.mem_map] at hfm
    obtain ⟨g, hg, rfl⟩ := hfm
    have := (gface_ok fn L hasTop tri hf hL hg).1
    cases R <;> simpa [revPerhaps] using this
  · intro f hfm
    rw [List.mem_map] at hfm
    obtain ⟨g, hg, rfl⟩ := hfm
    show (cuts z (sides ((revPerhaps R ((gface fn L tri g).map (num fn))).map V))).length ≤ 2
    rw [(hcut g).length_eq]
    exact (face_cuts z _ hW tri hf hL hg).1
  · rw [List.flatMap_map]
    refine List.Perm.trans ?_ (hw.map mk)
    rw [List.map_flatMap, List.map_flatMap]
    apply flatMap_perm_congr
    intro g hg
    show List.Perm ((pairOf (cuts z (sides ((revPerhaps R ((gface fn L tri g).map (num fn))).map V)))).map mk) _
    rw [pairOf_perm (hcut g), (face_cuts z _ hW tri hf hL hg).2]

/-- a vertical side is cut at its own place -/
theorem cp_vertical {z : Int} {a b : Vec3} (h : Between z a.z b.z) (hx : a.x = b.x) (hy : a.y = b.y) :
    cutPt z (a, b) = ⟨a.x, a.y⟩ := by
  have := Slice.isCut_cutPt z a b
  refine Slice.inPixel_unique this ?_
  unfold InPixel Slice.lerp
  simp only [← hx, ← hy, sub_self, zero_mul, add_zero]
  refine ⟨by linarith, by linarith, by linarith, by linarith⟩

end Hob3l.Solid
