import Verif.Solid.SpecVolume
import Verif.Solid.LemmasShape
import Verif.Solid.LemmasCircle
import Mathlib.Algebra.BigOperators.Group.Finset.Basic

/-
The volume enclosed by a tower.
-/

namespace Hob3l.Solid

open Hob3l.Slice (sides walk)

/-- sum over consecutive pairs -/
def fanF (F : P3 → P3 → ℝ) : List P3 → ℝ
  | [] => 0
  | [_] => 0
  | q :: r :: l => F q r + fanF F (r :: l)

theorem fan_fanF (p : P3) (l : List P3) : fan p l = fanF (det3 p) l := by
  induction l with
  | nil => rfl
  | cons q l ih =>
    cases l with
    | nil => rfl
    | cons r l => rw [fan, fanF, ih]

theorem fanF_map (F : P3 → P3 → ℝ) (h : P3 → P3) (l : List P3) : fanF F (l.map h) = fanF (fun q r => F (h q) (h r)) l := by
  induction l with
  | nil => rfl
  | cons q l ih =>
    cases l with
    | nil => rfl
    | cons r l => rw [List.map_cons, List.map_cons, fanF, fanF, ← ih, List.map_cons]

theorem fanF_mul (d : ℝ) (F : P3 → P3 → ℝ) (l : List P3) : fanF (fun q r => d * F q r) l = d * fanF F l := by
  induction l with
  | nil => simp [fanF]
  | cons q l ih =>
    cases l with
    | nil => simp [fanF]
    | cons r l => rw [fanF, fanF, ih]; ring

/-- sum over the sides -/
def ssum (g : P3 → P3 → ℝ) (l : List (P3 × P3)) : ℝ := (l.map fun s => g s.1 s.2).sum

theorem fan_split (F D g : P3 → P3 → ℝ) (hg : ∀ a b, g a b = - g b a) (p : P3) (l : List P3)
    (h : ∀ q ∈ l, ∀ r ∈ l, F q r = D q r + (g p q + g q r + g r p)) :
    fanF F l = fanF D l + ssum g (walk p l p) := by
  have g0 : ∀ a, g a a = 0 := fun a => by have := hg a a; linarith
  induction l with
  | nil => simp [fanF, ssum, walk, g0]
  | cons q l ih =>
    cases l with
    | nil => simp [fanF, ssum, walk, hg p q]
    | cons r l =>
      have hi := ih fun a ha b hb => h a (by simp [ha]) b (by simp [hb])
      rw [fanF, fanF, hi, h q (by simp) r (by simp)]
      have := hg r p
      simp only [ssum, walk, List.map_cons, List.sum_cons]
      linarith

theorem faceVol_affine (m : Aff) (f : List P3) :
    faceVol (f.map m.app) = m.det * faceVol f +
      ssum (fun a b => det3 m.t (Aff.app ⟨m.a, m.b, m.c, ⟨0, 0, 0⟩⟩ a) (Aff.app ⟨m.a, m.b, m.c, ⟨0, 0, 0⟩⟩ b)) (sides f) := by
  cases f with
  | nil => simp [faceVol, ssum, sides]
  | cons p l =>
    rw [List.map_cons, faceVol, faceVol, fan_fanF, fan_fanF, fanF_map, ← fanF_mul]
    rw [sides]
    apply fan_split
    · intro a b; unfold det3; ring
    · intro q _ r _
      simp only [det3, Aff.app, Aff.det]
      ring

theorem vol6_affine (m : Aff) (V : Nat → P3) (fs : List (List Nat)) (h : Closed fs) :
    vol6 (fs.map (List.map fun i => m.app (V i))) = m.det * vol6 (fs.map (List.map V)) := by
  have e : vol6 (fs.map (List.map fun i => m.app (V i))) = m.det * vol6 (fs.map (List.map V)) +
      ssum (fun a b => det3 m.t (Aff.app ⟨m.a, m.b, m.c, ⟨0, 0, 0⟩⟩ a) (Aff.app ⟨m.a, m.b, m.c, ⟨0, 0, 0⟩⟩ b))
        (allSides (fs.map (List.map V))) := by
    clear h
    induction fs with
    | nil => simp [vol6, ssum, allSides]
    | cons f fs ih =>
      simp only [vol6, List.map_cons, List.sum_cons] at ih ⊢
      rw [ih]
      have := faceVol_affine m (f.map V)
      rw [List.map_map] at this
      rw [show (m.app ∘ V) = fun i => m.app (V i) from rfl] at this
      rw [this]
      simp only [allSides, List.flatMap_cons, ssum, List.map_append, List.sum_append]
      ring
  rw [e]
  have hz : ∀ g : P3 → P3 → ℝ, (∀ a b, g a b = - g b a) → ssum g (allSides (fs.map (List.map V))) = 0 := by
    intro g hg
    rw [allSides_map]
    have hp := (closed_perm h).map fun s : Nat × Nat => g (V s.1) (V s.2)
    have hs := hp.sum_eq
    rw [List.map_map] at hs
    have hn : ((allSides fs).map ((fun s : Nat × Nat => g (V s.1) (V s.2)) ∘ Prod.swap)).sum =
        - ((allSides fs).map fun s : Nat × Nat => g (V s.1) (V s.2)).sum := by
      generalize allSides fs = l
      induction l with
      | nil => simp
      | cons s l ih =>
        simp only [List.map_cons, List.sum_cons, ih, Function.comp, Prod.fst_swap, Prod.snd_swap]
        rw [hg (V s.2) (V s.1)]
        ring
    have : ssum g ((allSides fs).map (Prod.map V V)) = ((allSides fs).map fun s : Nat × Nat => g (V s.1) (V s.2)).sum := by
      unfold ssum; rw [List.map_map]; rfl
    rw [this]
    rw [hn] at hs
    linarith
  rw [hz _ (by intro a b; unfold det3; ring), add_zero]

/-- cross product of the plane -/
def cross (a b : P3) : ℝ := a.x * b.y - b.x * a.y

theorem faceVol_flat (c : ℝ) (f : List P3) (h : ∀ p ∈ f, p.z = c) : faceVol f = c * ssum cross (sides f) := by
  cases f with
  | nil => simp [faceVol, ssum, sides]
  | cons p l =>
    rw [faceVol, fan_fanF, sides]
    have := fan_split (det3 p) (fun _ _ => 0) (fun a b => c * cross a b) (fun a b => by unfold cross; ring) p l (by
      intro q hq r hr
      have h1 := h p (by simp)
      have h2 := h q (by simp [hq])
      have h3 := h r (by simp [hr])
      simp only [det3, cross, h1, h2, h3]
      ring)
    rw [this]
    have z : ∀ l, fanF (fun _ _ => (0 : ℝ)) l = 0 := by
      intro l
      induction l with
      | nil => rfl
      | cons q l ih =>
        cases l with
        | nil => rfl
        | cons r l => rw [fanF, ih, add_zero]
    rw [z, zero_add]
    unfold ssum
    rw [← List.sum_map_mul_left]

theorem sum_rangeR (n : Nat) (f : Nat → ℝ) : ((List.range n).map f).sum = ∑ i ∈ Finset.range n, f i := by
  induction n with
  | zero => rfl
  | succ n ih => rw [List.range_succ, Finset.sum_range_succ]; simp [ih]

theorem ssum_swap (l : List (P3 × P3)) : ssum cross (l.map Prod.swap) = - ssum cross l := by
  unfold ssum
  induction l with
  | nil => simp
  | cons s l ih =>
    simp only [List.map_cons, List.sum_cons, ih]
    unfold cross
    simp only [Prod.fst_swap, Prod.snd_swap]
    ring

section
variable (x y r z : Nat → ℝ) (fn L : Nat) (hasTop : Bool) (V : Nat → P3)

/-- the layers of a tower: scaled copies of one polygon; a tip is at the centre -/
structure Similar : Prop where
  layer : ∀ k j, k < L → j < fn → V (num fn (k, j)) = ⟨r k * x j, r k * y j, z k⟩
  tip : hasTop = false → V (num fn (L, 0)) = ⟨0, 0, z L⟩ ∧ r L = 0

/-- twice the area of the polygon -/
noncomputable def polyArea : ℝ := ∑ j ∈ Finset.range fn, (x j * y (wrapAdd1 j fn) - x (wrapAdd1 j fn) * y j)

/-- part of a gap -/
noncomputable def gapVol (k : Nat) : ℝ := (z k - z (k + 1)) * (r k ^ 2 + r k * r (k + 1) + r (k + 1) ^ 2)

variable {x y r z fn L hasTop V}

theorem face_layer (h : Similar x y r z fn L hasTop V) {k : Nat} (hk : k < L) :
    faceVol (((List.range fn).map fun j => (k, j)).map fun p => V (num fn p)) = z k * r k ^ 2 * polyArea x y fn ∧
    faceVol (((List.range fn).map fun j => (k, j)).reverse.map fun p => V (num fn p)) = - (z k * r k ^ 2 * polyArea x y fn) := by
  have hs : ssum cross (sides (((List.range fn).map fun j => (k, j)).map fun p => V (num fn p))) = r k ^ 2 * polyArea x y fn := by
    rw [List.map_map, sides_range]
    unfold ssum
    rw [List.map_map, sum_rangeR, polyArea, Finset.mul_sum]
    apply Finset.sum_congr rfl
    intro j hj
    rw [Finset.mem_range] at hj
    have hw : wrapAdd1 j fn < fn := by unfold wrapAdd1; split_ifs <;> omega
    simp only [Function.comp, cross, h.layer k j hk hj, h.layer k _ hk hw]
    ring
  have hz : ∀ p ∈ (((List.range fn).map fun j => (k, j)).map fun p => V (num fn p)), p.z = z k := by
    intro p hp
    simp only [List.map_map, List.mem_map, List.mem_range, Function.comp] at hp
    obtain ⟨j, hj, rfl⟩ := hp
    rw [h.layer k j hk hj]
  constructor
  · rw [faceVol_flat _ _ hz, hs]; ring
  · rw [List.map_reverse, faceVol_flat (z k) _ (by intro p hp; exact hz p (List.mem_reverse.mp hp))]
    have hp := (sides_reverse (((List.range fn).map fun j => (k, j)).map fun p => V (num fn p)))
    have : ssum cross (sides (((List.range fn).map fun j => (k, j)).map fun p => V (num fn p)).reverse) =
        - (r k ^ 2 * polyArea x y fn) := by
      rw [← hs, ← ssum_swap]
      exact (hp.map _).sum_eq
    rw [this]; ring

theorem tower_vol (h : Similar x y r z fn L hasTop V) (hL : 1 ≤ L) (R : Bool) :
    vol6 (((ids fn L hasTop .none).map fun f => revPerhaps R ((gface fn L .none f).map (num fn))).map (List.map V)) =
      (if R then -1 else 1) * polyArea x y fn * ∑ k ∈ Finset.range (gaps L hasTop), gapVol r z k := by
  set F : FaceId → ℝ := fun f => faceVol ((revPerhaps R ((gface fn L .none f).map (num fn))).map V) with hF
  have e : vol6 (((ids fn L hasTop .none).map fun f => revPerhaps R ((gface fn L .none f).map (num fn))).map (List.map V)) =
      ((ids fn L hasTop .none).map F).sum := by
    unfold vol6; rw [List.map_map, List.map_map]; rfl
  have eF : ∀ f, F f = if R then faceVol ((gface fn L .none f).reverse.map fun p => V (num fn p))
      else faceVol ((gface fn L .none f).map fun p => V (num fn p)) := by
    intro f
    simp only [hF, revPerhaps]
    cases R
    · simp [List.map_map, Function.comp_def]
    · simp [List.map_map, Function.comp_def, List.map_reverse]
  set τ : ℝ := if R then -1 else 1 with hτ
  set A := polyArea x y fn with hA
  have fbot : F .bot = τ * (z 0 * r 0 ^ 2 * A) := by
    have := face_layer h (k := 0) (by omega)
    rw [eF, hτ, gface]
    cases R
    · simp only [Bool.false_eq_true, if_false]; rw [this.1]; ring
    · simp only [if_true]; rw [this.2]; ring
  have ftop : F .top = - τ * (z (L - 1) * r (L - 1) ^ 2 * A) := by
    have := face_layer h (k := L - 1) (by omega)
    rw [eF, hτ, gface]
    cases R
    · simp only [Bool.false_eq_true, if_false]; rw [this.2]; ring
    · simp only [if_true, List.reverse_reverse]; rw [this.1]; ring
  have fside : ∀ k j, k + 1 < L → j < fn → F (.side k j) = τ * ((x j * y (wrapAdd1 j fn) - x (wrapAdd1 j fn) * y j) *
      (gapVol r z k - z k * r k ^ 2 + z (k + 1) * r (k + 1) ^ 2)) := by
    intro k j hk hj
    have hw : wrapAdd1 j fn < fn := by unfold wrapAdd1; split_ifs <;> omega
    rw [eF, hτ]
    cases R
    · simp only [Bool.false_eq_true, if_false, gface, List.map_cons, List.map_nil, faceVol, fan,
        h.layer k j (by omega) hj, h.layer k _ (by omega) hw, h.layer (k + 1) j hk hj, h.layer (k + 1) _ hk hw, det3, gapVol]
      ring
    · simp only [if_true, gface, List.reverse_cons, List.reverse_nil, List.nil_append, List.cons_append, List.map_cons,
        List.map_nil, faceVol, fan,
        h.layer k j (by omega) hj, h.layer k _ (by omega) hw, h.layer (k + 1) j hk hj, h.layer (k + 1) _ hk hw, det3, gapVol]
      ring
  have froof : hasTop = false → ∀ j, j < fn → F (.roof j) = τ * ((x j * y (wrapAdd1 j fn) - x (wrapAdd1 j fn) * y j) *
      (gapVol r z (L - 1) - z (L - 1) * r (L - 1) ^ 2)) := by
    intro ht j hj
    have hw : wrapAdd1 j fn < fn := by unfold wrapAdd1; split_ifs <;> omega
    obtain ⟨t1, t2⟩ := h.tip ht
    rw [eF, hτ, gapVol, show L - 1 + 1 = L by omega, t2]
    cases R
    · simp only [Bool.false_eq_true, if_false, gface, List.map_cons, List.map_nil, faceVol, fan,
        h.layer (L - 1) j (by omega) hj, h.layer (L - 1) _ (by omega) hw, t1, det3]
      ring
    · simp only [if_true, gface, List.reverse_cons, List.reverse_nil, List.nil_append, List.cons_append, List.map_cons,
        List.map_nil, faceVol, fan, h.layer (L - 1) j (by omega) hj, h.layer (L - 1) _ (by omega) hw, t1, det3]
      ring
  have hside : ∀ m, m + 1 ≤ L → ((((List.range m).flatMap fun i => (List.range fn).flatMap fun j => sideIds .none i j)).map F).sum =
      τ * A * (∑ k ∈ Finset.range m, gapVol r z k) - τ * A * (z 0 * r 0 ^ 2) + τ * A * (z m * r m ^ 2) := by
    intro m hm
    induction m with
    | zero => simp
    | succ m ih =>
      rw [List.range_succ, List.flatMap_append, List.map_append, List.sum_append, ih (by omega), Finset.sum_range_succ]
      have hr : (((List.range fn).flatMap fun j => sideIds .none m j).map F).sum =
          τ * A * (gapVol r z m - z m * r m ^ 2 + z (m + 1) * r (m + 1) ^ 2) := by
        have e1 : ((List.range fn).flatMap fun j => sideIds .none m j).map F = (List.range fn).map fun j => F (.side m j) := by
          rw [List.map_flatMap]
          simp only [sideIds, List.map_cons, List.map_nil]
          exact List.flatMap_pure_eq_map _ _
        rw [e1, sum_rangeR, hA, polyArea, Finset.mul_sum, Finset.sum_mul]
        apply Finset.sum_congr rfl
        intro j hj
        rw [fside m j (by omega) (Finset.mem_range.mp hj)]
        ring
      simp only [List.flatMap_cons, List.flatMap_nil, List.append_nil, hr]
      ring
  rw [e]
  unfold ids
  simp only [List.map_append, List.sum_append, List.map_cons, List.map_nil, List.sum_cons, List.sum_nil, hside (L - 1) (by omega), fbot]
  cases hasTop
  · have hrf : (((List.range fn).map FaceId.roof).map F).sum = τ * A * (gapVol r z (L - 1) - z (L - 1) * r (L - 1) ^ 2) := by
      rw [List.map_map, sum_rangeR, hA, polyArea, Finset.mul_sum, Finset.sum_mul]
      apply Finset.sum_congr rfl
      intro j hj
      rw [Function.comp, froof rfl j (Finset.mem_range.mp hj)]
      ring
    simp only [Bool.false_eq_true, if_false, List.map_nil, List.sum_nil, hrf, gaps]
    obtain ⟨m, rfl⟩ : ∃ m, L = m + 1 := ⟨L - 1, by omega⟩
    rw [Finset.sum_range_succ, Nat.add_sub_cancel]
    ring
  · simp only [if_true, List.map_cons, List.map_nil, List.sum_cons, List.sum_nil, ftop, gaps]
    ring
end

end Hob3l.Solid
