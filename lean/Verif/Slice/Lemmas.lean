import Verif.Slice.Spec
import Verif.Matq.LemmasOrder
import Verif.Sweep.Lemmas
import Mathlib.Tactic.FieldSimp
import Mathlib.Tactic.LinearCombination
import Mathlib.Tactic.Linarith

namespace Hob3l.Slice

open Hob3l.Matq Hob3l.Sweep

theorem lerp_eq {z z0 z1 a0 a1 : Int} (h : z0 < z1) :
    lerp z z0 z1 a0 a1 = ((a0 * (z1 - z) + a1 * (z - z0) : Int) : ℚ) / ((z1 - z0 : Int) : ℚ) := by
  have h' : ((z1 : ℚ) - z0) ≠ 0 := by
    have : (z0 : ℚ) < z1 := by exact_mod_cast h
    intro h0; linarith
  unfold lerp
  push_cast
  field_simp
  ring

theorem lerp_swap {z z0 z1 a0 a1 : Int} (h : z0 < z1) : lerp z z1 z0 a1 a0 = lerp z z0 z1 a0 a1 := by
  have h' : ((z1 : ℚ) - z0) ≠ 0 := by
    have : (z0 : ℚ) < z1 := by exact_mod_cast h
    intro h0; linarith
  have h'' : ((z0 : ℚ) - z1) ≠ 0 := by intro h0; apply h'; linarith
  unfold lerp
  field_simp
  ring

theorem lerp_bounds {z z0 z1 a0 a1 : Int} (h0 : z0 ≤ z) (h1 : z < z1) :
    ((min a0 a1 : Int) : ℚ) ≤ lerp z z0 z1 a0 a1 ∧ lerp z z0 z1 a0 a1 ≤ ((max a0 a1 : Int) : ℚ) := by
  have hz : z0 < z1 := by omega
  have hd : (0 : ℚ) < ((z1 - z0 : Int) : ℚ) := by exact_mod_cast (by omega : (0 : Int) < z1 - z0)
  rw [lerp_eq hz]
  constructor
  · rw [le_div_iff₀ hd]
    have : (min a0 a1) * (z1 - z0) ≤ a0 * (z1 - z) + a1 * (z - z0) := by
      have e1 := Int.mul_le_mul_of_nonneg_right (Int.min_le_left a0 a1) (by omega : 0 ≤ z1 - z)
      have e2 := Int.mul_le_mul_of_nonneg_right (Int.min_le_right a0 a1) (by omega : 0 ≤ z - z0)
      have e3 : (min a0 a1) * (z1 - z0) = (min a0 a1) * (z1 - z) + (min a0 a1) * (z - z0) := by ring
      omega
    exact_mod_cast this
  · rw [div_le_iff₀ hd]
    have : a0 * (z1 - z) + a1 * (z - z0) ≤ (max a0 a1) * (z1 - z0) := by
      have e1 := Int.mul_le_mul_of_nonneg_right (Int.le_max_left a0 a1) (by omega : 0 ≤ z1 - z)
      have e2 := Int.mul_le_mul_of_nonneg_right (Int.le_max_right a0 a1) (by omega : 0 ≤ z - z0)
      have e3 : (max a0 a1) * (z1 - z0) = (max a0 a1) * (z1 - z) + (max a0 a1) * (z - z0) := by ring
      omega
    exact_mod_cast this

theorem mul_bound {a k : Int} (ha : Coord a) (hk : 0 ≤ k) (hk' : k ≤ 2147483647) :
    -2305843009213693952 ≤ a * k ∧ a * k ≤ 2305843009213693952 := by
  obtain ⟨h1, h2⟩ := ha
  constructor
  · have := Int.mul_le_mul_of_nonneg_right h1 hk; omega
  · have := Int.mul_le_mul_of_nonneg_right h2 hk; omega

theorem interpol_spec {z z0 z1 a0 a1 : Int} (h0 : z0 ≤ z) (h1 : z < z1) (c0 : Coord z0) (c1 : Coord z1)
    (e0 : Coord a0) (e1 : Coord a1) :
    interpol z z0 z1 a0 a1 = some ⌊lerp z z0 z1 a0 a1 + 1 / 2⌋ ∧
      min a0 a1 ≤ ⌊lerp z z0 z1 a0 a1 + 1 / 2⌋ ∧ ⌊lerp z z0 z1 a0 a1 + 1 / 2⌋ ≤ max a0 a1 := by
  have hz : z0 < z1 := by omega
  have hb := lerp_bounds (a0 := a0) (a1 := a1) h0 h1
  have hmin : min a0 a1 ≤ ⌊lerp z z0 z1 a0 a1 + 1 / 2⌋ := by
    rw [Int.le_floor]; linarith [hb.1]
  have hmax : ⌊lerp z z0 z1 a0 a1 + 1 / 2⌋ ≤ max a0 a1 := by
    rw [← Int.lt_add_one_iff, Int.floor_lt]; push_cast; push_cast at hb; linarith [hb.2]
  refine ⟨?_, hmin, hmax⟩
  have m0 := mul_bound (k := z1 - z) e0 (by omega) (by unfold Coord at *; omega)
  have m1 := mul_bound (k := z - z0) e1 (by omega) (by unfold Coord at *; omega)
  have s1 : dimSub z1 z = some (z1 - z) := by
    unfold dimSub chk32; rw [if_pos]; unfold I32 Coord at *; omega
  have s2 : dimSub z z0 = some (z - z0) := by
    unfold dimSub chk32; rw [if_pos]; unfold I32 Coord at *; omega
  have s3 : dimSub z1 z0 = some (z1 - z0) := by
    unfold dimSub chk32; rw [if_pos]; unfold I32 Coord at *; omega
  have p1 : dimMul a0 (z1 - z) = some (a0 * (z1 - z)) := by
    unfold dimMul chk64; rw [if_pos]; unfold I64; omega
  have p2 : dimMul a1 (z - z0) = some (a1 * (z - z0)) := by
    unfold dimMul chk64; rw [if_pos]; unfold I64; omega
  have p3 : dimwAdd (a0 * (z1 - z)) (a1 * (z - z0)) = some (a0 * (z1 - z) + a1 * (z - z0)) := by
    unfold dimwAdd chk64; rw [if_pos]; unfold I64; omega
  have p4 : divwRnd (a0 * (z1 - z) + a1 * (z - z0)) (z1 - z0) = some ⌊lerp z z0 z1 a0 a1 + 1 / 2⌋ := by
    rw [divwRnd_pos _ _ (by unfold I64; omega) (by unfold I64 Coord at *; omega) (by omega), lerp_eq hz]
  have p5 : cast32 ⌊lerp z z0 z1 a0 a1 + 1 / 2⌋ = ⌊lerp z z0 z1 a0 a1 + 1 / 2⌋ := by
    unfold cast32; unfold Coord at *; omega
  unfold interpol
  simp only [Matq.ass, hz, h0, Int.le_of_lt h1, s1, s2, s3, p1, p2, p3, p4, p5, if_true, Option.bind_eq_bind, Option.bind_some,
    Option.pure_def]

theorem inPixel_floor (X : Pt) : InPixel ⟨⌊X.1 + 1 / 2⌋, ⌊X.2 + 1 / 2⌋⟩ X := by
  unfold InPixel
  have a1 := Int.floor_le (X.1 + 1 / 2)
  have a2 := Int.lt_floor_add_one (X.1 + 1 / 2)
  have b1 := Int.floor_le (X.2 + 1 / 2)
  have b2 := Int.lt_floor_add_one (X.2 + 1 / 2)
  refine ⟨?_, ?_, ?_, ?_⟩ <;> simp only <;> linarith

theorem inPixel_unique {p q : Vec2} {X : Pt} (h : InPixel p X) (h' : InPixel q X) : p = q := by
  obtain ⟨h1, h2, h3, h4⟩ := h
  obtain ⟨g1, g2, g3, g4⟩ := h'
  have x1 : (p.x : ℚ) < q.x + 1 := by linarith
  have x2 : (q.x : ℚ) < p.x + 1 := by linarith
  have y1 : (p.y : ℚ) < q.y + 1 := by linarith
  have y2 : (q.y : ℚ) < p.y + 1 := by linarith
  have x1' : p.x < q.x + 1 := by exact_mod_cast x1
  have x2' : q.x < p.x + 1 := by exact_mod_cast x2
  have y1' : p.y < q.y + 1 := by exact_mod_cast y1
  have y2' : q.y < p.y + 1 := by exact_mod_cast y2
  cases p; cases q; simp only [Vec2.mk.injEq] at *; omega

/-- the cut point of a crossing side, whichever direction -/
noncomputable def cutPt (z : Int) (s : Vec3 × Vec3) : Vec2 :=
  ⟨⌊lerp z s.1.z s.2.z s.1.x s.2.x + 1 / 2⌋, ⌊lerp z s.1.z s.2.z s.1.y s.2.y + 1 / 2⌋⟩

theorem lerp_swap' {z z0 z1 a0 a1 : Int} (h : z0 ≠ z1) : lerp z z1 z0 a1 a0 = lerp z z0 z1 a0 a1 := by
  rcases lt_or_gt_of_ne h with h | h
  · exact lerp_swap h
  · exact (lerp_swap h).symm

theorem cutPt_swap {z : Int} {a b : Vec3} (h : a.z ≠ b.z) : cutPt z (b, a) = cutPt z (a, b) := by
  unfold cutPt
  simp only [lerp_swap' (z := z) (a0 := a.x) (a1 := b.x) h, lerp_swap' (z := z) (a0 := a.y) (a1 := b.y) h]

theorem Crosses.ne {z : Int} {s : Vec3 × Vec3} (h : Crosses z s) : s.1.z ≠ s.2.z := by
  unfold Crosses at h; omega

theorem crosses_swap {z : Int} {a b : Vec3} : Crosses z (b, a) ↔ Crosses z (a, b) := by
  unfold Crosses; simp only; omega

theorem isCut_cutPt (z : Int) (a b : Vec3) : IsCut z a b (cutPt z (a, b)) := inPixel_floor _

theorem cutZ_spec {z : Int} {a b : Vec3} (ha : a.InRange) (hb : b.InRange) (h0 : a.z ≤ z) (h1 : z < b.z) :
    cutZ z a b = some (cutPt z (a, b)) := by
  obtain ⟨hx, -, -⟩ := interpol_spec h0 h1 ha.2.2 hb.2.2 ha.1 hb.1
  obtain ⟨hy, -, -⟩ := interpol_spec h0 h1 ha.2.2 hb.2.2 ha.2.1 hb.2.1
  unfold cutZ
  simp only [hx, hy, Option.bind_eq_bind, Option.bind_some, Option.pure_def]
  rfl

theorem cutPt_bounds {z : Int} {a b : Vec3} (ha : a.InRange) (hb : b.InRange) (h : Crosses z (a, b)) :
    (min a.x b.x ≤ (cutPt z (a, b)).x ∧ (cutPt z (a, b)).x ≤ max a.x b.x) ∧
    (min a.y b.y ≤ (cutPt z (a, b)).y ∧ (cutPt z (a, b)).y ≤ max a.y b.y) := by
  rcases h with ⟨h0, h1⟩ | ⟨h0, h1⟩
  · obtain ⟨-, hx⟩ := interpol_spec h0 h1 ha.2.2 hb.2.2 ha.1 hb.1
    obtain ⟨-, hy⟩ := interpol_spec h0 h1 ha.2.2 hb.2.2 ha.2.1 hb.2.1
    exact ⟨hx, hy⟩
  · obtain ⟨-, hx⟩ := interpol_spec h0 h1 hb.2.2 ha.2.2 hb.1 ha.1
    obtain ⟨-, hy⟩ := interpol_spec h0 h1 hb.2.2 ha.2.2 hb.2.1 ha.2.1
    have hne : a.z ≠ b.z := by simp only at h0 h1; omega
    rw [← cutPt_swap hne, min_comm, max_comm, min_comm a.y, max_comm a.y]
    exact ⟨hx, hy⟩

theorem polyline_spec {z : Int} {a b : Vec3} (out : List Vec2) (ha : a.InRange) (hb : b.InRange) :
    polyline out z a b = some (if Crosses z (a, b) then out ++ [cutPt z (a, b)] else out) := by
  have key : ∀ a b : Vec3, a.InRange → b.InRange → a.z ≤ b.z →
      polylineOrd out z a b = some (if Crosses z (a, b) then out ++ [cutPt z (a, b)] else out) := by
    intro a b ha hb hab
    unfold polylineOrd
    by_cases h1 : b.z ≤ z
    · rw [if_pos h1, if_neg]; unfold Crosses; simp only; omega
    · rw [if_neg h1]
      by_cases h2 : a.z > z
      · rw [if_pos h2, if_neg]; unfold Crosses; simp only; omega
      · rw [if_neg h2, if_pos (show Crosses z (a, b) from Or.inl ⟨by simp only; omega, by simp only; omega⟩)]
        simp only [Matq.ass, show a.z ≠ b.z by omega, ne_eq, not_false_eq_true, if_true,
          cutZ_spec ha hb (show a.z ≤ z by omega) (show z < b.z by omega), Option.bind_eq_bind, Option.bind_some,
          Option.pure_def]
  unfold polyline
  by_cases h : a.z > b.z
  · rw [if_pos h, key b a hb ha (by omega), cutPt_swap (by omega)]
    simp only [crosses_swap]
  · rw [if_neg h, key a b ha hb (by omega)]

/-- cut points of a list of sides -/
noncomputable def cuts (z : Int) (ss : List (Vec3 × Vec3)) : List Vec2 :=
  (ss.filter (fun s => decide (Crosses z s))).map (cutPt z)

theorem cuts_cons (z : Int) (s : Vec3 × Vec3) (ss : List (Vec3 × Vec3)) :
    cuts z (s :: ss) = (if Crosses z s then [cutPt z s] else []) ++ cuts z ss := by
  unfold cuts
  by_cases h : Crosses z s <;> simp [h]

theorem cuts_append (z : Int) (s t : List (Vec3 × Vec3)) : cuts z (s ++ t) = cuts z s ++ cuts z t := by
  simp [cuts]

/-- the loop over the last `k` sides of a face -/
theorem faceLoop_walk (z : Int) (face : List Vec3) (hf : ∀ v ∈ face, v.InRange) (a0 : Vec3) (h0 : face[0]? = some a0) :
    ∀ (rest : List Vec3) (a : Vec3) (i : Nat) (out : List Vec2), face.drop i = a :: rest →
      faceLoop z face (List.range' i (rest.length + 1)) out = some (out ++ cuts z (walk a rest a0)) := by
  intro rest
  induction rest with
  | nil =>
    intro a i out hd
    have hlen : face.length = i + 1 := by
      have := congrArg List.length hd; simp only [List.length_drop, List.length_cons, List.length_nil] at this; omega
    have hi : face[i]? = some a := by
      have := congrArg (fun l => l[0]?) hd; simpa using this
    have ha := hf a (List.mem_of_getElem? hi)
    have ha0 := hf a0 (List.mem_of_getElem? h0)
    have e : List.range' i (([] : List Vec3).length + 1) = [i] := rfl
    rw [e]
    unfold faceLoop
    simp only [hlen, if_true, hi, h0, polyline_spec out ha ha0, Option.bind_eq_bind, Option.bind_some, faceLoop, walk,
      cuts_cons]
    by_cases h : Crosses z (a, a0) <;> simp [h, cuts]
  | cons b rest ih =>
    intro a i out hd
    have hlen : face.length = i + (rest.length + 2) := by
      have h1 := congrArg List.length hd
      simp only [List.length_drop, List.length_cons] at h1; omega
    have hi : face[i]? = some a := by
      have := congrArg (fun l => l[0]?) hd; simpa using this
    have hi1 : face[i + 1]? = some b := by
      have := congrArg (fun l => l[1]?) hd; simpa using this
    have hd' : face.drop (i + 1) = b :: rest := by
      rw [← List.drop_drop, hd]; rfl
    have ha := hf a (List.mem_of_getElem? hi)
    have hb := hf b (List.mem_of_getElem? hi1)
    have e : List.range' i ((b :: rest).length + 1) = i :: List.range' (i + 1) (rest.length + 1) := by
      rw [List.length_cons, List.range'_succ]
    rw [e]
    unfold faceLoop
    have hne : ¬ i + 1 = face.length := by omega
    simp only [hne, if_false, hi, hi1, polyline_spec out ha hb, Option.bind_eq_bind, Option.bind_some, ih b (i + 1) _ hd',
      walk, cuts_cons]
    by_cases h : Crosses z (a, b) <;> simp [h]

theorem faceLoop_spec (z : Int) (face : List Vec3) (hf : ∀ v ∈ face, v.InRange) (out : List Vec2) :
    faceLoop z face (List.range face.length) out = some (out ++ cuts z (sides face)) := by
  cases face with
  | nil => simp [faceLoop, sides, cuts]
  | cons a l =>
    have := faceLoop_walk z (a :: l) hf a rfl l a 0 out rfl
    rw [List.range_eq_range']
    exact this

/-! parity -/

theorem walk_parity {z : Int} (l : List Vec3) (a c : Vec3) :
    (cuts z (walk a l c)).length % 2 = (if Crosses z (a, c) then 1 else 0) := by
  induction l generalizing a with
  | nil => by_cases h : Crosses z (a, c) <;> simp [walk, cuts, h]
  | cons b l ih =>
    have := ih b
    rw [walk, cuts_cons, List.length_append, Nat.add_mod, this]
    have hx : Crosses z (a, c) ↔ (Crosses z (a, b) ↔ ¬ Crosses z (b, c)) := by
      unfold Crosses; simp only; omega
    by_cases h1 : Crosses z (a, b) <;> by_cases h2 : Crosses z (b, c) <;> simp [h1, h2, hx]

theorem sides_parity (z : Int) (face : List Vec3) : (cuts z (sides face)).length % 2 = 0 := by
  cases face with
  | nil => rfl
  | cons a l =>
    rw [sides, walk_parity, if_neg]
    unfold Crosses; simp only; omega

end Hob3l.Slice
