import Verif.Solid.Points
import Mathlib.Tactic.SplitIfs
import Mathlib.Tactic.FieldSimp
import Mathlib.Tactic.Ring
import Mathlib.Tactic.Linarith
import Mathlib.Tactic.LinearCombination

/-
The iteration over a circle.
-/

namespace Hob3l.Solid

section
variable {α : Type} [Neg α] [Zero α] [One α] (n : Nat) (C S : Nat → α)

/-- the state after `i` steps -/
def circAt (i : Nat) : Circ α :=
  if i = 0 then ⟨1, 0, 0, 0⟩
  else if i % 2 = 1 then (if i + 1 = n then ⟨-1, 0, (i + 1) / 2, i⟩ else ⟨C ((i + 1) / 2), S ((i + 1) / 2), (i + 1) / 2, i⟩)
  else ⟨C (i / 2), -S (i / 2), n - i / 2, i⟩

theorem circStep_at (i : Nat) (h : i + 1 < n) : circStep n C S (circAt n C S i) = circAt n C S (i + 1) := by
  have hi : (circAt n C S i).i = i := by unfold circAt; split_ifs <;> simp_all
  unfold circStep
  simp only [hi]
  by_cases c : (i + 1) % 2 = 1
  · rw [if_pos c]
    simp [circAt, c]
  · rw [if_neg c]
    have h1 : i % 2 = 1 := by omega
    have h2 : (i + 1) % 2 = 0 := by omega
    simp [circAt, h1, h2, show i ≠ 0 by omega, show i + 1 ≠ n by omega]

theorem circRun_at (k i : Nat) (h : i + k ≤ n) :
    circRun n C S k (circAt n C S i) = (List.range k).map fun d => circAt n C S (i + d) := by
  induction k generalizing i with
  | zero => rfl
  | succ k ih =>
    rw [circRun, List.range_succ_eq_map, List.map_cons, List.map_map]
    congr 1
    cases k with
    | zero => rfl
    | succ k =>
      rw [circStep_at n C S i (by omega), ih (i + 1) (by omega)]
      apply List.map_congr_left
      intro d _
      simp only [Function.comp]
      congr 1; omega

theorem circEach_at : circEach n C S = (List.range n).map (circAt n C S) := by
  have := circRun_at n C S n 0 (by omega)
  simp only [Nat.zero_add] at this
  rw [← this]
  rfl

/-- the step at which a point is visited -/
def visit (j : Nat) : Nat := if j = 0 then 0 else if 2 * j ≤ n then 2 * j - 1 else 2 * (n - j)

theorem circAt_idx {i : Nat} (h : i < n) : (circAt n C S i).idx < n ∧ visit n (circAt n C S i).idx = i := by
  unfold circAt visit
  split_ifs <;> simp_all <;> omega

theorem visit_idx {j : Nat} (h : j < n) : visit n j < n ∧ (circAt n C S (visit n j)).idx = j := by
  constructor
  · unfold visit; split_ifs <;> omega
  · unfold visit circAt
    split_ifs <;> simp_all <;> omega

/-- the value at a point -/
def circVal (j : Nat) : α × α :=
  if j = 0 then (1, 0) else if 2 * j = n then (-1, 0) else if 2 * j < n then (C j, S j) else (C (n - j), -S (n - j))

theorem circAt_val {i : Nat} (h : i < n) :
    ((circAt n C S i).cos, (circAt n C S i).sin) = circVal n C S (circAt n C S i).idx := by
  unfold circAt circVal
  by_cases c0 : i = 0
  · simp [c0]
  · by_cases c1 : i % 2 = 1
    · by_cases c2 : i + 1 = n
      · simp [c0, c1, c2, show n / 2 ≠ 0 by omega, show 2 * (n / 2) = n by omega]
      · simp [c0, c1, c2, show (i + 1) / 2 ≠ 0 by omega, show 2 * ((i + 1) / 2) ≠ n by omega,
          show 2 * ((i + 1) / 2) < n by omega]
    · simp [c0, c1, show n - i / 2 ≠ 0 by omega, show 2 * (n - i / 2) ≠ n by omega,
          show ¬ 2 * (n - i / 2) < n by omega, show n - (n - i / 2) = i / 2 by omega]

theorem circPt_eq {j : Nat} (h : j < n) : circPt n C S j = some (circVal n C S j) := by
  obtain ⟨h1, h2⟩ := visit_idx n C S h
  unfold circPt
  rw [circEach_at]
  have hm : circAt n C S (visit n j) ∈ ((List.range n).map (circAt n C S)).reverse := by
    rw [List.mem_reverse, List.mem_map]
    exact ⟨_, List.mem_range.mpr h1, rfl⟩
  cases hf : (((List.range n).map (circAt n C S)).reverse.find? fun c => c.idx == j) with
  | none =>
    rw [List.find?_eq_none] at hf
    exact absurd (by simpa using h2) (hf _ hm)
  | some c =>
    have hc := List.mem_of_find?_eq_some hf
    have hj := List.find?_some hf
    rw [List.mem_reverse, List.mem_map] at hc
    obtain ⟨i, hi, rfl⟩ := hc
    rw [List.mem_range] at hi
    have hj : (circAt n C S i).idx = j := by simpa using hj
    rw [Option.map_some, circAt_val n C S hi, hj]

theorem circEach_idx : ((circEach n C S).map Circ.idx).Perm (List.range n) := by
  rw [circEach_at, List.map_map]
  rw [List.perm_ext_iff_of_nodup _ List.nodup_range]
  · intro j
    rw [List.mem_map, List.mem_range]
    constructor
    · rintro ⟨i, hi, rfl⟩
      exact (circAt_idx n C S (List.mem_range.mp hi)).1
    · intro h
      obtain ⟨h1, h2⟩ := visit_idx n C S h
      exact ⟨visit n j, List.mem_range.mpr h1, h2⟩
  · refine List.Nodup.map_on ?_ List.nodup_range
    intro a ha b hb e
    have e1 := (circAt_idx n C S (List.mem_range.mp ha)).2
    have e2 := (circAt_idx n C S (List.mem_range.mp hb)).2
    simp only [Function.comp] at e
    rw [e] at e1
    omega
end

theorem circle_eq {n j : Nat} (h : j < n) :
    circle n j = (Real.cos (2 * Real.pi * j / n), Real.sin (2 * Real.pi * j / n)) := by
  have hn : (n : ℝ) ≠ 0 := by
    have : n ≠ 0 := by omega
    exact_mod_cast this
  have ha : ∀ k : Nat, (360 / (n : ℝ) * k * (Real.pi / 180)) = 2 * Real.pi * k / n := by
    intro k; field_simp; ring
  unfold circle
  rw [circPt_eq _ _ _ h]
  simp only [Option.getD_some, circVal, ha]
  by_cases h0 : j = 0
  · simp [h0]
  · rw [if_neg h0]
    by_cases h1 : 2 * j = n
    · rw [if_pos h1]
      have : 2 * Real.pi * (j : ℝ) / n = Real.pi := by
        rw [← h1]
        have : (j : ℝ) ≠ 0 := by exact_mod_cast h0
        push_cast; field_simp
      rw [this, Real.cos_pi, Real.sin_pi]
    · rw [if_neg h1]
      by_cases h2 : 2 * j < n
      · rw [if_pos h2]
      · rw [if_neg h2]
        have : 2 * Real.pi * ((n - j : Nat) : ℝ) / n = 2 * Real.pi - 2 * Real.pi * j / n := by
          rw [Nat.cast_sub (by omega)]
          field_simp
        rw [this, Real.cos_two_pi_sub, Real.sin_two_pi_sub, neg_neg]

/-- the cross product of consecutive points -/
theorem circle_cross {n j : Nat} (h : j < n) :
    (circle n j).1 * (circle n (wrapAdd1 j n)).2 - (circle n (wrapAdd1 j n)).1 * (circle n j).2 = Real.sin (2 * Real.pi / n) := by
  have hn : (n : ℝ) ≠ 0 := by
    have : n ≠ 0 := by omega
    exact_mod_cast this
  have hw : wrapAdd1 j n < n := by unfold wrapAdd1; split_ifs <;> omega
  rw [circle_eq h, circle_eq hw]
  have e : Real.cos (2 * Real.pi * (wrapAdd1 j n : ℕ) / n) = Real.cos (2 * Real.pi * j / n + 2 * Real.pi / n) ∧
      Real.sin (2 * Real.pi * (wrapAdd1 j n : ℕ) / n) = Real.sin (2 * Real.pi * j / n + 2 * Real.pi / n) := by
    unfold wrapAdd1
    by_cases c : j + 1 = n
    · have : 2 * Real.pi * (j : ℝ) / n + 2 * Real.pi / n = 2 * Real.pi := by
        rw [← c] at hn ⊢
        push_cast at hn ⊢
        field_simp
      rw [if_pos c, this]
      simp
    · rw [if_neg c]
      have : 2 * Real.pi * ((j + 1 : ℕ) : ℝ) / n = 2 * Real.pi * j / n + 2 * Real.pi / n := by
        push_cast; ring
      rw [this]
      exact ⟨rfl, rfl⟩
  simp only [e.1, e.2]
  generalize 2 * Real.pi * (j : ℝ) / n = a
  generalize 2 * Real.pi / (n : ℝ) = b
  rw [Real.sin_add, Real.cos_add]
  linear_combination Real.sin b * Real.sin_sq_add_cos_sq a

end Hob3l.Solid
