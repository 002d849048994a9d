import Verif.Grid.Model
import Verif.Grid.Spec
import Verif.Bbox.Lemmas
import Mathlib.Tactic.Linarith
import Mathlib.Tactic.NormNum
import Mathlib.Tactic.SplitIfs
import Mathlib.Tactic.Positivity
import Mathlib.Tactic.Ring
import Mathlib.Tactic.FieldSimp
import Mathlib.Algebra.Order.Ring.Abs

namespace Hob3l.Grid

open Hob3l.Bbox

theorem two_zpow_pos (k : Int) : (0 : Rat) < 2 ^ k := zpow_pos (by norm_num) k

theorem two_zpow_le {j k : Int} (h : j ≤ k) : (2 : Rat) ^ j ≤ 2 ^ k := zpow_le_zpow_right₀ (by norm_num) h

theorem frexp_lt (x : Rat) : |x| < 2 ^ frexpExp x := by
  unfold frexpExp
  split_ifs with h
  · rw [h, abs_zero]; exact two_zpow_pos 0
  · have := Int.lt_zpow_succ_log_self (R := Rat) (b := 2) (by norm_num) |x|
    simpa using this

theorem frexp_ge (x : Rat) (h : x ≠ 0) : (2 : Rat) ^ (frexpExp x - 1) ≤ |x| := by
  unfold frexpExp
  rw [if_neg h, add_sub_cancel_right]
  have := Int.zpow_log_le_self (R := Rat) (b := 2) (by norm_num) (abs_pos.2 h)
  simpa using this

theorem frexp_pow2 (k : Int) : frexpExp (2 ^ k) = k + 1 := by
  unfold frexpExp
  rw [if_neg (ne_of_gt (two_zpow_pos k)), abs_of_pos (two_zpow_pos k)]
  have := Int.log_zpow (R := Rat) (b := 2) (by norm_num) k
  rw [show ((2 : ℕ) : Rat) = 2 by norm_num] at this
  rw [this]

theorem frexp_unique {x : Rat} {e : Int} (h1 : (2 : Rat) ^ (e - 1) ≤ x) (h2 : x < 2 ^ e) : frexpExp x = e := by
  have hx : 0 < x := lt_of_lt_of_le (two_zpow_pos _) h1
  have a := frexp_lt x
  have b := frexp_ge x (ne_of_gt hx)
  rw [abs_of_pos hx] at a b
  have c := (zpow_lt_zpow_iff_right₀ (by norm_num : (1 : Rat) < 2)).1 (lt_of_le_of_lt h1 a)
  have d := (zpow_lt_zpow_iff_right₀ (by norm_num : (1 : Rat) < 2)).1 (lt_of_le_of_lt b h2)
  omega

theorem cpMax_le_left (a b : Rat) : a ≤ cpMax a b := by unfold cpMax; split_ifs <;> linarith
theorem cpMax_le_right (a b : Rat) : b ≤ cpMax a b := by unfold cpMax; split_ifs <;> linarith
theorem cpMax_or (a b : Rat) : cpMax a b = a ∨ cpMax a b = b := by
  unfold cpMax; split_ifs
  · exact Or.inl rfl
  · exact Or.inr rfl

theorem fabs_eq {e : E} {q : Rat} (h : fabs e = some q) : ∃ x, e = fin x ∧ q = |x| := by
  unfold fabs at h
  split at h
  · rename_i x
    exact ⟨x, rfl, by simpa using h.symm⟩
  · exact absurd h (by simp)

/-- the digits available -/
def haveDig (mode : Mode) : Int := if mode = .int then 30 else 24

theorem haveDig_eq (mode : Mode) :
    (if fltMantDig > cqIntDig ∨ mode = .int then cqIntDig else fltMantDig) = haveDig mode := by
  unfold haveDig fltMantDig cqIntDig
  by_cases h : mode = .int
  · rw [if_pos (Or.inr h), if_pos h]
  · rw [if_neg (by rintro (h1 | h1); exact absurd h1 (by norm_num); exact h h1), if_neg h]

/-- what `autoDimScale` computes: the largest absolute value `m` of the bounds of x and y is one of them and not exceeded
by any of the others, and the scale depends on it -/
theorem auto_eq {eps : Rat} {mode : Mode} {scale s : Rat} {bb : Box 3} (hm : mode ≠ .none)
    (h : autoDimScale eps mode scale bb = some s) :
    ∃ m : Rat, (∀ i : Fin 3, i ≠ 2 → ∃ lo hi, bb.min i = fin lo ∧ bb.max i = fin hi ∧ |lo| ≤ m ∧ |hi| ≤ m) ∧
      (∃ i : Fin 3, i ≠ 2 ∧ ∃ q, (bb.min i = fin q ∨ bb.max i = fin q) ∧ m = |q|) ∧
      s = if |scale| < eps ∨ frexpExp scale - 1 > haveDig mode - frexpExp m then 2 ^ (haveDig mode - frexpExp m) else scale := by
  unfold autoDimScale at h
  rw [if_neg hm] at h
  rcases hx0 : fabs (bb.min 0) with _ | x0
  · simp [hx0] at h
  rcases hx1 : fabs (bb.max 0) with _ | x1
  · simp [hx0, hx1] at h
  rcases hy0 : fabs (bb.min 1) with _ | y0
  · simp [hx0, hx1, hy0] at h
  rcases hy1 : fabs (bb.max 1) with _ | y1
  · simp [hx0, hx1, hy0, hy1] at h
  rw [hx0, hx1, hy0, hy1] at h
  simp only [Option.bind_eq_bind, Option.bind_some] at h
  rw [haveDig_eq] at h
  obtain ⟨a0, e0, rfl⟩ := fabs_eq hx0
  obtain ⟨a1, e1, rfl⟩ := fabs_eq hx1
  obtain ⟨b0, f0, rfl⟩ := fabs_eq hy0
  obtain ⟨b1, f1, rfl⟩ := fabs_eq hy1
  have l1 := cpMax_le_left |a0| |a1|
  have l2 := cpMax_le_right |a0| |a1|
  have l3 := cpMax_le_left |b0| |b1|
  have l4 := cpMax_le_right |b0| |b1|
  have l5 := cpMax_le_left (cpMax |a0| |a1|) (cpMax |b0| |b1|)
  have l6 := cpMax_le_right (cpMax |a0| |a1|) (cpMax |b0| |b1|)
  refine ⟨cpMax (cpMax |a0| |a1|) (cpMax |b0| |b1|), ?_, ?_, ?_⟩
  · intro i hi
    have hi' : i = 0 ∨ i = 1 := by omega
    rcases hi' with rfl | rfl
    · exact ⟨a0, a1, e0, e1, le_trans l1 l5, le_trans l2 l5⟩
    · exact ⟨b0, b1, f0, f1, le_trans l3 l6, le_trans l4 l6⟩
  · rcases cpMax_or (cpMax |a0| |a1|) (cpMax |b0| |b1|) with h1 | h1 <;> rw [h1]
    · rcases cpMax_or |a0| |a1| with h2 | h2 <;> rw [h2]
      · exact ⟨0, by decide, a0, Or.inl e0, rfl⟩
      · exact ⟨0, by decide, a1, Or.inr e1, rfl⟩
    · rcases cpMax_or |b0| |b1| with h2 | h2 <;> rw [h2]
      · exact ⟨1, by decide, b0, Or.inl f0, rfl⟩
      · exact ⟨1, by decide, b1, Or.inr f1, rfl⟩
  · have hc : (cpEq eps scale 0 = true) ↔ |scale| < eps := by
      unfold cpEq; rw [sub_zero, decide_eq_true_iff]
    simp only [hc] at h
    split_ifs at h with h1
    · rw [if_pos h1]; exact (Option.some.inj h).symm
    · rw [if_neg h1]; exact (Option.some.inj h).symm

/-- all points of the box are bounded by `m` -/
theorem pts_le {bb : Box 3} {m : Rat} {i : Fin 3} {p : P 3} (hp : p ∈ bb.pts)
    (h : ∃ lo hi, bb.min i = fin lo ∧ bb.max i = fin hi ∧ |lo| ≤ m ∧ |hi| ≤ m) : |p i| ≤ m := by
  obtain ⟨lo, hi, h1, h2, h3, h4⟩ := h
  have := hp i
  rw [h1, h2, fin_le, fin_le] at this
  rw [abs_le] at h3 h4 ⊢
  constructor <;> linarith [this.1, this.2]

/-- the new scale makes `m` fit if the old one is a power of two or nearly zero -/
theorem scale_fits {eps scale s m : Rat} {d : Int} (hm : 0 ≤ m)
    (hs : s = if |scale| < eps ∨ frexpExp scale - 1 > d - frexpExp m then 2 ^ (d - frexpExp m) else scale)
    (hp : IsPow2 scale ∨ |scale| < eps) : IsPow2 s ∧ m * s < 2 ^ d := by
  have hm2 := frexp_lt m
  rw [abs_of_nonneg hm] at hm2
  have key : ∀ k : Int, k ≤ d - frexpExp m → m * 2 ^ k < 2 ^ d := by
    intro k hk
    have h1 : m * (2 : Rat) ^ k < 2 ^ frexpExp m * 2 ^ k := mul_lt_mul_of_pos_right hm2 (two_zpow_pos k)
    have h2 : (2 : Rat) ^ frexpExp m * 2 ^ k = 2 ^ (frexpExp m + k) := (zpow_add₀ (by norm_num) _ _).symm
    rw [h2] at h1
    exact lt_of_lt_of_le h1 (two_zpow_le (by omega))
  split_ifs at hs with h1
  · rw [hs]
    exact ⟨⟨_, rfl⟩, key _ le_rfl⟩
  · rcases hp with ⟨k, hk⟩ | hp
    · have h2 : ¬ frexpExp scale - 1 > d - frexpExp m := fun h => h1 (Or.inr h)
      rw [hk, frexp_pow2] at h2
      rw [hs, hk]
      exact ⟨⟨k, rfl⟩, key k (by omega)⟩
    · exact absurd (Or.inl hp) h1

/-- conversion of a value that fits -/
theorem import_fits {rnd : Rat → Rat} {eta : Rat} (hr : Rounding rnd eta) {v s : Rat} {d : Nat} (hd : d ≤ 30)
    (h : |v * s| ≤ 2 ^ d) :
    ∃ n, importDim rnd s v = some n ∧ |n| ≤ 2 ^ d ∧ |(n : Rat) - v * s| ≤ 500001 / 1000000 + 2 * eta := by
  have hpow : (2 : Int) ^ d ≤ 2 ^ 30 := pow_le_pow_right₀ (by norm_num) hd
  have hpowq : (2 : Rat) ^ d ≤ 2 ^ 30 := pow_le_pow_right₀ (by norm_num) hd
  have hpow0 : (1 : Int) ≤ 2 ^ d := one_le_pow₀ (by norm_num)
  have fixq : ∀ n : Int, |n| ≤ 2 ^ 42 → rnd (n / 4) = n / 4 := hr.fix
  obtain ⟨hlo, hhi⟩ := abs_le.1 h
  -- the product
  have f1 : rnd (2 ^ d) = 2 ^ d := by
    have := fixq (4 * 2 ^ d) (by rw [abs_of_nonneg (by positivity)]; omega)
    push_cast at this
    have e : (4 * 2 ^ d / 4 : Rat) = 2 ^ d := by ring
    rwa [e] at this
  have f2 : rnd (-2 ^ d) = -2 ^ d := by
    have := fixq (-(4 * 2 ^ d)) (by rw [abs_neg, abs_of_nonneg (by positivity)]; omega)
    push_cast at this
    have e : (-(4 * 2 ^ d) / 4 : Rat) = -2 ^ d := by ring
    rwa [e] at this
  have f3 : rnd (2 ^ d + 3 / 4) = 2 ^ d + 3 / 4 := by
    have := fixq (4 * 2 ^ d + 3) (by rw [abs_of_nonneg (by positivity)]; omega)
    push_cast at this
    have e : ((4 * 2 ^ d + 3) / 4 : Rat) = 2 ^ d + 3 / 4 := by ring
    rwa [e] at this
  have p1 : rnd (v * s) ≤ 2 ^ d := by rw [← f1]; exact hr.mono _ _ hhi
  have p2 : -2 ^ d ≤ rnd (v * s) := by rw [← f2]; exact hr.mono _ _ hlo
  have q1 : rnd (rnd (v * s) + half) ≤ 2 ^ d + 3 / 4 := by
    rw [← f3]; refine hr.mono _ _ ?_
    unfold half; linarith
  have q2 : -2 ^ d ≤ rnd (rnd (v * s) + half) := by
    rw [← f2]; refine hr.mono _ _ ?_
    unfold half; linarith
  set y := rnd (rnd (v * s) + half) with hy
  have n1 : ⌊y⌋ ≤ 2 ^ d := by
    have : ⌊y⌋ < 2 ^ d + 1 := by
      rw [Int.floor_lt]; push_cast; linarith
    omega
  have n2 : -2 ^ d ≤ ⌊y⌋ := by
    rw [Int.le_floor]; push_cast; exact q2
  have habs : |⌊y⌋| ≤ 2 ^ d := abs_le.2 ⟨n2, n1⟩
  refine ⟨⌊y⌋, ?_, habs, ?_⟩
  · unfold importDim
    simp only [← hy]
    rw [if_pos (by omega)]
  · have e1 := abs_le.1 (hr.err (v * s) (le_trans h (le_trans hpowq (by norm_num))))
    have b2 : |rnd (v * s) + half| ≤ 2 ^ 31 := by
      rw [abs_le]; unfold half; constructor <;> linarith
    have e2 := abs_le.1 (hr.err _ b2)
    rw [← hy] at e2
    have g1 := Int.floor_le y
    have g2 := Int.lt_floor_add_one y
    unfold half at e2
    rw [abs_le]
    constructor <;> linarith [e1.1, e1.2, e2.1, e2.2]

/-- numbers with 24 bits on a grid that is a power of two are values of binary32 -/
theorem binary32_of {n : Int} {k : Int} (hn : |n| ≤ 2 ^ 24) (h1 : -103 ≤ k) (h2 : k ≤ 149) :
    Binary32 (exportDim (2 ^ k) n) := by
  unfold exportDim
  have e0 : (n : Rat) / 2 ^ k = n * 2 ^ (-k) := by rw [zpow_neg]; rfl
  rw [e0]
  by_cases h : |n| < 2 ^ 24
  · exact ⟨n, -k, h, by omega, by omega, rfl⟩
  · have hn' : |n| = 2 ^ 24 := by omega
    have step : (2 : Rat) ^ (-k + 1) = 2 ^ (-k) * 2 := by rw [zpow_add₀ (by norm_num), zpow_one]
    rcases (abs_eq (by norm_num : (0 : Int) ≤ 2 ^ 24)).1 hn' with h3 | h3
    · refine ⟨2 ^ 23, -k + 1, by norm_num, by omega, by omega, ?_⟩
      rw [h3, step]; push_cast; ring
    · refine ⟨-2 ^ 23, -k + 1, by norm_num, by omega, by omega, ?_⟩
      rw [h3, step]; push_cast; ring

/-- the values of binary32 between 1024 and 2048 are multiples of 2^-13 -/
theorem binary32_mult {g : Rat} (hg : Binary32 g) (h : 1024 ≤ g) : ∃ j : Int, g = j / 8192 := by
  obtain ⟨m, e, hm, _, _, rfl⟩ := hg
  have he : -13 ≤ e := by
    by_contra hc
    have h1 : (2 : Rat) ^ e ≤ 2 ^ (-14 : Int) := two_zpow_le (by omega)
    have h2 : (m : Rat) ≤ 2 ^ 24 - 1 := by
      have : m ≤ 2 ^ 24 - 1 := by have := (abs_lt.1 hm).2; omega
      exact_mod_cast this
    have h3 : (m : Rat) * 2 ^ e ≤ (2 ^ 24 - 1) * 2 ^ e := mul_le_mul_of_nonneg_right h2 (two_zpow_pos e).le
    have h4 : ((2 : Rat) ^ 24 - 1) * 2 ^ e ≤ (2 ^ 24 - 1) * 2 ^ (-14 : Int) := mul_le_mul_of_nonneg_left h1 (by norm_num)
    have h5 : ((2 : Rat) ^ 24 - 1) * 2 ^ (-14 : Int) < 1024 := by norm_num
    linarith
  obtain ⟨t, ht⟩ := Int.eq_ofNat_of_zero_le (by omega : (0 : Int) ≤ e + 13)
  refine ⟨m * 2 ^ t, ?_⟩
  have : (2 : Rat) ^ e = 2 ^ t / 8192 := by
    rw [show e = (t : Int) - 13 by omega, zpow_sub₀ (by norm_num), zpow_natCast]
    norm_num
  rw [this]; push_cast; ring

end Hob3l.Grid
