import Verif.Align.Model
import Mathlib.Tactic.Ring
import Mathlib.Tactic.SplitIfs

/-
C40: alignment arithmetic.
-/

namespace Hob3l.Align

open Hob3l.Matq

/-- the masks -/
theorem neg_mask {a : Sz} {k : Nat} (hk : k < 64) (ha : a.toNat = 2 ^ k) (n : Sz) :
    (n &&& -a).toNat = n.toNat / 2 ^ k * 2 ^ k := by
  have ea : a = BitVec.twoPow 64 k := by
    apply BitVec.eq_of_toNat_eq
    rw [ha, BitVec.toNat_twoPow, Nat.mod_eq_of_lt (Nat.pow_lt_pow_right (by omega) hk)]
  have h : n &&& -a = (n >>> k) <<< k := by
    apply BitVec.eq_of_getLsbD_eq
    intro i hi
    rw [BitVec.getLsbD_and, BitVec.getLsbD_neg, BitVec.getLsbD_shiftLeft, BitVec.getLsbD_ushiftRight, ea]
    by_cases hik : i < k
    · have h1 : (BitVec.twoPow 64 k).getLsbD i = false := by
        rw [BitVec.getLsbD_twoPow]; simp; omega
      have h2 : ¬ ∃ j, j < i ∧ (BitVec.twoPow 64 k).getLsbD j = true := by
        rintro ⟨j, hj, hb⟩
        rw [BitVec.getLsbD_twoPow] at hb
        simp at hb; omega
      simp only [h1, decide_eq_false h2, hik, decide_true, Bool.not_true, Bool.and_false, Bool.false_and, Bool.xor_false]
    · by_cases hie : i = k
      · subst hie
        have h1 : (BitVec.twoPow 64 i).getLsbD i = true := by
          rw [BitVec.getLsbD_twoPow]; simp; omega
        have h2 : ¬ ∃ j, j < i ∧ (BitVec.twoPow 64 i).getLsbD j = true := by
          rintro ⟨j, hj, hb⟩
          rw [BitVec.getLsbD_twoPow] at hb
          simp at hb; omega
        simp only [h1, decide_eq_false h2, hi, hik, decide_true, decide_false, Bool.and_false, Bool.xor_false,
          Bool.and_true, Bool.not_false, Bool.true_and]
        rw [show i + (i - i) = i by omega]
      · have h1 : (BitVec.twoPow 64 k).getLsbD i = false := by
          rw [BitVec.getLsbD_twoPow]; simp; omega
        have h2 : ∃ j, j < i ∧ (BitVec.twoPow 64 k).getLsbD j = true := by
          refine ⟨k, by omega, ?_⟩
          rw [BitVec.getLsbD_twoPow]; simp; omega
        simp only [h1, decide_eq_true h2, hi, hik, decide_true, decide_false, Bool.true_and,
          Bool.and_true, Bool.not_false, Bool.false_xor]
        rw [show k + (i - k) = i by omega]
  rw [h, BitVec.toNat_shiftLeft, BitVec.toNat_ushiftRight, Nat.shiftLeft_eq, Nat.shiftRight_eq_div_pow]
  apply Nat.mod_eq_of_lt
  have := Nat.div_mul_le_self n.toNat (2 ^ k)
  have := n.isLt
  omega

theorem alignDown_if (n a : Sz) : alignDown n a = if a ≠ 0 ∧ a &&& (a - 1) = 0 then some (n &&& -a) else none := by
  unfold alignDown ass
  by_cases h1 : a ≠ 0
  · by_cases h2 : a &&& (a - 1) = 0
    · rw [if_pos h1, if_pos h2, if_pos ⟨h1, h2⟩]; rfl
    · rw [if_pos h1, if_neg h2, if_neg (fun h => h2 h.2)]; rfl
  · rw [if_neg h1, if_neg (c := a ≠ 0 ∧ a &&& (a - 1) = 0) (fun h => h1 h.1)]; rfl

/-- The functions accept exactly the powers of two as alignment. -/
theorem C40_accept (n a : Sz) : (alignDown n a).isSome ↔ ∃ k < 64, a.toNat = 2 ^ k := by
  have key : (a ≠ 0 ∧ a &&& (a - 1) = 0) ↔ ∃ k < 64, a.toNat = 2 ^ k := by
    have h0 : a ≠ 0 ↔ a.toNat ≠ 0 := by
      rw [ne_eq, ← BitVec.toNat_inj]; rfl
    have h1 : a.toNat ≠ 0 → (a &&& (a - 1) = 0 ↔ a.toNat &&& (a.toNat - 1) = 0) := by
      intro hne
      rw [← BitVec.toNat_inj, BitVec.toNat_and, BitVec.toNat_sub]
      have : (2 ^ 64 - (1 : Sz).toNat + a.toNat) % 2 ^ 64 = a.toNat - 1 := by
        have := a.isLt
        have : (1 : Sz).toNat = 1 := rfl
        omega
      rw [this]; rfl
    constructor
    · rintro ⟨ha, hb⟩
      have ha' := h0.1 ha
      obtain ⟨k, hk⟩ := (Nat.and_sub_one_eq_zero_iff_isPowerOfTwo ha').1 ((h1 ha').1 hb)
      refine ⟨k, ?_, hk⟩
      have := a.isLt
      rw [hk] at this
      exact (Nat.pow_lt_pow_iff_right (by omega)).1 this
    · rintro ⟨k, hk, he⟩
      have ha' : a.toNat ≠ 0 := by rw [he]; exact Nat.ne_of_gt (Nat.two_pow_pos k)
      exact ⟨h0.2 ha', (h1 ha').2 ((Nat.and_sub_one_eq_zero_iff_isPowerOfTwo ha').2 ⟨k, he⟩)⟩
  rw [← key, alignDown_if]
  by_cases h : a ≠ 0 ∧ a &&& (a - 1) = 0
  · rw [if_pos h]; exact ⟨fun _ => h, fun _ => rfl⟩
  · rw [if_neg h]; exact ⟨fun h' => (by cases h'), fun h' => absurd h' h⟩

theorem alignDown_eq {a : Sz} {k : Nat} (hk : k < 64) (ha : a.toNat = 2 ^ k) (n : Sz) :
    alignDown n a = some (n &&& -a) := by
  have h := (C40_accept n a).2 ⟨k, hk, ha⟩
  rw [alignDown_if] at *
  by_cases h1 : a ≠ 0 ∧ a &&& (a - 1) = 0
  · rw [if_pos h1]
  · rw [if_neg h1] at h; cases h

/-- Aligning down yields the largest multiple not above the argument, and the difference function its distance. -/
theorem C40_align_down {a : Sz} {k : Nat} (hk : k < 64) (ha : a.toNat = 2 ^ k) (n : Sz) :
    ∃ r d, alignDown n a = some r ∧ alignDownDiff n a = some d ∧
      a.toNat ∣ r.toNat ∧ r.toNat ≤ n.toNat ∧ n.toNat < r.toNat + a.toNat ∧ r.toNat + d.toNat = n.toNat := by
  have e := alignDown_eq hk ha n
  have hr := neg_mask hk ha n
  have hle := Nat.div_mul_le_self n.toNat (2 ^ k)
  refine ⟨_, n - (n &&& -a), e, by simp [alignDownDiff, e], ?_, ?_, ?_, ?_⟩
  · rw [hr, ha]; exact Nat.dvd_mul_left _ _
  · omega
  · have := Nat.lt_div_mul_add (a := n.toNat) (b := 2 ^ k) (Nat.two_pow_pos k)
    omega
  · rw [BitVec.toNat_sub_of_le (by rw [BitVec.le_def]; omega)]
    omega

example : alignDown 1000 16 = some 992 := by decide

/-- Aligning up yields the smallest multiple not below the argument, and the difference function its distance, unless the
addition overflows. -/
theorem C40_align_up {a : Sz} {k : Nat} (hk : k < 64) (ha : a.toNat = 2 ^ k) (n : Sz)
    (hn : n.toNat + a.toNat ≤ 2 ^ 64) :
    ∃ r d, alignUp n a = some r ∧ alignUpDiff n a = some d ∧
      a.toNat ∣ r.toNat ∧ n.toNat ≤ r.toNat ∧ r.toNat < n.toNat + a.toNat ∧ n.toNat + d.toNat = r.toNat := by
  have hp := Nat.two_pow_pos k
  have e1 : (n + a - 1).toNat = n.toNat + a.toNat - 1 := by
    rw [BitVec.toNat_sub, BitVec.toNat_add]
    have : (1 : Sz).toNat = 1 := rfl
    omega
  obtain ⟨r, d, h1, _, h3, h4, h5, _⟩ := C40_align_down hk ha (n + a - 1)
  have e2 : alignUp n a = some r := h1
  have hlt : n.toNat ≤ r.toNat := by omega
  refine ⟨r, r - n, e2, by simp [alignUpDiff, e2], h3, hlt, by omega, ?_⟩
  rw [BitVec.toNat_sub_of_le (by rw [BitVec.le_def]; omega)]
  omega

example : alignUp 1000 16 = some 1008 ∧ alignUpDiff 1000 16 = some 8 := by decide

/-- If the addition overflows, aligning up returns zero. -/
theorem C40_align_up_overflow {a : Sz} {k : Nat} (hk : k < 64) (ha : a.toNat = 2 ^ k) (n : Sz)
    (hn : n.toNat + a.toNat > 2 ^ 64) : alignUp n a = some 0 := by
  have e1 : (n + a - 1).toNat = n.toNat + a.toNat - 1 - 2 ^ 64 := by
    rw [BitVec.toNat_sub, BitVec.toNat_add]
    have : (1 : Sz).toNat = 1 := rfl
    have := n.isLt
    have := a.isLt
    omega
  rw [alignUp, alignDown_eq hk ha]
  congr 1
  apply BitVec.eq_of_toNat_eq
  rw [neg_mask hk ha, e1]
  have : n.toNat + a.toNat - 1 - 2 ^ 64 < 2 ^ k := by
    have := n.isLt; omega
  rw [Nat.div_eq_of_lt this]
  simp

example : alignUp (BitVec.ofNat 64 (2 ^ 64 - 1)) 16 = some 0 := by decide

/-- The alignment of a size is the largest power of two that divides it. -/
theorem C40_size_align {x : Sz} (hx : x ≠ 0) :
    ∃ k < 64, (sizeAlign x).toNat = 2 ^ k ∧ 2 ^ k ∣ x.toNat ∧ ¬ 2 ^ (k + 1) ∣ x.toNat := by
  have hex : ∃ i, x.getLsbD i = true := by
    by_contra hc
    apply hx
    apply BitVec.eq_of_getLsbD_eq
    intro i _
    rw [show (0 : Sz) = 0#64 from rfl, BitVec.getLsbD_zero]
    by_contra hb
    exact hc ⟨i, by simpa using hb⟩
  have hmin : ∃ k, x.getLsbD k = true ∧ ∀ j < k, x.getLsbD j = false := by
    refine ⟨Nat.find hex, Nat.find_spec hex, ?_⟩
    intro j hj
    have := Nat.find_min hex hj
    simpa using this
  obtain ⟨k, hk, hj⟩ := hmin
  have hk64 : k < 64 := BitVec.lt_of_getLsbD hk
  have e : sizeAlign x = BitVec.twoPow 64 k := by
    apply BitVec.eq_of_getLsbD_eq
    intro i hi
    rw [sizeAlign, BitVec.getLsbD_and, BitVec.getLsbD_neg, BitVec.getLsbD_twoPow]
    by_cases h1 : i < k
    · rw [hj i h1]
      have : ¬ k = i := by omega
      simp [this]
    · by_cases h2 : k = i
      · subst h2
        have h3 : ¬ ∃ j, j < k ∧ x.getLsbD j = true := by
          rintro ⟨j, hjk, hb⟩
          rw [hj j hjk] at hb
          cases hb
        simp only [hk, decide_eq_false h3, hk64, decide_true, Bool.and_false, Bool.xor_false, Bool.and_true]
      · have h3 : ∃ j, j < i ∧ x.getLsbD j = true := ⟨k, by omega, hk⟩
        simp only [decide_eq_true h3, hi, decide_true, Bool.true_and, decide_eq_false h2, Bool.and_false]
        cases x.getLsbD i <;> rfl
  refine ⟨k, hk64, ?_, ?_, ?_⟩
  · rw [e, BitVec.toNat_twoPow, Nat.mod_eq_of_lt (Nat.pow_lt_pow_right (by omega) hk64)]
  · rw [Nat.dvd_iff_mod_eq_zero]
    apply Nat.eq_of_testBit_eq
    intro i
    rw [Nat.testBit_mod_two_pow, Nat.zero_testBit]
    by_cases h : i < k
    · have := hj i h
      simp only [BitVec.getLsbD] at this
      simp [this]
    · simp [h]
  · rw [Nat.dvd_iff_mod_eq_zero]
    intro hc
    have h1 : (x.toNat % 2 ^ (k + 1)).testBit k = true := by
      rw [Nat.testBit_mod_two_pow]
      simp only [BitVec.getLsbD] at hk
      simp [hk]
    rw [hc] at h1
    simp at h1

example : sizeAlign 40 = 8 := by decide

/-- The bounded index is the index if it is in range, otherwise 0. -/
theorem C40_idx0 (n i : Sz) : idx0 n i = if i < n then i else 0 := by
  unfold idx0
  split_ifs
  · rw [show (-1 : Sz) = BitVec.allOnes 64 by decide, BitVec.and_allOnes]
  · rw [show (-0 : Sz) = 0 by decide]
    simp

example : idx0 10 7 = 7 ∧ idx0 10 17 = 0 := by decide

end Hob3l.Align
