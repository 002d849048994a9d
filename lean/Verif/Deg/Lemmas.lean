import Verif.Deg.Model
import Verif.Deg.Spec
import Mathlib.NumberTheory.Niven
import Mathlib.Tactic.Ring
import Mathlib.Tactic.Linarith
import Mathlib.Tactic.FieldSimp
import Mathlib.Tactic.Positivity
/-!
Bits and angles.
-/
namespace Hob3l.Deg

/-- the exponent -/
def ex (u : Nat) : Nat := u / 2 ^ 52 % 2 ^ 11

/-- the fraction -/
def fr (u : Nat) : Nat := u % 2 ^ 52

theorem ex_bits (u : Nat) : (u >>> 52) &&& 0x7ff = ex u := by
  rw [Nat.shiftRight_eq_div_pow, show 0x7ff = 2 ^ 11 - 1 from rfl, Nat.and_two_pow_sub_one_eq_mod]
  rfl

theorem fr_bits (u : Nat) : ((u &&& 0x000fffffffffffff) <<< 12) % 2 ^ 64 = fr u * 2 ^ 12 := by
  rw [show 0x000fffffffffffff = 2 ^ 52 - 1 from rfl, Nat.and_two_pow_sub_one_eq_mod, Nat.shiftLeft_eq]
  have : u % 2 ^ 52 < 2 ^ 52 := Nat.mod_lt _ (by decide)
  exact Nat.mod_eq_of_lt (by omega)

theorem fr_lt (u : Nat) : fr u < 2 ^ 52 := Nat.mod_lt _ (by decide)

theorem mant_bits (u : Nat) : ((fr u * 2 ^ 12) >>> 1) ||| 0x8000000000000000 = (2 ^ 52 + fr u) * 2 ^ 11 := by
  have h := fr_lt u
  rw [Nat.shiftRight_eq_div_pow, Nat.or_comm, show 0x8000000000000000 = 2 ^ 63 * 1 from rfl,
    ← Nat.two_pow_add_eq_or_of_lt (by omega)]
  omega

theorem neg_bits (u : Nat) (h : u < 2 ^ 64) : (u >>> 63 != 0) = decide (u / 2 ^ 63 % 2 = 1) := by
  rw [Nat.shiftRight_eq_div_pow, Bool.eq_iff_iff]
  simp only [bne_iff_ne, ne_eq, decide_eq_true_eq]
  omega

/-- the digits are shifted out -/
theorem shift_zero (m k : Nat) (hk : k ≤ 52) : (m * 2 ^ 11) <<< (k + 1) % 2 ^ 64 = 0 ↔ m % 2 ^ (52 - k) = 0 := by
  rw [Nat.shiftLeft_eq, show m * 2 ^ 11 * 2 ^ (k + 1) = m * 2 ^ (12 + k) by rw [Nat.mul_assoc, ← Nat.pow_add]; congr 2; omega,
    show (2 : Nat) ^ 64 = 2 ^ (52 - k) * 2 ^ (12 + k) by rw [← Nat.pow_add]; congr 1; omega,
    Nat.mul_mod_mul_right]
  constructor
  · intro h
    rcases Nat.mul_eq_zero.mp h with h | h
    · exact h
    · exact absurd h (by positivity)
  · intro h
    rw [h, Nat.zero_mul]

theorem shift_int (m k : Nat) (hk : k ≤ 52) : (m * 2 ^ 11) >>> (64 - k - 1) = m / 2 ^ (52 - k) := by
  rw [Nat.shiftRight_eq_div_pow, show 64 - k - 1 = (52 - k) + 11 by omega, Nat.pow_add]
  exact Nat.mul_div_mul_right _ _ (by decide)

/-- the sign -/
def sg (u : Nat) : ℤ := if u / 2 ^ 63 % 2 = 1 then -1 else 1

/-- what `getInt` does -/
theorem getInt_eq (u : Nat) (hu : u < 2 ^ 64) : getInt u =
    if 1023 ≤ ex u ∧ ex u ≤ 1075 ∧ (2 ^ 52 + fr u) % 2 ^ (1075 - ex u) = 0 then
      some (sg u * (((2 ^ 52 + fr u) / 2 ^ (1075 - ex u) : Nat) : Int)) else none := by
  unfold getInt splitFloat
  simp only [ex_bits, fr_bits, mant_bits, neg_bits u hu]
  by_cases h1 : ex u = 0x7ff
  · rw [if_pos h1, if_neg (by omega)]
  rw [if_neg h1]
  by_cases h2 : ex u = 0
  · rw [if_neg (by omega : ¬ ex u ≠ 0), if_neg (by omega)]
    simp only [h2]
    rfl
  rw [if_pos h2]
  dsimp only
  by_cases h3 : ex u < 1023
  · rw [if_pos (by omega), if_neg (by omega)]
  rw [if_neg (by omega)]
  by_cases h4 : 1075 < ex u
  · rw [if_pos (by omega), if_neg (by omega)]
  rw [if_neg (by omega)]
  have hk : ((ex u : Int) - 1023).toNat = ex u - 1023 := by omega
  have he : 52 - (ex u - 1023) = 1075 - ex u := by omega
  rw [hk]
  have hz := shift_zero (2 ^ 52 + fr u) (ex u - 1023) (by omega)
  rw [he] at hz
  have hi := shift_int (2 ^ 52 + fr u) (ex u - 1023) (by omega)
  rw [he] at hi
  rw [hi]
  generalize hw : (2 ^ 52 + fr u) / 2 ^ (1075 - ex u) = w
  by_cases h5 : (2 ^ 52 + fr u) % 2 ^ (1075 - ex u) = 0
  · have c1 : ¬ ((2 ^ 52 + fr u) * 2 ^ 11) <<< (ex u - 1023 + 1) % 2 ^ 64 ≠ 0 := fun h => h (hz.mpr h5)
    have c2 : 1023 ≤ ex u ∧ ex u ≤ 1075 ∧ (2 ^ 52 + fr u) % 2 ^ (1075 - ex u) = 0 := ⟨by omega, by omega, h5⟩
    rw [if_neg c1, if_pos c2]
    unfold sg
    by_cases h6 : u / 2 ^ 63 % 2 = 1
    · simp only [h6, decide_true, if_true]
      rw [neg_one_mul]
    · simp only [h6, decide_false, Bool.false_eq_true, if_false]
      rw [one_mul]
  · have c1 : ((2 ^ 52 + fr u) * 2 ^ 11) <<< (ex u - 1023 + 1) % 2 ^ 64 ≠ 0 := fun h => h5 (hz.mp h)
    have c2 : ¬ (1023 ≤ ex u ∧ ex u ≤ 1075 ∧ (2 ^ 52 + fr u) % 2 ^ (1075 - ex u) = 0) := fun h => h5 h.2.2
    rw [if_pos c1, if_neg c2]

theorem sg_cases (u : Nat) : sg u = 1 ∨ sg u = -1 := by
  unfold sg
  split <;> simp

theorem value_eq (u : Nat) : value u =
    if ex u = 2047 then none
    else if ex u = 0 then some (sg u * ((fr u : ℚ) / 2 ^ 1074))
    else some (sg u * (((2 ^ 52 + fr u : Nat) : ℚ) * 2 ^ ex u / 2 ^ 1075)) := by
  unfold value
  have : (if u / 2 ^ 63 % 2 = 1 then -1 else 1 : ℚ) = ((sg u : ℤ) : ℚ) := by
    unfold sg
    split <;> simp
  simp only [this]
  rw [show u / 2 ^ 52 % 2 ^ 11 = ex u from rfl, show u % 2 ^ 52 = fr u from rfl]
  push_cast
  rfl

theorem value_mid (u : Nat) (h1 : ex u ≠ 0) (h2 : ex u ≤ 1075) :
    value u = some (sg u * (((2 ^ 52 + fr u : Nat) : ℚ) / 2 ^ (1075 - ex u))) := by
  rw [value_eq, if_neg (by omega), if_neg h1]
  congr 2
  rw [show (2 : ℚ) ^ 1075 = 2 ^ (1075 - ex u) * 2 ^ ex u by rw [← pow_add]; congr 1; omega]
  exact mul_div_mul_right _ _ (by positivity)

theorem abs_sg (u : Nat) (q : ℚ) (hq : 0 ≤ q) : |(sg u : ℚ) * q| = q := by
  rcases sg_cases u with h | h <;> rw [h]
  · simp [abs_of_nonneg hq]
  · simp [abs_of_nonneg hq]

/-- an integer is found iff it is the value, and it is neither 0 nor too large -/
theorem getInt_iff (u : Nat) (hu : u < 2 ^ 64) (i : Int) :
    getInt u = some i ↔ value u = some (i : ℚ) ∧ 1 ≤ |i| ∧ |i| < 2 ^ 53 := by
  have hf := fr_lt u
  rw [getInt_eq u hu]
  constructor
  · intro h
    by_cases hc : 1023 ≤ ex u ∧ ex u ≤ 1075 ∧ (2 ^ 52 + fr u) % 2 ^ (1075 - ex u) = 0
    · rw [if_pos hc, Option.some.injEq] at h
      obtain ⟨h1, h2, h3⟩ := hc
      obtain ⟨c, hc⟩ := Nat.dvd_of_mod_eq_zero h3
      have hp : 0 < 2 ^ (1075 - ex u) := Nat.two_pow_pos _
      have hle : 2 ^ (1075 - ex u) ≤ 2 ^ 52 := Nat.pow_le_pow_right (by decide) (by omega)
      rw [hc, Nat.mul_div_cancel_left _ hp] at h
      have hc1 : 1 ≤ c := by
        rcases Nat.eq_zero_or_pos c with h0 | h0
        · subst h0; omega
        · exact h0
      have hc2 : c < 2 ^ 53 := by
        have : c ≤ 2 ^ (1075 - ex u) * c := Nat.le_mul_of_pos_left _ hp
        omega
      refine ⟨?_, ?_⟩
      · rw [value_mid u (by omega) h2, hc, ← h]
        push_cast
        rw [mul_div_cancel_left₀ _ (by positivity)]
      · rcases sg_cases u with hs | hs <;> rw [hs] at h <;> subst h
        · rw [one_mul, abs_of_nonneg (by omega)]
          omega
        · rw [abs_of_nonpos (by omega)]
          omega
    · rw [if_neg hc] at h
      cases h
  · rintro ⟨hv, hi1, hi2⟩
    have q1 : (1 : ℚ) ≤ |(i : ℚ)| := by rw [← Int.cast_abs]; exact_mod_cast hi1
    have q2 : |(i : ℚ)| < 2 ^ 53 := by rw [← Int.cast_abs]; exact_mod_cast hi2
    have hfq : (fr u : ℚ) < 2 ^ 52 := by exact_mod_cast hf
    have hf0 : (0 : ℚ) ≤ fr u := by positivity
    by_cases h1 : ex u = 2047
    · rw [value_eq, if_pos h1] at hv; cases hv
    by_cases h2 : ex u = 0
    · rw [value_eq, if_neg h1, if_pos h2, Option.some.injEq] at hv
      rw [← hv, abs_sg _ _ (by positivity), le_div_iff₀ (by positivity), one_mul] at q1
      have : (2 : ℚ) ^ 52 ≤ 2 ^ 1074 := pow_le_pow_right₀ (by norm_num) (by norm_num)
      exact absurd (this.trans q1) (not_le.mpr hfq)
    have h3 : ex u ≤ 1075 := by
      by_contra h3
      rw [value_eq, if_neg h1, if_neg h2, Option.some.injEq] at hv
      rw [← hv, abs_sg _ _ (by positivity), div_lt_iff₀ (by positivity)] at q2
      have a : (2 : ℚ) ^ 1076 ≤ 2 ^ ex u := pow_le_pow_right₀ (by norm_num) (by omega)
      have b : (2 : ℚ) ^ 52 ≤ ((2 ^ 52 + fr u : Nat) : ℚ) := by push_cast; linarith
      have c : (2 : ℚ) ^ 52 * 2 ^ 1076 ≤ ((2 ^ 52 + fr u : Nat) : ℚ) * 2 ^ ex u := mul_le_mul b a (by positivity) (by positivity)
      have d : (2 : ℚ) ^ 52 * 2 ^ 1076 = 2 ^ 53 * 2 ^ 1075 := by rw [← pow_add, ← pow_add]
      rw [d] at c
      exact absurd c (not_le.mpr q2)
    have hv' := hv
    rw [value_mid u h2 h3, Option.some.injEq] at hv
    have h4 : 1023 ≤ ex u := by
      by_contra h4
      rw [← hv, abs_sg _ _ (by positivity), le_div_iff₀ (by positivity), one_mul] at q1
      have a : (2 : ℚ) ^ 53 ≤ 2 ^ (1075 - ex u) := pow_le_pow_right₀ (by norm_num) (by omega)
      push_cast at q1
      have : (2 : ℚ) ^ 53 = 2 ^ 52 + 2 ^ 52 := by norm_num
      linarith
    have hp : 0 < 2 ^ (1075 - ex u) := Nat.two_pow_pos _
    have hm : (2 ^ 52 + fr u : Nat) = i.natAbs * 2 ^ (1075 - ex u) := by
      have : |(i : ℚ)| = ((2 ^ 52 + fr u : Nat) : ℚ) / 2 ^ (1075 - ex u) := by rw [← hv, abs_sg _ _ (by positivity)]
      rw [eq_div_iff (by positivity)] at this
      have e : |(i : ℚ)| = ((i.natAbs : Nat) : ℚ) := by rw [Nat.cast_natAbs, Int.cast_abs]
      rw [e] at this
      exact_mod_cast this.symm
    rw [if_pos ⟨h4, h3, by rw [hm]; exact Nat.mul_mod_left _ _⟩, hm, Nat.mul_div_cancel _ hp, Option.some.injEq]
    rw [hm] at hv
    push_cast at hv
    rw [mul_div_cancel_right₀ _ (by positivity)] at hv
    have e : ((sg u : ℤ) * ((i.natAbs : Nat) : ℤ) : ℤ) = i := by
      have : (((sg u : ℤ) * ((i.natAbs : Nat) : ℤ) : ℤ) : ℚ) = (i : ℚ) := by
        rw [Int.cast_mul, Int.cast_natCast]
        exact hv
      exact_mod_cast this
    exact e

/-! ## Angles -/

theorem norm_mod (i : Int) : (if i.tmod 360 < 0 then i.tmod 360 + 360 else i.tmod 360) = i % 360 := by
  rw [Int.tmod_eq_emod]
  split_ifs <;> omega

theorem exactSin_eq (i : Int) : exactSin i =
    if i % 360 = 0 ∨ i % 360 = 180 then some 0
    else if i % 360 = 90 then some 1
    else if i % 360 = 270 then some (-1)
    else if i % 360 = 30 ∨ i % 360 = 150 then some (1 / 2)
    else if i % 360 = 210 ∨ i % 360 = 330 then some (-1 / 2)
    else none := by
  unfold exactSin
  simp only [norm_mod]

theorem sin_mod (i r : Int) (h : i % 360 = r) : Real.sin (angle i) = Real.sin (r / 180 * Real.pi) := by
  have e : (i : ℝ) = r + 360 * ((i / 360 : Int) : ℝ) := by
    have : i = r + 360 * (i / 360) := by omega
    exact_mod_cast this
  unfold angle
  rw [show (((i : ℚ) : ℝ)) = (i : ℝ) by norm_cast, e,
    show ((r : ℝ) + 360 * ((i / 360 : Int) : ℝ)) / 180 * Real.pi = r / 180 * Real.pi + (i / 360 : Int) * (2 * Real.pi) by ring,
    Real.sin_add_int_mul_two_pi]

theorem exactSin_sound (i : Int) (q : ℚ) (h : exactSin i = some q) : Real.sin (angle i) = q := by
  rw [exactSin_eq] at h
  have p6 := Real.sin_pi_div_six
  split_ifs at h with h1 h2 h3 h4 h5 <;> simp only [Option.some.injEq] at h <;> subst h
  · rcases h1 with h1 | h1 <;> rw [sin_mod _ _ h1]
    · simp
    · rw [show ((180 : Int) : ℝ) / 180 * Real.pi = Real.pi by norm_num, Real.sin_pi]; simp
  · rw [sin_mod _ _ h2, show ((90 : Int) : ℝ) / 180 * Real.pi = Real.pi / 2 by push_cast; ring, Real.sin_pi_div_two]; simp
  · rw [sin_mod _ _ h3, show ((270 : Int) : ℝ) / 180 * Real.pi = Real.pi / 2 + Real.pi by push_cast; ring, Real.sin_add_pi,
      Real.sin_pi_div_two]; simp
  · rcases h4 with h4 | h4 <;> rw [sin_mod _ _ h4]
    · rw [show ((30 : Int) : ℝ) / 180 * Real.pi = Real.pi / 6 by push_cast; ring, p6]; push_cast; ring
    · rw [show ((150 : Int) : ℝ) / 180 * Real.pi = Real.pi - Real.pi / 6 by push_cast; ring, Real.sin_pi_sub, p6]; push_cast; ring
  · rcases h5 with h5 | h5 <;> rw [sin_mod _ _ h5]
    · rw [show ((210 : Int) : ℝ) / 180 * Real.pi = Real.pi / 6 + Real.pi by push_cast; ring, Real.sin_add_pi, p6]; push_cast; ring
    · rw [show ((330 : Int) : ℝ) / 180 * Real.pi = Real.pi - Real.pi / 6 + Real.pi by push_cast; ring, Real.sin_add_pi,
        Real.sin_pi_sub, p6]; push_cast; ring

/-- by Niven's theorem, the sine is rational only for multiples of 30 degrees -/
theorem sin_rat (x q : ℚ) (h : Real.sin (angle x) = q) : ∃ i : Int, x = i ∧ ∃ q', exactSin i = some q' := by
  have hc : ∃ q : ℚ, Real.cos (((x / 180 - 1 / 2 : ℚ) : ℝ) * Real.pi) = q := by
    refine ⟨q, ?_⟩
    rw [← h, ← Real.cos_sub_pi_div_two]
    unfold angle
    push_cast
    congr 1
    ring
  have hn := niven_fract_angle_div_pi_eq hc
  have hx : x = 180 * (⌊x / 180 - 1 / 2⌋ + Int.fract (x / 180 - 1 / 2)) + 90 := by
    rw [Int.floor_add_fract]
    ring
  generalize ⌊x / 180 - 1 / 2⌋ = n at hx
  simp only [Set.mem_insert_iff, Set.mem_singleton_iff] at hn
  have key : ∀ i : Int, (i % 360 = 0 ∨ i % 360 = 180) ∨ i % 360 = 90 ∨ i % 360 = 270 ∨ (i % 360 = 30 ∨ i % 360 = 150) ∨
      (i % 360 = 210 ∨ i % 360 = 330) → ∃ q', exactSin i = some q' := by
    intro i hi
    rw [exactSin_eq]
    split_ifs <;> first | exact ⟨_, rfl⟩ | (exfalso; tauto)
  rcases hn with hn | hn | hn | hn <;> rw [hn] at hx
  · exact ⟨180 * n + 90, by push_cast; linarith, key _ (by omega)⟩
  · exact ⟨180 * n + 150, by push_cast; linarith, key _ (by omega)⟩
  · exact ⟨180 * n + 180, by push_cast; linarith, key _ (by omega)⟩
  · exact ⟨180 * n + 210, by push_cast; linarith, key _ (by omega)⟩

theorem cos_eq (x : ℚ) : Real.cos (angle x) = Real.sin (angle (x + 90)) := by
  rw [← Real.sin_add_pi_div_two]
  unfold angle
  push_cast
  congr 1
  ring

theorem int_range {x : ℚ} {i : Int} (hi : x = i) (h0 : x ≠ 0) (h1 : |x| < 2 ^ 53) : 1 ≤ |i| ∧ |i| < 2 ^ 53 := by
  subst hi
  constructor
  · exact Int.one_le_abs (by exact_mod_cast h0)
  · rw [← Int.cast_abs] at h1
    exact_mod_cast h1

end Hob3l.Deg
