/- Helper lemmas: the 96:64 bit division of matq.c (Knuth's algorithm D, one digit). -/
import Verif.Matq.LemmasWide

namespace Hob3l.Matq

/-- Loop invariant of the trial-digit correction. -/
theorem divLoop_spec (v1 v0 u0 : Nat) (hv1 : W ≤ 2 * v1) (hv1W : v1 < W) (hv0 : v0 < W) (hu0 : u0 < W)
    (u1 : Nat) (hu1 : u1 < v1 * W + v0) :
    ∀ (fuel q r : Nat), q * v1 + r = u1 → (u1 * W + u0) / (v1 * W + v0) ≤ q → r < W →
      q < W2 → W ≤ r + (fuel) * v1 →
      divLoop v1 v0 u0 (fuel + 1) q r = some ((u1 * W + u0) / (v1 * W + v0)) := by
  have hv : 0 < v1 * W + v0 := by
    have : 0 < v1 := by simp only [W] at *; omega
    have := Nat.mul_pos this W_pos
    omega
  have hQW : (u1 * W + u0) / (v1 * W + v0) < W := by
    rw [Nat.div_lt_iff_lt_mul hv]
    have : (u1 + 1) * W ≤ (v1 * W + v0) * W := Nat.mul_le_mul_right W hu1
    rw [Nat.mul_comm W]
    rw [Nat.add_mul] at this; omega
  generalize hQ : (u1 * W + u0) / (v1 * W + v0) = Q at *
  -- q*v <= u implies q <= Q, q*v > u implies Q < q
  have hle : ∀ q r, q * v1 + r = u1 → q * v0 ≤ r * W + u0 → q ≤ Q := by
    intro q r h1 h2
    rw [← hQ, Nat.le_div_iff_mul_le hv]
    have : u1 * W = (q * v1 + r) * W := by rw [h1]
    calc q * (v1 * W + v0) = q * v1 * W + q * v0 := by ring
      _ ≤ q * v1 * W + (r * W + u0) := by omega
      _ = (q * v1 + r) * W + u0 := by ring
      _ = u1 * W + u0 := by rw [h1]
  have hgt : ∀ q r, q * v1 + r = u1 → q * v0 > r * W + u0 → Q < q := by
    intro q r h1 h2
    rw [← hQ, Nat.div_lt_iff_lt_mul hv]
    calc u1 * W + u0 = q * v1 * W + (r * W + u0) := by rw [← h1]; ring
      _ < q * v1 * W + q * v0 := by omega
      _ = q * (v1 * W + v0) := by ring
  have step : ∀ (fuel q r : Nat), q * v1 + r = u1 → Q ≤ q → r < W → q < W2 →
      (divLoop v1 v0 u0 (fuel + 1) q r = some Q) ∨
      (r + v1 < W ∧ 0 < q ∧ (q - 1) * v1 + (r + v1) = u1 ∧ Q ≤ q - 1 ∧
        divLoop v1 v0 u0 (fuel + 1) q r = divLoop v1 v0 u0 fuel (q - 1) (r + v1)) := by
    intro fuel q r h1 h2 h3 h4
    have hrW : r * W + u0 < W2 := by simp only [W, W2] at *; omega
    have hrW' : r * W < W2 := by omega
    have erhs : ((r * W) % W2 + u0) % W2 = r * W + u0 := by
      rw [Nat.mod_eq_of_lt hrW', Nat.mod_eq_of_lt hrW]
    by_cases hc : q ≥ W ∨ (q * v0) % W2 > ((r * W) % W2 + u0) % W2
    · have hqQ : Q < q := by
        by_cases hqW : q ≥ W
        · omega
        · have h5 : (q * v0) % W2 > ((r * W) % W2 + u0) % W2 := by
            rcases hc with h | h
            · exact absurd h hqW
            · exact h
          have hm : q * v0 < W2 := by rw [W2_eq]; exact Nat.mul_lt_mul'' (by omega) hv0
          rw [erhs, Nat.mod_eq_of_lt hm] at h5
          exact hgt q r h1 h5
      have eq1 : (q + W2 - 1) % W2 = q - 1 := by
        have : q + W2 - 1 = (q - 1) + W2 := by omega
        rw [this, Nat.add_mod_right, Nat.mod_eq_of_lt (by omega)]
      have er : (r + v1) % W2 = r + v1 := Nat.mod_eq_of_lt (by simp only [W, W2] at *; omega)
      have hnew : (q - 1) * v1 + (r + v1) = u1 := by
        obtain ⟨q', rfl⟩ : ∃ q', q = q' + 1 := ⟨q - 1, by omega⟩
        rw [← h1, Nat.add_sub_cancel]; ring
      by_cases hr : r + v1 < W
      · right
        refine ⟨hr, by omega, hnew, by omega, ?_⟩
        rw [divLoop, if_pos hc]
        simp only [eq1, er, if_pos hr]
      · left
        rw [divLoop, if_pos hc]
        simp only [eq1, er, if_neg hr]
        suffices hsuf : q - 1 = Q by rw [hsuf]
        have hq1W : q - 1 < W := by
          by_contra hcc
          have : W * v1 ≤ (q - 1) * v1 := Nat.mul_le_mul_right _ (by omega)
          rw [Nat.mul_comm] at this
          omega
        have : q - 1 ≤ Q := by
          apply hle _ _ hnew
          have a1 : (q - 1) * v0 ≤ W * W := Nat.mul_le_mul (by omega) (by omega)
          have a2 : W * W ≤ (r + v1) * W := Nat.mul_le_mul_right _ (by omega)
          omega
        omega
    · left
      rw [divLoop, if_neg hc]
      push Not at hc
      obtain ⟨hqW, h5⟩ := hc
      have hm : q * v0 < W2 := by rw [W2_eq]; exact Nat.mul_lt_mul'' hqW hv0
      rw [erhs, Nat.mod_eq_of_lt hm] at h5
      have := hle q r h1 h5
      rw [show q = Q by omega]
  intro fuel
  induction fuel with
  | zero =>
    intro q r h1 h2 h3 h4 h5
    omega
  | succ n ih =>
    intro q r h1 h2 h3 h4 h5
    rcases step (n + 1) q r h1 h2 h3 h4 with h | ⟨a, b, c, d, e⟩
    · exact h
    · rw [e]
      refine ih (q - 1) (r + v1) c d a (by omega) ?_
      have : (n + 1) * v1 = n * v1 + v1 := by ring
      omega

/-- the digit computation on normalised operands -/
theorem divDigit_spec (v u1 u0 : Nat) (hv : W2 ≤ 2 * v) (hvW : v < W2) (hu0 : u0 < W) (hu1 : u1 < v) :
    (divLoop ((v >>> 32) % W) (v % W) u0 4 (u1 / ((v >>> 32) % W))
      ((u1 + W2 - (u1 / ((v >>> 32) % W) * ((v >>> 32) % W)) % W2) % W2))
      = some ((u1 * W + u0) / v) := by
  have e1 : (v >>> 32) % W = v / W := hi_eq hvW
  rw [e1]
  have sv := split_W v
  have l0 : v % W < W := Nat.mod_lt _ W_pos
  generalize hv1 : v / W = v1 at *
  generalize hv0 : v % W = v0 at *
  have hv1p : W ≤ 2 * v1 := by simp only [W, W2] at *; omega
  have hv1W : v1 < W := by simp only [W, W2] at *; omega
  have hp : 0 < v1 := by simp only [W] at *; omega
  have hdm := Nat.div_add_mod u1 v1
  have hml := Nat.mod_lt u1 hp
  have hqle : u1 / v1 * v1 ≤ u1 := Nat.div_mul_le_self _ _
  have e2 : (u1 / v1 * v1) % W2 = u1 / v1 * v1 := Nat.mod_eq_of_lt (by omega)
  have e3 : (u1 + W2 - (u1 / v1 * v1) % W2) % W2 = u1 % v1 := by
    rw [e2]
    have : u1 + W2 - u1 / v1 * v1 = u1 % v1 + W2 := by
      rw [Nat.mul_comm] at hdm; omega
    rw [this, Nat.add_mod_right, Nat.mod_eq_of_lt (by omega)]
  rw [e3]
  have := divLoop_spec v1 v0 u0 hv1p hv1W l0 hu0 u1 (by omega) 3 (u1 / v1) (u1 % v1)
    (by rw [Nat.mul_comm]; exact hdm) ?_ (by omega) (lt_of_le_of_lt (Nat.div_le_self _ _) (by omega)) (by omega)
  · rw [this, sv]
  · -- trial digit is never too small
    have hvp : 0 < v1 * W + v0 := by have := Nat.mul_pos hp W_pos; omega
    rw [← Nat.lt_add_one_iff, Nat.div_lt_iff_lt_mul hvp]
    have h1 : u1 + 1 ≤ (u1 / v1 + 1) * v1 := by
      rw [Nat.add_mul, Nat.mul_comm]; omega
    have h2 : (u1 + 1) * W ≤ (u1 / v1 + 1) * v1 * W := Nat.mul_le_mul_right _ h1
    calc u1 * W + u0 < (u1 + 1) * W := by rw [Nat.add_mul]; omega
      _ ≤ (u1 / v1 + 1) * v1 * W := h2
      _ ≤ (u1 / v1 + 1) * (v1 * W + v0) := by
        rw [Nat.mul_assoc]; exact Nat.mul_le_mul_left _ (by omega)

theorem shl_mod_W2 {a k : Nat} (h : a * 2 ^ k < W2) : (a <<< k) % W2 = a * 2 ^ k := by
  rw [Nat.shiftLeft_eq, Nat.mod_eq_of_lt h]

/-- `cq_dim_div_ew` computes the floor of the quotient. -/
theorem divEw_spec (u : Udime) (v : Nat) (hlo : u.lo < W) (hv : v < W2) (hu : u.hi < v) :
    divEw u v = some ((u.hi * W + u.lo) / v) := by
  obtain ⟨uh, ul⟩ := u
  simp only at *
  have hvp : 0 < v := by omega
  have hQW : (uh * W + ul) / v < W := by
    rw [Nat.div_lt_iff_lt_mul hvp]
    have : (uh + 1) * W ≤ v * W := Nat.mul_le_mul_right W hu
    rw [Nat.mul_comm W]; rw [Nat.add_mul] at this; omega
  -- first normalisation step
  obtain ⟨v', u1', u0', e1, hv'lo, hv'hi, hu0', hu1', hq'⟩ : ∃ v' u1' u0',
      (if v ≤ 4294967295 then ((v <<< 32) % W2, (uh <<< 32) % W2 ||| ul, 0) else (v, uh, ul))
        = (v', u1', u0') ∧ W ≤ v' ∧ v' < W2 ∧ u0' < W ∧ u1' < v' ∧
        (u1' * W + u0') / v' = (uh * W + ul) / v := by
    by_cases h : v ≤ 4294967295
    · refine ⟨v * W, uh * W + ul, 0, ?_, ?_, ?_, W_pos, ?_, ?_⟩
      · rw [if_pos h, shl_mod_W2 (by simp only [W2]; omega)]
        have : (uh <<< 32) % W2 ||| ul = uh * W + ul := udimw_eq (by simp only [W]; omega) hlo
        rw [this]; rfl
      · exact Nat.le_mul_of_pos_left _ hvp
      · simp only [W, W2] at *; omega
      · have : (uh + 1) * W ≤ v * W := Nat.mul_le_mul_right W hu
        rw [Nat.add_mul] at this; omega
      · rw [Nat.add_zero, Nat.mul_div_mul_right _ _ W_pos]
    · exact ⟨v, uh, ul, by rw [if_neg h], by simp only [W]; omega, hv, hlo, hu, rfl⟩
  -- second normalisation step
  have hlog : 32 ≤ Nat.log 2 v' ∧ Nat.log 2 v' ≤ 63 := by
    constructor
    · exact Nat.le_log_of_pow_le (by decide) hv'lo
    · have : Nat.log 2 v' < 64 := Nat.log_lt_of_lt_pow (by simp only [W] at *; omega) hv'hi
      omega
  have hplo : 2 ^ Nat.log 2 v' ≤ v' := Nat.pow_log_le_self 2 (by simp only [W] at *; omega)
  have hphi : v' < 2 ^ (Nat.log 2 v' + 1) := Nat.lt_pow_succ_log_self (by decide) v'
  generalize hL : Nat.log 2 v' = L at *
  obtain ⟨s, hs⟩ : ∃ s, s = 63 - L := ⟨_, rfl⟩
  have hs31 : s ≤ 31 := by omega
  have hpow : 2 ^ L * 2 ^ s = 2 ^ 63 := by rw [← pow_add]; congr 1; omega
  have hpow' : 2 ^ (L + 1) * 2 ^ s = 2 ^ 64 := by rw [← pow_add]; congr 1; omega
  have hsp : 0 < 2 ^ s := by positivity
  have hv2lo : W2 ≤ 2 * (v' * 2 ^ s) := by
    have := Nat.mul_le_mul_right (2 ^ s) hplo
    rw [hpow] at this; simp only [W2]; omega
  have hv2hi : v' * 2 ^ s < W2 := by
    have := (Nat.mul_lt_mul_right hsp).mpr hphi
    rw [hpow'] at this; simp only [W2]; omega
  have hw32 : 2 ^ (32 - s) * 2 ^ s = W := by rw [← pow_add, W_eq]; congr 1; omega
  -- the shifted numerator
  have hu0s : u0' / 2 ^ (32 - s) < 2 ^ s := by
    rw [Nat.div_lt_iff_lt_mul (by positivity), Nat.mul_comm, hw32]; exact hu0'
  have hu0split : u0' * 2 ^ s = u0' / 2 ^ (32 - s) * W + u0' * 2 ^ s % W := by
    have h1 : u0' * 2 ^ s / W = u0' / 2 ^ (32 - s) := by
      rw [← hw32, Nat.mul_div_mul_right _ _ hsp]
    rw [← h1]; exact split_W _
  have hu1s : u1' * 2 ^ s + u0' / 2 ^ (32 - s) < v' * 2 ^ s := by
    have : (u1' + 1) * 2 ^ s ≤ v' * 2 ^ s := Nat.mul_le_mul_right _ hu1'
    rw [Nat.add_mul] at this; omega
  have hu1sl : (u1' <<< s) % W2 ||| (u0' >>> (32 - s)) = u1' * 2 ^ s + u0' / 2 ^ (32 - s) := by
    have hlt : u1' * 2 ^ s < W2 := lt_of_le_of_lt (Nat.le_add_right _ _) (hu1s.trans hv2hi)
    rw [Nat.shiftLeft_eq, Nat.mod_eq_of_lt hlt, Nat.shiftRight_eq_div_pow, ← Nat.shiftLeft_eq,
      ← Nat.shiftLeft_add_eq_or_of_lt hu0s]
  have hfin : ((u1' * 2 ^ s + u0' / 2 ^ (32 - s)) * W + u0' * 2 ^ s % W) / (v' * 2 ^ s) =
      (uh * W + ul) / v := by
    have : (u1' * 2 ^ s + u0' / 2 ^ (32 - s)) * W + u0' * 2 ^ s % W = (u1' * W + u0') * 2 ^ s := by
      rw [Nat.add_mul, Nat.add_assoc, ← hu0split]; ring
    rw [this, Nat.mul_div_mul_right _ _ hsp, hq']
  have e2 : (if s ≠ 0 then ((v' <<< s) % W2, (u1' <<< s) % W2 ||| (u0' >>> (32 - s)), (u0' <<< s) % W)
    else (v', u1', u0')) =
      (v' * 2 ^ s, u1' * 2 ^ s + u0' / 2 ^ (32 - s), u0' * 2 ^ s % W) := by
    by_cases h0 : s = 0
    · subst s
      simp only [h0, ne_eq, not_true_eq_false, if_false, pow_zero, Nat.mul_one, Nat.sub_zero]
      rw [Nat.div_eq_of_lt (by exact hu0'), Nat.mod_eq_of_lt hu0', Nat.add_zero]
    · rw [if_pos h0, hu1sl, shl_mod_W2 hv2hi, Nat.shiftLeft_eq]
  unfold divEw
  simp only [Nat.not_le.mpr hu, ge_iff_le, if_false, Nat.pos_iff_ne_zero.mp hvp,
    e1, hL, ← hs, e2]
  have hd := divDigit_spec (v' * 2 ^ s) (u1' * 2 ^ s + u0' / 2 ^ (32 - s)) (u0' * 2 ^ s % W)
    hv2lo hv2hi (Nat.mod_lt _ W_pos) hu1s
  simp only [Option.pure_def, Option.bind_eq_bind, Option.bind_some]
  rw [hd, hfin, Option.bind_some, Nat.mod_eq_of_lt hQW]

theorem udimeMulWn_spec (a b : Nat) (ha : a < W2) (hb : b < W) :
    (udimeMulWn a b).hi = a * b / W ∧ (udimeMulWn a b).lo = a * b % W ∧ (udimeMulWn a b).hi < W2 := by
  have e1 : (a >>> 32) % W = a / W := hi_eq ha
  have sa := split_W a
  have l0 : a % W < W := Nat.mod_lt _ W_pos
  have l1 : a / W < W := by rw [Nat.div_lt_iff_lt_mul W_pos]; exact ha
  have p0 : a % W * b < W2 := by rw [W2_eq]; exact Nat.mul_lt_mul'' l0 hb
  have p1 : a / W * b < W2 := by rw [W2_eq]; exact Nat.mul_lt_mul'' l1 hb
  have e2 : ((a % W * b) >>> 32) % W = a % W * b / W := hi_eq p0
  have hab : a * b = a / W * b * W + a % W * b := by
    conv_lhs => rw [sa]
    ring
  have hdiv : a * b / W = a / W * b + a % W * b / W := by
    rw [hab, Nat.mul_comm _ W, Nat.mul_add_div W_pos]
  have hmod : a * b % W = a % W * b % W := by
    rw [hab, Nat.mul_comm _ W, Nat.mul_add_mod]
  have hlt : a * b / W < W2 := by
    rw [Nat.div_lt_iff_lt_mul W_pos]; exact Nat.mul_lt_mul'' ha hb
  have hhi : (udimeMulWn a b).hi = a * b / W := by
    simp only [udimeMulWn, e1, Nat.mod_eq_of_lt p0, Nat.mod_eq_of_lt p1, e2]
    rw [← hdiv, Nat.mod_eq_of_lt hlt]
  refine ⟨hhi, ?_, by rw [hhi]; exact hlt⟩
  simp only [udimeMulWn, Nat.mod_eq_of_lt p0]
  exact hmod.symm

/-- 96-bit value -/
def Udime.val (u : Udime) : Nat := u.hi * W + u.lo

theorem udimeSub_spec (a b : Udime) (ha : a.lo < W) (hb : b.lo < W) (h : b.val ≤ a.val) :
    ∃ c, udimeSub a b = some c ∧ c.val = a.val - b.val ∧ c.lo < W := by
  obtain ⟨ah, al⟩ := a
  obtain ⟨bh, bl⟩ := b
  simp only [Udime.val] at *
  have hle : bh ≤ ah := by
    by_contra hc
    have : (ah + 1) * W ≤ bh * W := Nat.mul_le_mul_right _ (by omega)
    rw [Nat.add_mul] at this; omega
  by_cases hl : al < bl
  · have hlt : bh + 1 ≤ ah := by
      by_contra hc
      have : ah = bh := by omega
      subst this; omega
    refine ⟨⟨ah - bh - 1, (al + W - bl) % W⟩, ?_, ?_, Nat.mod_lt _ W_pos⟩
    · have h1 : 1 ≤ ah - bh := by omega
      simp [udimeSub, udimwSub, hle, hl, h1]
    · simp only
      rw [Nat.mod_eq_of_lt (by omega)]
      obtain ⟨k, rfl⟩ : ∃ k, ah = bh + 1 + k := ⟨ah - bh - 1, by omega⟩
      have : bh + 1 + k - bh - 1 = k := by omega
      rw [this]
      have : (bh + 1 + k) * W = bh * W + W + k * W := by ring
      omega
  · refine ⟨⟨ah - bh, (al + W - bl) % W⟩, ?_, ?_, Nat.mod_lt _ W_pos⟩
    · simp [udimeSub, udimwSub, hle, hl]
    · simp only
      have : al + W - bl = al - bl + W := by omega
      rw [this, Nat.add_mod_right, Nat.mod_eq_of_lt (by omega)]
      obtain ⟨k, rfl⟩ : ∃ k, ah = bh + k := ⟨ah - bh, by omega⟩
      have : bh + k - bh = k := by omega
      rw [this]
      have : (bh + k) * W = bh * W + k * W := by ring
      omega

end Hob3l.Matq
