/- Helper lemmas: wide unsigned arithmetic of matq.c. -/
import Verif.Matq.LemmasDiv

namespace Hob3l.Matq

theorem W_eq : W = 2 ^ 32 := rfl
theorem W2_eq : W2 = W * W := rfl
theorem W_pos : 0 < W := by decide

theorem hi_eq {x : Nat} (h : x < W2) : hi x = x / W := by
  unfold hi
  rw [Nat.shiftRight_eq_div_pow]
  have : x / 2 ^ 32 < W := by
    rw [Nat.div_lt_iff_lt_mul (by decide)]; exact h
  rw [Nat.mod_eq_of_lt this]; rfl

theorem lo_eq (x : Nat) : lo x = x % W := rfl

theorem udimw_eq {a b : Nat} (ha : a < W) (hb : b < W) : udimw a b = a * W + b := by
  unfold udimw
  have h1 : a <<< 32 < W2 := by
    rw [Nat.shiftLeft_eq]; have : a * 2^32 < W * W := by
      rw [W_eq] at *; exact (Nat.mul_lt_mul_right (by decide)).mpr ha
    exact this
  rw [Nat.mod_eq_of_lt h1, ← Nat.shiftLeft_add_eq_or_of_lt (by exact hb), Nat.shiftLeft_eq]; rfl

theorem split_W (x : Nat) : x = x / W * W + x % W := by
  have := Nat.div_add_mod x W; rw [Nat.mul_comm] at this; omega

theorem udimwAdd_some {a b : Nat} (h : a + b < W2) : udimwAdd a b = some (a + b) := by
  simp [udimwAdd, h]
theorem udimMul_some {a b : Nat} (ha : a < W) (hb : b < W) : udimMul a b = some (a * b) := by
  have : a * b < W2 := by rw [W2_eq]; exact Nat.mul_lt_mul'' ha hb
  simp [udimMul, this]

theorem udimwMulAux_eq {a b : Nat} (ha : a < W2) (hb : b < W2) :
    udimwMulAux a b = some (a * b / W2, a * b % W2) := by
  have hsa := split_W a
  have hsb := split_W b
  have h1 : a / W < W := by rw [Nat.div_lt_iff_lt_mul W_pos]; exact ha
  have h2 : b / W < W := by rw [Nat.div_lt_iff_lt_mul W_pos]; exact hb
  have h3 : a % W < W := Nat.mod_lt _ W_pos
  have h4 : b % W < W := Nat.mod_lt _ W_pos
  generalize hA : a / W = ah at *
  generalize hB : a % W = al at *
  generalize hC : b / W = bh at *
  generalize hD : b % W = bl at *
  have m1 : al * bh < W2 := by rw [W2_eq]; exact Nat.mul_lt_mul'' h3 h2
  have m2 : ah * bl < W2 := by rw [W2_eq]; exact Nat.mul_lt_mul'' h1 h4
  have m3 : al * bl < W2 := by rw [W2_eq]; exact Nat.mul_lt_mul'' h3 h4
  have m4 : ah * bh < W2 := by rw [W2_eq]; exact Nat.mul_lt_mul'' h1 h2
  have hab : a * b = ah * bh * W2 + (al * bh + ah * bl) * W + al * bl := by
    rw [hsa, hsb, W2_eq]; ring
  have habL : a * b < W2 * W2 := Nat.mul_lt_mul'' ha hb
  have s1 := split_W (al * bh)
  have s2 := split_W (ah * bl)
  have s3 := split_W (al * bl)
  have l1 : al * bh % W < W := Nat.mod_lt _ W_pos
  have l2 : ah * bl % W < W := Nat.mod_lt _ W_pos
  have l3 : al * bl % W < W := Nat.mod_lt _ W_pos
  have k3 : al * bl / W < W := by rw [Nat.div_lt_iff_lt_mul W_pos]; exact m3
  simp only [udimwMulAux, hi_eq ha, hi_eq hb, lo_eq, hA, hB, hC, hD, udimMul_some h3 h2,
    udimMul_some h1 h4, udimMul_some h3 h4, udimMul_some h1 h2, Option.bind_eq_bind,
    Option.bind_some, hi_eq m1, hi_eq m2, hi_eq m3]
  generalize al * bh = P1 at *
  generalize ah * bl = P2 at *
  generalize al * bl = P3 at *
  generalize ah * bh = P4 at *
  generalize P1 / W = a1 at *
  generalize P1 % W = b1 at *
  generalize P2 / W = a2 at *
  generalize P2 % W = b2 at *
  generalize P3 / W = a3 at *
  generalize P3 % W = b3 at *
  have hrm : reduceAdd 0 [a3, b2, b1] = some (a3 + b2 + b1) := by
    have e1 : 0 + a3 < W2 := by simp only [W, W2] at *; omega
    have e2 : 0 + a3 + b2 < W2 := by simp only [W, W2] at *; omega
    have e3 : 0 + a3 + b2 + b1 < W2 := by simp only [W, W2] at *; omega
    simp [reduceAdd, udimwAdd, List.foldlM_cons, List.foldlM_nil] at *
    simp [e1, e2, e3]
  have hrmlt : a3 + b2 + b1 < W2 := by simp only [W, W2] at *; omega
  simp only [hrm, Option.bind_some, hi_eq hrmlt]
  have srm := split_W (a3 + b2 + b1)
  have lrm : (a3 + b2 + b1) % W < W := Nat.mod_lt _ W_pos
  generalize (a3 + b2 + b1) / W = c at *
  generalize (a3 + b2 + b1) % W = e at *
  have key : a * b = (P4 + a2 + a1 + c) * W2 + (e * W + b3) := by
    rw [hab]
    clear hab habL hrm hsa hsb
    simp only [W, W2] at *
    omega
  have hlow : e * W + b3 < W2 := by simp only [W, W2] at *; omega
  have hrhlt : P4 + a2 + a1 + c < W2 := by
    by_contra hc
    have := Nat.mul_le_mul_right W2 (Nat.le_of_not_lt hc)
    omega
  have hrh : reduceAdd P4 [a2, a1, c] = some (P4 + a2 + a1 + c) := by
    have e1 : P4 + a2 < W2 := by omega
    have e2 : P4 + a2 + a1 < W2 := by omega
    simp [reduceAdd, udimwAdd, List.foldlM_cons, List.foldlM_nil, e1, e2, hrhlt]
  rw [hrh, Option.bind_some, udimw_eq lrm l3, key]
  have W2p : 0 < W2 := by decide
  rw [Nat.mul_comm _ W2, Nat.mul_add_div W2p, Nat.mul_add_mod, Nat.div_eq_of_lt hlow,
    Nat.mod_eq_of_lt hlow]
  rfl

theorem cpCmp_nat {a b : Nat} : cpCmp a b = cpCmp (a : Int) (b : Int) := by
  unfold cpCmp; simp

/-- high word first comparison is comparison of the 128-bit value -/
theorem udimqCmp_eq (x y : Nat) :
    udimqCmp (x / W2, x % W2) (y / W2, y % W2) = cpCmp x y := by
  have hx := Nat.div_add_mod x W2
  have hy := Nat.div_add_mod y W2
  have lx := Nat.mod_lt x (show 0 < W2 by decide)
  have ly := Nat.mod_lt y (show 0 < W2 by decide)
  have hlt : ∀ {u v : Nat}, u < v → cpCmp u v = -1 := by intro u v h; simp [cpCmp, h]
  have hgt : ∀ {u v : Nat}, v < u → cpCmp u v = 1 := by
    intro u v h; simp [cpCmp, h, Nat.lt_asymm h]
  simp only [W2] at *
  unfold udimqCmp
  rcases Nat.lt_trichotomy (x / 18446744073709551616) (y / 18446744073709551616) with h | h | h
  · rw [hlt h, hlt (show x < y by omega)]; rfl
  · rw [h]
    have e : cpCmp (y / 18446744073709551616) (y / 18446744073709551616) = 0 := by simp [cpCmp]
    simp only [e]
    have : (x % 18446744073709551616 < y % 18446744073709551616 ↔ x < y) ∧
      (y % 18446744073709551616 < x % 18446744073709551616 ↔ y < x) := by omega
    simp [cpCmp, this.1, this.2]
  · rw [hgt h, hgt (show y < x by omega)]; rfl

theorem cmpFracAux_eq (a b : Dimif) (ha : a.n < W2) (ha' : a.d < W2) (hb : b.n < W2)
    (hb' : b.d < W2) (pa : 0 < a.d) (pb : 0 < b.d) :
    cmpFracAux a b = some (cpCmp (a.n * b.d) (a.d * b.n)) := by
  unfold cmpFracAux
  by_cases h0 : a.n ||| b.n = 0
  · have : a.n = 0 ∧ b.n = 0 := Nat.or_eq_zero_iff.mp h0
    simp [h0, this.1, this.2, cpCmp]
  simp only [h0, if_false]
  by_cases h1 : a.n = b.n ∧ a.d = b.d
  · simp [h1, h1.1, h1.2, cpCmp, Nat.mul_comm]
  simp only [h1, if_false]
  by_cases h2 : a.n ≥ b.n ∧ a.d ≤ b.d
  · have hlt : a.d * b.n < a.n * b.d := by
      obtain ⟨h2, h3⟩ := h2
      have : b.n ≠ 0 ∨ a.n ≠ 0 := by
        by_contra hc; push Not at hc; exact h0 (by simp [hc.1, hc.2])
      by_cases he : a.n = b.n
      · have : a.d < b.d := by omega
        rw [he, Nat.mul_comm a.d]
        exact Nat.mul_lt_mul_of_pos_left this (by omega)
      · calc a.d * b.n ≤ b.d * b.n := Nat.mul_le_mul_right _ h3
          _ < b.d * a.n := Nat.mul_lt_mul_of_pos_left (by omega) pb
          _ = a.n * b.d := Nat.mul_comm _ _
    simp [h2, cpCmp, hlt, Nat.lt_asymm hlt]
  simp only [h2, if_false]
  by_cases h3 : a.n ≤ b.n ∧ a.d ≥ b.d
  · have hlt : a.n * b.d < a.d * b.n := by
      obtain ⟨h4, h3⟩ := h3
      by_cases he : a.n = b.n
      · have : b.d < a.d := by omega
        rw [he, Nat.mul_comm a.d]
        refine Nat.mul_lt_mul_of_pos_left this ?_
        by_contra hc; exact h0 (by simp [he, Nat.eq_zero_of_not_pos hc])
      · calc a.n * b.d ≤ a.n * a.d := Nat.mul_le_mul_left _ h3
          _ < b.n * a.d := Nat.mul_lt_mul_of_pos_right (by omega) pa
          _ = a.d * b.n := Nat.mul_comm _ _
    simp [h3, cpCmp, hlt]
  simp only [h3, if_false]
  simp [udimwMulAux_eq ha hb', udimwMulAux_eq ha' hb, udimqCmp_eq]

theorem cmpFracQ_eq (a b : Dimif) (ha : a.n < W2) (ha' : a.d < W2) (hb : b.n < W2)
    (hb' : b.d < W2) : cmpFracQ a b = cpCmp (a.n * b.d) (a.d * b.n) := by
  unfold cmpFracQ
  rw [Nat.mod_eq_of_lt (Nat.mul_lt_mul'' ha hb'), Nat.mod_eq_of_lt (Nat.mul_lt_mul'' ha' hb)]

end Hob3l.Matq
