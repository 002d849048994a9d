import Verif.Utf8.Model
import Verif.Utf8.Spec

namespace Hob3l.Utf8

open Hob3l.Matq

theorem get_cons (c : Nat) (cs : List Nat) (n : Nat) (e : Option Msg) (h : 0 < n) :
    iterGet ⟨c :: cs, n, e⟩ = some c := by
  unfold iterGet; rw [if_neg (by simp; omega)]; rfl

theorem adv_cons (c : Nat) (cs : List Nat) (n : Nat) (e : Option Msg) (h : 0 < n) (hc : c ≠ 0) :
    iterAdvance ⟨c :: cs, n, e⟩ = some ⟨cs, n - 1, e⟩ := by
  simp only [iterAdvance]
  unfold ass
  rw [if_pos hc, if_pos h]
  rfl

theorem cont_cons (start : List Nat) (b : Nat) (cs : List Nat) (n : Nat) (e : Option Msg)
    (k : Nat → Iter → Option (Nat × Iter)) (h : 0 < n) (hb : b < 64) :
    withCont start ⟨(0x80 + b) :: cs, n, e⟩ k = k (0x80 + b) ⟨cs, n - 1, e⟩ := by
  unfold withCont getCont
  rw [get_cons _ _ _ _ h]
  simp only [Option.bind_eq_bind, Option.bind_some]
  rw [if_neg (by omega), adv_cons _ _ _ _ h (by omega)]
  rfl

theorem or_lo (b : Nat) (h : b < 64) : 0x80 + b = 0x80 ||| b := by
  have := Nat.shiftLeft_add_eq_or_of_lt (i := 7) (show b < 2 ^ 7 by omega) 1
  simpa using this

theorem join6 (a b : Nat) (h : b < 64) : a * 64 + b = (a <<< 6) ||| b := by
  have := Nat.shiftLeft_add_eq_or_of_lt (i := 6) (show b < 2 ^ 6 by omega) a
  rw [← this, Nat.shiftLeft_eq]

theorem and1f : ∀ a < 32, (0xc0 + a) &&& 0x1f = a := by decide
theorem and0f : ∀ a < 16, (0xe0 + a) &&& 0xf = a := by decide
theorem and07 : ∀ a < 8, (0xf0 + a) &&& 0x7 = a := by decide

theorem val2 (a b : Nat) (hb : b < 64) : ((0 : Nat) <<< 18) ||| ((0 : Nat) <<< 12) ||| (a <<< 6) ||| (0x80 + b)
    = (a * 64 + b) ||| 0x80 := by
  rw [or_lo b hb, join6 a b hb]
  simp only [Nat.zero_shiftLeft, Nat.zero_or]
  rw [Nat.or_comm 0x80 b, Nat.or_assoc]

theorem val3 (a b c : Nat) (hb : b < 64) (hc : c < 64) :
    ((0 : Nat) <<< 18) ||| (a <<< 12) ||| ((0x80 + b) <<< 6) ||| (0x80 + c) = (a * 4096 + b * 64 + c) ||| 0x2080 := by
  have e : a * 4096 + b * 64 + c = (a * 64 + b) * 64 + c := by omega
  rw [e, or_lo b hb, or_lo c hc, join6 _ c hc, join6 a b hb]
  simp only [Nat.zero_shiftLeft, Nat.zero_or, Nat.shiftLeft_or_distrib, ← Nat.shiftLeft_add]
  have e1 : (0x80 : Nat) <<< 6 = 0x2000 := by decide
  have e2 : (0x2080 : Nat) = 0x2000 ||| 0x80 := by decide
  rw [e1, e2]
  ac_rfl

theorem val4 (a b c d : Nat) (hb : b < 64) (hc : c < 64) (hd : d < 64) :
    (a <<< 18) ||| ((0x80 + b) <<< 12) ||| ((0x80 + c) <<< 6) ||| (0x80 + d)
      = (a * 262144 + b * 4096 + c * 64 + d) ||| 0x82080 := by
  have e : a * 262144 + b * 4096 + c * 64 + d = ((a * 64 + b) * 64 + c) * 64 + d := by omega
  rw [e, or_lo b hb, or_lo c hc, or_lo d hd, join6 _ d hd, join6 _ c hc, join6 a b hb]
  simp only [Nat.shiftLeft_or_distrib, ← Nat.shiftLeft_add]
  have e1 : (0x80 : Nat) <<< 6 = 0x2000 := by decide
  have e3 : (0x80 : Nat) <<< 12 = 0x80000 := by decide
  have e2 : (0x82080 : Nat) = 0x80000 ||| 0x2000 ||| 0x80 := by decide
  rw [e1, e2, e3]
  ac_rfl

/-- the decoder on a sequence of the right shape -/
theorem decode_shape (bs rest : List Nat) (v n : Nat) (e : Option Msg) (h : Shape bs v) (hn : bs.length ≤ n)
    (h2 : bs.length = 2 → 0x80 ≤ v) (h4 : bs.length = 4 → v < 0x140000) :
    decode ⟨bs ++ rest, n, e⟩
      = if v ||| tagBits bs.length > 0x10ffff then some (0, ⟨bs ++ rest, n - bs.length, some .range⟩)
        else some (v ||| tagBits bs.length, ⟨rest, n - bs.length, e⟩) := by
  cases h with
  | one a h0 h1 =>
    simp only [List.length_singleton] at hn ⊢
    unfold decode
    simp only [List.singleton_append]
    rw [get_cons _ _ _ _ hn]
    simp only [Option.bind_eq_bind, Option.bind_some]
    rw [if_neg (by omega), adv_cons _ _ _ _ hn (by omega)]
    simp only [Option.bind_some, tagBits, Nat.or_zero]
    rw [if_pos h1, if_neg (by omega)]
  | two a b ha hb =>
    have ha2 : 2 ≤ a := by have := h2 rfl; omega
    simp only [List.length_cons, List.length_nil] at hn
    unfold decode
    simp only [List.cons_append, List.nil_append]
    rw [get_cons _ _ _ _ (by omega)]
    simp only [Option.bind_eq_bind, Option.bind_some]
    rw [if_neg (by omega), adv_cons _ _ _ _ (by omega) (by omega)]
    simp only [Option.bind_some, tagBits, List.length_cons, List.length_nil]
    rw [if_neg (by omega), if_neg (by omega), cont_cons _ _ _ _ _ _ (by omega) hb, if_pos (by omega), and1f a ha]
    unfold checkValid
    simp only []
    rw [val2 a b hb]
    have hlt : (a * 64 + b) ||| 0x80 < 2 ^ 11 := Nat.or_lt_two_pow (by omega) (by omega)
    have hge : 0x80 ≤ (a * 64 + b) ||| 0x80 := Nat.right_le_or
    rw [if_neg (by simp; omega), if_neg (by omega), if_neg (by omega), if_neg (by omega)]
    rfl
  | three a b c ha hb hc =>
    simp only [List.length_cons, List.length_nil] at hn
    unfold decode
    simp only [List.cons_append, List.nil_append]
    rw [get_cons _ _ _ _ (by omega)]
    simp only [Option.bind_eq_bind, Option.bind_some]
    rw [if_neg (by omega), adv_cons _ _ _ _ (by omega) (by omega)]
    simp only [Option.bind_some, tagBits, List.length_cons, List.length_nil]
    rw [if_neg (by omega), if_neg (by omega), cont_cons _ _ _ _ _ _ (by omega) hb, if_neg (by omega),
      cont_cons _ _ _ _ _ _ (by omega) hc, if_pos (by omega), and0f a ha]
    unfold checkValid
    simp only []
    rw [val3 a b c hb hc]
    have hlt : (a * 4096 + b * 64 + c) ||| 0x2080 < 2 ^ 16 := Nat.or_lt_two_pow (by omega) (by omega)
    have hge : 0x2080 ≤ (a * 4096 + b * 64 + c) ||| 0x2080 := Nat.right_le_or
    have hb13 : ((a * 4096 + b * 64 + c) ||| 0x2080) / 2 ^ 13 % 2 = 1 := by
      have : Nat.testBit ((a * 4096 + b * 64 + c) ||| 0x2080) 13 = true := by
        rw [Nat.testBit_or]
        have : Nat.testBit 0x2080 13 = true := by decide
        rw [this, Bool.or_true]
      simpa [Nat.testBit_eq_decide_div_mod_eq] using this
    generalize hr : (a * 4096 + b * 64 + c) ||| 0x2080 = r at *
    rw [if_neg (by simp; omega), if_neg (by omega), if_neg (by omega), if_neg (by omega)]
    simp only [Option.some.injEq, Prod.mk.injEq, true_and, Iter.mk.injEq, and_true]
    omega
  | four a b c d ha hb hc hd =>
    have hv := h4 rfl
    simp only [List.length_cons, List.length_nil] at hn
    unfold decode
    simp only [List.cons_append, List.nil_append]
    rw [get_cons _ _ _ _ (by omega)]
    simp only [Option.bind_eq_bind, Option.bind_some]
    rw [if_neg (by omega), adv_cons _ _ _ _ (by omega) (by omega)]
    simp only [Option.bind_some, tagBits, List.length_cons, List.length_nil]
    rw [if_neg (by omega), if_neg (by omega), cont_cons _ _ _ _ _ _ (by omega) hb, if_neg (by omega),
      cont_cons _ _ _ _ _ _ (by omega) hc, if_neg (by omega), cont_cons _ _ _ _ _ _ (by omega) hd,
      if_pos (by omega), and07 a ha]
    unfold checkValid
    simp only []
    rw [val4 a b c d hb hc hd]
    have hge : 0x82080 ≤ (a * 262144 + b * 4096 + c * 64 + d) ||| 0x82080 := Nat.right_le_or
    generalize hr : (a * 262144 + b * 4096 + c * 64 + d) ||| 0x82080 = r at *
    rw [if_neg (by simp; omega)]
    have en : n - 1 - 1 - 1 - 1 = n - (0 + 1 + 1 + 1 + 1) := by omega
    rw [en]
    split
    · rfl
    · rw [if_neg (by omega)]

end Hob3l.Utf8
