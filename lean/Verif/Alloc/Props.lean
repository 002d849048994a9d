import Verif.Alloc.Model
import Mathlib.Algebra.Order.Group.Nat
import Mathlib.Tactic.NormNum

/-!
# C134: arrays get the memory they need
-/

namespace Hob3l.Alloc

/-- `Holds p n`: the block has `n` bytes; the null pointer is an empty array -/
def Holds (p : Option Block) (n : Nat) : Prop := (p.getD []).length = n

theorem fits {a b : Nat} (ha : a ≠ 0) (h : ¬ b > sizeMax / a) : a * b < 2 ^ 64 := by
  have h1 : b ≤ sizeMax / a := not_lt.1 h
  have h2 : b * a ≤ sizeMax := (Nat.le_div_iff_mul_le (Nat.pos_of_ne_zero ha)).1 h1
  rw [Nat.mul_comm] at h2
  unfold sizeMax at h2
  omega

theorem mul_fits {a b : Nat} (h : a * b < 2 ^ 64) : mul a b = a * b := Nat.mod_eq_of_lt h

/-- **C134** (partial: the number must not be 0, see `C134_zero_wrong`).  A new block has room for all elements, however large their number
and size are; otherwise the program stops. -/
theorem C134_new_partial (c : Lib) (a b : Nat) (ha : a ≠ 0) :
    (malloc c a b = .panic ∨ ∃ l, malloc c a b = .block l ∧ l.length = a * b) ∧
    (calloc c a b = .panic ∨ calloc c a b = .block (List.replicate (a * b) 0)) ∧
    (a * b < 2 ^ 64 → (∀ n, (c.mem n).isSome) → malloc c a b ≠ .panic ∧ calloc c a b ≠ .panic) := by
  refine ⟨?_, ?_, fun h hm => ⟨?_, ?_⟩⟩
  · unfold malloc
    rw [if_neg ha]
    by_cases h : b > sizeMax / a
    · rw [if_pos h]; exact Or.inl rfl
    · rw [if_neg h, mul_fits (fits ha h)]
      cases hm : c.mem (a * b) with
      | none => exact Or.inl rfl
      | some l => exact Or.inr ⟨l, rfl, c.length_eq _ _ hm⟩
  · unfold calloc Lib.calloc
    by_cases h : a * b < 2 ^ 64
    · rw [if_pos h]
      cases hm : c.mem (a * b) with
      | none => exact Or.inl rfl
      | some l => rw [← c.length_eq _ _ hm]; exact Or.inr rfl
    · rw [if_neg h]; exact Or.inl rfl
  · have h1 : ¬ b > sizeMax / a := by
      rw [gt_iff_lt, not_lt, Nat.le_div_iff_mul_le (Nat.pos_of_ne_zero ha), Nat.mul_comm]
      unfold sizeMax
      omega
    unfold malloc
    rw [if_neg ha, if_neg h1]
    obtain ⟨l, hl⟩ := Option.isSome_iff_exists.1 (hm (mul a b))
    rw [hl]
    simp [checked]
  · obtain ⟨l, hl⟩ := Option.isSome_iff_exists.1 (hm (a * b))
    unfold calloc Lib.calloc
    rw [if_pos h, hl]
    simp [checked]

theorem realloc_some {c : Lib} {p : Option Block} {n o : Nat} (hp : Holds p o) (ho : o ≤ n) {q : Block}
    (h : c.realloc p n = some q) : q.length = n ∧ q.take o = p.getD [] := by
  cases p with
  | none =>
    have h0 : o = 0 := by simpa [Holds] using hp.symm
    subst h0
    exact ⟨c.length_eq _ _ h, by simp⟩
  | some l =>
    have hl : l.length = o := hp
    simp only [Lib.realloc, Option.map_eq_some_iff] at h
    obtain ⟨m, hm, rfl⟩ := h
    have hlen := c.length_eq _ _ hm
    have e : l.take n = l := List.take_of_length_le (by omega)
    rw [e]
    refine ⟨by simp [hl, hlen]; omega, ?_⟩
    rw [← hl, List.take_left]; rfl

/-- **C134** When an array grows from `ao` to `an` elements, its bytes are kept and there is room for all elements; with
`recalloc`, the new bytes are zero.  Otherwise the program stops: it never continues with too small a block, and no assertion fails. -/
theorem C134_grow (c : Lib) (p : Option Block) (ao an b : Nat) (hp : Holds p (ao * b)) (h : ao < an) :
    (remalloc c p ao an b = .panic ∨
      ∃ l, remalloc c p ao an b = .block l ∧ l.length = an * b ∧ l.take (ao * b) = p.getD []) ∧
    (recalloc c p ao an b = .panic ∨ recalloc c p ao an b = .block (p.getD [] ++ List.replicate ((an - ao) * b) 0)) := by
  have h1 : ¬ an ≤ ao := not_le.2 h
  have h0 : an ≠ 0 := by omega
  unfold remalloc recalloc
  rw [if_neg h1, if_neg h1]
  by_cases h2 : b > sizeMax / an
  · rw [if_pos h2, if_pos h2]; exact ⟨Or.inl rfl, Or.inl rfl⟩
  rw [if_neg h2, if_neg h2]
  have hf := fits h0 h2
  have hle : ao * b ≤ an * b := Nat.mul_le_mul_right _ h.le
  rw [mul_fits hf, mul_fits (hle.trans_lt hf)]
  by_cases h3 : an * b = 0
  · rw [if_pos h3, if_pos h3]; exact ⟨Or.inl rfl, Or.inl rfl⟩
  rw [if_neg h3, if_neg h3]
  have hb : 0 < b := by
    rcases Nat.eq_zero_or_pos b with rfl | hb
    · simp at h3
    · exact hb
  have hlt : ao * b < an * b := Nat.mul_lt_mul_of_pos_right h hb
  cases hr : c.realloc p (an * b) with
  | none => exact ⟨Or.inl rfl, Or.inl rfl⟩
  | some q =>
    obtain ⟨e1, e2⟩ := realloc_some hp hle hr
    refine ⟨Or.inr ⟨q, rfl, e1, e2⟩, Or.inr ?_⟩
    simp only [if_pos hlt, checked, memset0, e2]
    have e3 : q.drop (ao * b + (an * b - ao * b)) = [] := List.drop_eq_nil_of_le (by omega)
    rw [e3, List.append_nil, Nat.sub_mul]

/-- **C134** An array that is to become smaller is left alone; it still has room. -/
theorem C134_shrink (c : Lib) (l : Block) (ao an b : Nat) (hp : l.length = ao * b) (h : an ≤ ao) :
    remalloc c (some l) ao an b = .block l ∧ recalloc c (some l) ao an b = .block l ∧ an * b ≤ l.length := by
  refine ⟨by simp [remalloc, h, checked], by simp [recalloc, h, checked], ?_⟩
  rw [hp]
  exact Nat.mul_le_mul_right _ h

/-- **C134** (the code is wrong here).  For the number 0, a division by zero decides whether there is an overflow; and an empty array
without memory that is asked to keep its size stops the program with "out of memory". -/
theorem C134_zero_wrong (c : Lib) (b : Nat) :
    malloc c 0 b = .undef ∧ remalloc c none 0 0 b = .panic ∧ recalloc c none 0 0 b = .panic := by
  simp [malloc, remalloc, recalloc, checked]

/-- a library that has memory -/
def exLib : Lib := ⟨fun n => some (List.replicate n 7), by intro n l h; cases h; simp⟩

example : malloc exLib 2 3 = .block [7, 7, 7, 7, 7, 7] := by decide
example : recalloc exLib (some [1, 2]) 1 2 2 = .block [1, 2, 0, 0] := by decide
example : malloc exLib (2 ^ 63) 2 = .panic := by
  have h : (2 : Nat) > sizeMax / 2 ^ 63 := by unfold sizeMax; norm_num
  simp only [malloc, if_pos h, checked]
  norm_num
example : Holds (some [1, 2]) (1 * 2) := rfl

end Hob3l.Alloc
