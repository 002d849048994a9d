import Verif.Vec.Spec
import Mathlib.Tactic.SplitIfs

namespace Hob3l.Vec

open Hob3l.Matq

variable {α : Type}

theorem growLoop_ok (max n : Nat) (hm : 2 * n ≤ max) :
    ∀ k a : Nat, 0 < a → n ≤ a + k → ∃ b, growLoop max k a n = some b ∧ n ≤ b ∧ a ≤ b := by
  intro k
  induction k with
  | zero =>
    intro a _ h2
    exact ⟨a, by simp [growLoop]; omega, by omega, Nat.le_refl _⟩
  | succ k ih =>
    intro a h1 h2
    by_cases h : a < n
    · obtain ⟨b, hb, hb1, hb2⟩ := ih (a * 2) (by omega) (by omega)
      refine ⟨b, ?_, hb1, by omega⟩
      simp only [growLoop, if_pos h, if_neg (show ¬ a * 2 > max by omega)]
      exact hb
    · exact ⟨a, by simp [growLoop, h], by omega, Nat.le_refl _⟩

/-- growing succeeds, keeps all cells, and appends cells with unknown contents -/
theorem grow_ok {env : Env α} {n : Nat} (hm : env.Fits n) (v : Vec α) :
    ∃ xs, grow env v n = some ⟨v.mem ++ xs, v.size⟩ ∧ n ≤ (v.mem ++ xs).length := by
  unfold grow
  split
  · exact ⟨[], by simp, by simp; omega⟩
  · have : 0 < (if v.mem.length < 4 then 4 else v.mem.length) := by split_ifs <;> omega
    obtain ⟨b, hb, h1, h2⟩ := growLoop_ok env.max n hm.1 n _ this (by omega)
    rw [hb]
    refine ⟨_, rfl, ?_⟩
    simp only [List.length_append, List.length_map, List.length_range]
    omega

theorem put_ok (mem : List α) (d : Nat) (xs : List α) (h : d + xs.length ≤ mem.length) :
    put mem d xs = some (mem.take d ++ xs ++ mem.drop (d + xs.length)) := by
  simp [put, ass, h]

theorem get_ok (mem : List α) (s n : Nat) (h : s + n ≤ mem.length) :
    get mem s n = some ((mem.drop s).take n) := by
  simp [get, ass, h]

theorem memmove_ok (mem : List α) (d s n : Nat) (h : s + n ≤ mem.length) (h2 : d + n ≤ mem.length) :
    memmove mem d s n = some (mem.take d ++ (mem.drop s).take n ++ mem.drop (d + n)) := by
  have hl : ((mem.drop s).take n).length = n := by simp; omega
  unfold memmove
  rw [get_ok _ _ _ h, Option.bind_eq_bind, Option.bind_some, put_ok _ _ _ (by omega), hl]

theorem pick (L : List α) (s n i : Nat) (h : i < n) : ((L.drop s).take n)[i]? = L[s + i]? := by
  rw [List.getElem?_take_of_lt h, List.getElem?_drop]

/-- pointwise contents of a list built from three parts -/
theorem get3 (A B C : List α) (i : Nat) :
    (A ++ B ++ C)[i]? = if i < A.length then A[i]? else if i < A.length + B.length then B[i - A.length]?
      else C[i - (A.length + B.length)]? := by
  simp only [List.getElem?_append, List.length_append]
  split_ifs <;> first | rfl | omega

theorem take_put (mem xs : List α) (d s : Nat) (h : d + xs.length ≤ s) (hs : s ≤ mem.length) :
    (mem.take d ++ xs ++ mem.drop (d + xs.length)).take s =
      (mem.take s).take d ++ xs ++ (mem.take s).drop (d + xs.length) := by
  have h1 : mem = mem.take s ++ mem.drop s := (List.take_append_drop _ _).symm
  have hl : (mem.take s).length = s := by simp; omega
  generalize mem.take s = A at *
  generalize mem.drop s = B at *
  subst h1
  rw [List.take_append_of_le_length (show d ≤ A.length by omega),
    List.drop_append_of_le_length (show d + xs.length ≤ A.length by omega), ← List.append_assoc]
  have hl2 : (A.take d ++ xs ++ A.drop (d + xs.length)).length = s := by simp; omega
  rw [List.take_append_of_le_length (by omega), List.take_of_length_le (by omega)]

theorem take_put_grow (mem xs : List α) (d : Nat) (hs : d + xs.length ≤ mem.length) :
    (mem.take d ++ xs ++ mem.drop (d + xs.length)).take (d + xs.length) = mem.take d ++ xs := by
  have hl : (mem.take d).length = d := by simp; omega
  rw [List.take_append_of_le_length (by rw [List.length_append]; omega), List.take_of_length_le (by simp; omega)]

theorem elems_length {v : Vec α} (h : Valid v) : (elems v).length = v.size := by
  simp only [elems, List.length_take]; unfold Valid at h; omega

theorem reverseLoop_ok (mem0 : List α) (pos n : Nat) (hn : pos + n ≤ mem0.length) :
    ∀ k i (mem : List α), k + i = n / 2 → mem.length = mem0.length →
      (∀ j, mem[j]? = if (pos ≤ j ∧ j < pos + i) ∨ (pos + n - i ≤ j ∧ j < pos + n) then mem0[2 * pos + n - 1 - j]?
        else mem0[j]?) →
      ∃ m, reverseLoop pos n k mem i = some m ∧ m.length = mem0.length ∧
        ∀ j, m[j]? = if pos ≤ j ∧ j < pos + n then mem0[2 * pos + n - 1 - j]? else mem0[j]? := by
  intro k
  induction k with
  | zero =>
    intro i mem hk hl h
    refine ⟨mem, rfl, hl, ?_⟩
    intro j
    rw [h j]
    split_ifs with h1 h2 h2
    · rfl
    · omega
    · have : 2 * pos + n - 1 - j = j := by omega
      rw [this]
    · rfl
  | succ k ih =>
    intro i mem hk hl h
    have hx : pos + i < mem.length := by omega
    have hy : pos + (n - i - 1) < mem.length := by omega
    simp only [reverseLoop, List.getElem?_eq_getElem hx, List.getElem?_eq_getElem hy, Option.bind_eq_bind,
      Option.bind_some]
    refine ih (i + 1) _ (by omega) (by simp [hl]) ?_
    have ex : some mem[pos + i] = mem0[pos + i]? := by
      rw [← List.getElem?_eq_getElem hx, h (pos + i), if_neg (by omega)]
    have ey : some mem[pos + (n - i - 1)] = mem0[pos + (n - i - 1)]? := by
      rw [← List.getElem?_eq_getElem hy, h (pos + (n - i - 1)), if_neg (by omega)]
    intro j
    simp only [List.getElem?_set, List.length_set]
    by_cases h1 : pos + (n - i - 1) = j
    · rw [if_pos h1, if_pos hy, ex, if_pos (by omega)]
      congr 1; omega
    · rw [if_neg h1]
      by_cases h2 : pos + i = j
      · rw [if_pos h2, if_pos hx, ey, if_pos (by omega)]
        congr 1; omega
      · rw [if_neg h2, h j]
        split_ifs <;> first | rfl | omega

theorem reverse_ok (mem : List α) (pos n : Nat) (hn : pos + n ≤ mem.length) :
    reverseLoop pos n (n / 2) mem 0 =
      some (mem.take pos ++ ((mem.drop pos).take n).reverse ++ mem.drop (pos + n)) := by
  obtain ⟨m, h1, h2, h3⟩ := reverseLoop_ok mem pos n hn (n / 2) 0 mem (by omega) rfl (by
    intro j; rw [if_neg (by omega)])
  rw [h1]
  congr 1
  apply List.ext_getElem?
  intro j
  have hp : (mem.take pos).length = pos := by simp; omega
  have hq : (((mem.drop pos).take n).reverse).length = n := by simp; omega
  rw [h3 j, get3, hp, hq]
  by_cases a : j < pos
  · rw [if_neg (by omega), if_pos a, List.getElem?_take_of_lt a]
  · by_cases b : j < pos + n
    · rw [if_pos (by omega), if_neg a, if_pos b, List.getElem?_reverse (by simp; omega), pick _ _ _ _ (by simp; omega)]
      congr 1; simp; omega
    · rw [if_neg (by omega), if_neg a, if_neg b, List.getElem?_drop]; congr 1; omega

/-- what the loop of the binary search establishes for the range `a..b` -/
def BRes (cmp : α → Int) (L : List α) (a b : Nat) : Option Nat → Prop
  | none => SortedFor cmp L → ∀ i, a ≤ i → i < b → ∀ x, L[i]? = some x → cmp x ≠ 0
  | some i => a ≤ i ∧ i < b ∧ ∃ x, L[i]? = some x ∧ cmp x = 0

theorem bsearchLoop_ok (cmp : α → Int) (L : List α) :
    ∀ k a b, b ≤ L.length → b - a < 2 ^ k → ∃ r, bsearchLoop cmp L k a b = some r ∧ BRes cmp L a b r := by
  intro k
  induction k with
  | zero =>
    intro a b _ h
    have h' : ¬ a < b := by omega
    refine ⟨none, by simp [bsearchLoop, h'], ?_⟩
    intro _ i h1 h2; omega
  | succ k ih =>
    intro a b hb h
    by_cases hab : a < b
    · have hx : a + (b - a) / 2 < L.length := by omega
      have hp : 2 ^ (k + 1) = 2 * 2 ^ k := by rw [Nat.pow_succ]; omega
      generalize hidx : a + (b - a) / 2 = idx at *
      simp only [bsearchLoop, if_pos hab, hidx, List.getElem?_eq_getElem hx, Option.bind_eq_bind, Option.bind_some]
      have hg := List.getElem?_eq_getElem hx
      by_cases c1 : cmp L[idx] < 0
      · rw [if_pos c1]
        obtain ⟨r, hr, hs⟩ := ih a idx (by omega) (by omega)
        refine ⟨r, hr, ?_⟩
        cases r with
        | none =>
          intro hS i h1 h2 x hix
          by_cases hlt : i < idx
          · exact hs hS i h1 hlt x hix
          · by_cases heq : i = idx
            · subst heq
              rw [hg] at hix; injection hix with hix; subst hix; omega
            · have := (hS idx i _ _ (by omega) hg hix).1 c1
              omega
        | some i => exact ⟨hs.1, by have := hs.2.1; omega, hs.2.2⟩
      · rw [if_neg c1]
        by_cases c2 : cmp L[idx] > 0
        · rw [if_pos c2]
          obtain ⟨r, hr, hs⟩ := ih (idx + 1) b (by omega) (by omega)
          refine ⟨r, hr, ?_⟩
          cases r with
          | none =>
            intro hS i h1 h2 x hix
            by_cases hlt : idx < i
            · exact hs hS i hlt h2 x hix
            · by_cases heq : i = idx
              · subst heq
                rw [hg] at hix; injection hix with hix; subst hix; omega
              · have := (hS i idx _ _ (by omega) hix hg).2 c2
                omega
          | some i => exact ⟨by have := hs.1; omega, hs.2.1, hs.2.2⟩
        · rw [if_neg c2]
          exact ⟨some idx, rfl, by omega, by omega, _, hg, by omega⟩
    · refine ⟨none, by simp [bsearchLoop, hab], ?_⟩
      intro _ i h1 h2; omega

end Hob3l.Vec
