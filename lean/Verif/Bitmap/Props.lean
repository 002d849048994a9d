import Verif.Bitmap.Lemmas

/-!
Properties C14, C15, C16: the truth table operations of /repo/src/hob3lbase/bool-bitmap.c.
The statements speak only about the bits seen through `cp_bool_bitmap_get` (`get`).
-/

namespace Hob3l.Bitmap

/-- The Boolean function each operation stands for (independent of the word arithmetic). -/
def Op.fn : Op → Bool → Bool → Bool
  | .add, a, b => a || b
  | .cut, a, b => a && b
  | .sub, a, b => a && !b
  | .xor, a, b => a != b

/-- C14: spreading is defined for every table of at most 1024 result bits, and bit `k` of the result is
bit `⌊k / 2^add⌋` of the input. -/
theorem C14_spread (m : Mem) (have_ add : Nat) (h : have_ + add ≤ 10) :
    ∃ m', spread m have_ add = some m' ∧
      ∀ k, k < 2 ^ (have_ + add) → get m' k = get m (k / 2 ^ add) ∧ (get m' k).isSome := by
  obtain ⟨m', h1, h2⟩ := spread_spec m have_ add h
  refine ⟨m', h1, fun k hk => ?_⟩
  have hb := pow_bound h
  have : k / 2 ^ add ≤ k := Nat.div_le_self _ _
  rw [get_spec m' k (by omega), get_spec m _ (by omega), h2 k hk]
  exact ⟨rfl, rfl⟩

/-- C14: beyond the capacity the function stops with a failed assertion; it never writes out of bounds. -/
theorem C14_domain (m : Mem) (have_ add : Nat) : (spread m have_ add).isSome ↔ (have_ + add ≤ 10 ∨ (have_ < 3 ∧ add = 0)) := by
  constructor
  · intro h
    by_contra hc
    have large : ∀ m h' a', 3 ≤ h' → 10 < h' + a' → spreadLarge m h' a' = none := by
      intro m h' a' _ hb
      have hp : 2 ^ 11 ≤ 2 ^ (h' + a') := Nat.pow_le_pow_right (by decide) (by omega)
      have e : ass (2 ^ (h' + a') ≤ 1024) = none := by unfold ass; rw [if_neg (by omega)]
      unfold spreadLarge
      rw [e]
      by_cases h1 : h' < 32 <;> by_cases h2 : a' < 32 <;> by_cases h3 : h' + a' < 32 <;> simp [ass, h1, h2, h3]
    have key : ∀ a' m h', 10 < h' + a' → spread m h' a' = none := by
      intro a'
      induction a' with
      | zero =>
        intro m h' hb
        rw [spread, if_neg (by omega)]; exact large m h' 0 (by omega) hb
      | succ a' ih =>
        intro m h' hb
        rw [spread]
        by_cases h3 : h' < 3
        · rw [if_pos h3]
          cases rd 8 m 0 with
          | none => rfl
          | some x =>
            simp only [Option.bind_eq_bind, Option.bind_some]
            cases spread1 (x &&& 0x0f) with
            | none => rfl
            | some y =>
              simp only [Option.bind_some]
              cases wr 8 m 0 y with
              | none => rfl
              | some m1 => simp only [Option.bind_some]; exact ih m1 (h' + 1) (by omega)
        · rw [if_neg h3]; exact large m h' _ (by omega) hb
    rw [key add m have_ (by omega)] at h
    exact absurd h (by decide)
  · rintro (h | ⟨h1, rfl⟩)
    · obtain ⟨m', h1, -⟩ := spread_spec m have_ add h
      rw [h1]; rfl
    · rw [spread, if_pos h1]; rfl

/-- C15: repeating is defined for every table of at most 1024 result bits, and bit `k` of the result is
bit `k mod 2^have` of the input. -/
theorem C15_repeat (m : Mem) (have_ add : Nat) (h : have_ + add ≤ 10) :
    ∃ m', «repeat» m have_ add = some m' ∧
      ∀ k, k < 2 ^ (have_ + add) → get m' k = get m (k % 2 ^ have_) ∧ (get m' k).isSome := by
  obtain ⟨m', h1, h2⟩ := repeat_spec m have_ add h
  refine ⟨m', h1, fun k hk => ?_⟩
  have hb := pow_bound h
  have : k % 2 ^ have_ ≤ k := Nat.mod_le _ _
  rw [get_spec m' k (by omega), get_spec m _ (by omega), h2 k hk]
  exact ⟨rfl, rfl⟩

/-- C15: `repeat` is defined exactly up to the capacity of the table. -/
theorem C15_domain (m : Mem) (have_ add : Nat) : («repeat» m have_ add).isSome ↔ have_ + add ≤ 10 := by
  constructor
  · intro h
    by_contra hc
    have hp : 2 ^ 11 ≤ 2 ^ (have_ + add) := Nat.pow_le_pow_right (by decide) (by omega)
    have e : ass (2 ^ (have_ + add) ≤ 1024) = none := by unfold ass; rw [if_neg (by omega)]
    unfold «repeat» at h
    rw [e] at h
    by_cases h1 : have_ < 32 <;> by_cases h2 : add < 32 <;> by_cases h3 : have_ + add < 32 <;> simp [ass, h1, h2, h3] at h
  · intro h
    obtain ⟨m', h1, -⟩ := repeat_spec m have_ add h
    rw [h1]; rfl

/-- C16: combining applies the Boolean function at each of the `2^size` positions. -/
theorem C16_combine (r b : Mem) (size : Nat) (op : Op) (h : size ≤ 10) :
    ∃ r', combine r b size op = some r' ∧
      ∀ k, k < 2 ^ size → ∃ x y, get r k = some x ∧ get b k = some y ∧ get r' k = some (op.fn x y) := by
  obtain ⟨r', h1, h2⟩ := combine_spec r b size op h
  refine ⟨r', h1, fun k hk => ?_⟩
  have hb : 2 ^ size ≤ 2 ^ 10 := Nat.pow_le_pow_right (by decide) h
  refine ⟨_, _, get_spec r k (by omega), get_spec b k (by omega), ?_⟩
  rw [get_spec r' k (by omega), h2 k hk]
  cases op <;> simp [bitOp, Op.fn]

/-- C16: reading back single bits: `set` changes exactly the addressed bit. -/
theorem C16_get_set (m : Mem) (i k : Nat) (v : Bool) (hi : i < 1024) (hk : k < 1024) :
    ∃ m', set m i v = some m' ∧ get m' k = if k = i then some v else get m k := by
  obtain ⟨m', h1, h2⟩ := set_spec m i v hi
  refine ⟨m', h1, ?_⟩
  rw [get_spec m' k hk, h2 k hk]
  by_cases h : k = i
  · rw [if_pos h, if_pos h]
  · rw [if_neg h, if_neg h, get_spec m k hk]

/-- The index built in /repo/src/hob3l/csg2-bool.c:452-459 for two operand lists: low bits select the left operand's
entry, high bits the right operand's. -/
def pairIndex (n i j : Nat) : Nat := i + 2 ^ n * j

/-- C14+C15+C16 together, as used when two lazy polygon lists are joined: the joint table at index
(i, j) is the operation applied to the left table at `i` and the right table at `j`. -/
theorem C16_joint_table (r b : Mem) (n k : Nat) (op : Op) (h : n + k ≤ 10) (i j : Nat) (hi : i < 2 ^ n) (hj : j < 2 ^ k) :
    ∃ r1 b1 r2 x y, «repeat» r n k = some r1 ∧ spread b k n = some b1 ∧ combine r1 b1 (n + k) op = some r2 ∧
      get r i = some x ∧ get b j = some y ∧ get r2 (pairIndex n i j) = some (op.fn x y) := by
  obtain ⟨r1, a1, a2⟩ := C15_repeat r n k h
  obtain ⟨b1, c1, c2⟩ := C14_spread b k n (by omega)
  obtain ⟨r2, d1, d2⟩ := C16_combine r1 b1 (n + k) op h
  have hlt : pairIndex n i j < 2 ^ (n + k) := by
    unfold pairIndex
    have : 2 ^ n * j + 2 ^ n ≤ 2 ^ (n + k) := by
      rw [Nat.pow_add, ← Nat.mul_succ]; exact Nat.mul_le_mul_left _ hj
    omega
  obtain ⟨x, y, e1, e2, e3⟩ := d2 _ hlt
  refine ⟨r1, b1, r2, x, y, a1, c1, d1, ?_, ?_, e3⟩
  · rw [← e1, (a2 _ hlt).1]; congr 1
    unfold pairIndex; rw [Nat.add_mul_mod_self_left, Nat.mod_eq_of_lt hi]
  · rw [← e2, (c2 _ (by rw [Nat.add_comm k n]; exact hlt)).1]; congr 1
    unfold pairIndex; rw [Nat.add_mul_div_left _ _ (by positivity), Nat.div_eq_of_lt hi, Nat.zero_add]

/-! Concrete cases meeting the hypotheses. -/

example : (3 : Nat) + 7 ≤ 10 := by decide
/-- table 0b10 (one operand) spread by one: 0b1100 -/
example : (spread 2#1024 1 1).bind (fun m => some (m.toNat % 16)) = some 0b1100 := by decide +kernel
/-- table 0b10 repeated: 0b1010 -/
example : («repeat» 2#1024 1 1).bind (fun m => some (m.toNat % 16)) = some 0b1010 := by decide +kernel
/-- the difference of two polygons: only index 1 (left but not right) -/
example : (combine 0b1010#1024 0b1100#1024 2 .sub).bind (fun m => some (m.toNat % 16)) = some 0b0010 := by decide +kernel
/-- a full-capacity spread: 3 operands, 7 added; bit 1023 of the result is bit 7 of the input -/
example : (spread 0x80#1024 3 7).bind (fun m => get m 1023) = some true := by decide +kernel
example : (spread 0x80#1024 3 7).bind (fun m => get m 895) = some false := by decide +kernel

end Hob3l.Bitmap
