import Verif.Color.Model
import Verif.Color.Spec
import Verif.Sieve.Props

/-!
C48: colour names.  This fails for unknown names: the result of the lookup is used without a check.
-/

namespace Hob3l.Color

open Hob3l.Matq

/-! ### hexadecimal digits -/

/-- the digit as the code decodes it -/
def dig (c : Nat) : Option Nat :=
  if 48 ≤ c ∧ c ≤ 57 then some (c - 48)
  else if 97 ≤ c ∧ c ≤ 102 then some (c - 97 + 10)
  else if 65 ≤ c ∧ c ≤ 70 then some (c - 65 + 10)
  else none

theorem digit_iff (c d : Nat) : Digit c d ↔ dig c = some d := by
  constructor
  · intro h
    cases h with
    | dec _ h => unfold dig; rw [if_pos (by omega)]; congr 1; omega
    | upper e h => unfold dig; rw [if_neg (by omega), if_neg (by omega), if_pos (by omega)]; congr 1; omega
    | lower e h => unfold dig; rw [if_neg (by omega), if_pos (by omega)]; congr 1; omega
  · intro h
    unfold dig at h
    split at h
    · injection h with h
      have := Digit.dec d (by omega)
      rwa [show 48 + d = c by omega] at this
    split at h
    · injection h with h
      have := Digit.lower (d - 10) (by omega)
      rwa [show 97 + (d - 10) = c by omega, show 10 + (d - 10) = d by omega] at this
    split at h
    · injection h with h
      have := Digit.upper (d - 10) (by omega)
      rwa [show 65 + (d - 10) = c by omega, show 10 + (d - 10) = d by omega] at this
    · cases h

theorem dig_lt {c d : Nat} (h : dig c = some d) : d < 16 := by
  rw [← digit_iff] at h
  cases h <;> omega

theorem hexLoop_cons (c : Nat) (rest : List Nat) (v : Nat) :
    hexLoop (c :: rest) v = (dig c).bind fun d => hexLoop rest ((v * 16 + d) % 2 ^ 32) := by
  rw [hexLoop]
  unfold dig
  split
  · rfl
  split
  · rw [Option.bind_some, Nat.add_assoc]
  split
  · rw [Option.bind_some, Nat.add_assoc]
  · rfl

theorem byte_and (v : Nat) : v &&& 0xff = v % 256 := Nat.and_two_pow_sub_one_eq_mod v 8
theorem nib_and (v : Nat) : v &&& 0xf = v % 16 := Nat.and_two_pow_sub_one_eq_mod v 4

theorem ofHex_three (v : Nat) : ofHex 4 v = ⟨v / 256 % 16 * 17, v / 16 % 16 * 17, v % 16 * 17⟩ := by
  unfold ofHex
  rw [if_pos rfl]
  simp only [nib_and, Nat.shiftRight_eq_div_pow]

theorem ofHex_six (v : Nat) : ofHex 7 v = ⟨v / 65536 % 256, v / 256 % 256, v % 256⟩ := by
  unfold ofHex
  rw [if_neg (by decide)]
  simp only [byte_and, Nat.shiftRight_eq_div_pow]

theorem ofValue (v : Nat) : (⟨(v >>> 16) &&& 0xff, (v >>> 8) &&& 0xff, v &&& 0xff⟩ : Rgb) =
    ⟨v / 65536 % 256, v / 256 % 256, v % 256⟩ := by
  simp only [byte_and, Nat.shiftRight_eq_div_pow]

/-- Hexadecimal triples: for every string that starts with `#` the colour is returned that it denotes, and failure is
reported iff it denotes none. -/
theorem C48_hex (rest : List Nat) :
    (∃ r g b, Hex (35 :: rest) r g b ∧ colorByName (35 :: rest) = some (.ok ⟨r, g, b⟩)) ∨
    ((∀ r g b, ¬ Hex (35 :: rest) r g b) ∧ colorByName (35 :: rest) = some .no) := by
  by_cases hl : (35 :: rest).length ≠ 4 ∧ (35 :: rest).length ≠ 7
  · right
    refine ⟨?_, ?_⟩
    · intro r g b h
      cases h <;> simp at hl
    · show (if _ then _ else _) = _
      rw [if_pos hl]
  have hc : colorByName (35 :: rest) = match hexLoop rest 0 with
      | none => some .no
      | some v => some (.ok (ofHex (35 :: rest).length v)) := by
    show (if _ then _ else _) = _
    rw [if_neg hl]; rfl
  rw [hc]
  have hl' : rest.length = 3 ∨ rest.length = 6 := by
    simp only [List.length_cons] at hl
    omega
  rcases hl' with hl' | hl'
  · match rest, hl' with
    | [a, b, c], _ =>
      simp only [hexLoop_cons]
      have hno : ∀ {x}, (x = a ∨ x = b ∨ x = c) → dig x = none → ∀ r g d, ¬ Hex [35, a, b, c] r g d := by
        intro x hx hn r g d h
        cases h with
        | three _ _ _ r' g' b' h1 h2 h3 =>
          rw [digit_iff] at h1 h2 h3
          rcases hx with rfl | rfl | rfl <;> simp_all
      cases ha : dig a with
      | none => exact Or.inr ⟨hno (Or.inl rfl) ha, rfl⟩
      | some r =>
      cases hb : dig b with
      | none => exact Or.inr ⟨hno (Or.inr (Or.inl rfl)) hb, rfl⟩
      | some g =>
      cases hc : dig c with
      | none => exact Or.inr ⟨hno (Or.inr (Or.inr rfl)) hc, rfl⟩
      | some d =>
      left
      refine ⟨_, _, _, Hex.three a b c r g d ((digit_iff _ _).2 ha) ((digit_iff _ _).2 hb) ((digit_iff _ _).2 hc), ?_⟩
      simp only [Option.bind_some, hexLoop, List.length_cons, List.length_nil]
      rw [ofHex_three]
      have := dig_lt ha
      have := dig_lt hb
      have := dig_lt hc
      congr 3 <;> omega
  · match rest, hl' with
    | [a₁, a₂, b₁, b₂, c₁, c₂], _ =>
      simp only [hexLoop_cons]
      have hno : ∀ {x}, (x = a₁ ∨ x = a₂ ∨ x = b₁ ∨ x = b₂ ∨ x = c₁ ∨ x = c₂) → dig x = none →
          ∀ r g d, ¬ Hex [35, a₁, a₂, b₁, b₂, c₁, c₂] r g d := by
        intro x hx hn r g d h
        cases h with
        | six _ _ _ _ _ _ r₁ r₂ g₁ g₂ d₁ d₂ h1 h2 h3 h4 h5 h6 =>
          rw [digit_iff] at h1 h2 h3 h4 h5 h6
          rcases hx with rfl | rfl | rfl | rfl | rfl | rfl <;> simp_all
      cases h1 : dig a₁ with
      | none => exact Or.inr ⟨hno (by simp) h1, rfl⟩
      | some r₁ =>
      cases h2 : dig a₂ with
      | none => exact Or.inr ⟨hno (x := a₂) (by simp) h2, rfl⟩
      | some r₂ =>
      cases h3 : dig b₁ with
      | none => exact Or.inr ⟨hno (x := b₁) (by simp) h3, rfl⟩
      | some g₁ =>
      cases h4 : dig b₂ with
      | none => exact Or.inr ⟨hno (x := b₂) (by simp) h4, rfl⟩
      | some g₂ =>
      cases h5 : dig c₁ with
      | none => exact Or.inr ⟨hno (x := c₁) (by simp) h5, rfl⟩
      | some d₁ =>
      cases h6 : dig c₂ with
      | none => exact Or.inr ⟨hno (x := c₂) (by simp) h6, rfl⟩
      | some d₂ =>
      left
      refine ⟨_, _, _, Hex.six a₁ a₂ b₁ b₂ c₁ c₂ r₁ r₂ g₁ g₂ d₁ d₂ ((digit_iff _ _).2 h1) ((digit_iff _ _).2 h2)
        ((digit_iff _ _).2 h3) ((digit_iff _ _).2 h4) ((digit_iff _ _).2 h5) ((digit_iff _ _).2 h6), ?_⟩
      simp only [Option.bind_some, hexLoop, List.length_cons, List.length_nil]
      rw [ofHex_six]
      have := dig_lt h1
      have := dig_lt h2
      have := dig_lt h3
      have := dig_lt h4
      have := dig_lt h5
      have := dig_lt h6
      congr 3 <;> omega

/-- `#1Af` and `#g00` -/
example : colorByName (cs "#1Af") = some (.ok ⟨0x11, 0xaa, 0xff⟩) ∧ colorByName (cs "#g00") = some .no ∧
    colorByName (cs "#1234") = some .no := by decide

theorem table_nodup : (table.map Prod.fst).Nodup := by decide +kernel

/-- all values have 24 bits -/
theorem table_lt : ∀ e ∈ table, e.2 < 2 ^ 24 := by decide +kernel

/-- the table is the one of the standard -/
theorem table_svg : table = svgNames.map fun e => (cs e.1, e.2.1 * 65536 + e.2.2.1 * 256 + e.2.2.2) := by decide +kernel

theorem svg_lt : ∀ e ∈ svgNames, e.2.1 < 256 ∧ e.2.2.1 < 256 ∧ e.2.2.2 < 256 := by decide +kernel

/-- the entries of the table -/
theorem named_iff (name : List Nat) (r g b : Nat) :
    Named name r g b ↔ r < 256 ∧ g < 256 ∧ b < 256 ∧ (name, r * 65536 + g * 256 + b) ∈ table := by
  constructor
  · rintro ⟨n, rfl, h⟩
    obtain ⟨h1, h2, h3⟩ := svg_lt _ h
    refine ⟨h1, h2, h3, ?_⟩
    rw [table_svg]
    exact List.mem_map.2 ⟨_, h, rfl⟩
  · rintro ⟨h1, h2, h3, h⟩
    rw [table_svg] at h
    obtain ⟨⟨n, r', g', b'⟩, he, h⟩ := List.mem_map.1 h
    obtain ⟨h1', h2', h3'⟩ := svg_lt _ he
    simp only [Prod.mk.injEq] at h h1' h2' h3'
    obtain ⟨rfl, h⟩ := h
    have e1 : r' = r := by omega
    have e2 : g' = g := by omega
    have e3 : b' = b := by omega
    subst e1; subst e2; subst e3
    exact ⟨n, rfl, he⟩

theorem byName_spec (name : List Nat) :
    (∃ r g b, Named name r g b ∧ byName name = some (.ok ⟨r, g, b⟩)) ∨
    ((∀ r g b, ¬ Named name r g b) ∧ byName name = some .crash) := by
  obtain ⟨r, h1, h2, h3⟩ := Sieve.C59_find (table.map Prod.fst) table_nodup name
  unfold byName
  simp only [h1, Option.bind_eq_bind, Option.bind_some]
  cases r with
  | none =>
    right
    refine ⟨?_, rfl⟩
    intro r g b hn
    obtain ⟨-, -, -, h⟩ := (named_iff _ _ _ _).1 hn
    exact h3.1 rfl (List.mem_map.2 ⟨_, h, rfl⟩)
  | some i =>
    left
    have h4 := (h2 i).1 rfl
    rw [List.getElem?_map, Option.map_eq_some_iff] at h4
    obtain ⟨⟨k, v⟩, h4, h5⟩ := h4
    have hm := List.mem_of_getElem? h4
    have hv := table_lt _ hm
    simp only at h5 hv
    subst h5
    refine ⟨v / 65536 % 256, v / 256 % 256, v % 256, (named_iff _ _ _ _).2 ⟨by omega, by omega, by omega, ?_⟩, ?_⟩
    · rw [show v / 65536 % 256 * 65536 + v / 256 % 256 * 256 + v % 256 = v by omega]
      exact hm
    · simp only [h4, Option.bind_some, ofValue]

/-- The exact behaviour for all names that do not start with `#`: the colour of a name of SVG 1.1 is returned, and for every
other name the program accesses a NULL pointer.

Missing for C48: unknown names must be reported as failure, see `C48_wrong`. -/
theorem C48_names_partial (name : List Nat) (h : name.head? ≠ some 35) :
    (∃ r g b, Named name r g b ∧ colorByName name = some (.ok ⟨r, g, b⟩)) ∨
    ((∀ r g b, ¬ Named name r g b) ∧ colorByName name = some .crash) := by
  have : colorByName name = byName name := by
    unfold colorByName
    split
    · simp at h
    · rfl
  rw [this]
  exact byName_spec name

example : (cs "red").head? ≠ some 35 ∧ colorByName (cs "red") = some (.ok ⟨255, 0, 0⟩) := by decide +kernel

/-- A name denotes at most one colour. -/
theorem C48_unique (name : List Nat) {r g b r' g' b' : Nat} (h : Named name r g b) (h' : Named name r' g' b') :
    r = r' ∧ g = g' ∧ b = b' := by
  obtain ⟨h1, h2, h3, h4⟩ := (named_iff _ _ _ _).1 h
  obtain ⟨h1', h2', h3', h4'⟩ := (named_iff _ _ _ _).1 h'
  have := List.inj_on_of_nodup_map table_nodup h4 h4' rfl
  simp only [Prod.mk.injEq, true_and] at this
  omega

example : Named (cs "tomato") 255 99 71 := ⟨"tomato", rfl, by decide +kernel⟩

/-- C48 fails: an unknown name, e.g., the empty one, is not reported as failure, but ends in a NULL pointer access. -/
theorem C48_wrong : colorByName [] = some .crash ∧ colorByName (cs "rebeccapurple") = some .crash := by decide +kernel

end Hob3l.Color
