import Verif.Matq.LemmasGeo
import Verif.Matq.LemmasWide
import Mathlib.Data.Rat.Floor

namespace Hob3l.Matq

theorem Dimif.Valid.dpos {a : Dimif} (h : a.Valid) : 0 < a.d := lt_of_le_of_lt (Nat.zero_le _) h.1

theorem frac_lt_one {a : Dimif} (h : a.Valid) : 0 ≤ (a.n : ℚ) / a.d ∧ (a.n : ℚ) / a.d < 1 := by
  have hd : (0 : ℚ) < a.d := by exact_mod_cast h.dpos
  exact ⟨by positivity, by rw [div_lt_one hd]; exact_mod_cast h.1⟩

theorem cmpQ_swap (a b : ℚ) : cmpQ b a = -cmpQ a b := by
  unfold cmpQ
  rcases lt_trichotomy a b with h | h | h
  · simp [h, h.not_gt, h.ne']
  · simp [h]
  · simp [h, h.not_gt, h.ne']

theorem cmpQ_eq_zero {a b : ℚ} : cmpQ a b = 0 ↔ a = b := by
  unfold cmpQ
  rcases lt_trichotomy a b with h | h | h
  · simp [h, h.ne]
  · simp [h]
  · simp [h.not_gt, h.ne']

theorem cmpQ_neg {a b : ℚ} : cmpQ a b = -1 ↔ a < b := by
  unfold cmpQ
  rcases lt_trichotomy a b with h | h | h
  · simp [h]
  · simp [h]
  · simp [h.not_gt, h.ne']

theorem cmpQ_pos {a b : ℚ} : cmpQ a b = 1 ↔ b < a := by
  unfold cmpQ
  rcases lt_trichotomy a b with h | h | h
  · simp [h, h.not_gt]
  · simp [h]
  · simp [h.not_gt, h.ne', h]

theorem cmpQ_of_lt {a b : ℚ} (h : a < b) : cmpQ a b = -1 := cmpQ_neg.mpr h
theorem cmpQ_of_gt {a b : ℚ} (h : b < a) : cmpQ a b = 1 := cmpQ_pos.mpr h

theorem frac_cmp (a b : Dimif) (ha : a.Valid) (hb : b.Valid) :
    cpCmp (a.n * b.d) (a.d * b.n) = cmpQ ((a.n : ℚ) / a.d) ((b.n : ℚ) / b.d) := by
  have hda : (0 : ℚ) < a.d := by exact_mod_cast ha.dpos
  have hdb : (0 : ℚ) < b.d := by exact_mod_cast hb.dpos
  unfold cpCmp
  rcases lt_trichotomy (a.n * b.d) (a.d * b.n) with h | h | h
  · rw [if_pos h, cmpQ_of_lt]
    rw [div_lt_div_iff₀ hda hdb]
    rw [Nat.mul_comm a.d] at h; exact_mod_cast h
  · rw [if_neg (by omega), if_neg (by omega), cmpQ_eq_zero.mpr]
    rw [div_eq_div_iff hda.ne' hdb.ne']
    rw [Nat.mul_comm a.d] at h; exact_mod_cast h
  · rw [if_neg (by omega), if_pos h, cmpQ_of_gt]
    rw [div_lt_div_iff₀ hdb hda]
    rw [Nat.mul_comm a.d] at h; exact_mod_cast h

theorem Valid_bounds {a : Dimif} (ha : a.Valid) : a.n < W2 ∧ a.d < W2 := by
  obtain ⟨h1, h2⟩ := ha
  exact ⟨lt_trans h1 h2, h2⟩

theorem int_part_cmp {a b : Dimif} (ha : a.Valid) (hb : b.Valid) :
    (a.i < b.i → a.val < b.val) ∧ (a.i = b.i → cmpQ a.val b.val = cmpQ ((a.n : ℚ) / a.d) ((b.n : ℚ) / b.d)) := by
  have f1 := frac_lt_one ha
  have f2 := frac_lt_one hb
  constructor
  · intro h
    have : (a.i : ℚ) + 1 ≤ b.i := by exact_mod_cast h
    unfold Dimif.val; linarith
  · intro h
    unfold Dimif.val cmpQ
    rw [h]
    simp

theorem cmp_shape (a b : Dimif) (ha : a.Valid) (hb : b.Valid) (c : Int)
    (hc : c = cmpQ ((a.n : ℚ) / a.d) ((b.n : ℚ) / b.d)) :
    (if cpCmp a.i b.i ≠ 0 then cpCmp a.i b.i else c) = cmpQ a.val b.val := by
  have h1 := int_part_cmp ha hb
  have h2 := int_part_cmp hb ha
  unfold cpCmp
  rcases lt_trichotomy a.i b.i with h | h | h
  · simp [h, cmpQ_of_lt (h1.1 h)]
  · simp [h, h1.2 h, hc]
  · simp [h, h.not_gt, cmpQ_of_gt (h2.1 h)]

theorem dimifCmp_eq (a b : Dimif) (ha : a.Valid) (hb : b.Valid) : dimifCmp a b = cmpQ a.val b.val := by
  have b1 := Valid_bounds ha
  have b2 := Valid_bounds hb
  exact cmp_shape a b ha hb _ (by rw [cmpFracQ_eq a b b1.1 b1.2 b2.1 b2.2, frac_cmp a b ha hb])

theorem dimifCmpAux_eq (a b : Dimif) (ha : a.Valid) (hb : b.Valid) : dimifCmpAux a b = some (cmpQ a.val b.val) := by
  have b1 := Valid_bounds ha
  have b2 := Valid_bounds hb
  unfold dimifCmpAux
  rw [cmpFracAux_eq a b b1.1 b1.2 b2.1 b2.2 ha.dpos hb.dpos, frac_cmp a b ha hb]
  have := cmp_shape a b ha hb _ rfl
  rw [← this]
  by_cases h : cpCmp a.i b.i ≠ 0 <;> simp [h]

theorem vec2ifCmp_eq (a b : Vec2if) (ha : a.Valid) (hb : b.Valid) : vec2ifCmp a b = cmpPt a.pt b.pt := by
  unfold vec2ifCmp cmpPt
  rw [dimifCmp_eq a.x b.x ha.1 hb.1, dimifCmp_eq a.y b.y ha.2 hb.2]
  rfl

theorem dimDimifCmp_eq (a : Int) (b : Dimif) (hb : b.Valid) : dimDimifCmp a b = cmpQ a b.val := by
  have f := frac_lt_one hb
  unfold dimDimifCmp Dimif.val
  have hd : (0 : ℚ) < b.d := by exact_mod_cast hb.dpos
  rcases lt_trichotomy a b.i with h | h | h
  · have : (a : ℚ) + 1 ≤ b.i := by exact_mod_cast h
    rw [if_pos h, cmpQ_of_lt (by linarith)]
  · rw [if_neg (by omega), if_neg (by omega)]
    subst h
    by_cases hn : b.n > 0
    · have : (0 : ℚ) < (b.n : ℚ) / b.d := div_pos (by exact_mod_cast hn) hd
      rw [if_pos hn, cmpQ_of_lt (by linarith)]
    · rw [if_neg hn, show b.n = 0 by omega, cmpQ_eq_zero.mpr]; simp
  · have : (b.i : ℚ) + 1 ≤ a := by exact_mod_cast h
    rw [if_neg (by omega), if_pos h, cmpQ_of_gt (by linarith)]

theorem vec2Vec2ifCmp_eq (a : Vec2) (b : Vec2if) (hb : b.Valid) : vec2Vec2ifCmp a b = cmpPt a.pt b.pt := by
  have e : cmpPt a.pt b.pt = if dimDimifCmp a.x b.x ≠ 0 then dimDimifCmp a.x b.x else dimDimifCmp a.y b.y := by
    rw [dimDimifCmp_eq a.x b.x hb.1, dimDimifCmp_eq a.y b.y hb.2]; rfl
  rw [e]
  unfold vec2Vec2ifCmp dimDimifCmp
  split_ifs <;> simp_all

theorem cmpPt_swap (a b : Pt) : cmpPt b a = -cmpPt a b := by
  unfold cmpPt
  rw [cmpQ_swap a.1 b.1, cmpQ_swap a.2 b.2]
  by_cases h : cmpQ a.1 b.1 = 0 <;> simp [h]

theorem cmpPt_eq_zero {a b : Pt} : cmpPt a b = 0 ↔ a = b := by
  unfold cmpPt
  by_cases h : cmpQ a.1 b.1 = 0
  · simp only [h, ne_eq, not_true_eq_false, if_false]
    rw [cmpQ_eq_zero] at h
    rw [cmpQ_eq_zero, Prod.ext_iff]; simp [h]
  · simp only [h, ne_eq, not_false_eq_true, if_true, false_iff]
    rintro rfl; exact h (cmpQ_eq_zero.mpr rfl)

theorem cmpPt_neg {a b : Pt} : cmpPt a b < 0 ↔ a.1 < b.1 ∨ (a.1 = b.1 ∧ a.2 < b.2) := by
  unfold cmpPt
  rcases lt_trichotomy a.1 b.1 with h | h | h
  · simp [cmpQ_of_lt h, h]
  · rw [cmpQ_eq_zero.mpr h]
    rcases lt_trichotomy a.2 b.2 with k | k | k
    · simp [cmpQ_of_lt k, h, k]
    · have z := cmpQ_eq_zero.mpr k; simp [z, h, k]; rw [k] at z; simp [z]
    · simp [cmpQ_of_gt k, h, k.le]
  · simp [cmpQ_of_gt h, h.not_gt, h.ne']

theorem cmpPt_trans {a b c : Pt} (h1 : cmpPt a b < 0) (h2 : cmpPt b c < 0) : cmpPt a c < 0 := by
  rw [cmpPt_neg] at *
  rcases h1 with h1 | ⟨h1, h1'⟩ <;> rcases h2 with h2 | ⟨h2, h2'⟩
  · exact Or.inl (h1.trans h2)
  · exact Or.inl (h2 ▸ h1)
  · exact Or.inl (h1 ▸ h2)
  · exact Or.inr ⟨h1.trans h2, h1'.trans h2'⟩

/-! rounding -/

theorem half_iff (n d : Nat) : n ≥ d / 2 + d % 2 ↔ d ≤ 2 * n := by omega

theorem round_eq (x : Dimif) (hx : x.Valid) (hi : I32 x.i) :
    (x.i = 2147483647 ∧ x.d ≤ 2 * x.n → round x = none) ∧
    (¬ (x.i = 2147483647 ∧ x.d ≤ 2 * x.n) → round x = some ⌊x.val + 1 / 2⌋) := by
  have f := frac_lt_one hx
  have hd : (0 : ℚ) < x.d := by exact_mod_cast hx.dpos
  unfold I32 at hi
  unfold round
  simp only [half_iff]
  constructor
  · rintro ⟨h1, h2⟩
    rw [if_pos h2]; unfold dimAdd chk32
    rw [if_neg]; unfold I32; omega
  · intro h
    by_cases h2 : x.d ≤ 2 * x.n
    · rw [if_pos h2]
      have : ⌊x.val + 1 / 2⌋ = x.i + 1 := by
        rw [Int.floor_eq_iff]
        have : (1:ℚ)/2 ≤ (x.n : ℚ) / x.d := by
          rw [le_div_iff₀ hd]
          have : (x.d : ℚ) ≤ 2 * x.n := by exact_mod_cast h2
          linarith
        unfold Dimif.val; push_cast
        constructor <;> linarith
      rw [this]
      exact chk32_some (by unfold I32; omega)
    · rw [if_neg h2]
      have : ⌊x.val + 1 / 2⌋ = x.i := by
        rw [Int.floor_eq_iff]
        have : (x.n : ℚ) / x.d < 1/2 := by
          rw [div_lt_iff₀ hd]
          have : (2 * x.n : ℚ) < x.d := by exact_mod_cast not_le.mp h2
          linarith
        unfold Dimif.val
        constructor <;> linarith
      rw [this]

theorem divwRnd_pos (x d : Int) (hx : I64 x) (hd : I64 d) (h : 0 < d) :
    divwRnd x d = some ⌊(x : ℚ) / d + 1 / 2⌋ := by
  unfold divwRnd
  rw [divmodw_pos x d hx hd h]
  simp only [Option.bind_eq_bind, Option.bind_some]
  have hdm := Int.mul_ediv_add_emod x d
  have h0 := Int.emod_nonneg x (show d ≠ 0 by omega)
  have h1 := Int.emod_lt_of_pos x h
  have ht : d.tdiv 2 = d / 2 := Int.tdiv_eq_ediv_of_nonneg h.le
  rw [ht]
  have hdq : (0 : ℚ) < d := by exact_mod_cast h
  have hq : (x : ℚ) / d = (x / d : Int) + (x % d : Int) / (d : ℚ) := by
    rw [div_eq_iff hdq.ne', add_mul, div_mul_cancel₀ _ hdq.ne']
    rw [mul_comm]; exact_mod_cast hdm.symm
  generalize x % d = r at *
  generalize hqq : x / d = q at *
  by_cases hr : r ≥ d / 2 + d % 2
  · rw [if_pos hr]
    have hq2 : -4611686018427387904 ≤ q ∧ q ≤ 4611686018427387904 := by
      have : 2 ≤ d := by omega
      unfold I64 at hx
      constructor <;> nlinarith
    rw [chk64_some (by unfold I64; omega)]
    congr 1
    symm
    rw [Int.floor_eq_iff, hq]
    have : (1:ℚ)/2 ≤ (r : ℚ) / d := by
      rw [le_div_iff₀ hdq]
      have : (d : ℚ) ≤ 2 * r := by exact_mod_cast (show d ≤ 2 * r by omega)
      linarith
    have h3 : (r : ℚ) / d < 1 := by rw [div_lt_one hdq]; exact_mod_cast h1
    push_cast
    constructor <;> linarith
  · rw [if_neg hr]
    simp only [Option.pure_def]
    congr 1
    symm
    rw [Int.floor_eq_iff, hq]
    have : (r : ℚ) / d < 1 / 2 := by
      rw [div_lt_iff₀ hdq]
      have : (2 * r : ℚ) < d := by exact_mod_cast (show 2 * r < d by omega)
      linarith
    have h3 : (0:ℚ) ≤ (r : ℚ) / d := div_nonneg (by exact_mod_cast h0) hdq.le
    constructor <;> linarith

theorem divmodx_eq (x d : Int) (hx : I64 x) (hd : I32 d) :
    divmodx x d = if I32 x then divmod x d else none := by
  unfold divmodx divmod divmodG
  by_cases hd0 : d = 0
  · simp [hd0]
  obtain ⟨f1, f2, f3, f4⟩ := tdiv_tmod_facts x d hd0
  have hr32 : I32 (x.tmod d) := by unfold I32 at *; omega
  have hqx : (x.tdiv d).natAbs ≤ x.natAbs := by
    rw [Int.natAbs_tdiv]; exact Nat.div_le_self _ _
  have hpx : (x.tdiv d * d).natAbs ≤ x.natAbs := by
    rw [Int.natAbs_mul, Int.natAbs_tdiv]; exact Nat.div_mul_le_self _ _
  have hrx : (x.tmod d).natAbs ≤ x.natAbs := by
    rw [Int.natAbs_tmod]; exact Nat.mod_le _ _
  have hsgn : (0 ≤ x → 0 ≤ x.tdiv d * d) ∧ (x ≤ 0 → x.tdiv d * d ≤ 0) := by
    constructor
    · intro h; have := f2 h; omega
    · intro h; have := f3 h; omega
  by_cases hx32 : I32 x
  · have e64 : chk64 (x.tdiv d) = some (x.tdiv d) := chk64_some (by unfold I32 at *; unfold I64; omega)
    by_cases hq : I32 (x.tdiv d)
    · have ep : chk32 (x.tdiv d * d) = some (x.tdiv d * d) := by
        refine chk32_some ?_
        unfold I32 at *
        rcases le_total 0 x with h | h
        · have := hsgn.1 h; omega
        · have := hsgn.2 h; omega
      have es : chk32 (x.tmod d + x.tdiv d * d) = some x := by
        rw [show x.tmod d + x.tdiv d * d = x by omega]; exact chk32_some hx32
      simp only [hd0, if_false, e64, Option.bind_eq_bind, Option.bind_some, cast32_id hq, cast32_id hr32, ep, es,
        hx32, if_true, chk32_some hq, ne_eq, not_true_eq_false, Option.pure_def]
    · have hq' : x.tdiv d = 2147483648 := by
        unfold I32 at *; omega
      have hq1 : d = -1 := by
        have := hpx
        rw [hq'] at this f1
        unfold I32 at *
        have hx0 : x.natAbs ≤ 2147483648 := by omega
        have : d.natAbs ≤ 1 := by
          rw [Int.natAbs_mul] at this
          by_contra hc
          have : 2 ≤ d.natAbs := by omega
          have h2 : (2147483648 : Int).natAbs * 2 ≤ (2147483648 : Int).natAbs * d.natAbs := Nat.mul_le_mul_left _ this
          norm_num at h2 this
          omega
        omega
      have ec : cast32 (2147483648 : Int) = -2147483648 := by decide
      have ex : chk32 (x.tdiv d) = none := by unfold chk32; rw [if_neg hq]
      have ep : chk32 (-2147483648 * d) = none := by rw [hq1]; decide
      rw [ex, e64, hq']
      simp only [hd0, if_false, Option.bind_eq_bind, Option.bind_some, ec, ep, hx32, if_true, Option.bind_none]
  · rw [if_neg hx32]
    simp only [hd0, if_false, Option.bind_eq_bind]
    cases h1 : chk64 (x.tdiv d) with
    | none => rfl
    | some q64 =>
      simp only [Option.bind_some]
      cases h2 : chk32 (cast32 q64 * d) with
      | none => rfl
      | some p =>
        simp only [Option.bind_some]
        cases h3 : chk32 (cast32 (x.tmod d) + p) with
        | none => rfl
        | some s =>
          rw [chk32_eq] at h3
          have : s ≠ x := by
            rintro rfl; rw [← h3.2] at h3; exact hx32 h3.1
          simp [this]

end Hob3l.Matq
