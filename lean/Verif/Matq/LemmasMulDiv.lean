/- Helper lemmas: `cq_dimif_mul_div_nww`, `cq_round`. -/
import Verif.Matq.LemmasKnuth

namespace Hob3l.Matq

theorem udimAbs_spec (x : Int) (h : -2147483647 ≤ x ∧ x ≤ 2147483647) : udimAbs x = some x.natAbs := by
  unfold udimAbs
  by_cases hx : x < 0
  · have : dimSub 0 x = some (0 - x) := chk32_some (by unfold I32; omega)
    simp only [hx, if_true, this]
    simp only [Option.pure_def, Option.bind_eq_bind, Option.bind_some, Option.some.injEq]; omega
  · simp only [hx, if_false]
    simp only [Option.pure_def, Option.bind_eq_bind, Option.bind_some, Option.some.injEq]; omega

theorem udimwAbs_spec (x : Int) (h : -9223372036854775807 ≤ x ∧ x ≤ 9223372036854775807) :
    udimwAbs x = some x.natAbs := by
  unfold udimwAbs dimwNeg
  by_cases hx : x < 0
  · have : dimwSub 0 x = some (0 - x) := chk64_some (by unfold I64; omega)
    simp only [hx, if_true, this]
    simp only [Option.pure_def, Option.bind_eq_bind, Option.bind_some, Option.some.injEq]; omega
  · simp only [hx, if_false]
    simp only [Option.pure_def, Option.bind_eq_bind, Option.bind_some, Option.some.injEq]; omega

theorem cast32_id {x : Int} (h : I32 x) : cast32 x = x := by
  unfold cast32 I32 at *; omega

/-- unsigned core of `cq_dimif_mul_div_nww` -/
theorem mulDiv_core (x m d : Nat) (hx : x < W) (hm : m < d) (hd : d < W2) :
    ∃ w q re, udimeMulWn m x = w ∧ w.hi < d ∧ divEw w d = some q ∧ q = m * x / d ∧
      udimeSub w (udimeMulWn d q) = some re ∧ re.hi < W ∧
      (re.lo + (re.hi * W) % W2) % W2 = m * x % d := by
  have hmW : m < W2 := by omega
  obtain ⟨h1, h2, h3⟩ := udimeMulWn_spec m x hmW hx
  have hdp : 0 < d := by omega
  have hwhi : (udimeMulWn m x).hi < d := by
    rw [h1, Nat.div_lt_iff_lt_mul W_pos]
    exact Nat.mul_lt_mul'' hm hx
  have hval : (udimeMulWn m x).hi * W + (udimeMulWn m x).lo = m * x := by
    rw [h1, h2]; exact (split_W _).symm
  have hq := divEw_spec (udimeMulWn m x) d (by rw [h2]; exact Nat.mod_lt _ W_pos) hd hwhi
  rw [hval] at hq
  have hqW : m * x / d < W := by
    rw [Nat.div_lt_iff_lt_mul hdp, Nat.mul_comm W]; exact Nat.mul_lt_mul'' hm hx
  obtain ⟨g1, g2, g3⟩ := udimeMulWn_spec d (m * x / d) hd hqW
  have hval2 : (udimeMulWn d (m * x / d)).val = d * (m * x / d) := by
    unfold Udime.val; rw [g1, g2]; exact (split_W _).symm
  obtain ⟨re, hre, hreval, hrelo⟩ := udimeSub_spec (udimeMulWn m x) (udimeMulWn d (m * x / d))
    (by rw [h2]; exact Nat.mod_lt _ W_pos) (by rw [g2]; exact Nat.mod_lt _ W_pos)
    (by rw [hval2]; unfold Udime.val; rw [hval]; exact Nat.mul_div_le _ _)
  have hrv : re.hi * W + re.lo = m * x % d := by
    have : re.val = m * x % d := by
      rw [hreval, hval2]; unfold Udime.val; rw [hval]
      have := Nat.div_add_mod (m * x) d; omega
    exact this
  have hmd := Nat.mod_lt (m * x) hdp
  refine ⟨_, _, re, rfl, hwhi, hq, rfl, hre, ?_, ?_⟩
  · simp only [W, W2] at *; omega
  · rw [Nat.mod_eq_of_lt (show re.hi * W < W2 by omega), Nat.mod_eq_of_lt (by omega)]; omega

theorem ass_true {c : Prop} [Decidable c] (h : c) : ass c = some () := by simp [ass, h]

theorem sign_lemma (sx sm sd : Int) : sx * sm * |sd| =
    (if ((decide (sx < 0) ^^ decide (sm < 0)) ^^ decide (sd < 0)) then -1 else 1) * (|sm| * |sx|) * sd := by
  rcases lt_or_ge sx 0 with a | a <;> rcases lt_or_ge sm 0 with b | b <;>
    rcases lt_or_ge sd 0 with c | c <;>
    simp only [a, b, c, abs_of_neg, abs_of_nonneg, not_lt.mpr, decide_true, decide_false,
      Bool.xor_true, Bool.xor_false, Bool.not_true, Bool.not_false, if_true, if_false,
      Bool.false_eq_true] <;> ring

theorem mulDivNww_spec (sx sm sd : Int) (hx : -2147483647 ≤ sx ∧ sx ≤ 2147483647)
    (hd : -9223372036854775807 ≤ sd ∧ sd ≤ 9223372036854775807)
    (hm0 : sm ≠ 0) (hmd : sm.natAbs < sd.natAbs) :
    ∃ r, mulDivNww sx sm sd = some r ∧ r.d = sd.natAbs ∧ r.n < r.d ∧
      (r.i * r.d + r.n) * sd = sx * sm * r.d ∧
      -(sx.natAbs : Int) ≤ r.i ∧ r.i ≤ sx.natAbs := by
  have hxa := udimAbs_spec sx hx
  have hma := udimwAbs_spec sm (by omega)
  have hda := udimwAbs_spec sd hd
  obtain ⟨w, q, re, hw, hwd, hq, hqv, hre, hreW, hr⟩ :=
    mulDiv_core sx.natAbs sm.natAbs sd.natAbs (by simp only [W]; omega) hmd (by simp only [W2]; omega)
  have hdp : 0 < sd.natAbs := lt_of_le_of_lt (Nat.zero_le _) hmd
  have hqx : q ≤ sx.natAbs := by
    clear hr hreW
    rw [hqv]
    apply Nat.div_le_of_le_mul
    exact Nat.mul_le_mul_right _ hmd.le
  have hqx' : q + 1 ≤ sx.natAbs ∨ (q = 0 ∧ sx.natAbs = 0) := by
    clear hr hreW
    by_cases h0 : sx.natAbs = 0
    · right; omega
    · left
      have : sm.natAbs * sx.natAbs / sd.natAbs < sx.natAbs := by
        rw [Nat.div_lt_iff_lt_mul hdp, Nat.mul_comm sx.natAbs]
        exact Nat.mul_lt_mul_of_pos_right hmd (by omega)
      omega
  have hsq : cast32 (q : Int) = q := cast32_id (by clear hr hreW; unfold I32; omega)
  have hne : sm ≠ sd := by intro h; subst h; exact absurd hmd (lt_irrefl _)
  have hmp : 0 < sm.natAbs := by clear hr hreW; omega
  have hrlt := Nat.mod_lt (sm.natAbs * sx.natAbs) hdp
  have hdm := Nat.div_add_mod (sm.natAbs * sx.natAbs) sd.natAbs
  rw [← hqv] at hdm
  generalize hR : sm.natAbs * sx.natAbs % sd.natAbs = R at *
  -- exact value
  have habs : ((q : Int) * (sd.natAbs : Int) + R) = |sm| * |sx| := by
    rw [Int.abs_eq_natAbs, Int.abs_eq_natAbs]
    rw [Nat.mul_comm] at hdm
    exact_mod_cast hdm
  generalize hneg : ((decide (sx < 0) ^^ decide (sm < 0)) ^^ decide (sd < 0)) = neg at *
  have hsign : sx * sm * |sd| = (if neg then -1 else 1) * (|sm| * |sx|) * sd := by
    subst hneg; exact sign_lemma sx sm sd
  have hda' : (sd.natAbs : Int) = |sd| := (Int.abs_eq_natAbs sd).symm
  have hmain : ∀ sq r, mulDivSign neg q R sd.natAbs = some (sq, r) → r < sd.natAbs →
      mulDivNww sx sm sd = some ⟨sq, r, sd.natAbs⟩ := by
    intro sq r h1 h2
    unfold mulDivNww
    have e1 : ass (sm ≠ sd) = some () := ass_true hne
    have e2 : ass (sm.natAbs > 0) = some () := ass_true hmp
    have e3 : ass (sm.natAbs < sd.natAbs) = some () := ass_true hmd
    have e4 : ass (w.hi < sd.natAbs) = some () := ass_true hwd
    have e5 : ass (re.hi < W) = some () := ass_true hreW
    have e6 : ass (R < sd.natAbs) = some () := ass_true hrlt
    have e7 : ass ((q : Int) ≥ 0) = some () := ass_true (Int.natCast_nonneg _)
    have e8 : ass (r < sd.natAbs) = some () := ass_true h2
    simp only [hneg, hxa, hma, hda, Option.bind_eq_bind, Option.bind_some, hw, hq, hre, hr, hsq,
      e1, e2, e3, e4, e5, e6, e7, h1, e8, Option.pure_def]
  clear hr hreW hre
  by_cases hn : neg = true
  · by_cases hR0 : R = 0
    · refine ⟨⟨-(q : Int), 0, sd.natAbs⟩, hmain _ _ ?_ hdp, rfl, hdp, ?_, ?_, ?_⟩
      · have c1 : chk32 (-(q : Int)) = some (-(q : Int)) := chk32_some (by unfold I32; omega)
        simp [mulDivSign, hn, hR0, c1]
      · simp only [hda', hsign, hn, if_true, ← habs, hR0]; push_cast; ring
      · simp only; omega
      · simp only; omega
    · refine ⟨⟨-(q : Int) - 1, sd.natAbs - R, sd.natAbs⟩, hmain _ _ ?_ (by omega), rfl, by simp only; omega, ?_, ?_, ?_⟩
      · have c1 : chk32 (-(q : Int)) = some (-(q : Int)) := chk32_some (by unfold I32; omega)
        have c2 : chk32 (-(q : Int) - 1) = some (-(q : Int) - 1) := chk32_some (by unfold I32; omega)
        simp [mulDivSign, hn, hR0, c1, c2]
      · have e : ((sd.natAbs - R : Nat) : Int) = |sd| - R := by
          rw [← hda']; push_cast [Nat.cast_sub hrlt.le]; rfl
        simp only [hda', hsign, hn, if_true, ← habs, e]; ring
      · simp only
        rcases hqx' with h | ⟨h1, h2⟩
        · omega
        · exfalso; rw [h2] at hR; simp at hR; omega
      · simp only; omega
  · refine ⟨⟨(q : Int), R, sd.natAbs⟩, hmain _ _ ?_ hrlt, rfl, hrlt, ?_, ?_, ?_⟩
    · simp [mulDivSign, hn]
    · simp only [hda', hsign, hn, if_false, ← habs, Bool.false_eq_true]; ring
    · simp only; omega
    · simp only; omega

end Hob3l.Matq
