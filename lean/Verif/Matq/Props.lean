/-
Property theorems C01-C13: exact integer geometry (matq.c, matq.h).
-/
import Verif.Matq.LemmasOrder
import Verif.Matq.LemmasEdge

namespace Hob3l.Matq

/-! ## C01 Euclidean division -/

/-- C01 (32 bit): for every pair of ints the division is defined unless `d = 0` or the quotient
overflows, and then it is the Euclidean division. -/
theorem C01_divmod (x d : Int) (hx : I32 x) (hd : I32 d) :
    (d = 0 ∨ (x = -2147483648 ∧ d = -1) → divmod x d = none) ∧
    (¬ (d = 0 ∨ (x = -2147483648 ∧ d = -1)) →
      ∃ q r, divmod x d = some ⟨q, r⟩ ∧ x = q * d + r ∧ 0 ≤ r ∧ r < |d|) := by
  constructor
  · intro h
    cases hc : divmod x d with
    | none => rfl
    | some v =>
      obtain ⟨q, r⟩ := v
      have := (divmod_spec x d hx hd q r).mp hc
      rcases h with h | h
      · exact absurd h this.1
      · exact absurd h this.2.1
  · intro h
    push Not at h
    have e : divmod x d = some ⟨x / d, x % d⟩ := by
      rw [divmod_spec x d hx hd]
      refine ⟨h.1, fun hh => h.2 hh.1 hh.2, ?_, Int.emod_nonneg _ h.1, Int.emod_lt_abs _ h.1⟩
      have := Int.mul_ediv_add_emod x d; rw [Int.mul_comm] at this; exact this.symm
    refine ⟨_, _, e, ?_, Int.emod_nonneg _ h.1, Int.emod_lt_abs _ h.1⟩
    have := Int.mul_ediv_add_emod x d; rw [Int.mul_comm] at this; exact this.symm

/-- C01 (64 bit) -/
theorem C01_divmodw (x d : Int) (hx : I64 x) (hd : I64 d) :
    (d = 0 ∨ (x = -9223372036854775808 ∧ d = -1) → divmodw x d = none) ∧
    (¬ (d = 0 ∨ (x = -9223372036854775808 ∧ d = -1)) →
      ∃ q r, divmodw x d = some ⟨q, r⟩ ∧ x = q * d + r ∧ 0 ≤ r ∧ r < |d|) := by
  constructor
  · intro h
    cases hc : divmodw x d with
    | none => rfl
    | some v =>
      obtain ⟨q, r⟩ := v
      have := (divmodw_spec x d hx hd q r).mp hc
      rcases h with h | h
      · exact absurd h this.1
      · exact absurd h this.2.1
  · intro h
    push Not at h
    have e : divmodw x d = some ⟨x / d, x % d⟩ := by
      rw [divmodw_spec x d hx hd]
      refine ⟨h.1, fun hh => h.2 hh.1 hh.2, ?_, Int.emod_nonneg _ h.1, Int.emod_lt_abs _ h.1⟩
      have := Int.mul_ediv_add_emod x d; rw [Int.mul_comm] at this; exact this.symm
    refine ⟨_, _, e, ?_, Int.emod_nonneg _ h.1, Int.emod_lt_abs _ h.1⟩
    have := Int.mul_ediv_add_emod x d; rw [Int.mul_comm] at this; exact this.symm

example : I32 (-7) ∧ I32 (-2) ∧ divmod (-7) (-2) = some ⟨4, 1⟩ := by decide
example : I64 (-7000000000) ∧ I64 2 ∧ divmodw (-7000000001) 2 = some ⟨-3500000001, 1⟩ := by decide
example : divmod (-2147483648) (-1) = none := by decide

/-! ## C02 wide multiplication -/

/-- C02: the result words denote the exact product, and no carry assertion fires. -/
theorem C02_mul_exact (a b : Nat) (ha : a < 18446744073709551616) (hb : b < 18446744073709551616) :
    ∃ h l, udimwMulAux a b = some (h, l) ∧ h * 18446744073709551616 + l = a * b ∧
      h < 18446744073709551616 ∧ l < 18446744073709551616 := by
  refine ⟨_, _, udimwMulAux_eq ha hb, ?_, ?_, Nat.mod_lt _ (by decide)⟩
  · have := Nat.div_add_mod (a * b) W2
    rw [Nat.mul_comm] at this; exact this
  · exact Nat.div_lt_of_lt_mul (Nat.mul_lt_mul'' ha hb)

example : udimwMulAux 18446744073709551615 18446744073709551615
    = some (18446744073709551614, 1) := by decide

/-! ## C03 comparing fractions -/

/-- C03: both compile-time variants compare the rational values. -/
theorem C03_frac_cmp (a b : Dimif) (ha : a.n < 18446744073709551616) (ha' : a.d < 18446744073709551616)
    (hb : b.n < 18446744073709551616) (hb' : b.d < 18446744073709551616) (pa : 0 < a.d) (pb : 0 < b.d) :
    cmpFracAux a b = some (cmpQ ((a.n : ℚ) / a.d) ((b.n : ℚ) / b.d)) ∧
    cmpFracQ a b = cmpQ ((a.n : ℚ) / a.d) ((b.n : ℚ) / b.d) := by
  have e : cpCmp (a.n * b.d) (a.d * b.n) = cmpQ ((a.n : ℚ) / a.d) ((b.n : ℚ) / b.d) := by
    have hda : (0 : ℚ) < a.d := by exact_mod_cast pa
    have hdb : (0 : ℚ) < b.d := by exact_mod_cast pb
    unfold cpCmp
    rcases lt_trichotomy (a.n * b.d) (a.d * b.n) with h | h | h
    · rw [if_pos h, cmpQ_of_lt]
      rw [div_lt_div_iff₀ hda hdb]
      rw [Nat.mul_comm a.d] at h; exact_mod_cast h
    · rw [if_neg (by omega), if_neg (by omega), cmpQ_eq_zero.mpr]
      rw [div_eq_div_iff hda.ne' hdb.ne']
      rw [Nat.mul_comm a.d] at h; exact_mod_cast h
    · rw [if_neg (by omega), if_pos h, cmpQ_of_gt]
      rw [div_lt_div_iff₀ hdb hda]
      rw [Nat.mul_comm a.d] at h; exact_mod_cast h
  rw [cmpFracAux_eq a b ha ha' hb hb' pa pb, cmpFracQ_eq a b ha ha' hb hb', e]
  exact ⟨rfl, rfl⟩

/-- C03 for mixed numbers (both variants) -/
theorem C03_mixed_cmp (a b : Dimif) (ha : a.Valid) (hb : b.Valid) :
    dimifCmpAux a b = some (cmpQ a.val b.val) ∧ dimifCmp a b = cmpQ a.val b.val :=
  ⟨dimifCmpAux_eq a b ha hb, dimifCmp_eq a b ha hb⟩

example : (⟨-1, 2, 3⟩ : Dimif).Valid ∧ (⟨-1, 3, 5⟩ : Dimif).Valid ∧
    dimifCmpAux ⟨-1, 2, 3⟩ ⟨-1, 3, 5⟩ = some 1 := by
  refine ⟨by unfold Dimif.Valid; decide, by unfold Dimif.Valid; decide, by decide⟩

/-! ## C04 the order on exact points -/

/-- C04: the comparison is the lexicographic order of the denoted rational points. -/
theorem C04_cmp_values (a b : Vec2if) (ha : a.Valid) (hb : b.Valid) :
    vec2ifCmp a b = cmpPt a.pt b.pt := vec2ifCmp_eq a b ha hb

/-- C04: it is a total order on denoted points. -/
theorem C04_total_order (a b c : Vec2if) (ha : a.Valid) (hb : b.Valid) (hc : c.Valid) :
    vec2ifCmp b a = -vec2ifCmp a b ∧ (vec2ifCmp a b = 0 ↔ a.pt = b.pt) ∧
    (vec2ifCmp a b < 0 → vec2ifCmp b c < 0 → vec2ifCmp a c < 0) := by
  rw [vec2ifCmp_eq a b ha hb, vec2ifCmp_eq b a hb ha, vec2ifCmp_eq b c hb hc, vec2ifCmp_eq a c ha hc]
  exact ⟨cmpPt_swap _ _, cmpPt_eq_zero, cmpPt_trans⟩

/-- C04: grid point against exact point -/
theorem C04_grid_cmp (a : Vec2) (b : Vec2if) (hb : b.Valid) :
    vec2Vec2ifCmp a b = cmpPt a.pt b.pt ∧ dimDimifCmp a.x b.x = cmpQ a.x b.x.val :=
  ⟨vec2Vec2ifCmp_eq a b hb, dimDimifCmp_eq _ _ hb.1⟩

example : let a : Vec2if := ⟨⟨0, 1, 2⟩, ⟨0, 0, 1⟩⟩
    let b : Vec2if := ⟨⟨0, 2, 4⟩, ⟨0, 1, 7⟩⟩
    a.Valid ∧ b.Valid ∧ vec2ifCmp a b = -1 := by
  refine ⟨⟨?_, ?_⟩, ⟨?_, ?_⟩, by decide⟩ <;> unfold Dimif.Valid <;> decide

/-! ## C05 96/64 division -/

/-- C05: quotient and remainder are exact (`hi*2^32 + lo` is the numerator). -/
theorem C05_div_exact (u : Udime) (v : Nat) (hlo : u.lo < 4294967296) (hv : v < 18446744073709551616)
    (hu : u.hi < v) :
    ∃ q, divEw u v = some q ∧ q < 4294967296 ∧
      q * v ≤ u.hi * 4294967296 + u.lo ∧ u.hi * 4294967296 + u.lo < (q + 1) * v := by
  have hv0 : 0 < v := lt_of_le_of_lt (Nat.zero_le _) hu
  refine ⟨_, divEw_spec u v hlo hv hu, ?_, ?_, ?_⟩
  · rw [Nat.div_lt_iff_lt_mul hv0]
    show u.hi * 4294967296 + u.lo < _
    omega
  · exact Nat.div_mul_le_self _ _
  · exact Nat.lt_succ_mul_of_div_lt hv0
where
  Nat.lt_succ_mul_of_div_lt {n v : Nat} (h : 0 < v) : n < (n / v + 1) * v := by
    have := Nat.div_add_mod n v
    have := Nat.mod_lt n h
    rw [Nat.add_mul, Nat.mul_comm (n / v)]; omega

/-- C05: outside the domain (quotient does not fit) the routine stops instead of returning. -/
theorem C05_domain (u : Udime) (v : Nat) (h : v ≤ u.hi) : divEw u v = none := by
  unfold divEw
  by_cases h0 : v = 0
  · simp [h0]
  · simp [h0, h]

example : divEw ⟨9223372036854775807, 4294967295⟩ 9223372036854775808 = some 4294967295 := by decide
example : divEw ⟨4294967294, 4294967295⟩ 4294967295 = some 4294967295 := by decide

/-! ## C06 x*m/d -/

/-- C06: the result denotes exactly `sx*sm/sd`, as floor plus proper fraction. -/
theorem C06_mul_div (sx sm sd : Int) (hx : -2147483647 ≤ sx ∧ sx ≤ 2147483647)
    (hd : -9223372036854775807 ≤ sd ∧ sd ≤ 9223372036854775807)
    (hm0 : sm ≠ 0) (hmd : |sm| < |sd|) :
    ∃ r, mulDivNww sx sm sd = some r ∧ r.Proper ∧ r.val = (sx : ℚ) * sm / sd ∧
      r.i = ⌊(sx : ℚ) * sm / sd⌋ := by
  rw [Int.abs_eq_natAbs, Int.abs_eq_natAbs] at hmd
  obtain ⟨r, h1, h2, h3, h4, -⟩ := mulDivNww_spec sx sm sd hx hd hm0 (by exact_mod_cast hmd)
  have hdp : (0 : ℚ) < r.d := by exact_mod_cast lt_of_le_of_lt (Nat.zero_le _) h3
  have hsd : (sd : ℚ) ≠ 0 := by
    have : sd ≠ 0 := by rintro rfl; simp at hmd; exact absurd hmd (not_lt.mpr (abs_nonneg _))
    exact_mod_cast this
  have hv : r.val = (sx : ℚ) * sm / sd := by
    unfold Dimif.val
    have h4' : ((r.i : ℚ) * r.d + r.n) * sd = sx * sm * r.d := by exact_mod_cast h4
    field_simp
    linear_combination h4'
  refine ⟨r, h1, h3, hv, ?_⟩
  rw [← hv]
  symm
  rw [Int.floor_eq_iff]
  have f1 : 0 ≤ (r.n : ℚ) / r.d := by positivity
  have f2 : (r.n : ℚ) / r.d < 1 := by rw [div_lt_one hdp]; exact_mod_cast h3
  unfold Dimif.val
  constructor <;> linarith

example : mulDivNww (-7) 2 5 = some ⟨-3, 1, 5⟩ ∧ mulDivNww 7 (-2) (-5) = some ⟨2, 4, 5⟩ := by decide

/-! ## C07-C09 intersection -/

/-- C07: the sign of the return code classifies the pair of segments exactly, and the end point
bits say exactly which end points are the common point. -/
theorem C07_classification (debug : Bool) (p1 p2 p3 p4 : Vec2)
    (h1 : p1.InRange) (h2 : p2.InRange) (h3 : p3.InRange) (h4 : p4.InRange) :
    ∃ code pt, intersect debug p1 p2 p3 p4 = some (code, pt) ∧
      (code < 0 ↔ Parallel p1.pt p2.pt p3.pt p4.pt) ∧
      (code = 0 ↔ ¬ Parallel p1.pt p2.pt p3.pt p4.pt ∧
        ¬ ∃ X, OnSeg p1.pt p2.pt X ∧ OnSeg p3.pt p4.pt X) ∧
      (0 < code → ∃ X, (∀ Y, (OnSeg p1.pt p2.pt Y ∧ OnSeg p3.pt p4.pt Y) ↔ Y = X) ∧
        code = 1 + (if X = p1.pt then 2 else 0) + (if X = p2.pt then 4 else 0)
            + (if X = p3.pt then 8 else 0) + (if X = p4.pt then 16 else 0)) := by
  obtain ⟨code, pt, hres, hc⟩ := intersect_main debug p1 p2 p3 p4 h1 h2 h3 h4
  refine ⟨code, pt, hres, ?_⟩
  rcases hc with ⟨rfl, -, hp⟩ | ⟨rfl, -, hp, hn⟩ | ⟨hp, P, -, -, hX, hcode⟩
  · exact ⟨by simp [hp], by simp [hp], by intro h; omega⟩
  · refine ⟨by simp [hp], ?_, by intro h; omega⟩
    simp only [true_iff]; exact ⟨hp, hn⟩
  · have hpos : 0 < code := by rw [hcode]; split_ifs <;> norm_num
    refine ⟨?_, ?_, fun _ => ⟨P.pt, hX, hcode⟩⟩
    · simp only [hp, iff_false]; omega
    · constructor
      · intro h; omega
      · rintro ⟨-, hn⟩; exact absurd ⟨P.pt, (hX P.pt).mpr rfl⟩ hn

/-- C08: with a positive code a point is returned, its fractions are proper, and it denotes exactly
the unique common point of the two segments. -/
theorem C08_exact_point (debug : Bool) (p1 p2 p3 p4 : Vec2)
    (h1 : p1.InRange) (h2 : p2.InRange) (h3 : p3.InRange) (h4 : p4.InRange)
    (code : Int) (pt : Option Vec2if) (hres : intersect debug p1 p2 p3 p4 = some (code, pt)) (hpos : 0 < code) :
    ∃ P, pt = some P ∧ P.Valid ∧
      ∀ X, (OnSeg p1.pt p2.pt X ∧ OnSeg p3.pt p4.pt X) ↔ X = P.pt := by
  obtain ⟨code', pt', hres', hc⟩ := intersect_main debug p1 p2 p3 p4 h1 h2 h3 h4
  rw [hres] at hres'
  obtain ⟨rfl, rfl⟩ : code = code' ∧ pt = pt' := by simpa using hres'
  rcases hc with ⟨rfl, -, hp⟩ | ⟨rfl, -, hp, hn⟩ | ⟨hp, P, h, h', hX, hcode⟩
  · omega
  · omega
  · exact ⟨P, h, h', hX⟩

/-- C09: in range, no overflow trap fires and no assertion fails (with or without `NDEBUG`), and
both builds return the same. -/
theorem C09_no_overflow (p1 p2 p3 p4 : Vec2)
    (h1 : p1.InRange) (h2 : p2.InRange) (h3 : p3.InRange) (h4 : p4.InRange) :
    (intersect true p1 p2 p3 p4).isSome ∧ intersect false p1 p2 p3 p4 = intersect true p1 p2 p3 p4 := by
  obtain ⟨code, pt, hres, hc⟩ := intersect_main true p1 p2 p3 p4 h1 h2 h3 h4
  refine ⟨by rw [hres]; rfl, ?_⟩
  have key : ∀ r, intersect true p1 p2 p3 p4 = some r → intersect false p1 p2 p3 p4 = some r := by
    obtain ⟨a1, a2, a3⟩ := intersect_unfold true p1 p2 p3 p4 h1.1 h1.2 h2.1 h2.2 h3.1 h3.2 h4.1 h4.2 _ _ _ rfl rfl rfl
    obtain ⟨b1, b2, b3⟩ := intersect_unfold false p1 p2 p3 p4 h1.1 h1.2 h2.1 h2.2 h3.1 h3.2 h4.1 h4.2 _ _ _ rfl rfl rfl
    generalize (p2.x - p1.x) * (p4.y - p3.y) - (p2.y - p1.y) * (p4.x - p3.x) = D at *
    generalize (p3.x - p1.x) * (p4.y - p3.y) - (p3.y - p1.y) * (p4.x - p3.x) = T at *
    generalize (p3.x - p1.x) * (p2.y - p1.y) - (p3.y - p1.y) * (p2.x - p1.x) = U at *
    intro r hr
    by_cases hD : D = 0
    · rw [b1 hD, ← a1 hD]; exact hr
    by_cases hin : In01 D T ∧ In01 D U
    · rw [b3 hD hin.1 hin.2]
      rw [a3 hD hin.1 hin.2] at hr
      unfold intersectCode at *
      split_ifs at * <;> try exact hr
      cases hq : intersectPoint true p1 p3 (p2.x - p1.x) (p2.y - p1.y) (p4.x - p3.x) (p4.y - p3.y) |T| |U| |D| with
      | none => rw [hq] at hr; simp at hr
      | some P =>
        have : intersectPoint false p1 p3 (p2.x - p1.x) (p2.y - p1.y) (p4.x - p3.x) (p4.y - p3.y) |T| |U| |D| = some P := by
          unfold intersectPoint at *
          simp only [Option.bind_eq_bind, Option.bind_eq_some_iff, if_true, Bool.false_eq_true, if_false] at hq ⊢
          obtain ⟨ix, q1, iy, q2, ixi, q3, iyi, q4, jx, -, jy, -, jxi, -, jyi, -, _, -, _, -, q5⟩ := hq
          exact ⟨ix, q1, iy, q2, ixi, q3, iyi, q4, q5⟩
        rw [this]; rw [hq] at hr; exact hr
    · rw [b2 hD hin, ← a2 hD hin]; exact hr
  rw [hres]; exact key _ hres

/-- The coordinate range of C07-C09 cannot be enlarged: with one more unit the difference of two
coordinates traps. -/
theorem C09_range_is_tight : intersect true ⟨-1073741824, 0⟩ ⟨1073741824, 0⟩ ⟨0, 0⟩ ⟨1, 1⟩ = none := by decide

example : (⟨-1073741824, 3⟩ : Vec2).InRange ∧ (⟨1073741823, 5⟩ : Vec2).InRange ∧
    intersect true ⟨0, 0⟩ ⟨3, 1⟩ ⟨0, 1⟩ ⟨2, -1⟩ = some (1, some ⟨⟨0, 6, 8⟩, ⟨0, 2, 8⟩⟩) ∧
    intersect true ⟨0, 0⟩ ⟨4, 4⟩ ⟨4, 4⟩ ⟨5, 0⟩ = some (1 + 4 + 8, some ⟨⟨4, 0, 1⟩, ⟨4, 0, 1⟩⟩) ∧
    intersect true ⟨0, 0⟩ ⟨4, 4⟩ ⟨5, 0⟩ ⟨9, 1⟩ = some (0, none) := by
  refine ⟨by unfold Vec2.InRange; decide, by unfold Vec2.InRange; decide, by decide, by decide, by decide⟩

/-! ## C10 rounding -/

/-- C10: rounding is `floor(value + 1/2)`; the only failure is the overflow of the result. -/
theorem C10_round (x : Dimif) (hx : x.Valid) (hi : I32 x.i) :
    round x = if I32 ⌊x.val + 1 / 2⌋ then some ⌊x.val + 1 / 2⌋ else none := by
  have h := round_eq x hx hi
  have f := frac_lt_one hx
  have hd : (0 : ℚ) < x.d := by exact_mod_cast hx.dpos
  by_cases hc : x.i = 2147483647 ∧ x.d ≤ 2 * x.n
  · rw [h.1 hc, if_neg]
    have : ⌊x.val + 1 / 2⌋ = 2147483648 := by
      rw [Int.floor_eq_iff]
      have : (1:ℚ)/2 ≤ (x.n : ℚ) / x.d := by
        rw [le_div_iff₀ hd]
        have : (x.d : ℚ) ≤ 2 * x.n := by exact_mod_cast hc.2
        linarith
      unfold Dimif.val; rw [hc.1]; push_cast
      constructor <;> linarith
    rw [this]; decide
  · rw [h.2 hc, if_pos]
    have h2 := h.2 hc
    unfold round at h2
    simp only [half_iff] at h2
    by_cases hh : x.d ≤ 2 * x.n
    · rw [if_pos hh] at h2
      unfold dimAdd at h2
      rw [chk32_eq] at h2
      rw [h2.2]; exact h2.1
    · rw [if_neg hh] at h2
      have := Option.some.inj h2
      rw [← this]; exact hi

/-- C10: rounding error at most one half, ties go up, and rounding is monotone. -/
theorem C10_round_props (x y : Dimif) (hx : x.Valid) (hy : y.Valid) (hix : I32 x.i) (hiy : I32 y.i) (a b : Int)
    (ha : round x = some a) (hb : round y = some b) :
    ((a : ℚ) - 1 / 2 ≤ x.val ∧ x.val < a + 1 / 2) ∧ (x.val ≤ y.val → a ≤ b) := by
  have e1 : a = ⌊x.val + 1 / 2⌋ := by
    rw [C10_round x hx hix] at ha; split_ifs at ha; exact (Option.some.inj ha).symm
  have e2 : b = ⌊y.val + 1 / 2⌋ := by
    rw [C10_round y hy hiy] at hb; split_ifs at hb; exact (Option.some.inj hb).symm
  subst e1; subst e2
  refine ⟨?_, fun h => Int.floor_le_floor (by linarith)⟩
  have f1 := Int.floor_le (x.val + 1 / 2)
  have f2 := Int.lt_floor_add_one (x.val + 1 / 2)
  constructor <;> linarith

example : round ⟨-3, 1, 2⟩ = some (-2) ∧ round ⟨-3, 1, 3⟩ = some (-3) ∧ round ⟨2147483647, 2, 3⟩ = none := by decide

/-! ## C11 rounded division -/

/-- C11: for positive divisors the result is always defined and is the nearest integer (ties up). -/
theorem C11_divw_rnd (x d : Int) (hx : I64 x) (hd : I64 d) (h : 0 < d) :
    ∃ q, divwRnd x d = some q ∧ (q : ℚ) - 1 / 2 ≤ (x : ℚ) / d ∧ (x : ℚ) / d < q + 1 / 2 := by
  refine ⟨_, divwRnd_pos x d hx hd h, ?_, ?_⟩
  · have := Int.floor_le ((x : ℚ) / d + 1 / 2); linarith
  · have := Int.lt_floor_add_one ((x : ℚ) / d + 1 / 2); linarith

/-- C11, code and claim disagree for negative divisors: `3 / -3` is returned as `0`. -/
theorem C11_negative_divisor_wrong : divwRnd 3 (-3) = some 0 := by decide

example : divwRnd (-7) 2 = some (-3) ∧ divwRnd 7 3 = some 2 := by decide

/-! ## C12 wide by narrow division -/

/-- C12 fails as stated: the quotient `2^32 / 4 = 2^30` fits, but the routine does not return it. -/
theorem C12_spurious_overflow :
    divmodx 4294967296 4 = none ∧ I32 (4294967296 / 4) := by decide

/-- C12, what holds: when the routine returns, the result is the exact Euclidean division, and it returns
exactly when the *dividend* (not just the quotient) fits the narrow type and the division is defined.
Missing from the full claim: results for dividends outside the narrow range. -/
theorem C12_divmodx_partial (x d : Int) (hx : I64 x) (hd : I32 d) :
    (∀ q r, divmodx x d = some ⟨q, r⟩ → x = q * d + r ∧ 0 ≤ r ∧ r < |d| ∧ I32 x) ∧
    ((divmodx x d).isSome ↔ I32 x ∧ d ≠ 0 ∧ ¬ (x = -2147483648 ∧ d = -1)) := by
  rw [divmodx_eq x d hx hd]
  by_cases h32 : I32 x
  · rw [if_pos h32]
    constructor
    · intro q r h
      have := (divmod_spec x d h32 hd q r).mp h
      exact ⟨this.2.2.1, this.2.2.2.1, this.2.2.2.2, h32⟩
    · have := C01_divmod x d h32 hd
      constructor
      · intro hs
        refine ⟨h32, ?_⟩
        by_contra hc
        rw [this.1 (by tauto)] at hs
        simp at hs
      · rintro ⟨-, h1, h2⟩
        obtain ⟨q, r, h, -⟩ := this.2 (by tauto)
        rw [h]; rfl
  · rw [if_neg h32]; simp [h32]

example : divmodx (-7) 2 = some ⟨-4, 1⟩ ∧ divmodx 2147483647 (-2147483648) = some ⟨0, 2147483647⟩ := by decide

/-! ## C13 pixel against edge -/

/-- C13: for an edge given left to right (`k` left of or above/below `l`), the comparison is 0 exactly
when the closed segment meets the half-open pixel of `v`; a non-zero result is the side of the line on which
`v` lies (either value being allowed when `v` is exactly on the line outside the segment). -/
theorem C13_pixel_edge (v l k : Vec2) (hv : v.InRange) (hl : l.InRange) (hk : k.InRange)
    (hdx : k.x ≤ l.x) (hne : k ≠ l) :
    ∃ r, cmpEdgeRnd v.x v.y l.x l.y k.x k.y = some r ∧
      (r = 0 ↔ ∃ X, OnSeg k.pt l.pt X ∧ InPixel v X) ∧
      (r ≠ 0 → (0 < side v l k → r = 1) ∧ (side v l k < 0 → r = -1) ∧ (r = 1 ∨ r = -1)) := by
  obtain ⟨r, h1, h2, h3, h4, h5⟩ := cmpEdgeRnd_main v l k hv hl hk hdx hne
  refine ⟨r, h1, h3, fun hr => ⟨fun h => ?_, fun h => ?_, by omega⟩⟩
  · rcases h2 with h2 | h2 | h2
    · have := h5 h2; omega
    · exact absurd h2 hr
    · exact h2
  · rcases h2 with h2 | h2 | h2
    · exact h2
    · exact absurd h2 hr
    · have := h4 h2; omega

/-- The restriction to left-to-right edges in C13 is needed: with the end points swapped, the edge
from (1,-1) to (-1,1) passes through the centre of the pixel (0,0) but is reported on one side. -/
theorem C13_orientation_needed :
    cmpEdgeRnd 0 0 (-1) 1 1 (-1) = some 1 ∧ cmpEdgeRnd 0 0 1 (-1) (-1) 1 = some 0 := by decide

example : (⟨1, 1⟩ : Vec2).InRange ∧ cmpEdgeRnd 1 2 4 2 0 0 = some 1 ∧ cmpEdgeRnd 1 0 4 2 0 0 = some 0 ∧
    cmpEdgeRnd 2 1 4 2 0 0 = some 0 := by
  refine ⟨by unfold Vec2.InRange; decide, by decide, by decide, by decide⟩

end Hob3l.Matq
