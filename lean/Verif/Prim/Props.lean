import Verif.Prim.Lemmas

/-!
Property theorems C129: the basic shapes have the points that their parameters describe.
-/

namespace Hob3l.Prim

open Hob3l.Xform

theorem sizeOk_cases {e : ℝ} (h0 : 0 < e) {s : V3} (h : SizeOk e s) :
    ((!eEq e s.x 1 || !eEq e s.y 1 || !eEq e s.z 1) = false ∧ s = ⟨1, 1, 1⟩) ∨
    (!eEq e s.x 1 || !eEq e s.y 1 || !eEq e s.z 1) = true := by
  rcases h with h | h | h | h
  · left; refine ⟨?_, h⟩
    rw [h]; simp [eEq_self h0]
  · right; simp [eEq_false.2 h]
  · right; simp [eEq_false.2 h]
  · right; simp [eEq_false.2 h]

theorem cubeMat_xform (e : Eps) (h0 : 0 < e.eq) (mo : M3wi) (s : V3) (hs : SizeOk e.eq s) (center : Bool) (v : V3) :
    (cubeMat e mo s center).n.xform v = mo.n.xform ⟨s.x * (v.x - if center then 1 / 2 else 0), s.y * (v.y - if center then 1 / 2 else 0),
      s.z * (v.z - if center then 1 / 2 else 0)⟩ := by
  unfold cubeMat
  dsimp only
  rcases sizeOk_cases h0 hs with ⟨h, rfl⟩ | h <;> rw [h] <;> simp only [Bool.false_eq_true, if_false, if_true] <;> cases center <;>
    simp only [Bool.false_eq_true, if_false, if_true, mulXlat_xform, mulScale_xform, one_mul, sub_zero] <;>
    simp only [sub_eq_add_neg, neg_div]

theorem cubeMat_d (e : Eps) (h0 : 0 < e.eq) (mo : M3wi) (s : V3) (hs : SizeOk e.eq s) (center : Bool) :
    (cubeMat e mo s center).d = mo.d * (s.x * s.y * s.z) := by
  unfold cubeMat
  dsimp only
  rcases sizeOk_cases h0 hs with ⟨h, rfl⟩ | h <;> rw [h] <;> simp only [Bool.false_eq_true, if_false, if_true] <;> cases center <;>
    simp only [Bool.false_eq_true, if_false, if_true, mulXlat_d, mulScale_d, mul_one]

/-- number of a corner -/
def cornerNo (a b c : Bool) : Nat := (!(a ^^ b)).toNat + 2 * (!b).toNat + 4 * (!c).toNat

theorem cubePt_cornerNo (a b c : Bool) : v3 (Solid.cubePt (cornerNo a b c)) = ⟨if a then 1 else 0, if b then 1 else 0, if c then 1 else 0⟩ := by
  cases a <;> cases b <;> cases c <;> simp [Solid.cubePt, cornerNo, v3, Nat.testBit]

theorem cornerNo_lt (a b c : Bool) : cornerNo a b c < 8 := by cases a <;> cases b <;> cases c <;> decide

theorem cornerNo_all : ∀ i, i < 8 → ∃ a b c, i = cornerNo a b c := by decide

/-- **C129** `cube`: the eight points are the corners of the box with the given sides, from the origin or around it, moved by the
surrounding transformation; the faces are reversed iff the whole transformation mirrors. -/
theorem C129_cube (e : Eps) (h0 : 0 < e.eq) (c : Env) (hi : c.inside = true) (mo : M3wi) (s : V3) (center : Bool)
    (hx : e.eq ≤ |s.x|) (hy : e.eq ≤ |s.y|) (hz : e.eq ≤ |s.z|) (hs : SizeOk e.eq s) :
    ∃ pts neg, cube e c mo s center = .made pts neg ∧ pts.length = 8 ∧
      (∀ v, v ∈ pts ↔ ∃ a b c, v = mo.n.xform (corner s center a b c)) ∧ (neg = true ↔ mo.d * (s.x * s.y * s.z) < 0) := by
  have hg : goodScale e s = true := by simp [goodScale, eEq0_false.2 hx, eEq0_false.2 hy, eEq0_false.2 hz]
  have key : ∀ a b c, (cubeMat e mo s center).n.xform (v3 (Solid.cubePt (cornerNo a b c))) = mo.n.xform (corner s center a b c) := by
    intro a b c
    rw [cubePt_cornerNo, cubeMat_xform e h0 mo s hs]
    rfl
  refine ⟨_, _, by rw [cube, hi, hg]; rfl, by simp, ?_, ?_⟩
  · intro v
    simp only [List.mem_map, List.mem_range]
    constructor
    · rintro ⟨i, h, rfl⟩
      obtain ⟨a, b, c, rfl⟩ := cornerNo_all i h
      exact ⟨a, b, c, key a b c⟩
    · rintro ⟨a, b, c, rfl⟩
      exact ⟨cornerNo a b c, cornerNo_lt a b c, key a b c⟩
  · rw [decide_eq_true_iff, cubeMat_d e h0 mo s hs]

/-- the matrix and the smaller radius of a cylinder -/
theorem cyl_key (e : Eps) (h0 : 0 < e.eq) (mo : M3wi) (p : Cyl) (hp : p.Plain e.eq) :
    (∀ v, (cylUnit e (cylSwap e (cylMat e mo p) p.r1 p.r2)).1.n.xform v =
      mo.n.xform ⟨max p.r1 p.r2 * v.x, max p.r1 p.r2 * v.y,
        p.h * ((if p.r1 < p.r2 then -v.z else v.z) + if p.center then 0 else 1 / 2)⟩) ∧
    (cylUnit e (cylSwap e (cylMat e mo p) p.r1 p.r2)).2 = min p.r1 p.r2 / max p.r1 p.r2 ∧
    ((cylUnit e (cylSwap e (cylMat e mo p) p.r1 p.r2)).1.d < 0 ↔ if p.r1 < p.r2 then 0 < mo.d else mo.d < 0) := by
  have hh : 0 < p.h := lt_of_lt_of_le h0 hp.h
  have hR : 0 < max p.r1 p.r2 := lt_of_lt_of_le h0 hp.r
  have m1 : ∀ v, (cylMat e mo p).n.xform v = mo.n.xform ⟨v.x, v.y, p.h * (v.z + if p.center then 0 else 1 / 2)⟩ := by
    intro v
    unfold cylMat
    dsimp only
    rcases sharp_cases h0 hp.h1 with ⟨h, h'⟩ | h
    · rw [h, h']; cases p.center <;> simp only [Bool.false_eq_true, if_false, if_true, mulXlat_xform, one_mul, add_zero]
    · rw [h]
      cases p.center <;> simp only [Bool.false_eq_true, if_false, if_true, mulXlat_xform, mulScale_xform, one_mul, add_zero]
  have d1 : (cylMat e mo p).d = mo.d * p.h := by
    unfold cylMat
    dsimp only
    rcases sharp_cases h0 hp.h1 with ⟨h, h'⟩ | h
    · rw [h, h']; cases p.center <;> simp only [Bool.false_eq_true, if_false, if_true, mulXlat_d, mul_one]
    · rw [h]; cases p.center <;> simp only [Bool.false_eq_true, if_false, if_true, mulXlat_d, mulScale_d, one_mul]
  have hq : cylSwap e (cylMat e mo p) p.r1 p.r2 = ((cylSwap e (cylMat e mo p) p.r1 p.r2).1, max p.r1 p.r2, min p.r1 p.r2) := by
    unfold cylSwap
    split_ifs with h
    · rw [max_eq_right h.le, min_eq_left h.le]
    · rw [max_eq_left (not_lt.1 h), min_eq_right (not_lt.1 h)]
  have m2 : ∀ v, (cylSwap e (cylMat e mo p) p.r1 p.r2).1.n.xform v =
      mo.n.xform ⟨v.x, v.y, p.h * ((if p.r1 < p.r2 then -v.z else v.z) + if p.center then 0 else 1 / 2)⟩ := by
    intro v
    unfold cylSwap
    split_ifs with h <;> simp only [mulScale_xform, m1, one_mul, neg_mul] <;> simp_all
  have d2 : (cylSwap e (cylMat e mo p) p.r1 p.r2).1.d < 0 ↔ if p.r1 < p.r2 then 0 < mo.d else mo.d < 0 := by
    unfold cylSwap
    split_ifs with h
    · rw [mulScale_d, d1, neg_mul_neg (by norm_num)]
      constructor
      · intro k; by_contra hc; exact absurd k (not_lt.2 (mul_nonpos_of_nonpos_of_nonneg (not_lt.1 hc) hh.le))
      · intro k; exact mul_pos k hh
    · rw [d1, neg_mul_pos hh]
  generalize cylSwap e (cylMat e mo p) p.r1 p.r2 = q at hq m2 d2 ⊢
  obtain ⟨m, R, S⟩ := q
  simp only [Prod.mk.injEq, true_and] at hq
  obtain ⟨rfl, rfl⟩ := hq
  simp only [cylUnit]
  rcases sharp_cases h0 hp.r1 with ⟨h, h'⟩ | h
  · rw [h]
    simp only [if_true]
    refine ⟨fun v => ?_, ?_, d2⟩
    · rw [m2, h', one_mul, one_mul]
    · rw [h', div_one]
  · rw [h]
    simp only [Bool.false_eq_true, if_false]
    refine ⟨fun v => ?_, trivial, ?_⟩
    · rw [mulScale_xform, m2, one_mul]
    · rw [mulScale_d, mul_one, neg_mul_pos (mul_pos hR hR)]
      exact d2

/-- **C129** `cylinder`: the points are the corners of two regular polygons, with the first radius at the bottom and the second at the
top (radius 0: a single point), starting at the origin or around it; the faces are reversed iff this and the exchange of top and
bottom for a larger second radius mirror together. -/
theorem C129_cylinder_partial (e : Eps) (h0 : 0 < e.eq) (c : Env) (hi : c.inside = true) (hm : 3 ≤ c.maxFn) (mo : M3wi) (p : Cyl)
    (hp : p.Plain e.eq) (detail : Nat) :
    ∃ pts neg n, n = Solid.getFn detail 3 c.maxFn false ∧ cylinder e c mo p detail = .made pts neg ∧
      pts.length = (if min p.r1 p.r2 = 0 then n + 1 else 2 * n) ∧
      (∀ v, v ∈ pts ↔ ∃ j, j < n ∧ (v = mo.n.xform (rim n p.r1 p.bottom j) ∨ v = mo.n.xform (rim n p.r2 p.top j))) ∧
      (neg = true ↔ if p.r1 < p.r2 then 0 < mo.d else mo.d < 0) := by
  have hR : 0 < max p.r1 p.r2 := lt_of_lt_of_le h0 hp.r
  obtain ⟨k1, k2, k3⟩ := cyl_key e h0 mo p hp
  have hn := getFn_pos detail c.maxFn hm
  have e1 : eLe e.eq p.h 0 = false := by simp [eLe, hp.h]
  have e2 : (eLe e.eq p.r1 0 && eLe e.eq p.r2 0) = false := by
    rcases max_choice p.r1 p.r2 with h | h
    · have := hp.r; rw [h] at this; simp [eLe, this]
    · have := hp.r; rw [h] at this; simp [eLe, this]
  have ec : eEq e.eq (min p.r1 p.r2 / max p.r1 p.r2) 0 = decide (min p.r1 p.r2 = 0) := by
    rcases sharp_cases h0 hp.r0 with ⟨h, h'⟩ | h
    · rw [h]
      have : min p.r1 p.r2 = 0 := by
        rcases div_eq_zero_iff.1 h' with h | h
        · exact h
        · exact absurd h hR.ne'
      simp [this]
    · rw [h]
      have : min p.r1 p.r2 ≠ 0 := by
        intro hc
        rw [hc, zero_div, eEq_self h0] at h
        cases h
      simp [this]
  have he : cylinder e c mo p detail = place (cylUnit e (cylSwap e (cylMat e mo p) p.r1 p.r2)).1
      (if min p.r1 p.r2 = 0 then Solid.getFn detail 3 c.maxFn false + 1 else 2 * Solid.getFn detail 3 c.maxFn false)
      (cylPt (Solid.getFn detail 3 c.maxFn false) (decide (min p.r1 p.r2 = 0)) (min p.r1 p.r2 / max p.r1 p.r2)) := by
    unfold cylinder
    rw [hi, e1, e2]
    dsimp only
    rw [k2, ec]
    simp
  generalize Solid.getFn detail 3 c.maxFn false = n at hn he
  refine ⟨_, _, n, rfl, he, by simp, ?_, by rw [decide_eq_true_iff]; exact k3⟩
  intro v
  -- the larger radius, at the bottom unless exchanged
  have big : ∀ j, j < n → (cylUnit e (cylSwap e (cylMat e mo p) p.r1 p.r2)).1.n.xform (v3 (cylPt n (decide (min p.r1 p.r2 = 0))
      (min p.r1 p.r2 / max p.r1 p.r2) j)) = if p.r1 < p.r2 then mo.n.xform (rim n p.r2 p.top j) else mo.n.xform (rim n p.r1 p.bottom j) := by
    intro j hj
    rw [k1]
    simp only [cylPt, hj, if_true, v3, Solid.C76_regular n j hj]
    split_ifs with h1 h2 h2 <;> simp only [rim, Cyl.top, Cyl.bottom, h2, if_true, if_false, Bool.false_eq_true]
    · rw [max_eq_right h1.le]; congr 2; ring
    · rw [max_eq_right h1.le]; congr 2; ring
    · rw [max_eq_left (not_lt.1 h1)]; congr 2; ring
    · rw [max_eq_left (not_lt.1 h1)]; congr 2; ring
  have small : ∀ j, j < n → (cylUnit e (cylSwap e (cylMat e mo p) p.r1 p.r2)).1.n.xform (v3 (cylPt n (decide (min p.r1 p.r2 = 0))
      (min p.r1 p.r2 / max p.r1 p.r2) (if min p.r1 p.r2 = 0 then n else n + j))) =
      if p.r1 < p.r2 then mo.n.xform (rim n p.r1 p.bottom j) else mo.n.xform (rim n p.r2 p.top j) := by
    intro j hj
    rw [k1]
    have mm : ∀ x : ℝ, max p.r1 p.r2 * (x * (min p.r1 p.r2 / max p.r1 p.r2)) = min p.r1 p.r2 * x := by
      intro x; field_simp
    by_cases hc : min p.r1 p.r2 = 0
    · simp only [cylPt, hc, if_true, decide_true, lt_irrefl, if_false, v3, mul_zero]
      split_ifs with h1 h2 h2 <;> simp only [rim, Cyl.top, Cyl.bottom, h2, if_true, if_false, Bool.false_eq_true]
      · rw [min_eq_left h1.le] at hc; rw [hc, zero_mul, zero_mul]; congr 2; ring
      · rw [min_eq_left h1.le] at hc; rw [hc, zero_mul, zero_mul]; congr 2; ring
      · rw [min_eq_right (not_lt.1 h1)] at hc; rw [hc, zero_mul, zero_mul]; congr 2; ring
      · rw [min_eq_right (not_lt.1 h1)] at hc; rw [hc, zero_mul, zero_mul]; congr 2; ring
    · simp only [cylPt, hc, if_false, decide_false, Bool.false_eq_true, show ¬ n + j < n by omega, v3, Nat.add_sub_cancel_left, mm,
        Solid.C76_regular n j hj]
      split_ifs with h1 h2 h2 <;> simp only [rim, Cyl.top, Cyl.bottom, h2, if_true, if_false, Bool.false_eq_true]
      · rw [min_eq_left h1.le]; congr 2; ring
      · rw [min_eq_left h1.le]; congr 2; ring
      · rw [min_eq_right (not_lt.1 h1)]; congr 2; ring
      · rw [min_eq_right (not_lt.1 h1)]; congr 2; ring
  simp only [List.mem_map, List.mem_range]
  constructor
  · rintro ⟨i, hlt, rfl⟩
    by_cases hin : i < n
    · refine ⟨i, hin, ?_⟩
      rw [big i hin]
      split_ifs
      · exact Or.inr rfl
      · exact Or.inl rfl
    · obtain ⟨j, hj, hij⟩ : ∃ j, j < n ∧ i = if min p.r1 p.r2 = 0 then n else n + j := by
        by_cases hc : min p.r1 p.r2 = 0
        · rw [if_pos hc] at hlt
          exact ⟨0, by omega, by rw [if_pos hc]; omega⟩
        · rw [if_neg hc] at hlt
          exact ⟨i - n, by omega, by rw [if_neg hc]; omega⟩
      refine ⟨j, hj, ?_⟩
      rw [hij, small j hj]
      split_ifs
      · exact Or.inl rfl
      · exact Or.inr rfl
  · rintro ⟨j, hj, hv⟩
    have b := big j hj
    have s := small j hj
    have l1 : j < if min p.r1 p.r2 = 0 then n + 1 else 2 * n := by split_ifs <;> omega
    have l2 : (if min p.r1 p.r2 = 0 then n else n + j) < if min p.r1 p.r2 = 0 then n + 1 else 2 * n := by split_ifs <;> omega
    by_cases h : p.r1 < p.r2
    · rw [if_pos h] at b s
      rcases hv with rfl | rfl
      · exact ⟨_, l2, s⟩
      · exact ⟨_, l1, b⟩
    · rw [if_neg h] at b s
      rcases hv with rfl | rfl
      · exact ⟨_, l1, b⟩
      · exact ⟨_, l2, s⟩

theorem dflt_pos : 0 < Eps.dflt.eq := by simp [Eps.dflt]

/-- **C129** A cylinder with a bottom radius of 100000 and a top radius of 2 becomes a cone: whether the top is a point is decided by
comparing the ratio of the radii, not the radius, with epsilon. -/
theorem C129_cylinder_cone_wrong (c : Env) (hi : c.inside = true) (mo : M3wi) (detail : Nat) :
    ∃ pts neg, cylinder .dflt c mo ⟨1, 100000, 2, true⟩ detail = .made pts neg ∧
      pts.length = Solid.getFn detail 3 c.maxFn false + 1 := by
  have e0 : Eps.dflt.eq = 1 / 2 ^ 15 := rfl
  have e1 : eLe Eps.dflt.eq 1 0 = false := by simp [eLe, e0]; norm_num
  have e2 : eLe Eps.dflt.eq 100000 0 = false := by simp [eLe, e0]; norm_num
  have e3 : eEq Eps.dflt.eq 100000 1 = false := eEq_false.2 (by rw [e0]; norm_num [abs_of_pos])
  have e4 : eEq Eps.dflt.eq (2 / 100000) 0 = true := eEq_iff.2 (by rw [e0]; norm_num [abs_of_pos])
  have e5 : ¬ ((100000 : ℝ) < 2) := by norm_num
  have he : cylinder .dflt c mo ⟨1, 100000, 2, true⟩ detail =
      place ((cylMat .dflt mo ⟨1, 100000, 2, true⟩).mul (.scale .dflt 100000 100000 1)) (Solid.getFn detail 3 c.maxFn false + 1)
        (cylPt (Solid.getFn detail 3 c.maxFn false) true (2 / 100000)) := by
    unfold cylinder
    simp only [hi, e1, e2, cylSwap, e5, if_false, cylUnit, e3, Bool.false_eq_true, e4, if_true, Bool.not_true, Bool.false_and]
  exact ⟨_, _, he, by simp⟩

/-- **C129** A negative radius is accepted if the other one is positive: with radii 1 and -1, each corner of the top is opposite of the
corner of the bottom that it is connected to, so that all sides meet in the middle. -/
theorem C129_cylinder_negative_wrong (c : Env) (hi : c.inside = true) (hm : 3 ≤ c.maxFn) (detail : Nat) :
    ∃ pts neg, cylinder .dflt c (.one .dflt) ⟨1, 1, -1, true⟩ detail = .made pts neg ∧
      ∀ j, j < Solid.getFn detail 3 c.maxFn false → ∃ a b, pts[j]? = some a ∧ pts[Solid.getFn detail 3 c.maxFn false + j]? = some b ∧
        b = ⟨-a.x, -a.y, -a.z⟩ := by
  have hp : Cyl.Plain Eps.dflt.eq ⟨1, 1, -1, true⟩ := by
    have e0 : Eps.dflt.eq = 1 / 2 ^ 15 := rfl
    have hmin : min (1 : ℝ) (-1) = -1 := min_eq_right (by norm_num)
    have hmax : max (1 : ℝ) (-1) = 1 := max_eq_left (by norm_num)
    constructor
    · rw [e0]; norm_num
    · exact Or.inl rfl
    · rw [hmax, e0]; norm_num
    · exact Or.inl hmax
    · right; rw [hmin, hmax, e0]; norm_num
  obtain ⟨k1, k2, -⟩ := cyl_key .dflt dflt_pos (.one .dflt) ⟨1, 1, -1, true⟩ hp
  have hmin : min (1 : ℝ) (-1) = -1 := min_eq_right (by norm_num)
  have hmax : max (1 : ℝ) (-1) = 1 := max_eq_left (by norm_num)
  simp only [hmin, hmax, div_one] at k1 k2
  have e0 : Eps.dflt.eq = 1 / 2 ^ 15 := rfl
  have e1 : eLe Eps.dflt.eq 1 0 = false := by simp [eLe, e0]; norm_num
  have e4 : eEq Eps.dflt.eq (-1) 0 = false := eEq_false.2 (by rw [e0]; norm_num)
  have he : cylinder .dflt c (.one .dflt) ⟨1, 1, -1, true⟩ detail =
      place (cylUnit .dflt (cylSwap .dflt (cylMat .dflt (.one .dflt) ⟨1, 1, -1, true⟩) 1 (-1))).1 (2 * Solid.getFn detail 3 c.maxFn false)
        (cylPt (Solid.getFn detail 3 c.maxFn false) false (-1)) := by
    unfold cylinder
    simp only [hi, e1, k2, e4, Bool.not_true, Bool.false_eq_true, if_false, Bool.false_and]
  have hn := getFn_pos detail c.maxFn hm
  generalize Solid.getFn detail 3 c.maxFn false = n at hn he
  refine ⟨_, _, he, fun j hj => ⟨_, _, by rw [List.getElem?_map, List.getElem?_range (by omega)]; rfl,
    by rw [List.getElem?_map, List.getElem?_range (by omega)]; rfl, ?_⟩⟩
  · dsimp only
    rw [k1, k1]
    simp only [cylPt, hj, if_true, show ¬ n + j < n by omega, if_false, Bool.false_eq_true, v3, Nat.add_sub_cancel_left,
      show ¬ ((1 : ℝ) < -1) by norm_num]
    simp only [M3wi.one, scale_xform]
    ext <;> simp

/-- **C129** `sphere`: with a number of corners, the points are on the sphere, at equally spaced polar angles and directions; without, the
sphere itself is scaled. -/
theorem C129_sphere (e : Eps) (h0 : 0 < e.eq) (c : Env) (hi : c.inside = true) (mo : M3wi) (r : ℝ) (hr : e.eq ≤ r) (h1 : Sharp e.eq 1 r)
    (detail : Nat) :
    ∃ n, n = Solid.getFn detail 3 c.maxFn true ∧
      ((n = 0 ∧ ∃ m, sphere e c mo r detail = .exact m ∧ ∀ v, m.n.xform v = mo.n.xform ⟨r * v.x, r * v.y, r * v.z⟩) ∨
       (0 < n ∧ ∃ pts neg, sphere e c mo r detail = .made pts neg ∧ pts.length = n * ((n + 1) / 2) ∧
        (∀ v, v ∈ pts ↔ ∃ k j, k < (n + 1) / 2 ∧ j < n ∧
          v = mo.n.xform (onSphere r ((2 * k + 1) * Real.pi / (2 * ((n + 1) / 2 : Nat))) n j)) ∧
        (neg = true ↔ mo.d < 0))) := by
  have hr0 : 0 < r := lt_of_lt_of_le h0 hr
  have e1 : eLe e.eq r 0 = false := by simp [eLe, hr]
  obtain ⟨m, hm, hd, hmm⟩ : ∃ m : M3wi, (∀ v, m.n.xform v = mo.n.xform ⟨r * v.x, r * v.y, r * v.z⟩) ∧ (m.d < 0 ↔ mo.d < 0) ∧
      (if eEq e.eq r 1 then mo else mo.mul (.scale e r r r)) = m := by
    rcases sharp_cases h0 h1 with ⟨h, rfl⟩ | h
    · exact ⟨mo, by simp, Iff.rfl, by rw [h]; simp⟩
    · exact ⟨_, fun v => mulScale_xform e mo r r r v, by rw [mulScale_d, neg_mul_pos (mul_pos (mul_pos hr0 hr0) hr0)], by rw [h]; simp⟩
  have he : sphere e c mo r detail = if Solid.getFn detail 3 c.maxFn true > 0 then
      place m (Solid.getFn detail 3 c.maxFn true * ((Solid.getFn detail 3 c.maxFn true + 1) / 2))
        (Solid.spherePt (Solid.getFn detail 3 c.maxFn true) ((Solid.getFn detail 3 c.maxFn true + 1) / 2)) else .exact m := by
    unfold sphere
    rw [hi, e1]
    simp only [Bool.not_true, Bool.false_eq_true, if_false, hmm]
  generalize Solid.getFn detail 3 c.maxFn true = n at he
  refine ⟨n, rfl, ?_⟩
  rcases Nat.eq_zero_or_pos n with hn | hn
  · left
    refine ⟨hn, m, by rw [he, if_neg (by omega)], hm⟩
  · right
    refine ⟨hn, _, _, by rw [he, if_pos hn]; rfl, by simp, ?_, by rw [decide_eq_true_iff]; exact hd⟩
    have key : ∀ k j, j < n → m.n.xform (v3 (Solid.spherePt n ((n + 1) / 2) (k * n + j))) =
        mo.n.xform (onSphere r ((2 * k + 1) * Real.pi / (2 * ((n + 1) / 2 : Nat))) n j) := by
      intro k j hj
      rw [hm]
      have d1 : (k * n + j) / n = k := by rw [Nat.mul_comm, Nat.mul_add_div hn, Nat.div_eq_of_lt hj]; rfl
      have d2 : (k * n + j) % n = j := by rw [Nat.mul_comm, Nat.mul_add_mod, Nat.mod_eq_of_lt hj]
      have hw : ((1 + 2 * k : Nat) : ℝ) * (180 / (((n + 1) / 2 * 2 : Nat) : ℝ)) * (Real.pi / 180) =
          (2 * k + 1) * Real.pi / (2 * ((n + 1) / 2 : Nat)) := by
        push_cast
        rw [show ((1 : ℝ) + 2 * k) * (180 / (((n + 1) / 2 : Nat) * 2)) * (Real.pi / 180) = (2 * k + 1) * Real.pi / (2 * ((n + 1) / 2 : Nat)) *
          (180 / 180) by ring]
        norm_num
      simp only [Solid.spherePt, d1, d2, v3, Solid.C76_regular n j hj, onSphere, rim, hw]
      congr 2 <;> ring
    intro v
    simp only [List.mem_map, List.mem_range]
    constructor
    · rintro ⟨i, hlt, rfl⟩
      refine ⟨i / n, i % n, Nat.div_lt_of_lt_mul (by rw [Nat.mul_comm] at hlt; rwa [Nat.mul_comm]), Nat.mod_lt _ hn, ?_⟩
      rw [← key _ _ (Nat.mod_lt _ hn)]
      rw [Nat.mul_comm, Nat.div_add_mod]
    · rintro ⟨k, j, hk, hj, rfl⟩
      refine ⟨k * n + j, ?_, key k j hj⟩
      calc k * n + j < k * n + n := by omega
        _ = (k + 1) * n := by ring
        _ ≤ (n + 1) / 2 * n := Nat.mul_le_mul_right _ hk
        _ = n * ((n + 1) / 2) := Nat.mul_comm _ _

/-- **C129** `circle`: the outline is the regular polygon with the radius, clockwise. -/
theorem C129_circle (e : Eps) (h0 : 0 < e.eq) (c : Env) (hi : c.inside = true) (mo : M3wi) (r : ℝ) (hr : e.eq ≤ |r|)
    (h1 : Sharp e.eq 1 r) (detail : Nat) :
    ∃ n, n = Solid.getFn detail 3 c.maxFn false ∧ circle e c mo r detail = .made ((List.range n).map fun (j : Nat) =>
      let w := mo.n.xform ⟨r * Real.cos (2 * Real.pi * j / n), -(r * Real.sin (2 * Real.pi * j / n)), 0⟩
      ⟨w.x, w.y⟩) := by
  have hx : ∀ v : V2, xform2 (if eEq e.eq r 1 then mo else mo.mul (.scale e r r 1)) v =
      (let w := mo.n.xform ⟨r * v.x, r * v.y, 0⟩; ⟨w.x, w.y⟩) := by
    intro v
    rcases sharp_cases h0 h1 with ⟨h, rfl⟩ | h
    · rw [h]; simp [xform2]
    · rw [h]; simp [xform2, mulScale_xform]
  refine ⟨_, rfl, ?_⟩
  unfold circle
  rw [hi, eEq0_false.2 hr]
  simp only [Bool.not_true, Bool.false_eq_true, if_false, hx, Out2.made.injEq]
  apply List.map_congr_left
  intro j _
  have : ((j : ℝ) * (360 / (Solid.getFn detail 3 c.maxFn false : Nat))) * Real.pi / 180 = 2 * Real.pi * j / (Solid.getFn detail 3 c.maxFn false : Nat) := by
    ring
  simp only [sincos, this, mul_neg]

/-- **C129** `square`: the outline is the rectangle with the given sides, clockwise from the corner at the origin (or the lower left one). -/
theorem C129_square (e : Eps) (h0 : 0 < e.eq) (c : Env) (hi : c.inside = true) (mo : M3wi) (s : V2) (center : Bool)
    (hx : e.eq ≤ |s.x|) (hy : e.eq ≤ |s.y|) (hs : SizeOk e.eq ⟨s.x, s.y, 1⟩) :
    square e c mo s center = .made ([(false, false), (false, true), (true, true), (true, false)].map fun q =>
      let w := mo.n.xform (corner2 s center q.1 q.2)
      ⟨w.x, w.y⟩) := by
  have hg : goodScale2 e s = true := by simp [goodScale2, eEq0_false.2 hx, eEq0_false.2 hy]
  have hc := sizeOk_cases h0 hs
  simp only [eEq_self h0, Bool.not_true, Bool.or_false] at hc
  have hX : ∀ v : V2, xform2 (if center then (if !eEq e.eq s.x 1 || !eEq e.eq s.y 1 then mo.mul (.scale e s.x s.y 1) else mo).mul
      (.xlat (-1 / 2) (-1 / 2) 0) else (if !eEq e.eq s.x 1 || !eEq e.eq s.y 1 then mo.mul (.scale e s.x s.y 1) else mo)) v =
      (let w := mo.n.xform ⟨s.x * (v.x - if center then 1 / 2 else 0), s.y * (v.y - if center then 1 / 2 else 0), 0⟩; ⟨w.x, w.y⟩) := by
    intro v
    rcases hc with ⟨h, h'⟩ | h
    · simp only [V3.mk.injEq, and_true] at h'
      rw [h, h'.1, h'.2]
      cases center <;> simp [xform2, mulXlat_xform, sub_eq_add_neg, neg_div]
    · rw [h]
      cases center <;> simp [xform2, mulXlat_xform, mulScale_xform, sub_eq_add_neg, neg_div]
  unfold square
  rw [hi, hg]
  simp only [Bool.not_true, Bool.false_eq_true, if_false, hX]
  simp [squarePt, corner2, Nat.testBit]

/-- **C129** What is refused: outside the right context, or if a size is 0 (up to epsilon) or a radius or height not positive, the options
decide between an error and nothing. -/
theorem C129_refused (e : Eps) (c : Env) (mo : M3wi) :
    (c.inside = false → (∀ s b, cube e c mo s b = msg c.outsideFails) ∧ (∀ p d, cylinder e c mo p d = msg c.outsideFails) ∧
      (∀ r d, sphere e c mo r d = msg c.outsideFails) ∧ (∀ r d, circle e c mo r d = msg2 c.outsideFails) ∧
      ∀ s b, square e c mo s b = msg2 c.outsideFails) ∧
    (c.inside = true →
      (∀ s b, (|s.x| < e.eq ∨ |s.y| < e.eq ∨ |s.z| < e.eq) → cube e c mo s b = msg c.emptyFails) ∧
      (∀ p d, (p.h < e.eq ∨ (p.r1 < e.eq ∧ p.r2 < e.eq)) → cylinder e c mo p d = msg c.emptyFails) ∧
      (∀ r d, r < e.eq → sphere e c mo r d = msg c.emptyFails) ∧
      (∀ r d, |r| < e.eq → circle e c mo r d = msg2 c.emptyFails) ∧
      ∀ s b, (|s.x| < e.eq ∨ |s.y| < e.eq) → square e c mo s b = msg2 c.emptyFails) := by
  constructor
  · intro hi
    refine ⟨?_, ?_, ?_, ?_, ?_⟩ <;> intros <;> simp [cube, cylinder, sphere, circle, square, hi]
  · intro hi
    refine ⟨?_, ?_, ?_, ?_, ?_⟩
    · rintro s b (h | h | h) <;> simp [cube, goodScale, hi, eEq0_iff.2 h]
    · rintro p d (h | h)
      · simp [cylinder, hi, eLe, h]
      · by_cases hh : p.h < e.eq
        · simp [cylinder, hi, eLe, hh]
        · simp [cylinder, hi, eLe, h.1, h.2]
    · intro r d h; simp [sphere, hi, eLe, h]
    · intro r d h; simp [circle, hi, eEq0_iff.2 h]
    · rintro s b (h | h) <;> simp [square, goodScale2, hi, eEq0_iff.2 h]

/-- the hypotheses of `C129_cube` hold for a box with different sides, one of which is 1 -/
example : SizeOk Eps.dflt.eq ⟨2, 1, 30⟩ := Or.inr (Or.inl (by simp [Eps.dflt]; norm_num))

/-- those of `C129_cylinder_partial` for a frustum with the larger radius on top, and for a cone -/
example : Cyl.Plain Eps.dflt.eq ⟨10, 3, 5, false⟩ ∧ Cyl.Plain Eps.dflt.eq ⟨10, 3, 0, false⟩ := by
  have e0 : Eps.dflt.eq = 1 / 2 ^ 15 := rfl
  have m1 : max (3 : ℝ) 5 = 5 := max_eq_right (by norm_num)
  have m2 : min (3 : ℝ) 5 = 3 := min_eq_left (by norm_num)
  have m3 : max (3 : ℝ) 0 = 3 := max_eq_left (by norm_num)
  have m4 : min (3 : ℝ) 0 = 0 := min_eq_right (by norm_num)
  constructor
  · constructor <;> simp only [m1, m2, Sharp, e0] <;> first | norm_num | (right; norm_num [abs_of_pos])
  · constructor <;> simp only [m3, m4, Sharp, e0] <;> first | norm_num | (right; norm_num [abs_of_pos])

/-- a corner of a centred box -/
example : corner ⟨2, 4, 6⟩ true true false true = ⟨1, -2, 3⟩ := by
  simp only [corner]; ext <;> norm_num

end Hob3l.Prim
