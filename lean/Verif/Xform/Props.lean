import Verif.Xform.LemmasSphere

/-!
C51: inversion of matrices.  C64: chains of SCAD transformations.  C65: slices of ellipsoids.
-/

namespace Hob3l.Xform

theorem dflt_ok : 0 < Eps.dflt.eq ∧ Eps.dflt.eq ≤ 1 ∧ 0 < Eps.dflt.sqr ∧ Eps.dflt.sqr ≤ Eps.dflt.eq := by
  norm_num [Eps.dflt]

/-! ## C51 -/

/-- C51, determinants: the functions that compute the determinant compute the determinant. -/
theorem C51_det : (∀ m : M2, m.det = m.toMatrix.det) ∧ (∀ m : M3, m.det = m.toMatrix.det) ∧
    (∀ m : M4, m.det = m.toMatrix.det) := ⟨det2, det3, det4⟩

/-- C51, linear maps: if the absolute value of the determinant is at least the tolerance, then the result is the inverse from
both sides, and the determinant is returned.  Missing: matrices with a smaller determinant, for which it fails, see
`C51_small_wrong`. -/
theorem C51_inv_partial (e : Eps) (he : 0 < e.sqr) :
    (∀ m : M2, e.sqr ≤ |m.toMatrix.det| →
      m.toMatrix * (m.inv e).1.toMatrix = 1 ∧ (m.inv e).1.toMatrix * m.toMatrix = 1 ∧ (m.inv e).2 = m.toMatrix.det) ∧
    (∀ m : M3, e.sqr ≤ |m.toMatrix.det| →
      m.toMatrix * (m.inv e).1.toMatrix = 1 ∧ (m.inv e).1.toMatrix * m.toMatrix = 1 ∧ (m.inv e).2 = m.toMatrix.det) ∧
    (∀ m : M4, e.sqr ≤ |m.toMatrix.det| →
      m.toMatrix * (m.inv e).1.toMatrix = 1 ∧ (m.inv e).1.toMatrix * m.toMatrix = 1 ∧ (m.inv e).2 = m.toMatrix.det) := by
  refine ⟨fun m h => ?_, fun m h => ?_, fun m h => ?_⟩
  · rw [← det2] at h ⊢; exact inv2_ok e he m h
  · rw [← det3] at h ⊢; exact inv3_ok e he m h
  · rw [← det4] at h ⊢; exact inv4_ok e he m h

/-- C51, affine maps: the same for the maps with a translation. -/
theorem C51_affine_partial (e : Eps) (he : 0 < e.sqr) :
    (∀ m : M2w, e.sqr ≤ |m.b.toMatrix.det| →
      (∀ p, m.xform ((m.inv e).1.xform p) = p) ∧ (∀ p, (m.inv e).1.xform (m.xform p) = p) ∧
        (m.inv e).2 = m.b.toMatrix.det) ∧
    (∀ m : M3w, e.sqr ≤ |m.b.toMatrix.det| →
      (∀ p, m.xform ((m.inv e).1.xform p) = p) ∧ (∀ p, (m.inv e).1.xform (m.xform p) = p) ∧
        (m.inv e).2 = m.b.toMatrix.det) := by
  refine ⟨fun m h => ?_, fun m h => ?_⟩
  · rw [← det2] at h ⊢; exact inv2w_ok e he m h
  · rw [← det3] at h ⊢; exact inv3w_ok e he m h

/-- the hypotheses can be met: a shear with a scale -/
example : Eps.dflt.sqr ≤ |(⟨2, 7, 0, 0, 3, 1, 0, 0, 5⟩ : M3).toMatrix.det| := by
  rw [← det3]; norm_num [M3.det, Eps.dflt]

/-- C51: maps whose determinant is smaller than the tolerance are treated as singular, whatever the tolerance is. -/
theorem C51_small_wrong (e : Eps) :
    (∀ m : M2, |m.toMatrix.det| < e.sqr → m.inv e = (⟨0, 0, 0, 0⟩, 0)) ∧
    (∀ m : M3, |m.toMatrix.det| < e.sqr → m.inv e = (⟨0, 0, 0, 0, 0, 0, 0, 0, 0⟩, 0)) ∧
    (0 < e.sqr → ∃ m : M2, m.toMatrix.det ≠ 0 ∧ (m.inv e).1.toMatrix * m.toMatrix ≠ 1) := by
  have h2 : ∀ m : M2, |m.toMatrix.det| < e.sqr → m.inv e = (⟨0, 0, 0, 0⟩, 0) := by
    intro m h
    rw [← det2] at h
    have := eEq0_iff.2 h
    simp only [M2.det] at this
    simp [M2.inv, this]
  refine ⟨h2, fun m h => ?_, fun he => ⟨⟨e.sqr / 2, 0, 0, 1⟩, ?_, ?_⟩⟩
  · rw [← det3] at h
    have := eEq0_iff.2 h
    simp only [M3.det] at this
    simp [M3.inv, this]
  · rw [← det2]; simp [M2.det]; exact he.ne'
  · have hs : |(⟨e.sqr / 2, 0, 0, 1⟩ : M2).toMatrix.det| < e.sqr := by
      rw [← det2]
      simp only [M2.det, mul_one, mul_zero, sub_zero]
      rw [abs_of_pos (by linarith)]; linarith
    rw [h2 _ hs]
    intro h
    have := congrFun (congrFun h 0) 0
    simp [M2.toMatrix] at this

/-- C51: inverting a map together with its recorded inverse and determinant.  In place this is right if the determinant is
not tiny; into another variable, the determinant that is recorded depends on what that variable contained before. -/
theorem C51_swap_partial (e : Eps) (h0 : 0 < e.eq) {a : M3wi} (ha : Inverse a) (hd : e.eq ≤ |a.d|) :
    Inverse (a.invInPlace e) ∧ (∀ p, (a.invInPlace e).n.xform (a.n.xform p) = p) ∧
      ∀ r, Inverse (M3wi.invInto e r a) → r.d = a.d ∨ |r.d| < e.eq := by
  obtain ⟨hc, hdd⟩ := cross_eq ha 0
  have hne := ne_zero_of_eps h0 hd
  have e1 : div0 e 1 a.d = 1 / a.d := by unfold div0; rw [eEq0_false.2 hd]; simp
  have e2 : a.i.b.toMatrix.det = 1 / a.d := by
    rw [ha.det, ← det3, ← det3, eq_div_iff, hdd]
    rw [det3, ← ha.det]; exact hne
  refine ⟨⟨ha.right, ha.left, ?_⟩, ha.left, fun r hr => ?_⟩
  · simp only [M3wi.invInPlace]; rw [e1, e2]
  · by_cases hr0 : |r.d| < e.eq
    · exact .inr hr0
    · left
      have h := hr.det
      simp only [M3wi.invInto] at h
      rw [e2] at h
      have e3 : div0 e 1 r.d = 1 / r.d := by unfold div0; rw [eEq0_false.2 (not_lt.1 hr0)]; simp
      rw [e3] at h
      have hrn := ne_zero_of_eps h0 (not_lt.1 hr0)
      field_simp at h
      exact h.symm

example : Inverse (M3wi.xlat 1 2 3) ∧ Eps.dflt.eq ≤ |(M3wi.xlat 1 2 3).d| := by
  refine ⟨xlat_inverse 1 2 3, ?_⟩
  norm_num [M3wi.xlat, Eps.dflt]

/-- C51: the rotation that turns the downward direction into the Z axis is a reflection, but the recorded determinant is 1. -/
theorem C51_into_z_wrong : ∃ m, M3wi.rotIntoZ .dflt ⟨0, 0, -1⟩ = some (m, true) ∧ m.d = 1 ∧ m.n.b.toMatrix.det = -1 := by
  have hl : (⟨0, 0, -1⟩ : V3).len = 1 := by simp [V3.len, V3.sqrLen]
  have hu : (⟨0, 0, -1⟩ : V3).unit .dflt = (⟨0, 0, -1⟩, true) := by
    ext1
    · rw [unit_eq (by rw [hl]; exact dflt_ok.2.1), hl]; simp
    · simp only [V3.unit, hl]
      have : eEq Eps.dflt.sqr 1 0 = false := eEq0_false.2 (by norm_num [Eps.dflt])
      rw [this]; rfl
  refine ⟨.ofRot (intoZMat .dflt ⟨0, 0, -1⟩), ?_, rfl, ?_⟩
  · simp only [M3wi.rotIntoZ, hu, if_true]
    simp [ass, hasLen01_of dflt_ok.2.2.1 (v := ⟨0, 0, -1⟩) (by norm_num)]
  · have hz : eEq Eps.dflt.eq 0 0 = true := eEq0_iff.2 (by simpa using dflt_ok.1)
    rw [← det3]
    simp [M3wi.ofRot, intoZMat, hz, M3.det]

/-! ## C64 -/

/-- C64: if no translation is tiny but not zero and no axis of rotation is tiny, then nested SCAD transformations are accepted
iff each of them is regular within the tolerance, and then the matrix maps each point as the transformations do, and its
inverse and its determinant are right.  Missing: tiny translations and rotations around a tiny axis, see
`C64_tiny_wrong`, `C64_axis_wrong`. -/
theorem C64_chain_partial (e : Eps) (h0 : 0 < e.eq) (h1 : e.eq ≤ 1) (h2 : 0 < e.sqr) (os : List Op)
    (hx : ∀ o ∈ os, Exact e o) :
    ((∀ o ∈ os, Accepted e o) → ∃ m, steps e (.one e) os = some m ∧ Inverse m ∧ ∀ p, m.n.xform p = meanings os p) ∧
    ((∃ o ∈ os, ¬ Accepted e o) → steps e (.one e) os = none) := by
  have hone := one_inverse e h0 h1
  have hid : ∀ p, (M3wi.one e).n.xform p = p := by
    intro p
    simp [M3wi.one, M3wi.scale, M3w.xform, M3.xform, V3.add, M3.scale]
  suffices h : ∀ os : List Op, (∀ o ∈ os, Exact e o) → ∀ mo, Inverse mo →
      ((∀ o ∈ os, Accepted e o) → ∃ m, steps e mo os = some m ∧ Inverse m ∧
        ∀ p, m.n.xform p = mo.n.xform (meanings os p)) ∧
      ((∃ o ∈ os, ¬ Accepted e o) → steps e mo os = none) by
    have := h os hx _ hone
    simpa only [hid] using this
  intro os
  induction os with
  | nil =>
    intro _ mo hm
    exact ⟨fun _ => ⟨mo, rfl, hm, fun p => rfl⟩, fun ⟨o, ho, _⟩ => by simp at ho⟩
  | cons o os ih =>
    intro hx mo hm
    have hxo := hx o (by simp)
    have hxs := fun o' ho => hx o' (List.mem_cons_of_mem _ ho)
    refine ⟨fun ha => ?_, fun hb => ?_⟩
    · obtain ⟨m1, e1, i1, p1⟩ := step_ok e h0 h2 hm hxo (ha o (by simp))
      obtain ⟨m, e2, i2, p2⟩ := (ih hxs m1 i1).1 (fun o' ho => ha o' (List.mem_cons_of_mem _ ho))
      exact ⟨m, by simp [steps, e1, e2], i2, fun p => by rw [p2, p1]; rfl⟩
    · by_cases ha : Accepted e o
      · obtain ⟨m1, e1, i1, p1⟩ := step_ok e h0 h2 hm hxo ha
        obtain ⟨o', ho, hn⟩ := hb
        have ho' : o' ∈ os := by
          rcases List.mem_cons.1 ho with rfl | h
          · exact absurd ha hn
          · exact h
        simp [steps, e1, (ih hxs m1 i1).2 ⟨o', ho', hn⟩]
      · simp [steps, step_none e ha]

/-- the hypotheses can be met -/
example : ∀ o ∈ [Op.translate ⟨1, 0, 0⟩, .rotateV 30 ⟨1, 1, 0⟩, .scale ⟨2, 3, -1⟩, .mirror ⟨0, 1, 1⟩, .rotate ⟨10, 20, 30⟩],
    Exact .dflt o ∧ Accepted .dflt o := by
  intro o ho
  simp only [List.mem_cons, List.not_mem_nil, or_false] at ho
  rcases ho with rfl | rfl | rfl | rfl | rfl <;> norm_num [Exact, Accepted, NotTiny, Eps.dflt]

/-- C64: any number of nested translations that are each below the tolerance do nothing, whatever their sum. -/
theorem C64_tiny_wrong (e : Eps) (h0 : 0 < e.eq) (n : Nat) :
    steps e (.one e) (List.replicate n (.translate ⟨e.eq / 2, 0, 0⟩)) = some (.one e) ∧
      meanings (List.replicate n (.translate ⟨e.eq / 2, 0, 0⟩)) ⟨0, 0, 0⟩ = ⟨n * (e.eq / 2), 0, 0⟩ := by
  have ht : (⟨e.eq / 2, 0, 0⟩ : V3).hasLen0 e = true := by
    have ha : eEq e.eq (e.eq / 2) 0 = true := eEq0_iff.2 (by rw [abs_of_pos (by linarith)]; linarith)
    have hb : eEq e.eq 0 0 = true := eEq0_iff.2 (by simpa using h0)
    simp [V3.hasLen0, ha, hb]
  induction n with
  | zero => simp [steps, meanings]
  | succ n ih =>
    refine ⟨?_, ?_⟩
    · simp only [List.replicate_succ, steps, step, ht, if_true, Option.bind_eq_bind, Option.bind_some]; exact ih.1
    · simp only [List.replicate_succ, meanings, ih.2, meaning]
      push_cast
      ext <;> simp
      ring

/-- C64: `rotate(90, [0, 0, 0])` is accepted, maps every point to the origin, and the recorded determinant is 1. -/
theorem C64_axis_wrong (e : Eps) (h0 : 0 < e.eq) (h1 : e.eq ≤ 1) (h2 : 0 < e.sqr) :
    ∃ m, steps e (.one e) [.rotateV 90 ⟨0, 0, 0⟩] = some m ∧ m.d = 1 ∧ ∀ p, m.n.xform p = ⟨0, 0, 0⟩ := by
  have hsc : sincos 90 = ⟨1, 0⟩ := by
    have : (90 : ℝ) * Real.pi / 180 = Real.pi / 2 := by ring
    simp [sincos, this]
  have hu : ((⟨0, 0, 0⟩ : V3).unit e).1 = ⟨0, 0, 0⟩ := by
    simp [V3.unit, V3.div, div0]
  have hb : eEq e.eq 0 0 = true := eEq0_iff.2 (by simpa using h0)
  have hz : (⟨0, 0, 0⟩ : V3).hasLen01 e = true := by
    simp [V3.hasLen01, V3.hasLen0, hb]
  refine ⟨(M3wi.one e).mul (.ofRot (rotMat ⟨0, 0, 0⟩ ⟨1, 0⟩)), ?_, ?_, fun p => ?_⟩
  · simp only [steps, step, M3wi.rotV, hu, rotUnit, hsc, hz, hasLen01_sc h2 (v := ⟨1, 0⟩) (by norm_num), ass, if_true,
      Option.bind_eq_bind, Option.bind_some]
  · simp [M3wi.mul, M3wi.one, M3wi.scale, M3wi.ofRot]
  · simp only [M3wi.mul, mul_xform]
    simp [M3wi.one, M3wi.scale, M3wi.ofRot, rotMat, M3w.xform, M3.xform, V3.add, M3.scale]

/-! ## C65 -/

/-- C65: Let `m` be a map with its inverse.  If the tolerances do not matter (`Steady`), then either nothing is generated at
height `z`, and then the plane does not hit the image of the ball of radius `1 - epsilon`, or a map is computed that maps each
circle of radius `r ≤ 1` so that exactly the points of the slice are hit: the unit disc is mapped exactly to the slice of the
image of the unit ball, and the unit circle exactly to its outline.  Missing: `Steady`, see `C65_wrong`. -/
theorem C65_sphere_partial (e : Eps) (h0 : 0 < e.eq) (h1 : e.eq ≤ 1) (h2 : 0 < e.sqr) (h3 : e.sqr ≤ e.eq) (m : M3wi)
    (hm : Inverse m) (hs : Steady e m) (z : ℝ) :
    (sphereSlice e m z = some none ∧ ∀ x y r2, r2 ≤ (1 - e.eq) * (1 - e.eq) → ¬ OnEllipsoid m.n r2 ⟨x, y, z⟩) ∨
    ∃ m2, sphereSlice e m z = some (some m2) ∧
      (∀ x y, (∃ r2, r2 ≤ 1 ∧ OnEllipsoid m.n r2 ⟨x, y, z⟩) ↔ ∃ c s, c * c + s * s ≤ 1 ∧ m2.xform ⟨c, s⟩ = ⟨x, y⟩) ∧
      (∀ x y, OnEllipsoid m.n 1 ⟨x, y, z⟩ ↔ ∃ c s, c * c + s * s = 1 ∧ m2.xform ⟨c, s⟩ = ⟨x, y⟩) := by
  obtain ⟨q, ho, hz, hback, hn, hy⟩ := sphere_ok h0 h1 h2 h3 hm hs z
  set h := (q.xform (m.i.xform ⟨0, 0, z⟩)).z with hh
  -- the height of the points of the plane
  have hq : ∀ p x y, m.n.xform p = ⟨x, y, z⟩ → (q.xform p).z = h := by
    intro p x y hp
    have := hm.left p
    rw [hp] at this
    rw [← this]; exact hz x y
  by_cases hlt : 1 - |h| < e.eq
  · refine .inl ⟨hn hlt, fun x y r2 hr ⟨p, hp, hx⟩ => ?_⟩
    have hzp := hq p x y hx
    have hno := orth_norm ho p
    have ha : 1 - e.eq < |h| := by linarith
    have hb : (1 - e.eq) * (1 - e.eq) < h * h := by
      rw [← abs_mul_abs_self h]
      exact mul_self_lt_mul_self (by linarith) ha
    rw [hp] at hno
    simp only [dot] at hno
    rw [hzp] at hno
    nlinarith [mul_self_nonneg (q.xform p).x, mul_self_nonneg (q.xform p).y]
  · have hge := not_lt.1 hlt
    obtain ⟨m2, e2, hm2⟩ := hy hge
    have hpos : 0 < 1 - |h| * |h| := by nlinarith [abs_nonneg h]
    set rad := √ (1 - |h| * |h|) with hrad
    have hr2 : rad * rad = 1 - h * h := by rw [hrad, Real.mul_self_sqrt hpos.le, abs_mul_abs_self]
    have hr0 : 0 < rad := Real.sqrt_pos.2 hpos
    have key : ∀ x y k, (∃ c s, c * c + s * s = k ∧ m2.xform ⟨c, s⟩ = ⟨x, y⟩) ↔
        OnEllipsoid m.n (1 + (k - 1) * (rad * rad)) ⟨x, y, z⟩ := by
      intro x y k
      constructor
      · rintro ⟨c, s, hc, hxy⟩
        have ht := ho.right ⟨rad * c, rad * s, h⟩
        refine ⟨q.trans.xform ⟨rad * c, rad * s, h⟩, ?_, ?_⟩
        · rw [orth_norm (orth_trans ho)]
          simp only [dot]
          linear_combination (rad * rad) * hc + hr2
        · rw [hm2 c s] at hxy
          have hzz := hback (q.trans.xform ⟨rad * c, rad * s, h⟩) (by rw [ht])
          simp only [V2.mk.injEq] at hxy
          ext
          · exact hxy.1
          · exact hxy.2
          · exact hzz
      · rintro ⟨p, hp, hx⟩
        have hzp := hq p x y hx
        have hno := orth_norm ho p
        rw [hp] at hno
        simp only [dot] at hno
        rw [hzp] at hno
        refine ⟨(q.xform p).x / rad, (q.xform p).y / rad, ?_, ?_⟩
        · have : rad * rad ≠ 0 := by positivity
          field_simp
          nlinarith
        · rw [hm2]
          have e3 : (⟨rad * ((q.xform p).x / rad), rad * ((q.xform p).y / rad), h⟩ : V3) = q.xform p := by
            ext
            · simp only; field_simp
            · simp only; field_simp
            · exact hzp.symm
          rw [e3, ho.left, hx]
    have hrr : 0 < rad * rad := by positivity
    refine .inr ⟨m2, e2, fun x y => ?_, fun x y => ?_⟩
    · constructor
      · rintro ⟨r2, hr, hE⟩
        have e4 : 1 + ((1 + (r2 - 1) / (rad * rad)) - 1) * (rad * rad) = r2 := by field_simp; ring
        obtain ⟨c, s, hc, hxy⟩ := (key x y (1 + (r2 - 1) / (rad * rad))).2 (by rw [e4]; exact hE)
        refine ⟨c, s, ?_, hxy⟩
        rw [hc]
        have : (r2 - 1) / (rad * rad) ≤ 0 := div_nonpos_of_nonpos_of_nonneg (by linarith) hrr.le
        linarith
      · rintro ⟨c, s, hc, hxy⟩
        refine ⟨_, ?_, (key x y _).1 ⟨c, s, rfl, hxy⟩⟩
        nlinarith
    · have := (key x y 1).symm
      simpa using this

/-- the hypotheses can be met: an ellipsoid that is turned around the X axis -/
example : Inverse (M3wi.mk ⟨⟨10, 0, 0, 0, 8, -12, 0, 6, 16⟩, ⟨0, 0, 0⟩⟩
      ⟨⟨1 / 10, 0, 0, 0, 8 / 100, 6 / 100, 0, -3 / 100, 4 / 100⟩, ⟨0, 0, 0⟩⟩ 2000) ∧
    Steady .dflt (M3wi.mk ⟨⟨10, 0, 0, 0, 8, -12, 0, 6, 16⟩, ⟨0, 0, 0⟩⟩
      ⟨⟨1 / 10, 0, 0, 0, 8 / 100, 6 / 100, 0, -3 / 100, 4 / 100⟩, ⟨0, 0, 0⟩⟩ 2000) := by
  refine ⟨⟨fun p => ?_, fun p => ?_, ?_⟩, ⟨?_, .inr (.inr ?_)⟩⟩
  · simp only [M3w.xform, M3.xform, V3.add]; ext <;> simp only <;> ring
  · simp only [M3w.xform, M3.xform, V3.add]; ext <;> simp only <;> ring
  · rw [← det3]; norm_num [M3.det]
  · rw [← det3]
    apply Real.le_sqrt_of_sq_le
    norm_num [M3.det, zrow, dot, Eps.dflt]
  · have : √ (dot (zrow ⟨10, 0, 0, 0, 8, -12, 0, 6, 16⟩) (zrow ⟨10, 0, 0, 0, 8, -12, 0, 6, 16⟩)) ≤ 18 := by
      apply Real.sqrt_le_iff.2
      norm_num [zrow, dot]
    simp only
    have h6 : |(6 : ℝ)| = 6 := by norm_num
    rw [h6]
    have : Eps.dflt.eq ≤ 1 / 3 := by norm_num [Eps.dflt]
    have := dflt_ok.1
    nlinarith

/-- an ellipsoid with the radii 1000, 1000, 100, turned around the X axis by about 37 degrees -/
noncomputable def bigEllipsoid : M3wi :=
  ⟨⟨⟨1000, 0, 0, 0, 800, -60, 0, 600, 80⟩, ⟨0, 0, 0⟩⟩,
   ⟨⟨1 / 1000, 0, 0, 0, 8 / 10000, 6 / 10000, 0, -6 / 1000, 8 / 1000⟩, ⟨0, 0, 0⟩⟩, 100000000⟩

/-- C65: A large tilted ellipsoid is sliced in the wrong direction with the default tolerances: the slice at height 0 is
claimed to reach the point (0, 800), which is far outside the ellipsoid. -/
theorem C65_wrong : Inverse bigEllipsoid ∧
    (∃ m2, sphereSlice .dflt bigEllipsoid 0 = some (some m2) ∧ m2.xform ⟨0, 1⟩ = ⟨0, 800⟩) ∧
    ∀ r2, r2 ≤ 9 → ¬ OnEllipsoid bigEllipsoid.n r2 ⟨0, 800, 0⟩ := by
  have hinv : Inverse bigEllipsoid := by
    refine ⟨fun p => ?_, fun p => ?_, ?_⟩
    · simp only [bigEllipsoid, M3w.xform, M3.xform, V3.add]; ext <;> simp only <;> ring
    · simp only [bigEllipsoid, M3w.xform, M3.xform, V3.add]; ext <;> simp only <;> ring
    · rw [← det3]; norm_num [bigEllipsoid, M3.det]
  refine ⟨hinv, ?_, fun r2 hr ⟨p, hp, hx⟩ => ?_⟩
  · have hc := (cross_eq hinv 0).1
    have hN : (⟨bigEllipsoid.i.b.det * bigEllipsoid.n.b.m20, bigEllipsoid.i.b.det * bigEllipsoid.n.b.m21,
        bigEllipsoid.i.b.det * bigEllipsoid.n.b.m22⟩ : V3) = ⟨0, 6 / 1000000, 8 / 10000000⟩ := by
      norm_num [bigEllipsoid, M3.det]
    rw [hN] at hc
    have hlo : Eps.dflt.sqr ≤ (⟨0, 6 / 1000000, 8 / 10000000⟩ : V3).len := by
      unfold V3.len V3.sqrLen
      apply Real.le_sqrt_of_sq_le
      norm_num [Eps.dflt]
    have hhi : (⟨0, 6 / 1000000, 8 / 10000000⟩ : V3).len < Eps.dflt.eq := by
      unfold V3.len V3.sqrLen
      rw [Real.sqrt_lt' dflt_ok.1]
      norm_num [Eps.dflt]
    have hu : (⟨0, 6 / 1000000, 8 / 10000000⟩ : V3).unit .dflt = (⟨0, 0, 0⟩, true) := by
      have ea : eEq Eps.dflt.eq (⟨0, 6 / 1000000, 8 / 10000000⟩ : V3).len 0 = true :=
        eEq0_iff.2 (by rw [abs_of_nonneg (len_nonneg _)]; exact hhi)
      have eb : eEq Eps.dflt.sqr (⟨0, 6 / 1000000, 8 / 10000000⟩ : V3).len 0 = false :=
        eEq0_false.2 (by rw [abs_of_nonneg (len_nonneg _)]; exact hlo)
      simp only [V3.unit, V3.div, div0, ea, eb, if_true, Bool.not_false]
    have hn : V3.normal3 .dflt (bigEllipsoid.i.xform ⟨1, 0, 0⟩) (bigEllipsoid.i.xform ⟨0, 0, 0⟩)
        (bigEllipsoid.i.xform ⟨0, 1, 0⟩) = (⟨0, 0, 0⟩, true) := by
      unfold V3.normal3 V3.normal
      rw [hc, hu]; rfl
    have hz : (⟨0, 0, 0⟩ : V3).unit .dflt = (⟨0, 0, 0⟩, false) := by
      have hl : (⟨0, 0, 0⟩ : V3).len = 0 := by simp [V3.len, V3.sqrLen]
      have eb : eEq Eps.dflt.sqr 0 0 = true := eEq0_iff.2 (by simpa using dflt_ok.2.2.1)
      simp [V3.unit, hl, V3.div, div0, eb]
    have hr : M3wi.rotIntoZ .dflt ⟨0, 0, 0⟩ = some (.one .dflt, false) := by
      simp [M3wi.rotIntoZ, hz]
    have hsq : (M3wi.one .dflt).n.xform (bigEllipsoid.i.xform ⟨0, 0, 0⟩) = ⟨0, 0, 0⟩ := by
      simp [bigEllipsoid, M3wi.one, M3wi.scale, M3w.xform, M3.xform, V3.add]
    have hnl : ¬ (1 - |(0 : ℝ)| < Eps.dflt.eq) := by rw [not_lt]; simpa using dflt_ok.2.1
    have hd1 : div0 .dflt 1 1 = 1 := by
      unfold div0; rw [eEq0_false.2 (by simpa using dflt_ok.2.1)]; simp
    simp only [sphereSlice, hn, hr, Bool.not_true, Bool.false_eq_true, if_false, Option.bind_eq_bind, Option.bind_some, hsq, hnl]
    refine ⟨_, rfl, ?_⟩
    rw [to2_xform]
    simp only [M3wi.mul, mul_xform]
    simp [bigEllipsoid, M3wi.one, M3wi.scale, M3wi.xlat, M3wi.invInPlace, M3w.xform, M3.xform, V3.add, M3.one, M3.scale, hd1]
  · have := hinv.left p
    rw [hx] at this
    rw [← this] at hp
    simp [bigEllipsoid, M3w.xform, M3.xform, V3.add, dot] at hp
    norm_num at hp
    linarith

end Hob3l.Xform
