import Verif.Xform.LemmasStep

/-!
Lemmas about slicing an ellipsoid.
-/

namespace Hob3l.Xform

theorem intoZ_orth {e : Eps} (he : 0 < e.eq) {u : V3} (hu : u.x * u.x + u.y * u.y + u.z * u.z = 1)
    (hn : (u.x = 0 ∧ u.y = 0) ∨ e.eq ≤ |u.x| ∨ e.eq ≤ |u.y|) :
    Orth (intoZMat e u) ∧ ∀ q, ((intoZMat e u).xform q).z = dot u q := by
  obtain ⟨x, y, z⟩ := u
  simp only at hu hn
  unfold intoZMat
  by_cases hc : eEq e.eq x 0 && eEq e.eq y 0
  · simp only [hc, if_true]
    rw [Bool.and_eq_true, eEq0_iff, eEq0_iff] at hc
    have h0 : x = 0 ∧ y = 0 := by
      rcases hn with h | h | h
      · exact h
      · linarith
      · linarith
    obtain ⟨rfl, rfl⟩ := h0
    have hz : z * z = 1 := by linarith
    refine ⟨⟨fun p => ?_, fun p => ?_⟩, fun q => ?_⟩
    · simp only [M3.trans, M3.xform]
      ext <;> simp only
      · ring
      · ring
      · linear_combination p.z * hz
    · simp only [M3.trans, M3.xform]
      ext <;> simp only
      · ring
      · ring
      · linear_combination p.z * hz
    · simp [M3.xform, dot]
  · simp only [hc]
    have hpos : 0 < x * x + y * y := by
      have hx := mul_self_nonneg x
      have hy := mul_self_nonneg y
      have : x ≠ 0 ∨ y ≠ 0 := by
        rcases hn with h | h | h
        · exfalso; apply hc
          rw [h.1, h.2]
          simpa [eEq0_iff] using he
        · exact .inl (ne_zero_of_eps he h)
        · exact .inr (ne_zero_of_eps he h)
      rcases this with h | h
      · have := mul_self_pos.2 h; linarith
      · have := mul_self_pos.2 h; linarith
    have hk : √(x * x + y * y) * √(x * x + y * y) = x * x + y * y := Real.mul_self_sqrt hpos.le
    have hk0 : √(x * x + y * y) ≠ 0 := (Real.sqrt_pos.2 hpos).ne'
    generalize √(x * x + y * y) = k at hk hk0
    have hk2 : k ^ 2 = x * x + y * y := by rw [← hk]; ring
    have hz : z * z = 1 - k ^ 2 := by rw [hk2]; linarith
    refine ⟨?_, fun q => by simp [M3.xform, dot]⟩
    apply orth_of
    ext i j
    fin_cases i <;> fin_cases j <;>
      simp [M3.toMatrix, M3.trans, Matrix.mul_apply, Fin.sum_univ_succ] <;> field_simp
    all_goals first
      | ring1
      | linear_combination -hk2
      | linear_combination k ^ 2 * hz - z ^ 2 * hk2
      | linear_combination -z * hk2
      | linear_combination hu

theorem orth_norm {a : M3} (h : Orth a) (p : V3) : dot (a.xform p) (a.xform p) = dot p p := by
  have h1 := h.left p
  have e : dot (a.xform p) (a.xform p) = dot (a.trans.xform (a.xform p)) p := by
    simp only [dot, M3.xform, M3.trans]; ring
  rw [e, h1]

theorem orth_trans {a : M3} (h : Orth a) : Orth a.trans := ⟨h.right, h.left⟩

/-- the linear parts of inverse maps are inverse -/
theorem lin_inverse {a b : M3w} (h : ∀ p, a.xform (b.xform p) = p) :
    (∀ p : V3, a.b.xform (b.b.xform p) = p) ∧ a.b.toMatrix * b.b.toMatrix = 1 := by
  have h0 := h ⟨0, 0, 0⟩
  have h1 := h ⟨1, 0, 0⟩
  have h2 := h ⟨0, 1, 0⟩
  have h3 := h ⟨0, 0, 1⟩
  simp only [M3w.xform, M3.xform, V3.add, V3.mk.injEq, mul_zero, mul_one, add_zero, zero_add] at h0 h1 h2 h3
  have key : ∀ p, a.b.xform (b.b.xform p) = p := by
    intro p
    have hp := h p
    have e : a.xform (b.xform p) = (a.b.xform (b.b.xform p)).add (a.xform (b.xform ⟨0, 0, 0⟩)) := by
      simp only [M3w.xform, M3.xform, V3.add]
      ext <;> simp <;> ring
    rw [h ⟨0, 0, 0⟩, add_zero3] at e
    rw [← e]; exact hp
  refine ⟨fun p => key p, ?_⟩
  have k1 := key ⟨1, 0, 0⟩
  have k2 := key ⟨0, 1, 0⟩
  have k3 := key ⟨0, 0, 1⟩
  simp only [M3.xform, V3.mk.injEq, mul_zero, mul_one, add_zero, zero_add] at k1 k2 k3
  obtain ⟨k11, k12, k13⟩ := k1
  obtain ⟨k21, k22, k23⟩ := k2
  obtain ⟨k31, k32, k33⟩ := k3
  ext i j
  fin_cases i <;> fin_cases j <;> simp [M3.toMatrix, Matrix.mul_apply, Fin.sum_univ_succ] <;> linarith

/-- the normal of the image of the XY plane under the inverse -/
theorem cross_eq {m : M3wi} (h : Inverse m) (z : ℝ) :
    V3.cross ((m.i.xform ⟨1, 0, z⟩).sub (m.i.xform ⟨0, 0, z⟩)) ((m.i.xform ⟨0, 1, z⟩).sub (m.i.xform ⟨0, 0, z⟩)) =
      ⟨m.i.b.det * m.n.b.m20, m.i.b.det * m.n.b.m21, m.i.b.det * m.n.b.m22⟩ ∧ m.i.b.det * m.n.b.det = 1 := by
  obtain ⟨-, hl⟩ := lin_inverse h.left
  obtain ⟨-, hr⟩ := lin_inverse h.right
  have hdet : m.i.b.det * m.n.b.det = 1 := by
    rw [det3, det3, ← Matrix.det_mul, hl, Matrix.det_one]
  refine ⟨?_, hdet⟩
  have g : ∀ i j, (m.n.b.toMatrix * m.i.b.toMatrix) i j = (1 : Matrix (Fin 3) (Fin 3) ℝ) i j := by rw [hr]; simp
  have g20 := g 2 0; have g21 := g 2 1; have g22 := g 2 2
  simp [M3.toMatrix, Matrix.mul_apply, Fin.sum_univ_succ] at g20 g21 g22
  simp only [M3w.xform, M3.xform, V3.add, V3.sub, V3.cross, M3.det]
  obtain ⟨n, i, d⟩ := m
  obtain ⟨⟨a00, a01, a02, a10, a11, a12, a20, a21, a22⟩, w⟩ := n
  obtain ⟨⟨b00, b01, b02, b10, b11, b12, b20, b21, b22⟩, v⟩ := i
  simp only at *
  ext <;> simp only
  · linear_combination -(b11 * b22 - b12 * b21) * g20 + (b10 * b22 - b12 * b20) * g21 - (b10 * b21 - b11 * b20) * g22
  · linear_combination (b01 * b22 - b02 * b21) * g20 - (b00 * b22 - b02 * b20) * g21 + (b00 * b21 - b01 * b20) * g22
  · linear_combination -(b01 * b12 - b02 * b11) * g20 + (b00 * b12 - b02 * b10) * g21 - (b00 * b11 - b01 * b10) * g22

theorem len_dot (v : V3) : √ (dot v v) = v.len := rfl

theorem len_smul (k : ℝ) (v : V3) : (⟨k * v.x, k * v.y, k * v.z⟩ : V3).len = |k| * v.len := by
  unfold V3.len V3.sqrLen
  simp only
  rw [← Real.sqrt_sq_eq_abs, ← Real.sqrt_mul (sq_nonneg k)]
  congr 1; ring

/-- the normal that is computed, and the matrix that turns it into the Z axis -/
theorem normal_ok {e : Eps} (h0 : 0 < e.eq) (h1 : e.eq ≤ 1) (h2 : 0 < e.sqr) (h3 : e.sqr ≤ e.eq) {m : M3wi}
    (hm : Inverse m) (hs : Steady e m) (z : ℝ) :
    ∃ sn q, V3.normal3 e (m.i.xform ⟨1, 0, z⟩) (m.i.xform ⟨0, 0, z⟩) (m.i.xform ⟨0, 1, z⟩) = (sn, true) ∧
      M3wi.rotIntoZ e sn = some (.ofRot q, true) ∧ Orth q ∧
      ∃ k, k ≠ 0 ∧ ∀ p, (q.xform p).z = k * dot (zrow m.n.b) p := by
  obtain ⟨hc, hd⟩ := cross_eq hm z
  have hwide := hs.wide
  have htilt0 := hs.tilt
  rw [← det3, len_dot] at hwide
  rw [len_dot] at htilt0
  have hd0 : m.n.b.det ≠ 0 := fun h => by rw [h] at hd; simp at hd
  have hi0 : m.i.b.det ≠ 0 := fun h => by rw [h] at hd; simp at hd
  set k0 := m.i.b.det with hk0
  set r := zrow m.n.b with hr
  have hrpos : 0 < r.len := lt_of_lt_of_le (mul_pos h0 (abs_pos.2 hd0)) hwide
  have hN : (⟨k0 * m.n.b.m20, k0 * m.n.b.m21, k0 * m.n.b.m22⟩ : V3).len = |k0| * r.len := len_smul k0 r
  have habs : |k0| * |m.n.b.det| = 1 := by rw [← abs_mul, hd, abs_one]
  have hlen : e.eq ≤ |k0| * r.len := by
    have := mul_le_mul_of_nonneg_left hwide (abs_nonneg k0)
    have e1 : |k0| * (e.eq * |m.n.b.det|) = e.eq := by rw [mul_left_comm, habs, mul_one]
    linarith
  have hlp : 0 < |k0| * r.len := lt_of_lt_of_le h0 hlen
  have hsn : (⟨k0 * m.n.b.m20, k0 * m.n.b.m21, k0 * m.n.b.m22⟩ : V3).unit e =
      (⟨k0 * m.n.b.m20 / (|k0| * r.len), k0 * m.n.b.m21 / (|k0| * r.len), k0 * m.n.b.m22 / (|k0| * r.len)⟩, true) := by
    ext1
    · rw [unit_eq (by rw [hN]; exact hlen), hN]
    · simp only [V3.unit, hN]
      have : eEq e.sqr (|k0| * r.len) 0 = false := eEq0_false.2 (by rw [abs_of_pos hlp]; linarith)
      rw [this]; rfl
  have hone := unit_one h0 (v := ⟨k0 * m.n.b.m20, k0 * m.n.b.m21, k0 * m.n.b.m22⟩) (by rw [hN]; exact hlen)
  rw [hsn] at hone
  simp only at hone
  -- the unit of a unit vector
  generalize hu : (⟨k0 * m.n.b.m20 / (|k0| * r.len), k0 * m.n.b.m21 / (|k0| * r.len),
    k0 * m.n.b.m22 / (|k0| * r.len)⟩ : V3) = u at hsn
  have hux : u.x * u.x + u.y * u.y + u.z * u.z = 1 := by rw [← hu]; exact hone
  have hul : u.len = 1 := by
    unfold V3.len V3.sqrLen; rw [hux]; exact Real.sqrt_one
  have huu : u.unit e = (u, true) := by
    ext1
    · rw [unit_eq (by rw [hul]; exact h1), hul]; simp
    · simp only [V3.unit, hul]
      have : eEq e.sqr 1 0 = false := eEq0_false.2 (by simp; linarith)
      rw [this]; rfl
  have hcoef : k0 / (|k0| * r.len) ≠ 0 := div_ne_zero hi0 hlp.ne'
  have hab : |k0 / (|k0| * r.len)| = 1 / r.len := by
    rw [abs_div, abs_mul, abs_abs, abs_of_pos hrpos]
    have : |k0| ≠ 0 := abs_ne_zero.2 hi0
    field_simp
  have htilt : (u.x = 0 ∧ u.y = 0) ∨ e.eq ≤ |u.x| ∨ e.eq ≤ |u.y| := by
    have hx : u.x = k0 / (|k0| * r.len) * m.n.b.m20 := by rw [← hu]; ring
    have hy : u.y = k0 / (|k0| * r.len) * m.n.b.m21 := by rw [← hu]; ring
    have aux : ∀ t, e.eq * r.len ≤ |t| → e.eq ≤ |k0 / (|k0| * r.len) * t| := by
      intro t ht
      rw [abs_mul, hab, one_div, inv_mul_eq_div, le_div_iff₀ hrpos]; exact ht
    rcases htilt0 with h | h | h
    · left; rw [hx, hy, h.1, h.2]; simp
    · right; left; rw [hx]; exact aux _ h
    · right; right; rw [hy]; exact aux _ h
  obtain ⟨ho, hz⟩ := intoZ_orth h0 hux htilt
  refine ⟨u, intoZMat e u, ?_, ?_, ho, k0 / (|k0| * r.len), hcoef, fun p => ?_⟩
  · unfold V3.normal3 V3.normal
    rw [hc, hsn]; rfl
  · unfold M3wi.rotIntoZ
    rw [huu]
    simp [ass, hasLen01_of h2 hux]
  · rw [hz, ← hu]
    simp only [dot, zrow, hr]; ring

theorem to2_xform (m : M3w) (c s : ℝ) : m.to2.xform ⟨c, s⟩ = ⟨(m.xform ⟨c, s, 0⟩).x, (m.xform ⟨c, s, 0⟩).y⟩ := by
  simp [M3w.to2, M2w.xform, M2.xform, M3w.xform, M3.xform, V2.add, V3.add]

theorem sphere_ok {e : Eps} (h0 : 0 < e.eq) (h1 : e.eq ≤ 1) (h2 : 0 < e.sqr) (h3 : e.sqr ≤ e.eq) {m : M3wi}
    (hm : Inverse m) (hs : Steady e m) (z : ℝ) :
    ∃ q : M3, Orth q ∧ (∀ x y, (q.xform (m.i.xform ⟨x, y, z⟩)).z = (q.xform (m.i.xform ⟨0, 0, z⟩)).z) ∧
      (∀ p, (q.xform p).z = (q.xform (m.i.xform ⟨0, 0, z⟩)).z → (m.n.xform p).z = z) ∧
      let h := (q.xform (m.i.xform ⟨0, 0, z⟩)).z
      (1 - |h| < e.eq → sphereSlice e m z = some none) ∧
      (e.eq ≤ 1 - |h| → ∃ m2, sphereSlice e m z = some (some m2) ∧ ∀ c s,
        m2.xform ⟨c, s⟩ = ⟨(m.n.xform (q.trans.xform ⟨√(1 - |h| * |h|) * c, √(1 - |h| * |h|) * s, h⟩)).x,
          (m.n.xform (q.trans.xform ⟨√(1 - |h| * |h|) * c, √(1 - |h| * |h|) * s, h⟩)).y⟩) := by
  obtain ⟨sn, q, g1, g2, g3, k, hk, g4⟩ := normal_ok h0 h1 h2 h3 hm hs z
  obtain ⟨-, hr⟩ := lin_inverse hm.right
  have g : ∀ i j, (m.n.b.toMatrix * m.i.b.toMatrix) i j = (1 : Matrix (Fin 3) (Fin 3) ℝ) i j := by rw [hr]; simp
  have g20 := g 2 0; have g21 := g 2 1; have g22 := g 2 2
  simp [M3.toMatrix, Matrix.mul_apply, Fin.sum_univ_succ] at g20 g21 g22
  refine ⟨q, g3, fun x y => ?_, fun p hp => ?_, fun hlt => ?_, fun hge => ?_⟩
  · rw [g4, g4]
    simp only [dot, zrow, M3w.xform, M3.xform, V3.add]
    linear_combination k * x * g20 + k * y * g21
  · rw [g4, g4] at hp
    have hp' := mul_left_cancel₀ hk hp
    have hz := congrArg V3.z (hm.right ⟨0, 0, z⟩)
    have e1 : ∀ p, (m.n.xform p).z = dot (zrow m.n.b) p + m.n.w.z := by
      intro p; simp [M3w.xform, M3.xform, V3.add, dot, zrow]
    rw [e1, hp', ← e1]; exact hz
  · simp only [sphereSlice, g1, g2]
    have e1 : (M3wi.ofRot q).n.xform (m.i.xform ⟨0, 0, z⟩) = q.xform (m.i.xform ⟨0, 0, z⟩) := by
      simp only [M3wi.ofRot]
      show (q.xform _).add _ = _
      rw [add_zero3]
    simp [e1, hlt]
  · have e1 : (M3wi.ofRot q).n.xform (m.i.xform ⟨0, 0, z⟩) = q.xform (m.i.xform ⟨0, 0, z⟩) := by
      simp only [M3wi.ofRot]
      show (q.xform _).add _ = _
      rw [add_zero3]
    simp only [sphereSlice, g1, g2]
    have hnlt : ¬ 1 - |(q.xform (m.i.xform ⟨0, 0, z⟩)).z| < e.eq := not_lt.2 hge
    refine ⟨_, by simp only [Bool.not_true, Bool.false_eq_true, if_false, Option.bind_eq_bind, Option.bind_some, e1, hnlt]; rfl, fun c s => ?_⟩
    rw [to2_xform]
    simp only [M3wi.mul, mul_xform, M3wi.invInPlace, M3wi.ofRot]
    have e2 : ∀ rad h : ℝ, (M3wi.xlat 0 0 h).n.xform ((M3wi.scale e rad rad 1).n.xform ⟨c, s, 0⟩) =
        ⟨rad * c, rad * s, h⟩ := by
      intro rad h
      simp [M3wi.xlat, M3wi.scale, M3w.xform, M3.xform, V3.add, M3.one, M3.scale]
    rw [e2]
    have e3 : ∀ p, (⟨q.trans, ⟨0, 0, 0⟩⟩ : M3w).xform p = q.trans.xform p := by
      intro p; show (q.trans.xform _).add _ = _; rw [add_zero3]
    rw [e3]

end Hob3l.Xform
