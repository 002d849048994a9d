import Verif.Xform.Lemmas
import Mathlib.Tactic.SplitIfs

/-!
Lemmas about the steps of the conversion.
-/

namespace Hob3l.Xform

theorem mirrorMat_invol {u : V3} (hu : u.x * u.x + u.y * u.y + u.z * u.z = 1) (p : V3) :
    (mirrorMat u).xform ((mirrorMat u).xform p) = p := by
  obtain ⟨x, y, z⟩ := u
  simp only at hu
  simp only [mirrorMat, M3.xform]
  ext <;> simp only
  · linear_combination (4*p.x*x^2 + 4*p.y*x*y + 4*p.z*x*z) * hu
  · linear_combination (4*p.x*x*y + 4*p.y*y^2 + 4*p.z*y*z) * hu
  · linear_combination (4*p.x*x*z + 4*p.y*y*z + 4*p.z*z^2) * hu

theorem mirrorMat_det {u : V3} (hu : u.x * u.x + u.y * u.y + u.z * u.z = 1) : (mirrorMat u).det = -1 := by
  obtain ⟨x, y, z⟩ := u
  simp only at hu
  simp only [mirrorMat, M3.det]
  linear_combination ((-2)) * hu

theorem abs_le_len (v : V3) : |v.x| ≤ v.len ∧ |v.y| ≤ v.len ∧ |v.z| ≤ v.len := by
  have hx := mul_self_nonneg v.x
  have hy := mul_self_nonneg v.y
  have hz := mul_self_nonneg v.z
  unfold V3.len V3.sqrLen
  refine ⟨Real.abs_le_sqrt (by nlinarith), Real.abs_le_sqrt (by nlinarith), Real.abs_le_sqrt (by nlinarith)⟩

theorem len_ge {e : Eps} {v : V3} (h : NotTiny e v) : e.eq ≤ v.len := by
  obtain ⟨h1, h2, h3⟩ := abs_le_len v
  rcases h with h | h | h <;> linarith

theorem len_nonneg (v : V3) : 0 ≤ v.len := Real.sqrt_nonneg _

theorem len_sq (v : V3) : v.len * v.len = v.x * v.x + v.y * v.y + v.z * v.z := by
  unfold V3.len V3.sqrLen
  exact Real.mul_self_sqrt (by nlinarith [mul_self_nonneg v.x, mul_self_nonneg v.y, mul_self_nonneg v.z])

theorem unit_eq {e : Eps} {v : V3} (h : e.eq ≤ v.len) : (v.unit e).1 = ⟨v.x / v.len, v.y / v.len, v.z / v.len⟩ := by
  have : eEq e.eq v.len 0 = false := eEq0_false.2 (by rw [abs_of_nonneg (len_nonneg v)]; exact h)
  simp only [V3.unit, V3.div, div0, this, Bool.false_eq_true, if_false]

theorem unit_one {e : Eps} (he : 0 < e.eq) {v : V3} (h : e.eq ≤ v.len) :
    (v.unit e).1.x * (v.unit e).1.x + (v.unit e).1.y * (v.unit e).1.y + (v.unit e).1.z * (v.unit e).1.z = 1 := by
  rw [unit_eq h]
  have hl : v.len ≠ 0 := by linarith
  have := len_sq v
  simp only
  field_simp
  linarith

theorem hasLen01_of {e : Eps} (he : 0 < e.sqr) {v : V3} (h : v.x * v.x + v.y * v.y + v.z * v.z = 1) : v.hasLen01 e = true := by
  unfold V3.hasLen01 V3.sqrLen
  rw [h, Bool.or_eq_true]
  right
  rw [eEq_iff]; simpa using he

theorem hasLen01_sc {e : Eps} (he : 0 < e.sqr) {v : V2} (h : v.x * v.x + v.y * v.y = 1) : v.hasLen01 e = true := by
  unfold V2.hasLen01 V2.sqrLen
  rw [h, Bool.or_eq_true]
  right
  rw [eEq_iff]; simpa using he

theorem sincos_one (a : ℝ) : (sincos a).x * (sincos a).x + (sincos a).y * (sincos a).y = 1 := by
  have := Real.sin_sq_add_cos_sq (a * Real.pi / 180)
  simp only [sincos]; linarith

theorem hasLen0_false {e : Eps} {v : V3} : v.hasLen0 e = false ↔ NotTiny e v := by
  unfold V3.hasLen0 NotTiny
  cases h1 : eEq e.eq v.x 0 <;> cases h2 : eEq e.eq v.y 0 <;> cases h3 : eEq e.eq v.z 0 <;>
    simp [eEq0_false, eEq0_iff] at h1 h2 h3 ⊢ <;> simp [*] <;> try (refine ⟨?_, ?_, ?_⟩ <;> assumption)

theorem one_inverse (e : Eps) (h0 : 0 < e.eq) (h1 : e.eq ≤ 1) : Inverse (.one e) :=
  scale_inverse e h0 (by simpa using h1) (by simpa using h1) (by simpa using h1)

theorem add_zero3 (q : V3) : q.add ⟨0, 0, 0⟩ = q := by simp [V3.add]

theorem mirrorV_ok (e : Eps) (h0 : 0 < e.eq) (h1 : 0 < e.sqr) {v : V3} (h : NotTiny e v) :
    ∃ m, M3wi.mirrorV e v = some m ∧ Inverse m ∧ ∀ p, m.n.xform p = meaning (.mirror v) p := by
  have hu := unit_one h0 (len_ge h)
  refine ⟨⟨⟨mirrorMat (v.unit e).1, ⟨0, 0, 0⟩⟩, ⟨mirrorMat (v.unit e).1, ⟨0, 0, 0⟩⟩, -1⟩, ?_, ?_, ?_⟩
  · simp [M3wi.mirrorV, mirrorUnit, ass, hasLen01_of h1 hu]
  · refine ⟨fun p => ?_, fun p => ?_, ?_⟩
    · simp only [M3w.xform, add_zero3]; exact mirrorMat_invol hu p
    · simp only [M3w.xform, add_zero3]; exact mirrorMat_invol hu p
    · rw [← det3]; exact (mirrorMat_det hu).symm
  · intro p
    have hl : v.len ≠ 0 := by have := len_ge h; linarith
    have hd : dot v v = v.len * v.len := by rw [len_sq]; rfl
    simp only [M3w.xform, add_zero3, meaning, hd]
    rw [unit_eq (len_ge h)]
    simp only [mirrorMat, M3.xform, dot]
    ext <;> simp only <;> field_simp <;> ring

theorem rotV_ok (e : Eps) (h0 : 0 < e.eq) (h1 : 0 < e.sqr) {v : V3} (h : NotTiny e v) (a : ℝ) :
    ∃ m, M3wi.rotV e v (sincos a) = some m ∧ Inverse m ∧ ∀ p, m.n.xform p = meaning (.rotateV a v) p := by
  have hu := unit_one h0 (len_ge h)
  refine ⟨.ofRot (rotMat (v.unit e).1 (sincos a)), ?_, ?_, ?_⟩
  · simp [M3wi.rotV, rotUnit, ass, hasLen01_of h1 hu, hasLen01_sc h1 (sincos_one a)]
  · obtain ⟨o, d⟩ := rotMat_orth hu (sincos_one a)
    exact ofRot_inverse o d
  · intro p
    have hl : v.len ≠ 0 := by have := len_ge h; linarith
    have hd : dot v v = v.len * v.len := by rw [len_sq]; rfl
    have hs : √(v.len * v.len) = v.len := Real.sqrt_mul_self (len_nonneg v)
    simp only [M3wi.ofRot, M3w.xform, add_zero3, meaning, hd, hs]
    rw [unit_eq (len_ge h)]
    simp only [rotMat, M3.xform, dot, sincos]
    ext <;> simp only <;> field_simp <;> ring

theorem rotXYZ_inverse {sc : V2} (h : sc.x * sc.x + sc.y * sc.y = 1) :
    Inverse (.ofRot ⟨1, 0, 0, 0, sc.y, -sc.x, 0, sc.x, sc.y⟩) ∧
    Inverse (.ofRot ⟨sc.y, 0, sc.x, 0, 1, 0, -sc.x, 0, sc.y⟩) ∧
    Inverse (.ofRot ⟨sc.y, -sc.x, 0, sc.x, sc.y, 0, 0, 0, 1⟩) := by
  refine ⟨ofRot_inverse ⟨fun p => ?_, fun p => ?_⟩ ?_, ofRot_inverse ⟨fun p => ?_, fun p => ?_⟩ ?_,
    ofRot_inverse ⟨fun p => ?_, fun p => ?_⟩ ?_⟩
  all_goals first
    | (simp only [M3.det]; linear_combination h)
    | (simp only [M3.trans, M3.xform]
       ext <;> simp only <;> first
         | ring1
         | linear_combination p.x * h
         | linear_combination p.y * h
         | linear_combination p.z * h)

theorem step_ok (e : Eps) (h0 : 0 < e.eq) (h1 : 0 < e.sqr) {mo : M3wi} (hm : Inverse mo) {o : Op} (hx : Exact e o)
    (ha : Accepted e o) :
    ∃ m, step e mo o = some m ∧ Inverse m ∧ ∀ p, m.n.xform p = mo.n.xform (meaning o p) := by
  cases o with
  | translate v =>
    simp only [step]
    cases ht : v.hasLen0 e with
    | true =>
      refine ⟨mo, by simp, hm, fun p => ?_⟩
      have : v = ⟨0, 0, 0⟩ := by
        rcases hx with h | h
        · exact h
        · rw [← hasLen0_false] at h; rw [ht] at h; cases h
      subst this
      simp [meaning]
    | false =>
      refine ⟨_, by simp only [Bool.false_eq_true, if_false]; rfl, hm.mul (xlat_inverse _ _ _), fun p => ?_⟩
      simp only [M3wi.mul, mul_xform]
      congr 1
      simp [M3wi.xlat, M3w.xform, M3.xform, M3.one, M3.scale, V3.add, meaning]
  | mirror v =>
    obtain ⟨m, g1, g2, g3⟩ := mirrorV_ok e h0 h1 ha
    refine ⟨mo.mul m, ?_, hm.mul g2, fun p => ?_⟩
    · simp [step, hasLen0_false.2 ha, g1]
    · simp only [M3wi.mul, mul_xform, g3]
  | scale v =>
    obtain ⟨a1, a2, a3⟩ := ha
    refine ⟨_, ?_, hm.mul (scale_inverse e h0 a1 a2 a3), fun p => ?_⟩
    · simp [step, goodScale, eEq0_false.2 a1, eEq0_false.2 a2, eEq0_false.2 a3]
    · simp only [M3wi.mul, mul_xform]
      congr 1
      simp [M3wi.scale, M3w.xform, M3.xform, M3.scale, V3.add, meaning]
  | multmatrix m =>
    have ha' : e.sqr ≤ |m.b.det| := by rw [det3]; exact ha
    obtain ⟨g1, g2, g3⟩ := inv3w_ok e h1 m ha'
    refine ⟨mo.mul (M3wi.ofM3w e m).1, ?_, hm.mul ⟨g2, g1, ?_⟩, fun p => ?_⟩
    · simp [step, M3wi.ofM3w, g3, eEq0_false.2 ha']
    · simp only [M3wi.ofM3w, g3, det3]
    · simp only [M3wi.mul, mul_xform]
      congr 1
  | rotateV a v =>
    obtain ⟨m, g1, g2, g3⟩ := rotV_ok e h0 h1 hx a
    refine ⟨mo.mul m, ?_, hm.mul g2, fun p => ?_⟩
    · simp [step, g1]
    · simp only [M3wi.mul, mul_xform, g3]
  | rotate v =>
    obtain ⟨gx, -, -⟩ := rotXYZ_inverse (sincos_one v.x)
    obtain ⟨-, gy, -⟩ := rotXYZ_inverse (sincos_one v.y)
    obtain ⟨-, -, gz⟩ := rotXYZ_inverse (sincos_one v.z)
    refine ⟨_, ?_, hm.mul ((gz.mul gy).mul gx), fun p => ?_⟩
    · simp [step, M3wi.rotX, M3wi.rotY, M3wi.rotZ, ass, hasLen01_sc h1 (sincos_one _)]
    · simp only [M3wi.mul, mul_xform]
      congr 1
      simp only [M3wi.ofRot, M3w.xform, add_zero3, M3.xform, sincos, meaning]
      ext <;> simp only <;> ring

theorem step_none (e : Eps) {mo : M3wi} {o : Op} (ha : ¬ Accepted e o) : step e mo o = none := by
  cases o with
  | translate v => exact absurd trivial ha
  | rotateV a v => exact absurd trivial ha
  | rotate v => exact absurd trivial ha
  | mirror v =>
    have : v.hasLen0 e = true := by
      by_contra h
      exact ha (hasLen0_false.1 (by simpa using h))
    simp [step, this]
  | scale v =>
    have : goodScale e v = false := by
      by_contra h
      simp [goodScale, eEq0_false] at h
      exact ha h
    simp [step, this]
  | multmatrix m =>
    have : |m.b.det| < e.sqr := by
      by_contra h
      exact ha (by simp only [Accepted]; rw [← det3]; linarith)
    have hc := eEq0_iff.2 this
    have h2 : (m.inv e).2 = 0 := by
      simp only [M3.det] at hc
      simp [M3w.inv, hc]
    have h3 : eEq e.sqr 0 0 = true := eEq0_iff.2 (lt_of_le_of_lt (by simp) this)
    simp [step, M3wi.ofM3w, h2, h3]

end Hob3l.Xform
