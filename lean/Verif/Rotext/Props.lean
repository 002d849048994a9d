import Verif.Rotext.Lemmas
import Verif.Solid.PropsVolume

/-!
Property theorems C130: `rotate_extrude` makes the solids that the outlines and the angle describe.
-/

namespace Hob3l.Rotext

open Hob3l.Xform (eEq eEq_iff eEq_false eEq0_iff eEq0_false)
open Hob3l.Solid
open Hob3l.Slice (sides)

theorem side_axis {e x : ℝ} : side e x = .axis ↔ |x| < e := by
  unfold side
  by_cases h : |x| < e
  · simp [eEq0_iff.2 h, h]
  · simp only [eEq0_false.2 (not_lt.1 h), Bool.false_eq_true, if_false, h, iff_false]
    split_ifs <;> simp

theorem side_neg {e x : ℝ} (h0 : 0 < e) : side e x = .neg ↔ x ≤ -e := by
  unfold side
  by_cases h : |x| < e
  · have := (abs_lt.1 h).1
    simp only [eEq0_iff.2 h, if_true, reduceCtorEq, false_iff]; linarith
  · have h' := not_lt.1 h
    simp only [eEq0_false.2 h', Bool.false_eq_true, if_false]
    split_ifs with hx
    · rw [abs_of_neg hx] at h'
      simp only [true_iff]; linarith
    · simp only [reduceCtorEq, false_iff]; intro hc; exact hx (by linarith)

theorem side_pos {e x : ℝ} (h0 : 0 < e) : side e x = .pos ↔ e ≤ x := by
  unfold side
  by_cases h : |x| < e
  · have := (abs_lt.1 h).2
    simp only [eEq0_iff.2 h, if_true, reduceCtorEq, false_iff]; linarith
  · have h' := not_lt.1 h
    simp only [eEq0_false.2 h', Bool.false_eq_true, if_false]
    split_ifs with hx
    · simp only [reduceCtorEq, false_iff]; intro hc; linarith
    · rw [abs_of_nonneg (not_lt.1 hx)] at h'
      simp only [true_iff]; exact h'

theorem neg_mem {e : ℝ} (h0 : 0 < e) (p2 : List (ℝ × ℝ)) : Side.neg ∈ p2.map (fun q => side e q.1) ↔ Neg e p2 := by
  simp only [List.mem_map, side_neg h0, Neg]

theorem pos_mem {e : ℝ} (h0 : 0 < e) (p2 : List (ℝ × ℝ)) : Side.pos ∈ p2.map (fun q => side e q.1) ↔ ∃ q ∈ p2, e ≤ q.1 := by
  simp only [List.mem_map, side_pos h0]

/-- one arc, for directions in the table -/
theorem arc_solid {e : ℝ} (m : Aff) {p2 : List (ℝ × ℝ)} {paths : List (List Nat)} (hs : Simple paths)
    (hp : ∀ p ∈ paths, ∀ i ∈ p, i < p2.length) (h0 : 0 < e) (cs : Nat → ℝ × ℝ) (w : Nat → ℝ) (n : Nat) (hn : 1 ≤ n)
    (hcs : ∀ j, j ≤ n → cs j = (Real.cos (w j), Real.sin (w j))) (R : Bool) :
    arc m p2 paths (partition (p2.map fun q => side e q.1) [] 0 0).1 (partition (p2.map fun q => side e q.1) [] 0 0).2.1 cs (n + 1) R =
      some ((solid R w n (outlines e p2 paths)).map (List.map m.app)) ∧
    vol6 ((solid R w n (outlines e p2 paths)).map (List.map m.app)) = m.det * vol6 (solid R w n (outlines e p2 paths)) := by
  have hl : (p2.map fun q => side e q.1).length = p2.length := by simp
  obtain ⟨V, h1, h2⟩ := arc_run m (p2.map fun q => side e q.1) p2 hl paths hs hp cs (n + 1) (by omega) R
  have hax : ∀ i, i < p2.length → ((p2.map fun q => side e q.1)[i]? = some Side.axis ↔ |(p2.getD i (0, 0)).1| < e) := by
    intro i hi
    rw [List.getElem?_map, List.getD_eq_getElem?_getD, List.getElem?_eq_getElem hi]
    simp only [Option.map_some, Option.some.injEq, Option.getD_some, side_axis]
  have hf := faces_solid (p2.map fun q => side e q.1) paths hs (by rw [hl]; exact hp) V (fun i => snap e (p2.getD i (0, 0))) w n R
    (by
      intro i j hi hj
      rw [hl] at hi
      rw [h2 i j hi hj]
      simp only [want, hax i hi, hcs j (by omega), turned, snap]
      split_ifs with h
      · simp
      · simp only [P3.mk.injEq]; exact ⟨mul_comm _ _, mul_comm _ _, trivial⟩)
    (by
      intro i hi
      rw [hl] at hi
      rw [hax i hi]
      simp only [snap]
      split_ifs with h
      · exact ⟨fun _ => rfl, fun _ => h⟩
      · simp only [h, false_iff]
        intro hc
        rw [hc] at h
        simp at h
        linarith)
  have hc := arc_closed p2.length (vnum (p2.map fun q => side e q.1))
    (fun i k j l hi hk h => (vnum_inj _ (by rw [hl]; exact hi) (by rw [hl]; exact hk) h).1) R paths hp (n + 1)
  have hv := vol6_affine m V _ hc
  have he : (arcFaces (vnum (p2.map fun q => side e q.1)) R paths (n + 1)).map (List.map fun i => m.app (V i)) =
      (solid R w n (outlines e p2 paths)).map (List.map m.app) := by
    rw [outlines, ← hf, List.map_map]
    apply List.map_congr_left
    intro f _
    simp [Function.comp_def]
  rw [he] at h1 hv
  rw [hf] at hv
  exact ⟨h1, hv⟩

theorem fit_build {e : ℝ} (h0 : 0 < e) {p2 : List (ℝ × ℝ)} {paths : List (List Nat)} (hf : Fit e p2 paths) :
    ¬ (Side.pos ∈ p2.map (fun q => side e q.1) ∧ Side.neg ∈ p2.map (fun q => side e q.1)) ∧
    0 < (partition (p2.map fun q => side e q.1) [] 0 0).2.2 := by
  constructor
  · rintro ⟨h1, h2⟩
    obtain ⟨q, hq, a⟩ := (pos_mem h0 p2).1 h1
    obtain ⟨r, hr, b⟩ := (neg_mem h0 p2).1 h2
    rcases hf.side with h | h
    · have := h r hr; linarith
    · have := h q hq; linarith
  · obtain ⟨idx, e1, -⟩ := idx_run (p2.map fun q => side e q.1)
    rw [e1]
    obtain ⟨q, hq, h⟩ := hf.off
    refine List.countP_pos_iff.2 ⟨side e q.1, List.mem_map.2 ⟨q, hq, rfl⟩, ?_⟩
    simp only [ne_eq, side_axis, not_lt]
    exact decide_eq_true h

open Classical in
/-- the sign of the moment -/
theorem sign_vol (N : Prop) (full : Bool) (d x : ℝ) :
    d * ((if (((if full then decide N else !decide N) ^^ decide (d < 0)) = true) then 1 else -1) * (if full then -x else x)) =
      |d| * ((if N then -1 else 1) * x) := by
  by_cases hd : d < 0
  · rw [abs_of_neg hd]
    cases full <;> by_cases h : N <;> simp [h, hd]
  · rw [abs_of_nonneg (not_lt.1 hd)]
    cases full <;> by_cases h : N <;> simp [h, hd]

open Classical in
/-- **C130** An angle below a full turn: the solid has the outlines at `n + 1` equally spaced directions from the x axis
(counter-clockwise), with a face for each side between two directions and the outlines as ends, all moved by the surrounding
transformation.  Its volume is that of `n` segments of the solid of revolution with flat sides; it is positive for
counter-clockwise outlines, whichever side of the axis they are on and also if the transformation mirrors. -/
theorem C130_arc (e : ℝ) (h0 : 0 < e) (c : Env) (hi : c.in3d = true) (hm : 2 ≤ c.maxFn) (m : Aff) (angle : ℝ) (ha : e ≤ angle)
    (ha2 : angle ≤ 360 - e) (detail : Nat) (p2 : List (ℝ × ℝ)) (paths : List (List Nat)) (hf : Fit e p2 paths) :
    ∃ n R s, n = getFn detail (if 180 - e < angle then 2 else 1) c.maxFn false ∧
      s = (solid R (fun j => (j : ℝ) * (angle * Real.pi / 180 / n)) n (outlines e p2 paths)).map (List.map m.app) ∧
      convert e c m angle detail p2 paths = some (.made [s]) ∧ 0 < Real.sin (angle * Real.pi / 180 / n) ∧
      vol6 s = |m.det| * ((if Neg e p2 then -1 else 1) * (n * Real.sin (angle * Real.pi / 180 / n) * moment6 (outlines e p2 paths))) := by
  have hcl : clampAngle angle = angle := by unfold clampAngle; rw [if_neg (by linarith)]
  have hms : minSeg e angle = if 180 - e < angle then 2 else 1 := by
    unfold minSeg eLe
    simp only [decide_eq_true_eq]
    rw [if_neg (by linarith)]
    by_cases h : 180 - e < angle
    · rw [if_pos (by linarith), if_pos h]
    · rw [if_neg (by linarith), if_neg h]
  have hn1 : 1 ≤ getFn detail (if 180 - e < angle then 2 else 1) c.maxFn false := by
    unfold getFn; split_ifs <;> simp_all <;> omega
  have hn2 : 180 - e < angle → 2 ≤ getFn detail (if 180 - e < angle then 2 else 1) c.maxFn false := by
    intro h; rw [if_pos h]; unfold getFn; split_ifs <;> simp_all <;> omega
  generalize hn : getFn detail (if 180 - e < angle then 2 else 1) c.maxFn false = n at hn1 hn2
  have hnr : (1 : ℝ) ≤ n := by exact_mod_cast hn1
  obtain ⟨b1, b2⟩ := fit_build h0 hf
  obtain ⟨a1, a2⟩ := arc_solid m hf.simple hf.exist h0 (csArc angle n) (fun j => (j : ℝ) * (angle * Real.pi / 180 / n)) n hn1
    (by
      intro j _
      unfold csArc
      have : angle / n * j * (Real.pi / 180) = (j : ℝ) * (angle * Real.pi / 180 / n) := by ring
      rw [this])
    (!decide (Neg e p2) ^^ decide (m.det < 0))
  refine ⟨n, !decide (Neg e p2) ^^ decide (m.det < 0), _, rfl, rfl, ?_, ?_, ?_⟩
  · have e1 : eLe e angle 0 = false := by simp [eLe, ha]
    have e2 : eEq e angle 360 = false := eEq_false.2 (by rw [abs_sub_comm, abs_of_nonneg (by linarith)]; linarith)
    have e3 : decide (Side.neg ∈ p2.map (fun q => side e q.1)) = decide (Neg e p2) := decide_eq_decide.2 (neg_mem h0 p2)
    unfold convert
    simp only [hi, hcl, e1, hf.ne, Bool.not_true, Bool.false_eq_true, if_false, hms, hn]
    unfold build
    simp only [if_neg b1, ass, b2, decide_true, if_true, e2, Bool.false_eq_true, if_false, Option.bind_eq_bind, Option.bind_some, e3, a1]
    rfl
  · have hpi := Real.pi_pos
    apply Real.sin_pos_of_pos_of_lt_pi
    · exact div_pos (div_pos (mul_pos (lt_of_lt_of_le h0 ha) hpi) (by norm_num)) (by linarith)
    · rw [div_lt_iff₀ (by linarith)]
      by_cases h : 180 - e < angle
      · have h2 : (2 : ℝ) ≤ n := by exact_mod_cast hn2 h
        nlinarith
      · nlinarith [not_lt.1 h]
  · rw [a2, solid_vol _ _ (Real.sin (angle * Real.pi / 180 / n)) n]
    · rw [mul_assoc]
      exact sign_vol (Neg e p2) false m.det (n * Real.sin (angle * Real.pi / 180 / n) * moment6 (outlines e p2 paths))
    · intro j _
      congr 1
      push_cast
      ring

theorem csFull_eq {n j : Nat} (hn : 1 ≤ n) (hj : j ≤ n) :
    csFull n j = (Real.cos (Real.pi - 2 * Real.pi * j / n), Real.sin (Real.pi - 2 * Real.pi * j / n)) := by
  have hnr : (n : ℝ) ≠ 0 := by exact_mod_cast (by omega : n ≠ 0)
  unfold csFull
  rw [Real.cos_pi_sub, Real.sin_pi_sub]
  by_cases h : j = n
  · subst h
    have e1 : 2 * Real.pi * (j : ℝ) / j = 2 * Real.pi := by rw [mul_div_assoc, div_self hnr, mul_one]
    rw [if_pos rfl, C76_regular j 0 (by omega), e1]
    simp
  · rw [if_neg h, C76_regular n j (by omega)]

open Classical in
/-- **C130** A full turn (an angle of 360 or more): two solids, each as in `C130_arc`, which together have the outlines at `n` equally
spaced directions, starting at the negative x axis, clockwise.  The volume is positive for counter-clockwise outlines. -/
theorem C130_full (e : ℝ) (h0 : 0 < e) (he : e ≤ 180) (c : Env) (hi : c.in3d = true) (hm : 3 ≤ c.maxFn) (m : Aff) (angle : ℝ)
    (ha : 360 - e < angle) (detail : Nat) (p2 : List (ℝ × ℝ)) (paths : List (List Nat)) (hf : Fit e p2 paths) :
    ∃ n R s t, n = getFn detail 3 c.maxFn false ∧
      s = (solid R (fun j => Real.pi - 2 * Real.pi * j / n) (n / 2) (outlines e p2 paths)).map (List.map m.app) ∧
      t = (solid R (fun j => Real.pi - 2 * Real.pi * (n / 2 + j : Nat) / n) ((n + 1) / 2) (outlines e p2 paths)).map (List.map m.app) ∧
      convert e c m angle detail p2 paths = some (.made [s, t]) ∧ 0 < Real.sin (2 * Real.pi / n) ∧
      vol6 s + vol6 t =
        |m.det| * ((if Neg e p2 then -1 else 1) * (n * Real.sin (2 * Real.pi / n) * moment6 (outlines e p2 paths))) := by
  have hcl : e ≤ clampAngle angle ∧ 360 - e < clampAngle angle ∧ clampAngle angle ≤ 360 := by
    unfold clampAngle; split_ifs with h
    · exact ⟨by linarith, by linarith, le_rfl⟩
    · exact ⟨by linarith, ha, not_lt.1 h⟩
  have hms : minSeg e (clampAngle angle) = 3 := by
    unfold minSeg eLe
    simp only [decide_eq_true_eq]
    rw [if_pos (by linarith)]
  have hn3 : 3 ≤ getFn detail 3 c.maxFn false := by unfold getFn; split_ifs <;> simp_all <;> omega
  generalize hn : getFn detail 3 c.maxFn false = n at hn3
  have hnr : (3 : ℝ) ≤ n := by exact_mod_cast hn3
  obtain ⟨b1, b2⟩ := fit_build h0 hf
  obtain ⟨a1, a2⟩ := arc_solid m hf.simple hf.exist h0 (csFull n) (fun j => Real.pi - 2 * Real.pi * j / n) (n / 2) (by omega)
    (fun j hj => csFull_eq (by omega) (by omega)) (decide (Neg e p2) ^^ decide (m.det < 0))
  obtain ⟨a3, a4⟩ := arc_solid m hf.simple hf.exist h0 (fun j => csFull n (n / 2 + j))
    (fun j => Real.pi - 2 * Real.pi * (n / 2 + j : Nat) / n) ((n + 1) / 2) (by omega)
    (fun j hj => csFull_eq (by omega) (by omega)) (decide (Neg e p2) ^^ decide (m.det < 0))
  refine ⟨n, decide (Neg e p2) ^^ decide (m.det < 0), _, _, rfl, rfl, rfl, ?_, ?_, ?_⟩
  · have e1 : eLe e (clampAngle angle) 0 = false := by simp [eLe, hcl.1]
    have e2 : eEq e (clampAngle angle) 360 = true := eEq_iff.2 (by rw [abs_sub_comm, abs_of_nonneg (by linarith)]; linarith)
    have e3 : decide (Side.neg ∈ p2.map (fun q => side e q.1)) = decide (Neg e p2) := decide_eq_decide.2 (neg_mem h0 p2)
    have e4 : (n / 2 + (n + 1) / 2 == n) = true := by rw [beq_iff_eq]; omega
    unfold convert
    simp only [hi, e1, hf.ne, Bool.not_true, Bool.false_eq_true, if_false, hms, hn]
    unfold build
    simp only [if_neg b1, ass, b2, decide_true, if_true, e2, e4, Option.bind_eq_bind, Option.bind_some, e3, a1, a3]
    rfl
  · have hpi := Real.pi_pos
    apply Real.sin_pos_of_pos_of_lt_pi
    · exact div_pos (by linarith) (by linarith)
    · rw [div_lt_iff₀ (by linarith)]; nlinarith
  · have hsin : ∀ a : ℝ, Real.sin (Real.pi - 2 * Real.pi * (a + 1) / n - (Real.pi - 2 * Real.pi * a / n)) = -Real.sin (2 * Real.pi / n) := by
      intro a
      rw [← Real.sin_neg]; congr 1; ring
    rw [a2, a4, solid_vol _ _ (-Real.sin (2 * Real.pi / n)) (n / 2), solid_vol _ _ (-Real.sin (2 * Real.pi / n)) ((n + 1) / 2)]
    · have hsum : ((n / 2 : Nat) : ℝ) + (((n + 1) / 2 : Nat) : ℝ) = n := by
        exact_mod_cast (by omega : n / 2 + (n + 1) / 2 = n)
      rw [← sign_vol (Neg e p2) true m.det (n * Real.sin (2 * Real.pi / n) * moment6 (outlines e p2 paths)), ← hsum]
      simp only [if_true]
      ring
    · intro j _
      have := hsin ((n / 2 + j : Nat) : ℝ)
      rw [← this]; congr 1; push_cast; ring
    · intro j _
      have := hsin (j : ℝ)
      rw [← this]; congr 1; push_cast; ring

/-- **C130** What is refused or skipped: outside of 3D, an angle that is not positive, no outlines, points on both sides of the axis. -/
theorem C130_refused (e : ℝ) (h0 : 0 < e) (he : e ≤ 360) (c : Env) (m : Aff) (angle : ℝ) (detail : Nat) (p2 : List (ℝ × ℝ))
    (paths : List (List Nat)) :
    (c.in3d = false → convert e c m angle detail p2 paths = some (if c.outsideFails then .fail else .nothing)) ∧
    (c.in3d = true → angle < e → convert e c m angle detail p2 paths = some (if c.emptyFails then .fail else .nothing)) ∧
    (c.in3d = true → e ≤ angle → paths = [] → convert e c m angle detail p2 paths = some .nothing) ∧
    (c.in3d = true → e ≤ angle → paths ≠ [] → (∃ q ∈ p2, e ≤ q.1) → (∃ q ∈ p2, q.1 ≤ -e) →
      convert e c m angle detail p2 paths = some .fail) := by
  have hcl : e ≤ angle → eLe e (clampAngle angle) 0 = false := by
    intro h
    unfold clampAngle eLe
    rw [decide_eq_false_iff_not]
    split_ifs <;> linarith
  refine ⟨fun h => by simp [convert, h, msg], fun h ha => ?_, fun h ha hp => by simp [convert, h, hcl ha, hp],
    fun h ha hp h1 h2 => ?_⟩
  · have : eLe e (clampAngle angle) 0 = true := by
      unfold clampAngle eLe
      rw [decide_eq_true_iff, if_neg (by linarith)]
      linarith
    simp [convert, h, this, msg]
  · have hb : Side.pos ∈ p2.map (fun q => side e q.1) ∧ Side.neg ∈ p2.map (fun q => side e q.1) :=
      ⟨(pos_mem h0 p2).2 h1, (neg_mem h0 p2).2 h2⟩
    simp only [convert, h, hcl ha, hp, Bool.not_true, Bool.false_eq_true, if_false]
    unfold build
    simp only [if_pos hb]

/-- **C130** If all points are within epsilon of the axis, an assertion fails, although the outline may have an area: this happens if the
grid (`--grid`) is finer than epsilon (`--eps`). -/
theorem C130_axis_wrong (e : ℝ) (h0 : 0 < e) (he : e ≤ 360) (c : Env) (hi : c.in3d = true) (m : Aff) (angle : ℝ) (ha : e ≤ angle)
    (detail : Nat) (p2 : List (ℝ × ℝ)) (paths : List (List Nat)) (hp : paths ≠ []) (h : ∀ q ∈ p2, |q.1| < e) :
    convert e c m angle detail p2 paths = none := by
  have hcl : eLe e (clampAngle angle) 0 = false := by
    unfold clampAngle eLe
    rw [decide_eq_false_iff_not]
    split_ifs <;> linarith
  have hb : ¬ (Side.pos ∈ p2.map (fun q => side e q.1) ∧ Side.neg ∈ p2.map (fun q => side e q.1)) := by
    rintro ⟨h1, -⟩
    obtain ⟨q, hq, a⟩ := (pos_mem h0 p2).1 h1
    have := (abs_lt.1 (h q hq)).2
    linarith
  have h2 : (partition (p2.map fun q => side e q.1) [] 0 0).2.2 = 0 := by
    obtain ⟨idx, e1, -⟩ := idx_run (p2.map fun q => side e q.1)
    rw [e1]
    refine List.countP_eq_zero.2 ?_
    intro s hs
    obtain ⟨q, hq, rfl⟩ := List.mem_map.1 hs
    simp [side_axis, h q hq]
  simp only [convert, hi, hcl, hp, Bool.not_true, Bool.false_eq_true, if_false]
  unfold build
  simp only [if_neg hb, h2]
  rfl

/-- such an outline, with an area -/
example : (∀ q ∈ [((0 : ℝ), (0 : ℝ)), (1 / 2 ^ 16, 0), (0, 1)], |q.1| < 1 / 2 ^ 15) ∧
    area2 [(0, 0), (1 / 2 ^ 16, 0), (0, 1)] ≠ 0 := by
  constructor
  · simp; norm_num [abs_of_pos]
  · simp [area2, sides, Slice.walk]

/-- the hypotheses hold for a triangle with one side on the axis -/
example : Fit (1 / 2 ^ 15) [(0, 0), (2, 0), (0, 3)] [[0, 1, 2]] where
  ne := by simp
  simple := by constructor <;> simp
  exist := by simp
  side := Or.inl (by simp; norm_num)
  off := ⟨(2, 0), by simp, by norm_num [abs_of_pos]⟩

/-- its outline is counter-clockwise, and six times its moment is 12: the volume of the exact cone would be 2π times 12/6 -/
example : moment6 [[(0, 0), (2, 0), (0, 3)]] = 12 := by
  simp [moment6, sides, Slice.walk]; norm_num

/-- a side with one end on the axis sweeps a triangle -/
example : band 0 1 (0, 3) (2, 0) = [[turned 0 (0, 3), turned 0 (2, 0), turned 1 (2, 0)]] := by
  simp [band]

end Hob3l.Rotext
