import Verif.Linext.Lemmas

/-!
Property theorems C128: `linear_extrude` puts the points where the language says.
-/

namespace Hob3l.Linext

open Hob3l.Xform

/-- the polyhedron of one outline, as described by the parameters -/
noncomputable def wanted (mo : M3wi) (p : Par) (cone : Bool) (q : List V2) : List V3 :=
  ((List.range (if cone then p.slices else p.slices + 1)).flatMap fun (k : Nat) =>
    q.map fun v => mo.n.xform (place p ((k : ℝ) / p.slices) v)) ++ (if cone then [mo.n.xform (tip p)] else [])

open Classical in
/-- **C128** The points of a `linear_extrude`: each level is the outline, turned by its share of the twist, scaled by its
share of the scale, lifted to its share of the height, and then moved by the transformation around the object; with scale 0,
the last level is the single point over the origin.  There is one polyhedron per outline. -/
theorem C128_points (e : Eps) (h0 : 0 < e.eq) (he : 0 < e.sqr) (c : Env) (h3 : c.in3d = true) (mo : M3wi) (p : Par)
    (hp : Plain e.eq p) (qs : List (List V2)) (hne : qs ≠ []) (hq : ∀ q ∈ qs, 3 ≤ q.length) :
    ∃ ps, convert e c mo p qs = some (.made ps) ∧
      ps.map Poly.pts = qs.map (wanted mo p (decide (Cone p))) ∧ ps.map Poly.fn = qs.map List.length ∧
      ∀ o ∈ ps, o.fnz = p.slices + 1 ∧ (o.neg = true ↔ mo.d < 0) ∧ (o.tri = .none ↔ p.twist = 0) := by
  have hh : eLe e.eq p.height 0 = false := by simp [eLe, hp.height]
  have hx : eLt e.eq p.scale.x 0 = false := by
    simp only [eLt, sub_zero, decide_eq_false_iff_not, not_lt]
    rcases hp.scale with h | h <;> linarith [h.1]
  have hy : eLt e.eq p.scale.y 0 = false := by
    simp only [eLt, sub_zero, decide_eq_false_iff_not, not_lt]
    rcases hp.scale with h | h <;> linarith [h.2]
  have hc : clamp e p.scale = p.scale := by simp [clamp, hx, hy]
  have hcone : eEq e.eq p.scale.x 0 = decide (Cone p) := by
    rcases hp.scale with h | h
    · rw [eEq_iff.2 (by rw [h.1]; simpa using h0)]
      simp [Cone, h.1]
    · rw [eEq0_false.2 (le_trans h.1 (le_abs_self _))]
      have : p.scale.x ≠ 0 := by linarith [h.1]
      simp [Cone, this]
  have hxy : eEq e.eq p.scale.x 0 = eEq e.eq p.scale.y 0 := by
    rcases hp.scale with h | h
    · rw [h.1, h.2]
    · rw [eEq0_false.2 (le_trans h.1 (le_abs_self _)), eEq0_false.2 (le_trans h.2 (le_abs_self _))]
  have htw : (if eEq e.eq p.twist 0 then 0 else p.twist) = p.twist := by
    rcases hp.twist with h | h
    · rw [h]; simp
    · rw [eEq0_false.2 h]; simp
  have hb : convert e c mo p qs = build e mo p qs := by
    unfold convert
    rw [h3, hh, hx, hy, hc, hxy]
    simp [Nat.not_lt.2 hp.slices]
  have hbt : convert e c mo p qs = some (.made (qs.map fun q =>
      ⟨wanted mo p (decide (Cone p)) q, q.length, p.slices + 1, decide (mo.d < 0), triOf p.twist⟩)) := by
    rw [hb]
    unfold build
    rw [if_neg (by simpa using hne), htw, hc, hcone]
    dsimp only
    rw [mapM_some _ (fun q => (⟨wanted mo p (decide (Cone p)) q, q.length, p.slices + 1, decide (mo.d < 0), triOf p.twist⟩ : Poly))]
    · rfl
    · intro q hqq
      unfold polyOf
      rw [tower_eq e he]
      simp only [ass, hq q hqq, decide_true, if_true, Option.bind_eq_bind, Option.bind_some, Option.pure_def, Option.some.injEq,
        Poly.mk.injEq, and_true, true_and]
      refine ⟨?_, ?_⟩
      · unfold wanted
        rw [List.map_append, List.map_flatMap]
        congr 1
        · congr 1
          funext k
          rw [List.map_map]
          apply List.map_congr_left
          intro v _
          simp only [Function.comp, raw, place]
          rw [matrix_xform e h0 mo p hp.height1]
        · split
          · simp only [List.map_cons, List.map_nil, tip]
            rw [matrix_xform e h0 mo p hp.height1]
          · rfl
      · exact decide_eq_decide.2 (matrix_neg e h0 mo p hp.height)
  refine ⟨_, hbt, by rw [List.map_map]; rfl, by rw [List.map_map]; rfl, ?_⟩
  intro o ho
  obtain ⟨q, -, rfl⟩ := List.mem_map.1 ho
  refine ⟨rfl, by simp, ?_⟩
  unfold triOf
  dsimp only
  by_cases h : p.twist = 0
  · simp [h]
  · rw [if_neg h]
    split <;> simp [h]

/-- **C128** Point number `k * n + j` of a polyhedron is point `j` of its outline, at level `k`. -/
theorem C128_index (mo : M3wi) (p : Par) (cone : Bool) (q : List V2) (k j : Nat) (hj : j < q.length)
    (hk : k < if cone then p.slices else p.slices + 1) :
    (wanted mo p cone q)[k * q.length + j]? = some (mo.n.xform (place p ((k : ℝ) / p.slices) q[j])) := by
  unfold wanted
  rw [flatMap_getElem? q.length _ _ (by simp) k j hj _ (by simpa using hk)]
  simp [hk, hj]

/-- **C128** The bottom is the outline itself, at height 0 or, with `center`, at minus half the height; the top is the
outline turned by the twist and scaled, at the height or half of it. -/
theorem C128_ends (p : Par) (v : V2) :
    place p 0 v = ⟨v.x, v.y, if p.center then -(p.height / 2) else 0⟩ ∧
    place p 1 v = ⟨p.scale.x * (turn (-p.twist) v).x, p.scale.y * (turn (-p.twist) v).y,
      if p.center then p.height / 2 else p.height⟩ := by
  constructor
  · simp only [place, turn]
    ext <;> simp
    split <;> ring
  · simp only [place, one_mul]
    ext <;> simp
    split <;> ring

open Classical in
/-- **C128** What happens for which parameters: never a failed assertion; an error exactly for the reasons listed; nothing
exactly for those listed; otherwise one polyhedron per outline. -/
theorem C128_outcome (e : Eps) (h0 : 0 < e.eq) (he : 0 < e.sqr) (c : Env) (mo : M3wi) (p : Par) (qs : List (List V2))
    (hq : ∀ q ∈ qs, 3 ≤ q.length) :
    (Refused e.eq c p ∧ convert e c mo p qs = some .fail) ∨
    (Skipped e.eq c p qs ∧ convert e c mo p qs = some .nothing) ∨
    (¬ Refused e.eq c p ∧ ¬ Skipped e.eq c p qs ∧ ∃ ps, convert e c mo p qs = some (.made ps)) := by
  have hle : eLe e.eq p.height 0 = decide (p.height < e.eq) := by simp [eLe]
  have hlx : eLt e.eq p.scale.x 0 = decide (p.scale.x < -e.eq) := by simp [eLt]
  have hly : eLt e.eq p.scale.y 0 = decide (p.scale.y < -e.eq) := by simp [eLt]
  have hzx : eEq e.eq (clamp e p.scale).x 0 = decide (Zeroish e.eq p.scale.x) := by
    rw [Bool.eq_iff_iff, decide_eq_true_iff]; exact zeroish_iff e h0 _
  have hzy : eEq e.eq (clamp e p.scale).y 0 = decide (Zeroish e.eq p.scale.y) := by
    rw [Bool.eq_iff_iff, decide_eq_true_iff]; exact zeroish_iff e h0 _
  unfold convert
  rw [hle, hlx, hly, hzx, hzy]
  cases hi : c.in3d with
  | false =>
    cases ho : c.outsideFails with
    | true => left; exact ⟨Or.inl ⟨hi, ho⟩, by simp [msg]⟩
    | false =>
      right; left
      refine ⟨⟨?_, Or.inl hi⟩, by simp [msg]⟩
      rintro (h | h | h) <;> simp_all
  | true =>
    simp only [Bool.not_true, Bool.false_eq_true, if_false]
    by_cases hh : p.height < e.eq
    · rw [if_pos (by simpa using hh)]
      cases hm : c.emptyFails with
      | true => left; exact ⟨Or.inr (Or.inl ⟨hi, hm, Or.inl hh⟩), rfl⟩
      | false =>
        right; left
        refine ⟨⟨?_, Or.inr (Or.inl hh)⟩, rfl⟩
        rintro (h | h | h)
        · simp_all
        · simp_all
        · exact absurd hh (not_lt.2 h.2.1)
    · rw [if_neg (by simpa using hh)]
      by_cases hs : p.slices < 1
      · rw [if_pos hs]
        have hs' : p.slices = 0 := by omega
        cases hm : c.emptyFails with
        | true => left; exact ⟨Or.inr (Or.inl ⟨hi, hm, Or.inr (Or.inl hs')⟩), rfl⟩
        | false =>
          right; left
          refine ⟨⟨?_, Or.inr (Or.inr (Or.inl hs'))⟩, rfl⟩
          rintro (h | h | h)
          · simp_all
          · simp_all
          · omega
      · rw [if_neg hs]
        by_cases hn : (p.scale.x < -e.eq ∨ p.scale.y < -e.eq) ∧ c.emptyFails = true
        · rw [if_pos (by simpa using hn)]
          left
          exact ⟨Or.inr (Or.inl ⟨hi, hn.2, Or.inr (Or.inr hn.1)⟩), rfl⟩
        · rw [if_neg (by simpa using hn)]
          by_cases hz : Zeroish e.eq p.scale.x ↔ Zeroish e.eq p.scale.y
          · rw [if_neg (by simp [hz])]
            have hr : ¬ Refused e.eq c p := by
              rintro (h | h | h)
              · rw [hi] at h; cases h.1
              · rcases h with ⟨-, h2, h | h | h⟩
                · exact hh h
                · omega
                · exact hn ⟨h, h2⟩
              · exact h.2.2.2 hz
            unfold build
            by_cases hqs : qs = []
            · right; left
              exact ⟨⟨hr, Or.inr (Or.inr (Or.inr hqs))⟩, by simp [hqs]⟩
            · right; right
              refine ⟨hr, ?_, ?_⟩
              · rintro ⟨-, h | h | h | h⟩
                · rw [hi] at h; cases h
                · exact hh h
                · omega
                · exact hqs h
              · rw [if_neg (by simpa using hqs)]
                obtain ⟨r, hr⟩ := mapM_total (polyOf e (matrix e mo p) p.scale (if eEq e.eq p.twist 0 then 0 else p.twist) p.slices
                  (eEq e.eq (clamp e p.scale).x 0)) qs (fun q h => polyOf_some e he _ _ _ _ _ q (hq q h))
                refine ⟨r, ?_⟩
                simp only [Option.bind_eq_bind]
                rw [hr]
                rfl
          · rw [if_pos (by simpa using hz)]
            left
            exact ⟨Or.inr (Or.inr ⟨hi, not_lt.1 hh, by omega, hz⟩), rfl⟩

/-- **C128** Without twist and with the same scale in both directions, the sides are flat: the four corners of the side
between two levels and two neighbouring points of the outline are in one plane. -/
theorem C128_sides_planar_partial (mo : M3wi) (p : Par) (ht : p.twist = 0) (hs : p.scale.x = p.scale.y) (t u : ℝ) (v w : V2) :
    Coplanar (mo.n.xform (place p t v)) (mo.n.xform (place p t w)) (mo.n.xform (place p u w)) (mo.n.xform (place p u v)) := by
  unfold Coplanar
  rw [vol_xform]
  have : vol (place p t v) (place p t w) (place p u w) (place p u v) = 0 := by
    simp only [place, turn, ht, hs, vol, mul_zero, neg_zero, zero_mul, zero_div, Real.cos_zero, Real.sin_zero]
    cases p.center <;> simp <;> ring
  rw [this, mul_zero]

/-- a square standing on a corner -/
noncomputable def diamond : List V2 := [⟨1, 0⟩, ⟨0, 1⟩, ⟨-1, 0⟩, ⟨0, -1⟩]

/-- `linear_extrude(height = 1, scale = [2, 1])` -/
noncomputable def wide : Par := ⟨1, 0, ⟨2, 1⟩, 1, false⟩

theorem wide_plain : Plain (1 / 2 ^ 15) wide := by
  constructor <;> simp [wide] <;> norm_num

theorem dflt_pos : 0 < Eps.dflt.eq ∧ 0 < Eps.dflt.sqr := by constructor <;> simp [Eps.dflt] 

/-- **C128** With different scales in the two directions the sides are not flat, and they are not split into triangles
either: the polyhedron made for `linear_extrude(height = 1, scale = [2, 1])` of a square standing on a corner has a face with
four corners that are not in one plane. -/
theorem C128_sides_planar_wrong : ∃ o, convert .dflt ⟨true, true, true⟩ (.one .dflt) wide [diamond] = some (.made [o]) ∧
    ∃ fs, Solid.towerFaces o.pts.length o.fn o.fnz o.neg true o.tri = some fs ∧
      ∃ i j k l, [i, j, k, l] ∈ fs ∧ ∃ a b c d, o.pts[i]? = some a ∧ o.pts[j]? = some b ∧ o.pts[k]? = some c ∧
        o.pts[l]? = some d ∧ ¬ Coplanar a b c d := by
  classical
  obtain ⟨ps, h1, h2, h3, h4⟩ := C128_points .dflt dflt_pos.1 dflt_pos.2 ⟨true, true, true⟩ rfl (.one .dflt) wide wide_plain [diamond]
    (by simp) (by simp [diamond])
  obtain ⟨o, rfl⟩ : ∃ o, ps = [o] := List.length_eq_one_iff.1 (by simpa using congrArg List.length h2)
  have hcone : decide (Cone wide) = false := by simp [Cone, wide]
  rw [hcone] at h2
  have hp : o.pts = wanted (.one .dflt) wide false diamond := by simpa using h2
  have hf : o.fn = 4 := by simpa [diamond] using h3
  obtain ⟨hz, hn, ht⟩ := h4 o (by simp)
  have hz' : o.fnz = 2 := hz
  have hn' : o.neg = false := by
    rw [Bool.eq_false_iff, ne_eq, hn]
    simp [M3wi.one, M3wi.scale]
  have ht' : o.tri = .none := ht.2 rfl
  have hl : o.pts.length = 8 := by rw [hp]; simp [wanted, diamond, wide, List.range_succ]
  have i0 := C128_index (.one .dflt) wide false diamond 0 0 (by simp [diamond]) (by simp)
  have i1 := C128_index (.one .dflt) wide false diamond 0 1 (by simp [diamond]) (by simp)
  have i5 := C128_index (.one .dflt) wide false diamond 1 1 (by simp [diamond]) (by simp [wide])
  have i4 := C128_index (.one .dflt) wide false diamond 1 0 (by simp [diamond]) (by simp [wide])
  rw [← hp] at i0 i1 i5 i4
  have hfs : Solid.towerFaces o.pts.length o.fn o.fnz o.neg true o.tri =
      some [[3, 2, 1, 0], [4, 5, 6, 7], [0, 1, 5, 4], [1, 2, 6, 5], [2, 3, 7, 6], [3, 0, 4, 7]] := by
    rw [hl, hf, hz', hn', ht']; decide
  refine ⟨o, h1, _, hfs, 0, 1, 5, 4, by decide, _, _, _, _, i0, i1, i5, i4, ?_⟩
  · unfold Coplanar
    rw [vol_xform]
    norm_num [M3wi.one, M3wi.scale, M3.scale, M3.det, vol, place, turn, wide, diamond]

/-- `linear_extrude(height = 1, scale = -3, slices = 2)` -/
noncomputable def inside : Par := ⟨1, 0, ⟨-3, -3⟩, 2, false⟩

/-- **C128** A negative scale is to be taken as 0 (where the message about it is not an error), but this is only done for
the decision to end in a single point: with scale -3 and two slices, the middle level is the outline mirrored at the origin,
not the outline at half its size, so the solid narrows to a point and widens again. -/
theorem C128_negative_wrong (b : Bool) (q : List V2) (hq : 3 ≤ q.length) :
    ∃ o, convert .dflt ⟨true, false, b⟩ (.one .dflt) inside [q] = some (.made [o]) ∧
      (∀ j (h : j < q.length), o.pts[q.length + j]? = some ⟨-q[j].x, -q[j].y, 1 / 2⟩) ∧
      o.pts[2 * q.length]? = some ⟨0, 0, 1⟩ ∧
      ∀ v : V2, place { inside with scale := ⟨0, 0⟩ } (1 / 2) v = ⟨v.x / 2, v.y / 2, 1 / 2⟩ := by
  classical
  have e0 : Eps.dflt.eq = 1 / 2 ^ 15 := rfl
  have hle : eLe Eps.dflt.eq inside.height 0 = false := by simp [eLe, inside, e0]; norm_num
  have hl : eLt Eps.dflt.eq (-3) 0 = true := by simp [eLt, e0]; norm_num
  have hc : clamp .dflt inside.scale = ⟨0, 0⟩ := by simp [clamp, inside, hl]
  have hz : eEq Eps.dflt.eq 0 0 = true := eEq_iff.2 (by simpa using dflt_pos.1)
  have hm : ∀ v : V3, (matrix .dflt (.one .dflt) inside).n.xform v = v := by
    intro v
    obtain ⟨x, y, z⟩ := v
    rw [matrix_xform .dflt dflt_pos.1 _ _ (Or.inl rfl)]
    simp [M3wi.one, M3wi.scale, M3w.xform, M3.xform, M3.scale, V3.add, inside]
  have hw : ∀ l : List V3, l.map (matrix .dflt (.one .dflt) inside).n.xform = l := by
    intro l
    rw [show (matrix .dflt (.one .dflt) inside).n.xform = id from funext hm, List.map_id]
  have hp : ∃ o, polyOf .dflt (matrix .dflt (.one .dflt) inside) inside.scale 0 2 true q = some o ∧
      o.pts = ((List.range 2).flatMap fun (k : Nat) => q.map (raw inside.scale 0 ((k : ℝ) / (2 : Nat)))) ++ [⟨0, 0, 1⟩] := by
    unfold polyOf
    rw [tower_eq .dflt dflt_pos.2]
    simp only [ass, hq, decide_true, if_true, Option.bind_eq_bind, Option.bind_some, Option.pure_def, Option.some.injEq,
      exists_eq_left', hw]
  obtain ⟨o, ho, hpts⟩ := hp
  refine ⟨o, ?_, ?_, ?_, ?_⟩
  · unfold convert
    rw [hle, hc, hz]
    simp only [Bool.not_true, Bool.false_eq_true, if_false, Bool.and_false, bne_self_eq_false]
    rw [if_neg (by simp [inside])]
    unfold build
    rw [hc, hz]
    have : (if eEq Eps.dflt.eq inside.twist 0 then 0 else inside.twist) = 0 := by split <;> rfl
    rw [this]
    simp only [List.isEmpty_cons, Bool.false_eq_true, if_false]
    rw [mapM_some _ (fun _ => o) [q] (by simp only [List.mem_singleton]; rintro _ rfl; exact ho)]
    rfl
  · intro j h
    have := flatMap_getElem? q.length (fun (k : Nat) => q.map (raw inside.scale 0 ((k : ℝ) / (2 : Nat)))) (List.range 2) (by simp) 1 j h
      [⟨0, 0, 1⟩] (by simp)
    rw [hpts]
    rw [one_mul] at this
    rw [this]
    simp only [List.getElem?_range (show 1 < 2 by omega), Option.bind_some, List.getElem?_map, List.getElem?_eq_getElem h,
      Option.map_some, Option.some.injEq, raw, turn, inside]
    ext <;> simp <;> ring
  · rw [hpts, List.getElem?_append_right (by simp [List.range_succ]; omega)]
    simp [List.range_succ, two_mul]
  · intro v
    simp only [place, turn, inside]
    ext <;> simp <;> ring

/-- the hypotheses of `C128_points` hold for a twisted, centred, scaled extrusion with several levels -/
example : Plain Eps.dflt.eq ⟨10, 90, ⟨1 / 2, 2⟩, 4, true⟩ := by
  constructor <;> simp [Eps.dflt] <;> norm_num

/-- and for a cone -/
example : Plain Eps.dflt.eq ⟨10, 0, ⟨0, 0⟩, 1, true⟩ ∧ Cone ⟨10, 0, ⟨0, 0⟩, 1, true⟩ := by
  refine ⟨?_, rfl⟩
  constructor <;> simp [Eps.dflt] <;> norm_num

/-- a quarter turn: with twist 90, the point (1, 0) ends at (0, -1), clockwise -/
example : place ⟨10, 90, ⟨1, 1⟩, 4, false⟩ 1 ⟨1, 0⟩ = ⟨0, -1, 10⟩ := by
  have h : (90 : ℝ) * Real.pi / 180 = Real.pi / 2 := by ring
  simp only [place, turn, one_mul, neg_mul, neg_div, h, Real.cos_neg, Real.sin_neg, Real.cos_pi_div_two, Real.sin_pi_div_two]
  ext <;> simp

/-- each kind of refusal happens: outside 3D, height 0, one of the scales 0 -/
example : Refused Eps.dflt.eq ⟨false, true, true⟩ ⟨1, 0, ⟨1, 1⟩, 1, false⟩ ∧
    Refused Eps.dflt.eq ⟨true, true, true⟩ ⟨0, 0, ⟨1, 1⟩, 1, false⟩ ∧
    Refused Eps.dflt.eq ⟨true, false, true⟩ ⟨1, 0, ⟨0, 1⟩, 1, false⟩ ∧
    Skipped Eps.dflt.eq ⟨true, false, true⟩ ⟨0, 0, ⟨1, 1⟩, 1, false⟩ [diamond] := by
  refine ⟨Or.inl ⟨rfl, rfl⟩, Or.inr (Or.inl ⟨rfl, rfl, Or.inl ?_⟩), Or.inr (Or.inr ⟨rfl, ?_, le_refl _, ?_⟩), ⟨?_, Or.inr (Or.inl ?_)⟩⟩
  · exact dflt_pos.1
  · simp [Eps.dflt]; norm_num
  · simp [Zeroish, Eps.dflt]; norm_num
  · rintro (h | h | h)
    · simp at h
    · simp at h
    · have := h.2.1; simp [Eps.dflt] at this; norm_num at this
  · exact dflt_pos.1

end Hob3l.Linext
