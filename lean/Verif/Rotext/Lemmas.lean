import Verif.Rotext.Spec
import Verif.Solid.LemmasArcOnce
import Verif.Solid.LemmasVolume
import Verif.Xform.Lemmas
import Mathlib.Tactic.SplitIfs

/-!
Lemmas for `rotate_extrude`: the array of points, and the volume.
-/

namespace Hob3l.Rotext

open Hob3l.Xform (eEq eEq_iff eEq_false eEq0_iff eEq0_false)
open Hob3l.Solid
open Hob3l.Slice (sides walk)

theorem loop_congr {α σ : Type} {f g : α → σ → Option σ} (l : List α) (h : ∀ a ∈ l, ∀ s, f a s = g a s) (s : σ) :
    loop f l s = loop g l s := by
  induction l generalizing s with
  | nil => rfl
  | cons a l ih =>
    simp only [loop, h a (by simp)]
    congr 1
    funext s'
    exact ih (fun b hb => h b (by simp [hb])) s'

theorem loop_append {α σ : Type} (f : α → σ → Option σ) (l k : List α) (s : σ) :
    loop f (l ++ k) s = (loop f l s).bind (loop f k) := by
  induction l generalizing s with
  | nil => rfl
  | cons a l ih =>
    simp only [List.cons_append, loop, Option.bind_eq_bind]
    cases f a s with
    | none => rfl
    | some t => simp only [Option.bind_some, ih]

theorem loop_range_succ {σ : Type} (f : Nat → σ → Option σ) (n : Nat) (s : σ) :
    loop f (List.range (n + 1)) s = (loop f (List.range n) s).bind (f n) := by
  rw [List.range_succ, loop_append]
  congr 1
  funext t
  simp only [loop, Option.bind_eq_bind]
  cases f n t <;> rfl

/-- storing values at different places -/
theorem loop_store (g : Nat → Nat) (v : Nat → P3) (n : Nat) (l : List P3)
    (hinj : ∀ a b, a < n → b < n → g a = g b → a = b) (hlt : ∀ j, j < n → g j < l.length) :
    ∃ l', loop (fun j l => store l (g j) (v j)) (List.range n) l = some l' ∧ l'.length = l.length ∧
      (∀ j, j < n → l'[g j]? = some (v j)) ∧ ∀ k, (∀ j, j < n → k ≠ g j) → l'[k]? = l[k]? := by
  induction n with
  | zero => exact ⟨l, rfl, rfl, fun j h => absurd h (by omega), fun k _ => rfl⟩
  | succ n ih =>
    obtain ⟨l', h1, h2, h3, h4⟩ := ih (fun a b ha hb => hinj a b (by omega) (by omega)) (fun j hj => hlt j (by omega))
    have hn := hlt n (by omega)
    refine ⟨l'.set (g n) (v n), ?_, by simp [h2], ?_, ?_⟩
    · rw [loop_range_succ, h1]
      simp [store, h2, hn]
    · intro j hj
      by_cases c : j = n
      · subst c
        rw [List.getElem?_set_self (by omega)]
      · have : g n ≠ g j := fun hc => c (hinj n j (by omega) hj hc).symm
        rw [List.getElem?_set_ne this]
        exact h3 j (by omega)
    · intro k hk
      rw [List.getElem?_set_ne (hk n (by omega)).symm]
      exact h4 k fun j hj => hk j (by omega)

/-- the array `idx` gives the numbers of the points -/
theorem idx_run (pts : List Side) : ∃ idx, partition pts [] 0 0 = (idx, pts.countP (· = .axis), pts.countP (· ≠ .axis)) ∧
    ∀ i (h : i < pts.length), (∃ k, idx[i]? = some k ∧ (k % 2 = 1 ↔ pts[i]? ≠ some .axis)) ∧
      ∀ j, rotextIdx (pts.countP (· = .axis)) (pts.countP (· ≠ .axis)) idx i j = some (vnum pts i j) := by
  obtain ⟨idx, h1, h2, h3⟩ := partition_spec pts [] 0 0
  simp only [List.nil_append, Nat.zero_add] at h1 h3
  refine ⟨idx, h1, fun i hi => ⟨⟨_, h3 i hi, ?_⟩, fun j => ?_⟩⟩
  · rw [List.getElem?_eq_getElem hi]
    by_cases c : pts[i] = .axis
    · simp only [c, if_true, ne_eq, not_true_eq_false, iff_false]; omega
    · simp only [c, if_false, ne_eq, Option.some.injEq, not_false_eq_true, iff_true]; omega
  · unfold rotextIdx vnum
    rw [h3 i hi, List.getElem?_eq_getElem hi]
    simp only [Option.bind_eq_bind, Option.bind_some, Option.some.injEq]
    by_cases c : pts[i] = .axis
    · have l1 := countP_take_lt (fun x => decide (x = Side.axis)) pts i hi (by simpa using c)
      simp only [c, if_true]
      rw [if_neg (by omega)]
      simp [ass, l1]
    · simp only [c, if_false]
      rw [if_pos (by omega)]
      simp only [Option.pure_def, Option.some.injEq]
      congr 2
      omega

open Classical in
/-- what the array contains for a point in a slice -/
noncomputable def want (pts : List Side) (p2 : List (ℝ × ℝ)) (cs : Nat → ℝ × ℝ) (i j : Nat) : P3 :=
  let q := p2.getD i (0, 0)
  if pts[i]? = some .axis then ⟨0, 0, q.2⟩ else ⟨(cs j).1 * q.1, (cs j).2 * q.1, q.2⟩

theorem fill_run (pts : List Side) (p2 : List (ℝ × ℝ)) (hl : pts.length = p2.length) (idx : List Nat)
    (hidx : ∀ i (_ : i < pts.length), (∃ k, idx[i]? = some k ∧ (k % 2 = 1 ↔ pts[i]? ≠ some .axis)) ∧
      ∀ j, rotextIdx (pts.countP (· = .axis)) (pts.countP (· ≠ .axis)) idx i j = some (vnum pts i j))
    (slices : Nat) (hs : 1 ≤ slices) (cs : Nat → ℝ × ℝ) :
    ∃ l, loop (arcPt (pts.countP (· = .axis)) (pts.countP (· ≠ .axis)) idx slices cs p2) (List.range p2.length)
        (List.replicate (pts.countP (· = .axis) + pts.countP (· ≠ .axis) * slices) ⟨0, 0, 0⟩) = some l ∧
      l.length = pts.countP (· = .axis) + pts.countP (· ≠ .axis) * slices ∧
      ∀ i j, i < p2.length → j < slices → l[vnum pts i j]? = some (want pts p2 cs i j) := by
  have hlt : ∀ i j, i < p2.length → j < slices → vnum pts i j < pts.countP (· = .axis) + pts.countP (· ≠ .axis) * slices :=
    fun i j hi hj => vnum_lt pts (by omega) hj
  generalize hS : pts.countP (· = .axis) + pts.countP (· ≠ .axis) * slices = S at hlt ⊢
  have main : ∀ t, t ≤ p2.length →
      ∃ l, loop (arcPt (pts.countP (· = .axis)) (pts.countP (· ≠ .axis)) idx slices cs p2) (List.range t)
        (List.replicate S ⟨0, 0, 0⟩) = some l ∧ l.length = S ∧
      (∀ i j, i < t → j < slices → l[vnum pts i j]? = some (want pts p2 cs i j)) ∧
      (∀ i j, t ≤ i → i < p2.length → j < slices → l[vnum pts i j]? = some ⟨0, 0, 0⟩) := by
    intro t
    induction t with
    | zero =>
      intro _
      refine ⟨_, rfl, by simp, fun i j h => absurd h (by omega), fun i j _ hi hj => ?_⟩
      rw [List.getElem?_replicate, if_pos (hlt i j hi hj)]
    | succ t ih =>
      intro ht
      obtain ⟨l, h1, h2, h3, h4⟩ := ih (by omega)
      obtain ⟨⟨k, hk, hk2⟩, hr⟩ := hidx t (by omega)
      have hq : p2[t]? = some (p2.getD t (0, 0)) := by
        rw [List.getD_eq_getElem?_getD, List.getElem?_eq_getElem (by omega : t < p2.length)]; rfl
      by_cases hax : pts[t]? = some .axis
      · have hk0 : ¬ k % 2 = 1 := by rw [hk2]; simpa using hax
        have hv : ∀ j, vnum pts t j = vnum pts t 0 := by intro j; unfold vnum; rw [if_pos hax, if_pos hax]
        have hne : ∀ i j, i ≠ t → i < p2.length → vnum pts t 0 ≠ vnum pts i j := by
          intro i j hi hi2 hc
          exact hi (vnum_inj pts (by omega) (by omega) hc).1.symm
        refine ⟨l.set (vnum pts t 0) ⟨0, 0, (p2.getD t (0, 0)).2⟩, ?_, by simp [h2], ?_, ?_⟩
        · rw [loop_range_succ, h1]
          simp only [Option.bind_some, arcPt, hk, hq, Option.bind_eq_bind, hk0, if_false, hr, h4 t 0 (by omega) (by omega) (by omega)]
          simp [store, h2, hlt t 0 (by omega) (by omega)]
        · intro i j hi hj
          by_cases c : i = t
          · subst c
            rw [hv j, List.getElem?_set_self (by rw [h2]; exact hlt i 0 (by omega) (by omega))]
            simp only [want, hax, if_true]
          · rw [List.getElem?_set_ne (hne i j c (by omega))]
            exact h3 i j (by omega) hj
        · intro i j hi hi2 hj
          rw [List.getElem?_set_ne (hne i j (by omega) hi2)]
          exact h4 i j (by omega) hi2 hj
      · have hk0 : k % 2 = 1 := by rw [hk2]; exact hax
        obtain ⟨l', g1, g2, g3, g4⟩ := loop_store (vnum pts t) (want pts p2 cs t) slices l
          (fun a b _ _ h => ((vnum_inj pts (by omega) (by omega) h).2).resolve_left hax)
          (fun j hj => by rw [h2]; exact hlt t j (by omega) hj)
        have hne : ∀ i j, i ≠ t → i < p2.length → ∀ j', j' < slices → vnum pts i j ≠ vnum pts t j' := by
          intro i j hi hi2 j' _ hc
          exact hi (vnum_inj pts (by omega) (by omega) hc).1
        refine ⟨l', ?_, by rw [g2, h2], ?_, ?_⟩
        · rw [loop_range_succ, h1]
          simp only [Option.bind_some, arcPt, hk, hq, Option.bind_eq_bind, hk0, if_true, sizeEach_zero, hr]
          rw [← g1]
          apply loop_congr
          intro j _ s
          simp only [want, hax, if_false]
        · intro i j hi hj
          by_cases c : i = t
          · subst c; exact g3 j hj
          · rw [g4 _ (hne i j c (by omega))]
            exact h3 i j (by omega) hj
        · intro i j hi hi2 hj
          rw [g4 _ (hne i j (by omega) hi2)]
          exact h4 i j (by omega) hi2 hj
  obtain ⟨l, a, b, c, -⟩ := main p2.length le_rfl
  exact ⟨l, a, b, c⟩

/-- one arc: the faces as lists of points -/
theorem arc_run (m : Aff) (pts : List Side) (p2 : List (ℝ × ℝ)) (hl : pts.length = p2.length) (paths : List (List Nat))
    (hs : Simple paths) (hp : ∀ p ∈ paths, ∀ i ∈ p, i < p2.length) (cs : Nat → ℝ × ℝ) (slices : Nat) (h2 : 2 ≤ slices) (R : Bool) :
    ∃ V : Nat → P3, arc m p2 paths (partition pts [] 0 0).1 (partition pts [] 0 0).2.1 cs slices R =
        some ((arcFaces (vnum pts) R paths slices).map (List.map fun i => m.app (V i))) ∧
      ∀ i j, i < p2.length → j < slices → V (vnum pts i j) = want pts p2 cs i j := by
  obtain ⟨idx, e1, e2⟩ := idx_run pts
  obtain ⟨l, f1, f2, f3⟩ := fill_run pts p2 hl idx e2 slices (by omega) cs
  have run := rotextArc_run pts paths (by rw [hl]; exact hp) slices h2 R
  have pf := arc_proper (vnum_numbering pts) hs (by rw [hl]; exact hp) h2 R
    (pts.countP (· = .axis) + pts.countP (· ≠ .axis) * slices) (fun i j hi hj => vnum_lt pts hi hj)
  refine ⟨fun i => (l[i]?).getD ⟨0, 0, 0⟩, ?_, fun i j hi hj => by simp only [f3 i j hi hj, Option.getD_some]⟩
  have hxi : p2.length - pts.countP (· = .axis) = pts.countP (· ≠ .axis) := by have := count_split pts; omega
  rw [e1] at run ⊢
  simp only at run ⊢
  unfold arc
  simp only [hxi, sizeEach_zero, f1, ass, h2, decide_true, if_true, Option.bind_eq_bind, Option.bind_some]
  rw [← hl, run]
  simp only [Option.bind_some]
  apply mapM_some
  intro f hf
  apply mapM_some
  intro i hi
  have := (pf f hf).2.2 i hi
  rw [List.getElem?_map, List.getElem?_eq_getElem (by omega : i < l.length)]
  rfl

/-! ## the faces in terms of points -/

theorem filter4_cases {a b c d : Nat} (hab : a ≠ b) (hac : a ≠ c) (hbd : b ≠ d) (hcd : c ≠ d) :
    filter4 a b c d = if b = c then (if a = d then [a, b] else [a, b, d]) else (if a = d then [a, b, c] else [a, b, c, d]) := by
  unfold filter4
  by_cases h1 : b = c <;> by_cases h2 : a = d <;> simp_all

/-- the faces between two slices, by the points -/
theorem quad_band {V : Nat → P3} (R : Bool) {u v : ℝ} {q r : ℝ × ℝ} {a b c d : Nat}
    (hab : a ≠ b) (hac : a ≠ c) (hbd : b ≠ d) (hcd : c ≠ d) (h1 : a = d ↔ q.1 = 0) (h2 : b = c ↔ r.1 = 0)
    (ea : V a = turned u q) (eb : V b = turned u r) (ec : V c = turned v r) (ed : V d = turned v q) :
    (quad R a b c d).map (List.map V) = (band u v q r).map (flip R) := by
  unfold quad band
  rw [filter4_cases hab hac hbd hcd]
  by_cases c1 : a = d <;> by_cases c2 : b = c
  · have x1 := h1.1 c1; have x2 := h2.1 c2
    simp [c1, c2, x1, x2]
  · have x1 := h1.1 c1; have x2 : ¬ r.1 = 0 := fun h => c2 (h2.2 h)
    simp only [if_pos c1, if_neg c2, x1, x2, and_false, if_false, if_true, List.length_cons, List.length_nil, List.map_cons, List.map_nil]
    cases R <;> simp [revPerhaps, flip, ea, eb, ec]
  · have x1 : ¬ q.1 = 0 := fun h => c1 (h1.2 h); have x2 := h2.1 c2
    simp only [if_neg c1, if_pos c2, x1, x2, and_true, if_false, if_true, List.length_cons, List.length_nil, List.map_cons, List.map_nil]
    cases R <;> simp [revPerhaps, flip, ea, eb, ed]
  · have x1 : ¬ q.1 = 0 := fun h => c1 (h1.2 h); have x2 : ¬ r.1 = 0 := fun h => c2 (h2.2 h)
    simp only [if_neg c1, if_neg c2, x1, x2, and_false, if_false, List.length_cons, List.length_nil, List.map_cons, List.map_nil]
    cases R <;> simp [revPerhaps, flip, ea, eb, ec, ed]

theorem map_revPerhaps (V : Nat → P3) (R : Bool) (f : List Nat) : (revPerhaps R f).map V = flip R (f.map V) := by
  cases R <;> simp [revPerhaps, flip]

theorem flatMap_congr' {α β : Type} {l : List α} {f g : α → List β} (h : ∀ a ∈ l, f a = g a) : l.flatMap f = l.flatMap g := by
  induction l with
  | nil => rfl
  | cons a l ih => rw [List.flatMap_cons, List.flatMap_cons, h a (by simp), ih fun b hb => h b (by simp [hb])]

/-- the solid of one arc -/
theorem faces_solid (pts : List Side) (paths : List (List Nat)) (hs : Simple paths) (hp : ∀ p ∈ paths, ∀ i ∈ p, i < pts.length)
    (V : Nat → P3) (P : Nat → ℝ × ℝ) (w : Nat → ℝ) (n : Nat) (R : Bool)
    (hV : ∀ i j, i < pts.length → j < n + 1 → V (vnum pts i j) = turned (w j) (P i))
    (hax : ∀ i, i < pts.length → (pts[i]? = some .axis ↔ (P i).1 = 0)) :
    (arcFaces (vnum pts) R paths (n + 1)).map (List.map V) = solid R w n (paths.map fun p => p.map P) := by
  unfold arcFaces solid
  rw [List.map_append, List.map_flatMap, List.map_flatMap, List.flatMap_map]
  congr 1
  · apply flatMap_congr'
    intro j hj
    have hj : j < n := by simpa using hj
    rw [List.map_flatMap, List.flatMap_map]
    apply flatMap_congr'
    intro p hpp
    rw [sides_map, List.map_flatMap, List.flatMap_map]
    apply flatMap_congr'
    intro s hss
    have i1 := hp p hpp _ (mem_sides hss).1
    have i2 := hp p hpp _ (mem_sides hss).2
    have ne := Simple.ne hs hpp hss
    have hnum : ∀ i k a b, i < pts.length → k < pts.length → i ≠ k → vnum pts i a ≠ vnum pts k b :=
      fun i k a b hi hk hik hc => hik (vnum_inj pts hi hk hc).1
    have hx : ∀ i, i < pts.length → (vnum pts i j = vnum pts i (j + 1) ↔ (P i).1 = 0) := by
      intro i hi
      rw [← hax i hi]
      constructor
      · intro h
        rcases (vnum_inj pts hi hi h).2 with h | h
        · exact h
        · omega
      · intro h; unfold vnum; rw [if_pos h, if_pos h]
    exact quad_band R (hnum _ _ _ _ i1 i2 ne) (hnum _ _ _ _ i1 i2 ne) (hnum _ _ _ _ i2 i1 ne.symm) (hnum _ _ _ _ i2 i1 ne.symm)
      (hx _ i1) (hx _ i2) (hV _ _ i1 (by omega)) (hV _ _ i2 (by omega)) (hV _ _ i2 (by omega)) (hV _ _ i1 (by omega))
  · apply flatMap_congr'
    intro p hpp
    have e : ∀ j, j < n + 1 → (p.map fun i => vnum pts i j).map V = (p.map P).map (turned (w j)) := by
      intro j hj
      rw [List.map_map, List.map_map]
      apply List.map_congr_left
      intro i hi
      exact hV i j (hp p hpp i hi) hj
    simp only [List.map_cons, List.map_nil, map_revPerhaps, Nat.add_sub_cancel]
    rw [e 0 (by omega), e n (by omega)]

/-! ## the volume -/

theorem vol6_append (a b : List (List P3)) : vol6 (a ++ b) = vol6 a + vol6 b := by simp [vol6]

theorem vol6_flatMap {α : Type} (l : List α) (g : α → List (List P3)) : vol6 (l.flatMap g) = (l.map fun a => vol6 (g a)).sum := by
  induction l with
  | nil => rfl
  | cons a l ih => rw [List.flatMap_cons, vol6_append, ih, List.map_cons, List.sum_cons]

theorem fan_zero (p : P3) (l : List P3) (h : ∀ q ∈ l, ∀ r ∈ l, det3 p q r = 0) : fan p l = 0 := by
  induction l with
  | nil => rfl
  | cons q l ih =>
    cases l with
    | nil => rfl
    | cons r l =>
      rw [fan, h q (by simp) r (by simp), ih fun a ha b hb => h a (by simp [ha]) b (by simp [hb]), add_zero]

theorem det3_turned (w : ℝ) (a b c : ℝ × ℝ) : det3 (turned w a) (turned w b) (turned w c) = 0 := by
  simp only [det3, turned]; ring

theorem faceVol_end (w : ℝ) (o : List (ℝ × ℝ)) : faceVol (o.map (turned w)) = 0 := by
  cases o with
  | nil => rfl
  | cons a o =>
    rw [List.map_cons, faceVol]
    apply fan_zero
    intro q hq r hr
    rw [List.mem_map] at hq hr
    obtain ⟨b, -, rfl⟩ := hq
    obtain ⟨c, -, rfl⟩ := hr
    exact det3_turned w a b c

theorem faceVol_flip_end (R : Bool) (w : ℝ) (o : List (ℝ × ℝ)) : faceVol (flip R (o.map (turned w))) = 0 := by
  cases R
  · exact faceVol_end w o
  · show faceVol (o.map (turned w)).reverse = 0
    rw [← List.map_reverse]
    exact faceVol_end w _

/-- the volume under the face swept by a side -/
theorem band_vol (R : Bool) (u v : ℝ) (q r : ℝ × ℝ) : vol6 ((band u v q r).map (flip R)) =
    (if R then 1 else -1) * Real.sin (v - u) * ((q.1 + r.1) * (q.1 * r.2 - r.1 * q.2)) := by
  rw [Real.sin_sub]
  unfold band
  by_cases h1 : q.1 = 0 <;> by_cases h2 : r.1 = 0 <;> cases R <;> simp [vol6, flip, faceVol, fan, det3, turned, h1, h2]
  all_goals ring

/-- the volume of an arc -/
theorem solid_vol (R : Bool) (w : Nat → ℝ) (δ : ℝ) (n : Nat) (hw : ∀ j, j < n → Real.sin (w (j + 1) - w j) = δ)
    (os : List (List (ℝ × ℝ))) : vol6 (solid R w n os) = (if R then 1 else -1) * (n * δ) * moment6 os := by
  unfold solid
  rw [vol6_append, vol6_flatMap, vol6_flatMap]
  have e0 : (os.map fun o => vol6 [flip (!R) (o.map (turned (w 0))), flip R (o.map (turned (w n)))]).sum = 0 := by
    apply List.sum_eq_zero
    intro x hx
    rw [List.mem_map] at hx
    obtain ⟨o, -, rfl⟩ := hx
    simp [vol6, faceVol_flip_end]
  rw [e0, add_zero]
  have e1 : ∀ j ∈ List.range n, vol6 (os.flatMap fun o => (sides o).flatMap fun s => (band (w j) (w (j + 1)) s.1 s.2).map (flip R)) =
      (if R then 1 else -1) * δ * moment6 os := by
    intro j hj
    have hj : j < n := by simpa using hj
    rw [vol6_flatMap, moment6, ← List.sum_map_mul_left]
    congr 1
    apply List.map_congr_left
    intro o _
    rw [vol6_flatMap, ← List.sum_map_mul_left]
    congr 1
    apply List.map_congr_left
    intro s _
    rw [band_vol, hw j hj]
  rw [List.map_congr_left e1]
  simp only [List.map_const', List.sum_replicate, List.length_range, nsmul_eq_mul]
  ring

end Hob3l.Rotext
