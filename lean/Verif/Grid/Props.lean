import Verif.Grid.Lemmas
import Verif.Bbox.Props

/-!
C120: the automatic grid is fine enough not to overflow and coarse enough to lose nothing in binary STL files.
-/

namespace Hob3l.Grid

open Hob3l.Bbox

/-- the number of bits the coordinates of the grid may have: `--auto-grid` (24 bits of a `float`) and `--auto-grid-max` -/
def bits (mode : Mode) : Nat := if mode = .int then 30 else 24

theorem haveDig_bits (mode : Mode) : (2 : Rat) ^ haveDig mode = 2 ^ bits mode := by
  unfold haveDig bits
  split_ifs <;> norm_num

theorem bits_le (mode : Mode) : bits mode ≤ 30 := by unfold bits; split_ifs <;> norm_num

/-- the grid of a model whose box is not empty -/
theorem grid_auto {env : Env} (h0 : 0 ≤ env.eps) {mode : Mode} {scale s : Rat} {root : Option (List Csg)}
    (h : gridOf env mode scale root = some s) (hne : (treeMinmax env (empty 3) root false).pts.Nonempty) :
    autoDimScale env.eps mode scale (treeMinmax env (empty 3) root false) = some s := by
  unfold gridOf at h
  simp only [C54_valid h0 _ hne, if_true] at h
  exact h

/-- C120.  If the setting of the grid is a power of two, as recommended (8192 by default), or zero, then the automatic
grid is a power of two, and each x or y coordinate of each point of the bounding box of the model is converted to the
grid without overflow, to a number of at most 24 bits (30 bits for `--auto-grid-max`), that is not farther away than
about half a unit of the grid.  Missing: other settings (see `C120_bits_wrong`) and the parts of the model that are
outside of the bounding box (see `C120_subtracted_wrong`). -/
theorem C120_fits_partial (env : Env) (h0 : 0 ≤ env.eps) (mode : Mode) (hm : mode ≠ .none) (scale s : Rat)
    (hs : IsPow2 scale ∨ |scale| < env.eps) (root : Option (List Csg)) (h : gridOf env mode scale root = some s)
    (rnd : Rat → Rat) (eta : Rat) (hr : Rounding rnd eta) :
    ∀ p ∈ (treeMinmax env (empty 3) root false).pts, ∀ i, i ≠ 2 →
      IsPow2 s ∧ ∃ n, importDim rnd s (p i) = some n ∧ |n| ≤ 2 ^ bits mode ∧
        |exportDim s n - p i| ≤ (500001 / 1000000 + 2 * eta) / s := by
  intro p hp i hi
  obtain ⟨m, h1, ⟨_, _, q, _, hq⟩, h3⟩ := auto_eq hm (grid_auto h0 h ⟨p, hp⟩)
  have hm0 : 0 ≤ m := by rw [hq]; exact abs_nonneg q
  obtain ⟨⟨k, hk⟩, hfit⟩ := scale_fits hm0 h3 hs
  have hspos : 0 < s := by rw [hk]; exact two_zpow_pos k
  have hpi := pts_le hp (h1 i hi)
  have hb : |p i * s| ≤ 2 ^ bits mode := by
    rw [abs_mul, abs_of_pos hspos, ← haveDig_bits]
    exact le_trans (mul_le_mul_of_nonneg_right hpi hspos.le) hfit.le
  obtain ⟨n, e1, e2, e3⟩ := import_fits hr (bits_le mode) hb
  refine ⟨⟨k, hk⟩, n, e1, e2, ?_⟩
  have e4 : exportDim s n - p i = (n - p i * s) / s := by
    unfold exportDim; field_simp
  rw [e4, abs_div, abs_of_pos hspos]
  exact div_le_div_of_nonneg_right e3 hspos.le

/-- C120.  With `--auto-grid`, the default, the coordinates of the grid that belong to the points of the bounding box are
values of the `float` of binary STL files: nothing is lost by writing them.  The conditions on the exponent of the grid
exclude models larger than 10^38 or smaller than 10^-37 and grids finer than 10^-44. -/
theorem C120_float_partial (env : Env) (h0 : 0 ≤ env.eps) (scale : Rat) (k : Int) (hk : -103 ≤ k ∧ k ≤ 149)
    (hs : IsPow2 scale ∨ |scale| < env.eps) (root : Option (List Csg))
    (h : gridOf env .float scale root = some (2 ^ k)) (rnd : Rat → Rat) (eta : Rat) (hr : Rounding rnd eta) :
    ∀ p ∈ (treeMinmax env (empty 3) root false).pts, ∀ i, i ≠ 2 → ∀ n, importDim rnd (2 ^ k) (p i) = some n →
      Binary32 (exportDim (2 ^ k) n) := by
  intro p hp i hi n hn
  obtain ⟨_, n', e1, e2, _⟩ := C120_fits_partial env h0 .float (by decide) scale (2 ^ k) hs root h rnd eta hr p hp i hi
  rw [e1] at hn
  obtain rfl := Option.some.inj hn
  exact binary32_of e2 hk.1 hk.2

/-- C120.  A coordinate of the grid is converted to itself: exporting and importing again does not move points.  -/
theorem C120_reimport (rnd : Rat → Rat) (eta : Rat) (hr : Rounding rnd eta) (s : Rat) (hs : IsPow2 s) (n : Int)
    (hn : |n| ≤ 2147483647) : importDim rnd s (exportDim s n) = some n := by
  obtain ⟨k, hk⟩ := hs
  have hspos : 0 < s := by rw [hk]; exact two_zpow_pos k
  have e : exportDim s n * s = n := by unfold exportDim; field_simp
  have hb := abs_le.1 hn
  have f1 : rnd (n : Rat) = n := by
    have := hr.fix (4 * n) (by rw [abs_le]; constructor <;> omega)
    push_cast at this
    rwa [show (4 * (n : Rat) / 4) = n by ring] at this
  have f2 : rnd ((n : Rat) + 1 / 2) = n + 1 / 2 := by
    have := hr.fix (4 * n + 2) (by rw [abs_le]; constructor <;> omega)
    push_cast at this
    rwa [show ((4 * (n : Rat) + 2) / 4) = n + 1 / 2 by ring] at this
  have f3 : rnd ((n : Rat) + 3 / 4) = n + 3 / 4 := by
    have := hr.fix (4 * n + 3) (by rw [abs_le]; constructor <;> omega)
    push_cast at this
    rwa [show ((4 * (n : Rat) + 3) / 4) = n + 3 / 4 by ring] at this
  have g1 : (n : Rat) + 1 / 2 ≤ rnd (n + half) := by
    rw [← f2]; refine hr.mono _ _ ?_; unfold half; linarith
  have g2 : rnd ((n : Rat) + half) ≤ n + 3 / 4 := by
    rw [← f3]; refine hr.mono _ _ ?_; unfold half; linarith
  have hfl : ⌊rnd ((n : Rat) + half)⌋ = n := by
    rw [Int.floor_eq_iff]; constructor <;> linarith
  unfold importDim
  rw [e, f1]
  simp only [hfl]
  rw [if_pos hn]

/-- C120.  The setting is only changed if necessary: it is kept, or it was (nearly) zero, or it is replaced by a smaller
grid.  And unless the setting is kept, the grid is the finest possible power of two: with a grid of twice the resolution,
a bound of the box would not fit into the bits (or all bounds are zero).  -/
theorem C120_finest (env : Env) (h0 : 0 < env.eps) (mode : Mode) (hm : mode ≠ .none) (scale s : Rat) (hpos : 0 ≤ scale)
    (root : Option (List Csg)) (h : gridOf env mode scale root = some s)
    (hne : (treeMinmax env (empty 3) root false).pts.Nonempty) :
    s = scale ∨ ((scale < env.eps ∨ s < scale) ∧
      ((∃ i : Fin 3, i ≠ 2 ∧ ∃ q, ((treeMinmax env (empty 3) root false).min i = fin q ∨
          (treeMinmax env (empty 3) root false).max i = fin q) ∧ 2 ^ bits mode ≤ |q| * (2 * s)) ∨
       (s = 2 ^ bits mode ∧ ∀ i : Fin 3, i ≠ 2 → (treeMinmax env (empty 3) root false).min i = fin 0 ∧
          (treeMinmax env (empty 3) root false).max i = fin 0))) := by
  obtain ⟨m, h1, ⟨i, hi, q, hq, hmq⟩, h3⟩ := auto_eq hm (grid_auto h0.le h hne)
  have hm0 : 0 ≤ m := by rw [hmq]; exact abs_nonneg q
  by_cases hc : |scale| < env.eps ∨ frexpExp scale - 1 > haveDig mode - frexpExp m
  swap
  · rw [if_neg hc] at h3; exact Or.inl h3
  right
  rw [if_pos hc] at h3
  constructor
  · rcases hc with hc | hc
    · left; rwa [abs_of_nonneg hpos] at hc
    · by_cases hz : scale < env.eps
      · exact Or.inl hz
      · right
        have hsc : scale ≠ 0 := by
          rintro rfl
          exact hz h0
        have h5 := frexp_ge scale hsc
        rw [abs_of_nonneg hpos] at h5
        have h6 : (2 : Rat) ^ (haveDig mode - frexpExp m) < 2 ^ (frexpExp scale - 1) :=
          zpow_lt_zpow_right₀ (by norm_num) hc
        rw [h3]; linarith
  · by_cases hz : m = 0
    · right
      have hd : frexpExp m = 0 := by rw [hz]; unfold frexpExp; rw [if_pos rfl]
      refine ⟨by rw [h3, hd, sub_zero, haveDig_bits], ?_⟩
      intro j hj
      obtain ⟨lo, hi', e1, e2, e3, e4⟩ := h1 j hj
      rw [hz] at e3 e4
      have z1 := abs_eq_zero.1 (le_antisymm e3 (abs_nonneg _))
      have z2 := abs_eq_zero.1 (le_antisymm e4 (abs_nonneg _))
      rw [e1, e2, z1, z2]; exact ⟨rfl, rfl⟩
    · left
      refine ⟨i, hi, q, hq, ?_⟩
      have h5 := frexp_ge m hz
      rw [abs_of_nonneg hm0] at h5
      rw [← hmq, ← haveDig_bits, h3]
      have e : (2 : Rat) ^ haveDig mode = 2 ^ (frexpExp m - 1) * (2 * 2 ^ (haveDig mode - frexpExp m)) := by
        rw [← zpow_one_add₀ (by norm_num), ← zpow_add₀ (by norm_num)]
        congr 1; ring
      rw [e]
      exact mul_le_mul_of_nonneg_right h5 (by have := two_zpow_pos (haveDig mode - frexpExp m); linarith)

/-! ### a concrete model -/

/-- a tetrahedron with the given size -/
def tetraOf (a : Rat) : Csg := .leaf (.poly [![0, 0, 0], ![a, 0, 0], ![0, a, 0], ![0, 0, a]] 4)

/-- its box -/
theorem tetraOf_box (env : Env) (a : Rat) (ha : 0 < a) (i : Fin 3) :
    (treeMinmax env (empty 3) (some [tetraOf a]) false).min i = fin 0 ∧
    (treeMinmax env (empty 3) (some [tetraOf a]) false).max i = fin a := by
  have h : treeMinmax env (empty 3) (some [tetraOf a]) false =
      polyLoop (empty 3) [![0, 0, 0], ![a, 0, 0], ![0, a, 0], ![0, 0, a]] := by
    simp [treeMinmax, tetraOf, bbAdd, bb, bbLeaf]
  rw [h]
  have hn : ¬ a ≤ 0 := not_le.2 ha
  have t1 : ¬ pinf ≤ fin 0 := by
    unfold pinf fin
    rw [WithBot.coe_le_coe, not_le]
    exact WithTop.coe_lt_top 0
  have t2 : ¬ ninf ≥ fin 0 := by simp [ninf, fin]
  fin_cases i <;>
    simp [polyLoop, minmax, empty, emin, emax, t1, t2, fin_le, ha.le, hn]

/-- its grid -/
theorem tetraOf_grid (env : Env) (h0 : 0 ≤ env.eps) (mode : Mode) (scale a : Rat) (ha : 0 < a) (l : List Csg)
    (hl : treeMinmax env (empty 3) (some l) false = treeMinmax env (empty 3) (some [tetraOf a]) false) :
    gridOf env mode scale (some l) = autoDimScale env.eps mode scale (treeMinmax env (empty 3) (some [tetraOf a]) false) := by
  have hv : valid env.eps (treeMinmax env (empty 3) (some [tetraOf a]) false) = true := by
    refine C54_valid h0 _ ⟨fun _ => 0, fun i => ?_⟩
    obtain ⟨e1, e2⟩ := tetraOf_box env a ha i
    rw [e1, e2, fin_le, fin_le]
    exact ⟨le_rfl, ha.le⟩
  unfold gridOf
  rw [hl]
  simp only [hv, if_true]

/-- the grid of the tetrahedron -/
theorem tetraOf_auto (env : Env) (mode : Mode) (hm : mode ≠ .none) (scale a : Rat) (ha : 0 < a) :
    autoDimScale env.eps mode scale (treeMinmax env (empty 3) (some [tetraOf a]) false) =
      if |scale| < env.eps ∨ frexpExp scale - 1 > haveDig mode - frexpExp a
      then some (2 ^ (haveDig mode - frexpExp a)) else some scale := by
  have f : ∀ x : Rat, fabs (fin x) = some |x| := fun _ => rfl
  have hx : cpMax (cpMax |(0 : Rat)| |a|) (cpMax |(0 : Rat)| |a|) = a := by
    rw [abs_zero, abs_of_pos ha]
    unfold cpMax
    rw [if_neg (by linarith : ¬ (0 : Rat) > a), if_neg (lt_irrefl a)]
  unfold autoDimScale
  rw [if_neg hm, haveDig_eq, (tetraOf_box env a ha 0).1, (tetraOf_box env a ha 0).2, (tetraOf_box env a ha 1).1,
    (tetraOf_box env a ha 1).2, f, f]
  simp only [Option.bind_eq_bind, Option.bind_some, hx, cpEq, sub_zero, decide_eq_true_eq]

/-- the hypotheses of `C120_fits_partial` and `C120_float_partial`: a tetrahedron of size 10000 gets the grid 1024 instead
of 8192 -/
example (env : Env) (he : env.eps = 1 / 32768) :
    gridOf env .float 8192 (some [tetraOf 10000]) = some (2 ^ (10 : Int)) ∧ IsPow2 8192 ∧
    (fun _ => 10000 : P 3) ∈ (treeMinmax env (empty 3) (some [tetraOf 10000]) false).pts ∧
    importDim id (2 ^ (10 : Int)) 10000 = some 10240000 := by
  have h1 : frexpExp 10000 = 14 := frexp_unique (by norm_num) (by norm_num)
  have h2 : frexpExp 8192 = 14 := frexp_unique (by norm_num) (by norm_num)
  refine ⟨?_, ⟨13, by norm_num⟩, ?_, ?_⟩
  · rw [tetraOf_grid env (by rw [he]; norm_num) .float 8192 10000 (by norm_num) _ rfl,
      tetraOf_auto env .float (by decide) 8192 10000 (by norm_num), h1, h2, if_pos]
    · rfl
    · right; decide
  · intro i
    obtain ⟨e1, e2⟩ := tetraOf_box env 10000 (by norm_num) i
    rw [e1, e2, fin_le, fin_le]
    exact ⟨by norm_num, le_rfl⟩
  · have hfl : ⌊((10000 : Rat) * 2 ^ (10 : Int)) + half⌋ = 10240000 := by
      rw [Int.floor_eq_iff]; unfold half; constructor <;> norm_num
    unfold importDim
    simp only [id, hfl]
    rfl

/-- exact arithmetic is a rounding, and truncation to multiples of `2^-22` is one -/
example : Rounding id 0 ∧ Rounding (fun x => ⌊x * 2 ^ 22⌋ / 2 ^ 22) (1 / 2 ^ 22) := by
  refine ⟨⟨fun _ _ h => h, fun _ _ => rfl, fun x _ => by simp⟩, ⟨?_, ?_, ?_⟩⟩
  · intro x y h
    have h1 : ⌊x * 2 ^ 22⌋ ≤ ⌊y * 2 ^ 22⌋ := Int.floor_le_floor (by linarith)
    have h2 : (⌊x * 2 ^ 22⌋ : Rat) ≤ ⌊y * 2 ^ 22⌋ := by exact_mod_cast h1
    exact div_le_div_of_nonneg_right h2 (by norm_num)
  · intro n _
    have : (n : Rat) / 4 * 2 ^ 22 = ((n * 2 ^ 20 : Int) : Rat) := by push_cast; ring
    show (⌊(n : Rat) / 4 * 2 ^ 22⌋ : Rat) / 2 ^ 22 = _
    rw [this, Int.floor_intCast]; push_cast; ring
  · intro x _
    have h1 := Int.floor_le (x * 2 ^ 22)
    have h2 := Int.lt_floor_add_one (x * 2 ^ 22)
    rw [abs_le]
    constructor
    · have : x - 1 / 2 ^ 22 ≤ (⌊x * 2 ^ 22⌋ : Rat) / 2 ^ 22 := by
        rw [le_div_iff₀ (by norm_num), sub_mul, one_div_mul_cancel (by norm_num)]; linarith
      linarith
    · have : (⌊x * 2 ^ 22⌋ : Rat) / 2 ^ 22 ≤ x := by
        rw [div_le_iff₀ (by norm_num)]; exact h1
      have h3 : (0 : Rat) ≤ 1 / 2 ^ 22 := by norm_num
      linarith

/-- C120 fails for a grid that is not a power of two: the setting 16383 is kept for a tetrahedron of size 2047, although 25
bits are then needed: two points of the model are converted to different points of the grid, which have more than 24 bits,
and both are the same number after rounding to `float`. -/
theorem C120_bits_wrong (env : Env) (he : env.eps = 1 / 32768) :
    gridOf env .float 16383 (some [tetraOf 2047]) = some 16383 ∧
    ∃ p q : P 3, p ∈ (treeMinmax env (empty 3) (some [tetraOf 2047]) false).pts ∧
      q ∈ (treeMinmax env (empty 3) (some [tetraOf 2047]) false).pts ∧
      ∃ m n, importDim id 16383 (p 0) = some m ∧ importDim id 16383 (q 0) = some n ∧ m ≠ n ∧ 2 ^ 24 < m ∧
        Nearest32 (exportDim 16383 m) (3001 / 2) ∧ Nearest32 (exportDim 16383 n) (3001 / 2) := by
  have h1 : frexpExp 2047 = 11 := frexp_unique (by norm_num) (by norm_num)
  have h2 : frexpExp 16383 = 14 := frexp_unique (by norm_num) (by norm_num)
  have hin : ∀ x : Rat, 0 ≤ x → x ≤ 2047 →
      (![x, 0, 0] : P 3) ∈ (treeMinmax env (empty 3) (some [tetraOf 2047]) false).pts := by
    intro x hx0 hx1 i
    obtain ⟨e1, e2⟩ := tetraOf_box env 2047 (by norm_num) i
    rw [e1, e2, fin_le, fin_le]
    fin_cases i
    · exact ⟨hx0, hx1⟩
    · constructor <;> norm_num
    · constructor <;> norm_num
  have hnear : ∀ n : Int, |(2 * n : Rat) - 16383 * 3001| ≤ 1 → Nearest32 (exportDim 16383 n) (3001 / 2) := by
    intro n hn
    refine ⟨⟨3001, -1, by norm_num, by norm_num, by norm_num, by norm_num⟩, ?_⟩
    intro g hg hne
    have hd : |exportDim 16383 n - 3001 / 2| ≤ 1 / 32766 := by
      have : exportDim 16383 n - 3001 / 2 = ((2 * n : Rat) - 16383 * 3001) / 32766 := by
        unfold exportDim; ring
      rw [this, abs_div, abs_of_pos (by norm_num : (0 : Rat) < 32766)]
      exact div_le_div_of_nonneg_right hn (by norm_num)
    have hgap : 1 / 8192 ≤ |g - 3001 / 2| := by
      by_cases hlt : g < 1024
      · rw [abs_of_neg (by linarith)]; linarith
      · obtain ⟨j, rfl⟩ := binary32_mult hg (not_lt.1 hlt)
        have hj : j ≠ 12292096 := by
          rintro rfl
          exact hne (by norm_num)
        have e : (j : Rat) / 8192 - 3001 / 2 = ((j - 12292096 : Int) : Rat) / 8192 := by push_cast; ring
        rw [e, abs_div, abs_of_pos (by norm_num : (0 : Rat) < 8192)]
        refine div_le_div_of_nonneg_right ?_ (by norm_num)
        have : (1 : Int) ≤ |j - 12292096| := Int.one_le_abs (by omega)
        exact_mod_cast this
    have tri := abs_sub_abs_le_abs_sub (g - 3001 / 2) (exportDim 16383 n - 3001 / 2)
    have e : g - 3001 / 2 - (exportDim 16383 n - 3001 / 2) = -(exportDim 16383 n - g) := by ring
    rw [e, abs_neg] at tri
    have : (1 : Rat) / 32766 + 1 / 32766 < 1 / 8192 := by norm_num
    linarith
  refine ⟨?_, ![3001 / 2 + 1 / 65536, 0, 0], ![3001 / 2 - 1 / 65536, 0, 0], hin _ (by norm_num) (by norm_num),
    hin _ (by norm_num) (by norm_num), 24582692, 24582691, ?_, ?_, by norm_num, by norm_num, hnear _ ?_, hnear _ ?_⟩
  · rw [tetraOf_grid env (by rw [he]; norm_num) .float 16383 2047 (by norm_num) _ rfl,
      tetraOf_auto env .float (by decide) 16383 2047 (by norm_num), h1, h2, if_neg]
    rw [he]
    rintro (h | h)
    · norm_num at h
    · exact absurd h (by decide)
  · have hfl : ⌊((3001 / 2 + 1 / 65536 : Rat) * 16383) + half⌋ = 24582692 := by
      rw [Int.floor_eq_iff]; unfold half; constructor <;> norm_num
    unfold importDim
    simp only [id, Matrix.cons_val_zero, hfl]
    rfl
  · have hfl : ⌊((3001 / 2 - 1 / 65536 : Rat) * 16383) + half⌋ = 24582691 := by
      rw [Int.floor_eq_iff]; unfold half; constructor <;> norm_num
    unfold importDim
    simp only [id, Matrix.cons_val_zero, hfl]
    rfl
  · rw [abs_le]; constructor <;> norm_num
  · rw [abs_le]; constructor <;> norm_num

/-- C120 fails: the setting is not only scaled down: a setting below the epsilon counts as zero and is scaled up -/
theorem C120_down_wrong (env : Env) (he : env.eps = 1 / 32768) :
    gridOf env .float (1 / 65536) (some [tetraOf 1]) = some (2 ^ (23 : Int)) := by
  have h1 : frexpExp 1 = 1 := frexp_unique (by norm_num) (by norm_num)
  rw [tetraOf_grid env (by rw [he]; norm_num) .float (1 / 65536) 1 (by norm_num) _ rfl,
    tetraOf_auto env .float (by decide) (1 / 65536) 1 (by norm_num), h1, if_pos]
  · rfl
  · left; rw [he, abs_of_pos] <;> norm_num

/-- C120 fails for parts outside of the bounding box: what is subtracted is not in the box but is converted, too.  If a
tetrahedron of size 1000000 is subtracted from one of size 1, then the default grid 8192 is kept, and the conversion of
the large one overflows, even if the grid is to be adjusted to avoid overflow. -/
theorem C120_subtracted_wrong (env : Env) (he : env.eps = 1 / 32768) (mode : Mode) :
    gridOf env mode 8192 (some [.sub [tetraOf 1] [tetraOf 1000000]]) = some 8192 ∧
    (∃ f ps, Leaf.poly ps f ∈ leavesAdd [.sub [tetraOf 1] [tetraOf 1000000]] ∧ ∃ p ∈ ps, importDim id 8192 (p 0) = none) := by
  constructor
  · have hl : treeMinmax env (empty 3) (some [.sub [tetraOf 1] [tetraOf 1000000]]) false =
        treeMinmax env (empty 3) (some [tetraOf 1]) false := by
      simp [treeMinmax, bbAdd, bb]
    by_cases hm : mode = .none
    · rw [hm]
      unfold gridOf autoDimScale
      simp
    have h1 : frexpExp 1 = 1 := frexp_unique (by norm_num) (by norm_num)
    have h2 : frexpExp 8192 = 14 := frexp_unique (by norm_num) (by norm_num)
    rw [tetraOf_grid env (by rw [he]; norm_num) mode 8192 1 (by norm_num) _ hl,
      tetraOf_auto env mode hm 8192 1 (by norm_num), h1, h2, if_neg]
    rw [he]
    rintro (h | h)
    · norm_num at h
    · revert h; unfold haveDig; split_ifs <;> decide
  · refine ⟨4, [![0, 0, 0], ![1000000, 0, 0], ![0, 1000000, 0], ![0, 0, 1000000]], ?_, ![1000000, 0, 0], by simp, ?_⟩
    · simp [leavesAdd, Csg.leaves, tetraOf]
    · have hfl : ⌊((1000000 : Rat) * 8192) + half⌋ = 8192000000 := by
        rw [Int.floor_eq_iff]; unfold half; constructor <;> norm_num
      unfold importDim
      simp only [id, Matrix.cons_val_zero, hfl]
      rfl

end Hob3l.Grid
