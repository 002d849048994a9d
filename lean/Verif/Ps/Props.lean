import Verif.Ps.Lemmas
import Mathlib.Data.Rat.Floor
import Mathlib.LinearAlgebra.Matrix.Notation
/-!
# Property C119: PostScript: the pages, the bounding box, and the fitting to the paper
-/
namespace Hob3l.Ps

variable {K : Type} [Field K] [LinearOrder K] [IsStrictOrderedRing K] [FloorRing K]

/-! ## Fitting -/

/-- **C119**, for boxes whose right-hand condition holds: each point of the box is put on the paper (595 × 842), inside of the margin,
with the same scale in both directions, which is the largest one possible. -/
theorem C119_fit_partial (eps xMin yMin xMax yMax : K) (he : 0 ≤ eps) (h1 : eps < xMax - xMin) (h2 : eps < yMax - xMin) (h3 : yMin ≤ yMax) :
    (∀ x y, xMin ≤ x → x ≤ xMax → yMin ≤ y → y ≤ yMax →
      55 / 2 ≤ psX (some (fromMinmax eps xMin yMin xMax yMax)) x ∧ psX (some (fromMinmax eps xMin yMin xMax yMax)) x ≤ 1133 / 2 ∧
      28 ≤ psY (some (fromMinmax eps xMin yMin xMax yMax)) y ∧ psY (some (fromMinmax eps xMin yMin xMax yMax)) y ≤ 814) ∧
    (fromMinmax eps xMin yMin xMax yMax).mulX = (fromMinmax eps xMin yMin xMax yMax).mulY ∧
    0 < (fromMinmax eps xMin yMin xMax yMax).mulX ∧
    ((fromMinmax eps xMin yMin xMax yMax).mulX * (xMax - xMin) = 539 ∨ (fromMinmax eps xMin yMin xMax yMax).mulX * (yMax - yMin) = 786) := by
  have hw : 0 < xMax - xMin := lt_of_le_of_lt he h1
  have hc : (gt eps xMax xMin && gt eps yMax xMin) = true := by rw [Bool.and_eq_true, gt_iff, gt_iff]; exact ⟨h1, h2⟩
  -- the scale
  obtain ⟨s, hs, hs1, hs2, hs3, hf⟩ : ∃ s : K, 0 < s ∧ s * (xMax - xMin) ≤ 539 ∧ s * (yMax - yMin) ≤ 786 ∧
      (s * (xMax - xMin) = 539 ∨ s * (yMax - yMin) = 786) ∧
      fromMinmax eps xMin yMin xMax yMax = ⟨s, s, 297 - s * (xMax + xMin) / 2, 421 - s * (yMax + yMin) / 2⟩ := by
    have e1 : ((595 - 56 : Nat) : K) = 539 := by norm_num
    have e2 : ((842 - 56 : Nat) : K) = 786 := by norm_num
    have e3 : ((595 / 2 : Nat) : K) = 297 := by norm_num
    have e4 : ((842 / 2 : Nat) : K) = 421 := by norm_num
    have ha : 539 / (xMax - xMin) * (xMax - xMin) = 539 := div_mul_cancel₀ _ hw.ne'
    have hap : 0 < 539 / (xMax - xMin) := div_pos (by norm_num) hw
    unfold fromMinmax
    rw [if_pos hc, e1, e2, e3, e4]
    dsimp only
    by_cases hy : yMax - yMin = 0
    · rw [if_pos hy]
      refine ⟨539 / (xMax - xMin), hap, ha.le, ?_, .inl ha, rfl⟩
      rw [hy, mul_zero]
      norm_num
    · rw [if_neg hy]
      have hh : 0 < yMax - yMin := lt_of_le_of_ne (sub_nonneg.mpr h3) (Ne.symm hy)
      have hb : 786 / (yMax - yMin) * (yMax - yMin) = 786 := div_mul_cancel₀ _ hh.ne'
      have hbp : 0 < 786 / (yMax - yMin) := div_pos (by norm_num) hh
      obtain ⟨m1, m2, m3⟩ := minF_le (539 / (xMax - xMin)) (786 / (yMax - yMin))
      refine ⟨_, ?_, ?_, ?_, ?_, rfl⟩
      · rcases m3 with m3 | m3 <;> rw [m3] <;> assumption
      · rw [← ha]
        exact mul_le_mul_of_nonneg_right (by rw [ha]; exact m1) hw.le
      · rw [← hb]
        exact mul_le_mul_of_nonneg_right (by rw [hb]; exact m2) hh.le
      · rcases m3 with m3 | m3
        · exact .inl (by rw [m3, ha])
        · exact .inr (by rw [m3, hb])
  rw [hf]
  refine ⟨?_, rfl, hs, hs3⟩
  intro x y hx1 hx2 hy1 hy2
  obtain ⟨a1, a2⟩ := centred s 297 xMin xMax x 539 hs.le hx1 hx2 hs1
  obtain ⟨b1, b2⟩ := centred s 421 yMin yMax y 786 hs.le hy1 hy2 hs2
  simp only [psX, psY, Option.getD_some]
  refine ⟨?_, ?_, ?_, ?_⟩ <;> linarith

/-- **C119 is wrong** for boxes in general: the code compares `y_max` with `x_min`.  If the object is to the right of its own top, then nothing
is fitted, and the object can be outside of the paper. -/
theorem C119_fit_wrong :
    ¬ ∀ eps xMin yMin xMax yMax : ℚ, 0 < eps → eps < xMax - xMin → eps < yMax - yMin →
      ∀ x y, xMin ≤ x → x ≤ xMax → yMin ≤ y → y ≤ yMax → 0 ≤ psX (some (fromMinmax eps xMin yMin xMax yMax)) x ∧
        psX (some (fromMinmax eps xMin yMin xMax yMax)) x ≤ 595 := by
  intro h
  have := (h (1 / 100) 500 0 600 10 (by norm_num) (by norm_num) (by norm_num) 600 0 (by norm_num) (by norm_num) (by norm_num) (by norm_num)).2
  have hc : (gt (1 / 100 : ℚ) 600 500 && gt (1 / 100 : ℚ) 10 500) = false := by
    unfold gt; norm_num
  unfold fromMinmax at this
  rw [if_neg (by rw [hc]; simp)] at this
  simp only [psX, Option.getD_some, Xf.mm] at this
  norm_num at this

/-- **C119**: without fitting, an inch (25.4 mm) is 72 points long, in both directions, and the origin is in the middle of the page
(up to half a point). -/
theorem C119_scale (x y : K) :
    psX none (x + 254 / 10) = psX none x + 72 ∧ psY none (y + 254 / 10) = psY none y + 72 ∧
      psX none (0 : K) = 595 / 2 - 1 / 2 ∧ psY none (0 : K) = 842 / 2 := by
  simp only [psX, psY, Option.getD_none, Xf.mm]
  norm_num
  refine ⟨?_, ?_⟩ <;> ring

/-- **C119**: without rotation, scaling, perspective, the position on the page is that of `psX` and `psY`, and independent of the height. -/
theorem C119_position (opt : Opt K) (he : opt.eps ≤ 1) (hm : ∀ i j, opt.xform2 i j = if i = j then 1 else 0) (p : K × K) (z : K) :
    pos opt p z = (psX opt.xform1 p.1, psY opt.xform1 p.2) := by
  have hd : ∀ a : K, div0 opt.eps a 1 = a := by
    intro a
    unfold div0
    rw [if_neg (by simpa using he), div_one]
  unfold pos row
  simp only [hm]
  simp [hd]

/-- **C119**: with a transformation: the point is multiplied by the matrix, in homogeneous coordinates, and projected; points at infinity
are put to the origin. -/
theorem C119_view (opt : Opt K) (p : K × K) (z : K) :
    pos opt p z =
      (let v := (Matrix.of fun i j : Fin 4 => opt.xform2 i j).mulVec ![p.1, p.2, z, 1]
      if |v 3| < opt.eps then (psX opt.xform1 0, psY opt.xform1 0) else (psX opt.xform1 (v 0 / v 3), psY opt.xform1 (v 1 / v 3))) := by
  have hv : ∀ i : Fin 4, (Matrix.of fun i j : Fin 4 => opt.xform2 i j).mulVec ![p.1, p.2, z, 1] i = row opt i p.1 p.2 z 1 := by
    intro i
    simp only [Matrix.mulVec, dotProduct, Fin.sum_univ_four, Matrix.of_apply, row]
    rfl
  simp only [hv]
  unfold pos div0
  simp only [sub_zero]
  show _ = if |row opt 3 p.1 p.2 z 1| < opt.eps then _ else _
  by_cases h : |row opt 3 p.1 p.2 z 1| < opt.eps
  · rw [if_pos h, if_pos h, if_pos h]
  · rw [if_neg h, if_neg h, if_neg h]
    rfl

/-! ## Pages -/

variable (opt : Opt K) (z : List K)

/-- the loop, with the page of `single` -/
theorem treePut_eq (flags : List Bool) (root : Obj K) :
    match body opt.single opt.show_ z root (filled flags 0) with
    | none => treePut opt z flags (some root) = none
    | some es => ∃ x1 y1 x2 y2, treePut opt z flags (some root)
        = some (.header :: es ++ [.trailer (pageNumbers es).length x1 y1 x2 y2]) ∧
      (∀ p ∈ es.flatMap Ev.points, InBox x1 y1 x2 y2 p) ∧
      (∀ a b c d : Int, es.flatMap Ev.points ≠ [] → (∀ p ∈ es.flatMap Ev.points, InBox a b c d p) →
        (∀ p ∈ es.flatMap Ev.points, -99999 ≤ p.1 ∧ p.1 ≤ 99999 ∧ -99999 ≤ p.2 ∧ p.2 ≤ 99999) →
        a ≤ x1 ∧ b ≤ y1 ∧ x2 ≤ c ∧ y2 ≤ d) ∧
      (es.flatMap Ev.points = [] → (x1, y1, x2, y2) = (0, 0, 1, 1)) := by
  -- the box
  have box : ∀ (k k' : Ctx K) (ps : List (K × K)), k.minX = 99999 → k.minY = 99999 → k.maxX = -99999 → k.maxY = -99999 → Grows k k' ps →
      ∃ m1 m2 m3 m4 : K, (∀ {β : Type} (F : Ctx K → β) (G : Ctx K), G = (if k'.minX > k'.maxX ∨ k'.minY > k'.maxY then
          { k' with minX := 1 / 2, minY := 1 / 2, maxX := 1 / 2, maxY := 1 / 2 } else k') → F G = F { k' with minX := m1, minY := m2, maxX := m3, maxY := m4 }) ∧
        (∀ p ∈ ps, InBox ⌊m1⌋ ⌊m2⌋ ⌈m3⌉ ⌈m4⌉ p) ∧
        (∀ a b c d : Int, ps ≠ [] → (∀ p ∈ ps, InBox a b c d p) →
          (∀ p ∈ ps, -99999 ≤ p.1 ∧ p.1 ≤ 99999 ∧ -99999 ≤ p.2 ∧ p.2 ≤ 99999) → a ≤ ⌊m1⌋ ∧ b ≤ ⌊m2⌋ ∧ ⌈m3⌉ ≤ c ∧ ⌈m4⌉ ≤ d) ∧
        (ps = [] → (⌊m1⌋, ⌊m2⌋, ⌈m3⌉, ⌈m4⌉) = ((0, 0, 1, 1) : Int × Int × Int × Int)) := by
    intro k k' ps i1 i2 i3 i4 hg
    obtain ⟨⟨a1, a2, a3⟩, ⟨b1, b2, b3⟩, ⟨c1, c2, c3⟩, ⟨d1, d2, d3⟩⟩ := hg
    rw [i1] at a1 a3; rw [i2] at b1 b3; rw [i3] at c1 c3; rw [i4] at d1 d3
    cases ps with
    | nil =>
      have hx : k'.minX = 99999 := by simpa using a3
      have hx2 : k'.maxX = -99999 := by simpa using c3
      refine ⟨1 / 2, 1 / 2, 1 / 2, 1 / 2, ?_, by simp, by simp, ?_⟩
      · intro β F G hG
        rw [hG, if_pos (.inl (by rw [hx, hx2]; norm_num))]
      · intro _
        have f : ⌊(1 / 2 : K)⌋ = 0 := by rw [Int.floor_eq_iff]; norm_num
        have g : ⌈(1 / 2 : K)⌉ = 1 := by rw [Int.ceil_eq_iff]; norm_num
        rw [f, g]
    | cons q qs =>
      have mx : ∀ p ∈ q :: qs, k'.minX ≤ p.1 := fun p hp => a2 _ (List.mem_map_of_mem hp)
      have my : ∀ p ∈ q :: qs, k'.minY ≤ p.2 := fun p hp => b2 _ (List.mem_map_of_mem hp)
      have nx : ∀ p ∈ q :: qs, p.1 ≤ k'.maxX := fun p hp => c2 _ (List.mem_map_of_mem hp)
      have ny : ∀ p ∈ q :: qs, p.2 ≤ k'.maxY := fun p hp => d2 _ (List.mem_map_of_mem hp)
      refine ⟨k'.minX, k'.minY, k'.maxX, k'.maxY, ?_, ?_, ?_, by simp⟩
      · intro β F G hG
        rw [hG, if_neg]
        have q1 := mx q List.mem_cons_self
        have q2 := my q List.mem_cons_self
        have q3 := nx q List.mem_cons_self
        have q4 := ny q List.mem_cons_self
        rintro (h | h)
        · exact absurd (q1.trans q3) (not_le.mpr h)
        · exact absurd (q2.trans q4) (not_le.mpr h)
      · intro p hp
        exact ⟨(Int.floor_le _).trans (mx p hp), (Int.floor_le _).trans (my p hp), (nx p hp).trans (Int.le_ceil _),
          (ny p hp).trans (Int.le_ceil _)⟩
      · intro a b c d _ hb hr
        have lo : ∀ {m : K} {l : List K} {n : Int}, (m = 99999 ∨ m ∈ l) → l ≠ [] → (∀ x ∈ l, m ≤ x) → (∀ x ∈ l, (n : K) ≤ x) → (∀ x ∈ l, x ≤ 99999) → n ≤ ⌊m⌋ := by
          intro m l n h1 h2 h3 h4 h5
          rw [Int.le_floor]
          rcases h1 with h1 | h1
          · obtain ⟨x, hx⟩ := List.exists_mem_of_ne_nil _ h2
            rw [h1]
            exact (h4 x hx).trans (h5 x hx)
          · exact h4 m h1
        have hi : ∀ {m : K} {l : List K} {n : Int}, (m = -99999 ∨ m ∈ l) → l ≠ [] → (∀ x ∈ l, x ≤ (n : K)) → (∀ x ∈ l, -99999 ≤ x) → ⌈m⌉ ≤ n := by
          intro m l n h1 h2 h4 h5
          rw [Int.ceil_le]
          rcases h1 with h1 | h1
          · obtain ⟨x, hx⟩ := List.exists_mem_of_ne_nil _ h2
            rw [h1]
            exact (h5 x hx).trans (h4 x hx)
          · exact h4 m h1
        have all : ∀ {P : K → Prop} {f : K × K → K}, (∀ p ∈ q :: qs, P (f p)) → ∀ x ∈ (q :: qs).map f, P x := by
          intro P f h x hx
          obtain ⟨p, hp, rfl⟩ := List.mem_map.mp hx
          exact h p hp
        refine ⟨lo a3 (by simp) a2 (all fun p hp => (hb p hp).1) (all fun p hp => (hr p hp).2.1),
          lo b3 (by simp) b2 (all fun p hp => (hb p hp).2.1) (all fun p hp => (hr p hp).2.2.2),
          hi c3 (by simp) (all fun p hp => (hb p hp).2.2.1) (all fun p hp => (hr p hp).1),
          hi d3 (by simp) (all fun p hp => (hb p hp).2.2.2) (all fun p hp => (hr p hp).2.2.1)⟩
  unfold body
  cases hs : opt.single with
  | false =>
    rw [if_neg (by simp)]
    have hd := layerLoop_pages opt z hs root flags 0 0
    cases hp : pages opt.show_ z root 1 (filled flags 0) with
    | none =>
      rw [Nat.zero_add, hp] at hd
      simp only [treePut, hs]
      have := hd ((⟨99999, 99999, -99999, -99999, []⟩ : Ctx K).put .header)
      simp only [Bool.false_eq_true, if_false, this]
      rfl
    | some es =>
      rw [Nat.zero_add, hp] at hd
      obtain ⟨k', e, ho, hg⟩ := hd ((⟨99999, 99999, -99999, -99999, []⟩ : Ctx K).put .header)
      obtain ⟨m1, m2, m3, m4, hF, hb1, hb2, hb3⟩ := box _ k' _ rfl rfl rfl rfl hg
      have hn := pages_numbers z opt.show_ root _ 1 es hp
      refine ⟨⌊m1⌋, ⌊m2⌋, ⌈m3⌉, ⌈m4⌉, ?_, hb1, hb2, hb3⟩
      simp only [treePut, hs, Bool.false_eq_true, if_false, e, Option.bind_eq_bind, Option.bind_some, Option.some.injEq]
      rw [hF (fun G => (G.put (.trailer (filled flags 0).length ⌊G.minX⌋ ⌊G.minY⌋ ⌈G.maxX⌉ ⌈G.maxY⌉)).out) _ rfl]
      rw [hn, List.length_range']
      show k'.out ++ _ = _
      rw [ho]
      rfl
  | true =>
    rw [if_pos rfl]
    have hd := layerLoop_single opt z hs root 1 flags 0
    cases hp : concat (layer opt.show_ z root) (filled flags 0) with
    | none =>
      rw [hp] at hd
      simp only [both, Option.bind_some, Option.bind_none, Option.map_none, treePut, hs, if_true]
      have := hd (((⟨99999, 99999, -99999, -99999, []⟩ : Ctx K).put .header).put (.page 1))
      simp only [this]
      rfl
    | some es =>
      rw [hp] at hd
      obtain ⟨k', e, ho, hg⟩ := hd (((⟨99999, 99999, -99999, -99999, []⟩ : Ctx K).put .header).put (.page 1))
      obtain ⟨m1, m2, m3, m4, hF, hb1, hb2, hb3⟩ := box _ k' _ rfl rfl rfl rfl hg
      have hn : pageNumbers es = [] := concat_numbers _ (fun zi es h => layer_numbers z opt.show_ root zi es h) _ _ hp
      have hpt : ([.page 1] ++ (es ++ [.endPage]) : List (Ev K)).flatMap Ev.points = es.flatMap Ev.points := by
        simp [List.flatMap_append, Ev.points]
      simp only [both, Option.bind_some, Option.map_some]
      rw [hpt]
      refine ⟨⌊m1⌋, ⌊m2⌋, ⌈m3⌉, ⌈m4⌉, ?_, hb1, hb2, hb3⟩
      simp only [treePut, hs, if_true, e, Option.bind_eq_bind, Option.bind_some, Option.some.injEq]
      rw [hF (fun G => ((G.put .endPage).put (.trailer 1 ⌊(G.put .endPage).minX⌋ ⌊(G.put .endPage).minY⌋ ⌈(G.put .endPage).maxX⌉
        ⌈(G.put .endPage).maxY⌉)).out) _ rfl]
      have hl : (pageNumbers ([.page 1] ++ (es ++ [.endPage]) : List (Ev K))).length = 1 := by
        rw [pageNumbers_append, pageNumbers_append, hn]; rfl
      rw [hl]
      show (k'.out ++ _) ++ _ = _
      rw [ho]
      simp [Ctx.put]

/-- **C119**: the file has a page for each layer that is not empty (or one page), with exactly the shapes of the polygons of that
layer in order, and the trailer has the number of pages. -/
theorem C119_pages (flags : List Bool) (root : Obj K) :
    (treePut opt z flags (some root)).map (fun l => (l.dropLast, pageNumbers l)) =
      (body opt.single opt.show_ z root (filled flags 0)).map (fun es => (.header :: es, pageNumbers es)) ∧
    ∀ l, treePut opt z flags (some root) = some l → ∃ x1 y1 x2 y2, l.getLast? = some (.trailer (pageNumbers l).length x1 y1 x2 y2) ∧
      pageNumbers l = List.range' 1 (if opt.single then 1 else (flags.filter id).length) := by
  have hlen : ∀ (flags : List Bool) (n : Nat), (filled flags n).length = (flags.filter id).length := by
    intro flags
    induction flags with
    | nil => intro n; rfl
    | cons f fs ih =>
      intro n
      rw [filled_cons, List.length_append, ih]
      cases f <;> simp; omega
  have h := treePut_eq opt z flags root
  cases hb : body opt.single opt.show_ z root (filled flags 0) with
  | none =>
    rw [hb] at h
    simp only at h
    rw [h]
    exact ⟨rfl, fun l hl => by cases hl⟩
  | some es =>
    rw [hb] at h
    obtain ⟨x1, y1, x2, y2, e, -⟩ := h
    have hn : pageNumbers (.header :: es ++ [.trailer (pageNumbers es).length x1 y1 x2 y2]) = pageNumbers es := by
      rw [pageNumbers_append]
      show pageNumbers es ++ [] = _
      rw [List.append_nil]
    rw [e]
    refine ⟨?_, ?_⟩
    · simp only [Option.map_some, hn, List.dropLast_concat]
    · intro l hl
      cases hl
      refine ⟨x1, y1, x2, y2, ?_, ?_⟩
      · rw [hn, List.getLast?_concat]
      · rw [hn]
        unfold body at hb
        cases hs : opt.single with
        | false =>
          rw [hs, if_neg (by simp)] at hb
          rw [pages_numbers z opt.show_ root _ 1 es hb, hlen]
          simp
        | true =>
          rw [hs, if_pos rfl] at hb
          obtain ⟨x, y, hx, hy, rfl⟩ := both_some hb
          obtain ⟨u, v, hu, hv, rfl⟩ := both_some hy
          cases hx
          cases hv
          rw [pageNumbers_append, pageNumbers_append,
            concat_numbers _ (fun zi es h => layer_numbers z opt.show_ root zi es h) _ _ hu]
          rfl

/-! ## The bounding box -/

/-- **C119**: the bounding box of the trailer contains all corners of triangles and paths, and all vertices. -/
theorem C119_bbox (flags : List Bool) (root : Obj K) (l : List (Ev K)) (h : treePut opt z flags (some root) = some l) :
    ∃ n x1 y1 x2 y2, l.getLast? = some (.trailer n x1 y1 x2 y2) ∧ (∀ p ∈ l.flatMap Ev.points, InBox x1 y1 x2 y2 p) ∧
      (l.flatMap Ev.points = [] → (x1, y1, x2, y2) = (0, 0, 1, 1)) ∧
      -- and it is the smallest such box (of integers), if no coordinate is absurdly large
      (∀ a b c d : Int, l.flatMap Ev.points ≠ [] → (∀ p ∈ l.flatMap Ev.points, InBox a b c d p) →
        (∀ p ∈ l.flatMap Ev.points, -99999 ≤ p.1 ∧ p.1 ≤ 99999 ∧ -99999 ≤ p.2 ∧ p.2 ≤ 99999) →
        a ≤ x1 ∧ b ≤ y1 ∧ x2 ≤ c ∧ y2 ≤ d) := by
  have hh := treePut_eq opt z flags root
  cases hb : body opt.single opt.show_ z root (filled flags 0) with
  | none => rw [hb] at hh; simp only at hh; rw [hh] at h; cases h
  | some es =>
    rw [hb] at hh
    obtain ⟨x1, y1, x2, y2, e, h1, h2, h3⟩ := hh
    rw [e] at h
    cases h
    have hp : (.header :: es ++ [.trailer (pageNumbers es).length x1 y1 x2 y2] : List (Ev K)).flatMap Ev.points = es.flatMap Ev.points := by
      simp [Ev.points]
    rw [hp]
    exact ⟨_, x1, y1, x2, y2, by rw [List.getLast?_concat], h1, h3, h2⟩

/-! ## Examples -/

/-- options for examples: no transformation -/
def exOpt (single : Bool) : Opt ℚ :=
  ⟨1 / 100, some ⟨1, 1, 0, 0⟩, fun i j => if i = j then 1 else 0, fun _ _ => (0, 1), single, false, false, false⟩

/-- a triangle on layer 1 of two layers -/
def exTree : Obj ℚ :=
  .stack (.cons 0 .nil (.cons 1 (.cons (.poly [(3, 4), (3, 9), (8, 4)] [[0, 1, 2]] [(0, 1, 2)]) .nil) .nil))

example : treePut (exOpt false) [0, 1] [false, true] (some exTree) =
    some [.header, .page 1, .label 1 1, .tri (3, 4) (3, 9) (8, 4) true, .path [(3, 4), (3, 9), (8, 4)],
      .mark (3, 13 / 2) (3, 17 / 2), .dot (3, 4), .dot (3, 9), .dot (8, 4), .endPage, .trailer 1 3 4 8 9] := by decide +kernel

example : treePut (exOpt true) [0, 1] [true, true] (some exTree) =
    some [.header, .page 1, .tri (3, 4) (3, 9) (8, 4) true, .path [(3, 4), (3, 9), (8, 4)],
      .mark (3, 13 / 2) (3, 17 / 2), .dot (3, 4), .dot (3, 9), .dot (8, 4), .endPage, .trailer 1 3 4 8 9] := by decide +kernel

/-- **C119 is wrong** for the discs of the vertices: they have a radius of 0.4, and are not in the bounding box. -/
theorem C119_dots_wrong :
    ¬ ∀ (opt : Opt ℚ) (z : List ℚ) (flags : List Bool) (root : Obj ℚ) (l : List (Ev ℚ)), treePut opt z flags (some root) = some l →
      ∀ n x1 y1 x2 y2, l.getLast? = some (.trailer n x1 y1 x2 y2) → ∀ c, .dot c ∈ l →
        InBox x1 y1 x2 y2 (c.1 - 2 / 5, c.2) := by
  intro h
  have e : treePut (exOpt true) [0, 1] [true, true] (some exTree) =
    some [.header, .page 1, .tri (3, 4) (3, 9) (8, 4) true, .path [(3, 4), (3, 9), (8, 4)],
      .mark (3, 13 / 2) (3, 17 / 2), .dot (3, 4), .dot (3, 9), .dot (8, 4), .endPage, .trailer 1 3 4 8 9] := by decide +kernel
  have := (h _ _ _ _ _ e 1 3 4 8 9 rfl (3, 4) (by simp)).1
  norm_num at this

/-- the hypotheses of `C119_fit_partial` and `C119_position` can be met -/
example : (0 : ℚ) ≤ 1 / 100 ∧ (1 / 100 : ℚ) < 20 - 10 ∧ (1 / 100 : ℚ) < 30 - 10 ∧ (5 : ℚ) ≤ 30 := by norm_num

example : (exOpt true).eps ≤ 1 ∧ ∀ i j, (exOpt true).xform2 i j = if i = j then 1 else 0 := ⟨by norm_num [exOpt], fun _ _ => rfl⟩

end Hob3l.Ps
