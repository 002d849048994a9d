import Verif.Svg.LemmasUniq
import Mathlib.Tactic.NormNum
import Mathlib.Data.List.Chain
import Mathlib.Data.List.Sort

/-!
C100: path data is read as SVG defines it.
C101: the polygon that is made of a path has the vertices of the path.
C103: path data never makes the program abort.
-/

namespace Hob3l.Svg

/-! ## C100 -/

/-- C100: for every well-formed path data (in any notation: separators, repetition, absolute and relative commands) that
meets `Fits`, the data is accepted, and the points are those of the subpaths that SVG defines.

Partial: numbers have no sign in their exponent (`C100_exponent_wrong`); a subpath is not closed before it has a segment
(`C100_close_wrong`), and there is no line of length 0 after a curve (`C100_zero_line_wrong`); a line is not shorter than the
epsilon without being of length 0. -/
theorem C100_path_data_partial {K : Type} [Field K] [LinearOrder K] [IsStrictOrderedRing K] (c : Cfg K) (he : 0 < c.eps)
    (d : Doc) (hd : d.Ok) (hf : Fits c Pen.new d.cmds) :
    (strPath c d.show).2 = true ∧ (strPath c d.show).1.pts = tagged (draw c d.cmds) := by
  rw [strPath_ok c d hd]
  refine ⟨rfl, ?_⟩
  have h := Rel.new.steps he d.cmds hf
  rw [h.core.pts]
  unfold draw Pen.paths
  generalize d.cmds.foldl (Pen.step c) Pen.new = s
  cases hs : s.opn with
  | nil => rw [tagged_nil]; rfl
  | cons a l => rfl

/-- C100: well-formed data is always accepted -/
theorem C100_accepted {K : Type} [Field K] [LinearOrder K] (c : Cfg K) (d : Doc) (hd : d.Ok) : (strPath c d.show).2 = true := by
  rw [strPath_ok c d hd]

/-- C100: two commas between numbers are rejected, whatever follows -/
theorem C100_double_comma {K : Type} [Field K] [LinearOrder K] (c : Cfg K) (w0 w1 w2 : List Space) (n : Num) (hn : n.Ok)
    (rel : Bool) (rest : List Char) :
    (strPath c ((if rel then 'm' else 'M') :: (showWs w0 ++ (n.show ++ (showWs w1 ++ ',' :: (showWs w2 ++ ',' :: rest)))))).2
      = false := by
  have hr : Stop n (showWs w1 ++ ',' :: (showWs w2 ++ ',' :: rest)) := by
    intro x t e
    cases w1 with
    | nil => cases e; exact ⟨by decide, by decide, by decide, by decide, by decide, fun h => absurd h (by decide)⟩
    | cons a w =>
      cases e
      cases a <;> exact ⟨by decide, by decide, by decide, by decide, by decide, fun h => absurd h (by decide)⟩
  have h1 : sNums 2 false (sSep false (showWs w0 ++ (n.show ++ (showWs w1 ++ ',' :: (showWs w2 ++ ',' :: rest))))) = none := by
    have hs : NoWs (n.show ++ (showWs w1 ++ ',' :: (showWs w2 ++ ',' :: rest))) := (num_noSep n hn _).noWs
    rw [sSep_ws, sSep_noWs hs, sNums, sDouble_ok false _ n hn hr (sSep_noWs hs)]
    dsimp only
    rw [sNums]
    have : sDouble true (showWs w1 ++ ',' :: (showWs w2 ++ ',' :: rest)) = (none, ',' :: rest) := by
      unfold sDouble
      rw [sSep_ws, sSep, if_pos (by rfl), sSep_ws, sSep_noWs (r := ',' :: rest) (by intro c t e; cases e; decide)]
      rfl
    rw [this]
    rfl
  unfold strPath
  cases rel
  · rw [if_neg (by decide), strPathLoop, sSep_noWs (by intro c t e; cases e; decide)]
    simp only [strCmd, strGroups, h1]
    rfl
  · rw [if_pos rfl, strPathLoop, sSep_noWs (by intro c t e; cases e; decide)]
    simp only [strCmd, strGroups, h1]
    rfl

/-- a number without sign, fraction and exponent -/
def Num.nat (l : List (Fin 10)) : Num := ⟨none, l, none, none⟩

/-- `M1 ,,2` -/
example : (Num.nat [1]).Ok ∧ 'M' :: (showWs [] ++ ((Num.nat [1]).show ++ (showWs [.sp] ++ ',' :: (showWs [] ++ ',' :: ['2'])))) = "M1 ,,2".toList :=
  ⟨⟨.inl (by simp [Num.nat]), by simp [Num.nat]⟩, by decide +kernel⟩

/-- a space -/
def Sep.space : Sep := ⟨[.sp], false, []⟩

/-- no separator -/
def Sep.none : Sep := ⟨[], false, []⟩

/-- digits, with a space before them -/
def tk (l : List (Fin 10)) : Sep × Tok := (.space, .num (.nat l))

/-- parameters for examples: curves are divided into two lines, and arcs are lines -/
def cfg0 : Cfg ℚ := ⟨1 / 2 ^ 15, fun _ _ _ => 2, fun _ _ _ _ => 2, fun _ _ _ _ _ _ _ => (true, [])⟩

/-- `M1 2l.5.5-1+3 q 1,1 2 0 T 7 8z m 1 1 v9h9z` -/
def doc0 : Doc where
  groups := [
    ⟨[], .m, false, [[(.none, .num (.nat [1])), tk [2]]]⟩,
    ⟨[], .l, true, [[(.none, .num ⟨none, [], some [5], none⟩), (.none, .num ⟨none, [], some [5], none⟩)],
      [(.none, .num ⟨some true, [1], none, none⟩), (.none, .num ⟨some false, [3], none, none⟩)]]⟩,
    ⟨[.sp], .q, true, [[tk [1], (⟨[], true, []⟩, .num (.nat [1])), tk [2], tk [0]]]⟩,
    ⟨[.sp], .t, false, [[tk [7], tk [8]]]⟩,
    ⟨[], .z, true, []⟩,
    ⟨[.sp], .m, true, [[tk [1], tk [1]]]⟩,
    ⟨[.sp], .v, true, [[(.none, .num (.nat [9]))]]⟩,
    ⟨[], .h, true, [[(.none, .num (.nat [9]))]]⟩,
    ⟨[], .z, true, []⟩]
  trail := []

/-- its text -/
example : doc0.show = "M1 2l.5.5-1+3 q 1,1 2 0 T 7 8z m 1 1 v9h9z".toList := by decide +kernel

/-- it meets the hypotheses, and is drawn with two subpaths -/
example : doc0.Ok := by
  intro g hg
  simp only [doc0, List.mem_cons, List.not_mem_nil, or_false] at hg
  rcases hg with rfl | rfl | rfl | rfl | rfl | rfl | rfl | rfl | rfl <;>
    simp [Group.Ok, Kind.shape, Tok.isFlag, Tok.Ok, Num.Ok, Num.nat, tk, Spaced, Sep.show, showWs, Sep.space, Sep.none, Glue]

deriving instance DecidableEq for Ctrl

instance (s : Pen ℚ) (p : P ℚ) : Decidable (FitLine cfg0 s p) := by unfold FitLine Apart; infer_instance

instance (s : Pen ℚ) (a : Cmd ℚ) : Decidable (Fit cfg0 s a) := by
  cases a <;> unfold Fit <;> infer_instance

/-- the condition can be evaluated -/
def decFits : (s : Pen ℚ) → (l : List (Cmd ℚ)) → Decidable (Fits cfg0 s l)
  | _, [] => .isTrue trivial
  | s, a :: l => have := decFits (s.step cfg0 a) l; inferInstanceAs (Decidable (_ ∧ _))

instance (s : Pen ℚ) (l : List (Cmd ℚ)) : Decidable (Fits cfg0 s l) := decFits s l

example : Fits cfg0 Pen.new doc0.cmds := by decide +kernel

/-- with two subpaths; the control point of the second curve is the reflection (7/2, 5) of the first one -/
example : draw cfg0 doc0.cmds =
    [[⟨1, 2⟩, ⟨3 / 2, 5 / 2⟩, ⟨1 / 2, 11 / 2⟩, ⟨3 / 2, 6⟩, ⟨5 / 2, 11 / 2⟩, ⟨33 / 8, 45 / 8⟩, ⟨7, 8⟩],
     [⟨2, 3⟩, ⟨2, 12⟩, ⟨11, 12⟩]] := by decide +kernel

/-- C100: numbers that have a sign in their exponent are rejected: `M1e-3 0L1 0 1 1z`; without the sign the data is accepted.
The sign is looked for at the letter `e` (svg-parse.c:920) -/
theorem C100_exponent_wrong :
    (strPath cfg0 "M1e-3 0L1 0 1 1z".toList).2 = false ∧ (strPath cfg0 "M1e+3 0L1 0 1 1z".toList).2 = false
    ∧ (strPath cfg0 "M1e3 0L1 0 1 1z".toList).2 = true := by decide +kernel

/-- `M5 5zL6 6 7 5` -/
def docClose : Doc := ⟨[⟨[], .m, false, [[(.none, .num (.nat [5])), tk [5]]]⟩, ⟨[], .z, true, []⟩,
  ⟨[], .l, false, [[(.none, .num (.nat [6])), tk [6]], [tk [7], tk [5]]]⟩], []⟩

example : docClose.show = "M5 5zL6 6 7 5".toList := by decide +kernel

/-- C100: if a subpath is closed that has no segment, then the next one starts at the start of the last subpath that has
one, or at the origin (`path_move` does not set `init_x`, `init_y`; `path_start` 388-397 does) -/
theorem C100_close_wrong :
    draw cfg0 docClose.cmds = [[⟨5, 5⟩, ⟨6, 6⟩, ⟨7, 5⟩]]
    ∧ (strPath cfg0 docClose.show).1.pts = tagged [[⟨0, 0⟩, ⟨6, 6⟩, ⟨7, 5⟩]] := by decide +kernel

/-- `M0 0Q1 1 2 0L2 0T4 0` -/
def docZero : Doc := ⟨[⟨[], .m, false, [[(.none, .num (.nat [0])), tk [0]]]⟩,
  ⟨[], .q, false, [[(.none, .num (.nat [1])), tk [1], tk [2], tk [0]]]⟩,
  ⟨[], .l, false, [[(.none, .num (.nat [2])), tk [0]]]⟩,
  ⟨[], .t, false, [[(.none, .num (.nat [4])), tk [0]]]⟩], []⟩

example : docZero.show = "M0 0Q1 1 2 0L2 0T4 0".toList := by decide +kernel

/-- C100: after a line of length 0, the control point of the curve before it is still reflected: `path_line_abs` 399-411
returns before `path_cur` -/
theorem C100_zero_line_wrong :
    draw cfg0 docZero.cmds = [[⟨0, 0⟩, ⟨1, 1 / 2⟩, ⟨2, 0⟩, ⟨5 / 2, 0⟩, ⟨4, 0⟩]]
    ∧ (strPath cfg0 docZero.show).1.pts = tagged [[⟨0, 0⟩, ⟨1, 1 / 2⟩, ⟨2, 0⟩, ⟨3, -1 / 2⟩, ⟨4, 0⟩]] := by decide +kernel

/-! ## C101 -/

section

variable {K : Type} [Field K] [LinearOrder K] [IsStrictOrderedRing K] {B : Type}

/-- the polygon with the points `pts` and the paths `refs` shows the subpaths `l` transformed by `xf`: there is one path for
each subpath, with a reference for each vertex, and this reference leads to a point that is equal to the vertex -/
def Shows (xf : P K → B) (eqv : B → B → Bool) (l : List (List (P K))) (pts : List B) (refs : List (List Nat)) : Prop :=
  refs.length = l.length ∧
  ∀ (j : Nat) (p : List (P K)), l[j]? = some p → ∃ u, refs[j]? = some u ∧ u.length = p.length ∧
    ∀ (i : Nat) (a : P K), p[i]? = some a → ∃ r x, u[i]? = some r ∧ pts[r]? = some x ∧ eqv (xf a) x = true

theorem pathClose_pts (st : St K) : (pathClose st).pts = st.pts := by
  unfold pathClose
  simp only
  split
  · rfl
  · split <;> rfl

theorem draw_ne_nil (c : Cfg K) (he : 0 < c.eps) (l : List (Cmd K)) (hf : Fits c Pen.new l) : ∀ p ∈ draw c l, p ≠ [] := by
  have h := Rel.new.steps he l hf
  unfold draw Pen.paths
  intro p hp
  split at hp
  · exact h.done p hp
  · rename_i ho
    rcases List.mem_append.1 hp with hp | hp
    · exact h.done p hp
    · rw [List.mem_singleton.1 hp]; simpa using ho

/-- C101: the polygon that is made of path data shows the subpaths, for any transformation and any sorting of the points;
it is left without points only if all vertices are equal to one of at most two points -/
theorem C101_polygon (c : Cfg K) (he : 0 < c.eps) (d : Doc) (hd : d.Ok) (hf : Fits c Pen.new d.cmds)
    (xf : P K → B) (srt : List (B × Nat × Nat) → List (B × Nat × Nat)) (eqv : B → B → Bool)
    (hs : ∀ l, (srt l).Perm l) (hrefl : ∀ a, eqv a a = true) (hne : draw c d.cmds ≠ []) :
    ∃ pts refs, pathFini xf srt eqv (strPath c d.show).1 = some (pts, refs)
      ∧ (∀ x ∈ pts, ∃ p ∈ draw c d.cmds, ∃ a ∈ p, x = xf a)
      ∧ ((3 ≤ pts.length ∧ Shows xf eqv (draw c d.cmds) pts refs)
        ∨ (pts = [] ∧ refs = [] ∧ ∃ l : List B, l.length < 3 ∧ ∀ p ∈ draw c d.cmds, ∀ a ∈ p, ∃ x ∈ l, eqv (xf a) x = true)) := by
  have hp := (C100_path_data_partial c he d hd hf).2
  have hn := draw_ne_nil c he d.cmds hf
  have hu := uniquify_ok xf srt eqv hs hrefl (draw c d.cmds) hn
  have hk : List.Sublist (uniquify xf srt eqv (tagged (draw c d.cmds))).1
      ((srt ((tagged (draw c d.cmds)).map fun q => (xf q.1, q.2))).map (·.1)) := uniqLoop_kept eqv _ none 0
  unfold pathFini
  simp only [pathClose_pts, hp]
  have hempty : (tagged (draw c d.cmds)).isEmpty = false := by
    rw [Bool.eq_false_iff]
    intro h
    exact hne (tagged_eq_nil hn (List.isEmpty_iff.1 h))
  rw [if_neg (by rw [hempty]; simp)]
  by_cases hl : (uniquify xf srt eqv (tagged (draw c d.cmds))).1.length < 3
  · rw [if_pos hl]
    refine ⟨[], [], rfl, fun x hx => (by cases hx), .inr ⟨rfl, rfl, _, hl, ?_⟩⟩
    intro p hp a ha
    obtain ⟨j, hj⟩ := List.mem_iff_getElem?.1 hp
    obtain ⟨i, hi⟩ := List.mem_iff_getElem?.1 ha
    obtain ⟨u, -, -, h⟩ := hu.2 j p hj
    obtain ⟨r, x, -, h2, h3⟩ := h i a hi
    exact ⟨x, List.mem_of_getElem? h2, h3⟩
  · rw [if_neg hl]
    refine ⟨_, _, rfl, ?_, .inl ⟨not_lt.1 hl, hu⟩⟩
    intro x hx
    have := hk.subset hx
    rw [List.mem_map] at this
    obtain ⟨q, h1, rfl⟩ := this
    rw [(hs _).mem_iff, List.mem_map] at h1
    obtain ⟨⟨a, i, j⟩, h1, rfl⟩ := h1
    rw [mem_tagged] at h1
    obtain ⟨p, h1, h2⟩ := h1
    exact ⟨p, List.mem_of_getElem? h1, a, List.mem_of_getElem? h2, rfl⟩

theorem chain_and {R S T : B → B → Prop} {l : List B} (h1 : l.IsChain R) (h2 : l.IsChain S)
    (h : ∀ a b, R a b → S a b → T a b) : l.IsChain T := by
  induction l with
  | nil => exact .nil
  | cons a l ih =>
    cases l with
    | nil => exact .singleton _
    | cons b l =>
      rw [List.isChain_cons_cons] at h1 h2 ⊢
      exact ⟨h _ _ h1.1 h2.1, ih h1.2 h2.2⟩

/-- C101: if the comparison is a total preorder, the points are distinct, and in the order of the sort -/
theorem C101_distinct_partial (xf : P K → B) (le : B → B → Prop) (htr : ∀ a b c, le a b → le b c → le a c)
    (eqv : B → B → Bool) (heq : ∀ a b, eqv a b = true ↔ le a b ∧ le b a)
    (srt : List (B × Nat × Nat) → List (B × Nat × Nat)) (hs : ∀ l, (srt l).Pairwise fun a b => le a.1 b.1)
    (st : St K) (pts : List B) (refs : List (List Nat)) (h : pathFini xf srt eqv st = some (pts, refs)) :
    pts.Pairwise fun a b => le a b ∧ eqv a b = false ∧ eqv b a = false := by
  unfold pathFini at h
  simp only at h
  split at h
  · cases h
  · split at h
    · cases h; exact List.Pairwise.nil
    · simp only [Option.some.injEq] at h
      have e : pts = (uniqLoop eqv (srt ((pathClose st).pts.map fun q => (xf q.1, q.2))) none 0).1 := by
        have := congrArg Prod.fst h; exact this.symm
      rw [e]
      generalize hq : srt ((pathClose st).pts.map fun q => (xf q.1, q.2)) = q
      have hsorted : (q.map (·.1)).Pairwise le := by
        rw [← hq, List.pairwise_map]; exact hs _
      have h1 := hsorted.sublist (uniqLoop_kept eqv q none 0)
      have h2 := uniqLoop_chain eqv q none 0
      simp only [Option.toList_none, List.nil_append] at h2
      have hlt : (uniqLoop eqv q none 0).1.IsChain (fun a b => le a b ∧ ¬ le b a) := by
        refine chain_and h1.isChain h2 fun a b h3 h4 => ?_
        exact ⟨h3, fun h5 => by rw [(heq b a).2 ⟨h5, h3⟩] at h4; cases h4⟩
      have : IsTrans B (fun a b => le a b ∧ ¬ le b a) :=
        ⟨fun a b c h1 h2 => ⟨htr _ _ _ h1.1 h2.1, fun h3 => h1.2 (htr _ _ _ h2.1 h3)⟩⟩
      refine hlt.pairwise.imp ?_
      rintro a b ⟨h3, h4⟩
      refine ⟨h3, ?_, ?_⟩
      · rw [Bool.eq_false_iff]; exact fun h5 => h4 ((heq a b).1 h5).2
      · rw [Bool.eq_false_iff]; exact fun h5 => h4 ((heq b a).1 h5).1

/-! ## C103 -/

/-- C103: a path element makes the program abort iff nothing is drawn -/
theorem C103_abort_partial (c : Cfg K) (he : 0 < c.eps) (d : Doc) (hd : d.Ok) (hf : Fits c Pen.new d.cmds)
    (xf : P K → B) (srt : List (B × Nat × Nat) → List (B × Nat × Nat)) (eqv : B → B → Bool) :
    pathFini xf srt eqv (strPath c d.show).1 = none ↔ draw c d.cmds = [] := by
  have hp := (C100_path_data_partial c he d hd hf).2
  have hn := draw_ne_nil c he d.cmds hf
  unfold pathFini
  simp only [pathClose_pts, hp]
  constructor
  · intro h
    split at h
    · rename_i h0; exact tagged_eq_nil hn (List.isEmpty_iff.1 h0)
    · split at h <;> cases h
  · intro h
    rw [h]; rfl

end

/-- C103: `<path d=""/>` and `<path d="M0 0"/>` are such cases -/
theorem C103_abort_wrong (xf : P ℚ → P ℚ) (srt : List (P ℚ × Nat × Nat) → List (P ℚ × Nat × Nat)) (eqv : P ℚ → P ℚ → Bool) :
    pathFini xf srt eqv (strPath cfg0 "".toList).1 = none ∧ pathFini xf srt eqv (strPath cfg0 "M0 0".toList).1 = none := by
  have h1 : (strPath cfg0 "".toList).1.pts = [] := by decide +kernel
  have h2 : (strPath cfg0 "M0 0".toList).1.pts = [] := by decide +kernel
  unfold pathFini
  simp only [pathClose_pts, h1, h2]
  exact ⟨rfl, rfl⟩

/-- an example for `C101_polygon`: the points of a square with a vertex that is there twice -/
example : pathFini id (fun l => l.insertionSort fun a b => a.1.x < b.1.x ∨ (a.1.x = b.1.x ∧ a.1.y ≤ b.1.y))
    (fun a b => decide (a = b)) (strPath cfg0 "M0 0H3V3H0V0z".toList).1
    = some ([⟨0, 0⟩, ⟨0, 3⟩, ⟨3, 0⟩, ⟨3, 3⟩], [[0, 2, 3, 1, 0]]) := by decide +kernel

end Hob3l.Svg
