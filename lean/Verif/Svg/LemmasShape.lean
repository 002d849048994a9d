import Verif.Svg.LemmasXform
import Verif.Svg.LemmasDraw
import Verif.Svg.LemmasArc
import Verif.Svg.RoundModel
import Mathlib.Tactic.FieldSimp
import Mathlib.Tactic.NormNum

/-!
Lemmas about the attributes of shapes, and about their outlines.
-/

namespace Hob3l.Svg

/-! ## Lengths -/

theorem stop_unit (n : Num) (u : Unt) (w : List Space) : Stop n (u.show ++ showWs w) := by
  intro c t e
  cases u
  case none =>
    cases w with
    | nil => cases e
    | cons a w => injection e with e1 e2; rw [← e1]; cases a <;> simp [Space.char, isDigit] <;> decide
  all_goals (injection e with e1 e2; rw [← e1]; simp [isDigit] <;> decide)

section

variable {K : Type} [Field K] [LinearOrder K] [IsStrictOrderedRing K]

omit [LinearOrder K] [IsStrictOrderedRing K] in
theorem sUnit_ws (perc unit1 : K) (w : List Space) : sUnit perc unit1 (showWs w) = (unit1, showWs w) := by
  cases w with
  | nil => rfl
  | cons a w => cases a <;> rfl

theorem dimEnd_gen (perc u : K) (l : Len) (h : l.num.Ok) :
    dimEnd perc u l.show = some (match l.unit with | .none => ((l.num.val : ℚ) : K) * u | _ => l.val perc) := by
  have e : l.show = showWs l.lead ++ (l.num.show ++ (l.unit.show ++ showWs l.trail)) := by
    unfold Len.show; simp only [List.append_assoc]
  have hs : sSep false l.show = l.num.show ++ (l.unit.show ++ showWs l.trail) := by
    rw [e, sSep_ws, sSep_noWs (num_noSep l.num h _).noWs]
  have hs2 : sSep false (sSep false l.show) = l.num.show ++ (l.unit.show ++ showWs l.trail) := by
    rw [hs, sSep_noWs (num_noSep l.num h _).noWs]
  have hend : sSep false (showWs l.trail) = [] := by
    have := sSep_ws false l.trail []
    rw [List.append_nil] at this
    rw [this]; rfl
  unfold dimEnd sDim
  rw [sDouble_ok false _ l.num h (stop_unit l.num l.unit l.trail) hs2]
  simp only
  unfold Len.val
  cases hu : l.unit
  case none =>
    show (if (sSep false (sUnit perc u (showWs l.trail)).2).isEmpty then _ else _) = _
    simp only [Unt.show, List.nil_append, sUnit_ws, hend]
    simp
  all_goals
    simp only [Unt.show, List.cons_append, List.nil_append, sUnit, hend, List.isEmpty_nil, if_true, Option.some.injEq]
    first
      | ring
      | (norm_num; ring)

theorem dimEnd_ok (perc : K) (l : Len) (h : l.num.Ok) : dimEnd perc 1 l.show = some (l.val perc) := by
  rw [dimEnd_gen perc 1 l h]
  unfold Len.val
  cases l.unit <;> simp

theorem attrDim_some {a : Attrs} {name : String} {l : Len} (perc : K) (h : Has a name (some l)) :
    attrDim a name perc 1 = some (l.val perc) := by
  unfold attrDim
  rw [h.1]
  exact dimEnd_ok perc l (h.2 l rfl)

omit [LinearOrder K] [IsStrictOrderedRing K] in
theorem attrDim_none {a : Attrs} {name : String} (perc : K) (h : Has a name none) : attrDim a name perc 1 = none := by
  unfold attrDim
  rw [h.1]; rfl

theorem attrCoord_ok (c : Local K) {a : Attrs} {nx ny : String} {lx ly : Option Len} (hx : Has a nx lx) (hy : Has a ny ly)
    (hxy : lx = none → ly = none) :
    (attrCoord c a nx ny).1 = lenVal c.width lx ∧ (attrCoord c a nx ny).2.1 = lenVal c.height ly
      ∧ (attrCoord c a nx ny).2.2 = (lx.isSome && ly.isSome) := by
  unfold attrCoord
  cases lx with
  | none =>
    rw [attrDim_none c.width hx, hxy rfl]
    exact ⟨rfl, rfl, rfl⟩
  | some lx =>
    rw [attrDim_some c.width hx]
    cases ly with
    | none => simp only [attrDim_none c.height hy]; exact ⟨rfl, rfl, rfl⟩
    | some ly => simp only [attrDim_some c.height hy]; exact ⟨rfl, rfl, rfl⟩

theorem len_not_auto {l : Len} (h : l.num.Ok) : l.show ≠ "auto".toList := by
  intro e
  have := dimEnd_ok (K := ℚ) 0 l h
  rw [e] at this
  have h2 : dimEnd (K := ℚ) 0 1 "auto".toList = none := by decide +kernel
  rw [h2] at this
  cases this

theorem notAuto_ok {a : Attrs} {name : String} {l : Option Len} (h : HasAuto a name l) :
    notAuto (a.get name) = l.map Len.show ∧ ∀ x, l = some x → x.num.Ok := by
  rcases h with h | ⟨h, rfl⟩
  · refine ⟨?_, h.2⟩
    unfold notAuto
    rw [h.1]
    cases l with
    | none => rfl
    | some l =>
      simp only [Option.map_some, Option.some.injEq]
      rw [if_neg (len_not_auto (h.2 l rfl))]
  · refine ⟨?_, fun x hx => by cases hx⟩
    rw [h]; rfl

/-- the values of two sizes, of which one may be missing -/
def sizes (x y : Option K) : K × K :=
  match x, y with
  | none, none => (0, 0)
  | some a, none => (a, a)
  | none, some b => (b, b)
  | some a, some b => (a, b)

theorem attrSize_ok (c : Local K) {a : Attrs} {nx ny : String} {lx ly : Option Len} (hx : HasAuto a nx lx) (hy : HasAuto a ny ly) :
    attrSize c a nx ny = sizes (lx.map (Len.val c.width)) (ly.map (Len.val c.height)) := by
  obtain ⟨h1, h2⟩ := notAuto_ok hx
  obtain ⟨h3, h4⟩ := notAuto_ok hy
  unfold attrSize
  rw [h1, h3]
  cases lx with
  | none =>
    cases ly with
    | none => rfl
    | some ly => simp only [Option.map_some, Option.map_none, dimEnd_ok c.height ly (h4 ly rfl)]; rfl
  | some lx =>
    cases ly with
    | none => simp only [Option.map_some, Option.map_none, dimEnd_ok c.width lx (h2 lx rfl)]; rfl
    | some ly => simp only [Option.map_some, dimEnd_ok c.width lx (h2 lx rfl), dimEnd_ok c.height ly (h4 ly rfl)]; rfl

end

/-! ## Absolute and relative commands -/

section

variable {K : Type} [Field K] [LinearOrder K] [IsStrictOrderedRing K]

/-- the same command with absolute coordinates -/
def toAbs (s : Pen K) : Cmd K → Cmd K
  | .line rel p => .line false (s.abs rel p)
  | .arc rel rx ry ph fa fs p => .arc false rx ry ph fa fs (s.abs rel p)
  | .move rel p => .move false (s.abs rel p)
  | a => a

omit [IsStrictOrderedRing K] in
theorem step_toAbs (c : Cfg K) (s : Pen K) (a : Cmd K) : s.step c (toAbs s a) = s.step c a := by cases a <;> rfl

omit [IsStrictOrderedRing K] in
theorem fit_toAbs (c : Cfg K) (s : Pen K) (a : Cmd K) : Fit c s (toAbs s a) ↔ Fit c s a := by cases a <;> exact Iff.rfl

/-- the same commands with absolute coordinates -/
def absAll (c : Cfg K) : Pen K → List (Cmd K) → List (Cmd K)
  | _, [] => []
  | s, a :: l => toAbs s a :: absAll c (s.step c a) l

omit [IsStrictOrderedRing K] in
theorem foldl_absAll (c : Cfg K) (s : Pen K) (l : List (Cmd K)) : (absAll c s l).foldl (Pen.step c) s = l.foldl (Pen.step c) s := by
  induction l generalizing s with
  | nil => rfl
  | cons a l ih => rw [absAll, List.foldl_cons, step_toAbs, ih]; rfl

omit [IsStrictOrderedRing K] in
theorem fits_absAll (c : Cfg K) (s : Pen K) (l : List (Cmd K)) : Fits c s (absAll c s l) ↔ Fits c s l := by
  induction l generalizing s with
  | nil => exact Iff.rfl
  | cons a l ih => rw [absAll, Fits, Fits, fit_toAbs, step_toAbs, ih]

omit [IsStrictOrderedRing K] in
theorem line_cur (s : Pen K) (p : P K) : (s.line p).cur = p := by
  unfold Pen.line
  split
  · rename_i h; exact h.symm
  · rfl

omit [IsStrictOrderedRing K] in
theorem step_line_cur (c : Cfg K) (s : Pen K) (rel : Bool) (p : P K) : (s.step c (.line rel p)).cur = s.abs rel p := line_cur _ _

omit [IsStrictOrderedRing K] in
theorem step_arc_cur (c : Cfg K) (s : Pen K) (rel : Bool) (rx ry ph : K) (fa fs : Bool) (p : P K) :
    (s.step c (.arc rel rx ry ph fa fs p)).cur = s.abs rel p := by
  show (s.arc c rx ry ph fa fs (s.abs rel p)).cur = _
  unfold Pen.arc
  split
  · rename_i h; exact h.symm
  · split
    · exact line_cur _ _
    · rfl

omit [IsStrictOrderedRing K] in
theorem step_move_cur (c : Cfg K) (s : Pen K) (rel : Bool) (p : P K) : (s.step c (.move rel p)).cur = s.abs rel p := rfl

/-- the points of the model are those of the drawing -/
theorem pts_of_cmds (c : Cfg K) (he : 0 < c.eps) (l : List (Cmd K)) (hf : Fits c Pen.new l) :
    (l.foldl (exec c) St.new).pts = tagged (draw c l) := by
  have h := Rel.new.steps he l hf
  rw [h.core.pts]
  unfold draw Pen.paths
  generalize l.foldl (Pen.step c) Pen.new = s
  cases hs : s.opn with
  | nil => rw [tagged_nil]; rfl
  | cons a l => rfl

/-- the commands of `csg2_from_rect` -/
def rectRel (x y w h rx ry : K) : List (Cmd K) :=
  [.move false ⟨x + rx, y⟩,
   .line true ⟨w, 0⟩,
   .arc true rx ry 0 false true ⟨rx, ry⟩,
   .line true ⟨0, h⟩,
   .arc true rx ry 0 false true ⟨-rx, ry⟩,
   .line true ⟨-w, 0⟩,
   .arc true rx ry 0 false true ⟨-rx, -ry⟩,
   .line true ⟨0, -h⟩,
   .arc true rx ry 0 false true ⟨rx, -ry⟩,
   .close]

omit [IsStrictOrderedRing K] in
theorem abs_true (s : Pen K) (p : P K) : s.abs true p = ⟨s.cur.x + p.x, s.cur.y + p.y⟩ := rfl

omit [IsStrictOrderedRing K] in
theorem absAll_rect (c : Cfg K) (x y w h rx ry : K) :
    absAll c Pen.new (rectRel x y (w - 2 * rx) (h - 2 * ry) rx ry) = rectCmds x y w h rx ry := by
  unfold rectRel rectCmds
  simp only [absAll, toAbs, abs_true, step_line_cur, step_arc_cur, step_move_cur]
  simp only [Pen.abs, Bool.false_eq_true, if_false, List.cons.injEq, Cmd.line.injEq, Cmd.arc.injEq, P.mk.injEq, true_and, and_true]
  refine ⟨⟨?_, ?_⟩, ⟨?_, ?_⟩, ⟨?_, ?_⟩, ⟨?_, ?_⟩, ⟨?_, ?_⟩, ⟨?_, ?_⟩, ⟨?_, ?_⟩, ?_, ?_⟩ <;> ring

theorem rect_ok (c : Cfg K) (he : 0 < c.eps) (x y w h rx ry : K) (hf : Fits c Pen.new (rectCmds x y w h rx ry)) :
    ((rectRel x y (w - 2 * rx) (h - 2 * ry) rx ry).foldl (exec c) St.new).pts = tagged (draw c (rectCmds x y w h rx ry)) := by
  rw [← absAll_rect c] at hf ⊢
  rw [fits_absAll] at hf
  rw [pts_of_cmds c he _ hf]
  unfold draw
  rw [foldl_absAll]

theorem rectDraw_ok (k : Cfg K) (he : 0 < k.eps) (c : Local K) (a : Attrs) {lx ly lw lh lrx lry : Option Len}
    (hx : Has a "x" lx) (hy : Has a "y" ly) (hw : Has a "width" lw) (hh : Has a "height" lh)
    (hrx : HasAuto a "rx" lrx) (hry : HasAuto a "ry" lry)
    (hxy : lx = none → ly = none)
    (hw0 : 0 < lenVal c.width lw) (hh0 : 0 < lenVal c.height lh)
    (hr0 : 0 ≤ lenVal c.width lrx) (hr1 : 0 ≤ lenVal c.height lry)
    (hf : Fits k Pen.new (rectCmds (lenVal c.width lx) (lenVal c.height ly) (lenVal c.width lw) (lenVal c.height lh)
      (rectRadii (lenVal c.width lw) (lenVal c.height lh) (lrx.map (Len.val c.width)) (lry.map (Len.val c.height))).1
      (rectRadii (lenVal c.width lw) (lenVal c.height lh) (lrx.map (Len.val c.width)) (lry.map (Len.val c.height))).2)) :
    ∃ st, rectDraw k c a = some st ∧
      st.pts = tagged (draw k (rectCmds (lenVal c.width lx) (lenVal c.height ly) (lenVal c.width lw) (lenVal c.height lh)
        (rectRadii (lenVal c.width lw) (lenVal c.height lh) (lrx.map (Len.val c.width)) (lry.map (Len.val c.height))).1
        (rectRadii (lenVal c.width lw) (lenVal c.height lh) (lrx.map (Len.val c.width)) (lry.map (Len.val c.height))).2)) := by
  have hlw : lw ≠ none := by rintro rfl; exact lt_irrefl _ hw0
  obtain ⟨h1, h2, -⟩ := attrCoord_ok c hx hy hxy
  obtain ⟨h3, h4, -⟩ := attrCoord_ok c hw hh (fun h => absurd h hlw)
  have h5 := attrSize_ok c hrx hry
  set x := lenVal c.width lx
  set y := lenVal c.height ly
  set w := lenVal c.width lw
  set h := lenVal c.height lh
  have hs : rectRadii w h (lrx.map (Len.val c.width)) (lry.map (Len.val c.height))
      = (let r := sizes (lrx.map (Len.val c.width)) (lry.map (Len.val c.height))
         if r.1 = 0 ∨ r.2 = 0 then (0, 0) else (min r.1 (w / 2), min r.2 (h / 2))) := by
    unfold rectRadii sizes
    cases lrx <;> cases lry <;> rfl
  have hnn : 0 ≤ (sizes (lrx.map (Len.val c.width)) (lry.map (Len.val c.height))).1
      ∧ 0 ≤ (sizes (lrx.map (Len.val c.width)) (lry.map (Len.val c.height))).2 := by
    cases lrx <;> cases lry <;> first | exact ⟨le_refl _, le_refl _⟩ | exact ⟨hr1, hr1⟩ | exact ⟨hr0, hr0⟩ | exact ⟨hr0, hr1⟩
  rw [hs] at hf ⊢
  generalize sizes (lrx.map (Len.val c.width)) (lry.map (Len.val c.height)) = r at hf h5 hnn
  obtain ⟨r1, r2⟩ := r
  simp only at hf hnn ⊢
  unfold rectDraw
  simp only [h1, h2, h3, h4, h5]
  rw [if_neg (not_or.2 ⟨not_le.2 hw0, not_le.2 hh0⟩)]
  by_cases hz : r1 = 0 ∨ r2 = 0
  · have hz' : r1 ≤ 0 ∨ r2 ≤ 0 := hz.imp le_of_eq le_of_eq
    rw [if_pos hz] at hf ⊢
    simp only [if_pos hz']
    refine ⟨_, rfl, ?_⟩
    have := rect_ok k he x y w h 0 0 hf
    rw [← this]
    simp only [mul_zero, sub_zero]
    rfl
  · have hz' : ¬ (r1 ≤ 0 ∨ r2 ≤ 0) := by
      rintro (h | h)
      · exact hz (.inl (le_antisymm h hnn.1))
      · exact hz (.inr (le_antisymm h hnn.2))
    rw [if_neg hz] at hf ⊢
    simp only [if_neg hz']
    have e1 : (if r1 > w / 2 then w / 2 else r1) = min r1 (w / 2) := by
      split_ifs with hc
      · rw [min_eq_right (le_of_lt hc)]
      · rw [min_eq_left (not_lt.1 hc)]
    have e2 : (if r2 > h / 2 then h / 2 else r2) = min r2 (h / 2) := by
      split_ifs with hc
      · rw [min_eq_right (le_of_lt hc)]
      · rw [min_eq_left (not_lt.1 hc)]
    rw [e1, e2]
    refine ⟨_, rfl, ?_⟩
    have := rect_ok k he x y w h _ _ hf
    rw [← this]
    rfl

/-! ## Polygons -/

theorem follow_ws (w : List Space) : Follow (showWs w) := by
  constructor
  · intro c t e
    cases w with
    | nil => cases e
    | cons a w => injection e with e1 e2; rw [← e1]; cases a <;> decide
  · have := sSep_ws false w []
    rw [List.append_nil] at this
    rw [this]; rfl

theorem polyDraw_ok (k : Cfg K) (he : 0 < k.eps) (close : Bool) (a : Attrs) (p : Points) (hp : p.Ok)
    (ha : a.get "points" = some p.show) (hf : Fits k Pen.new (polyCmds p.pts close)) :
    ∃ st, polyDraw k close a = some st ∧ st.pts = tagged (draw k (polyCmds p.pts close)) := by
  obtain ⟨hne, hlen, hok, hsp, hc⟩ := hp
  cases hr : p.rows with
  | nil => exact absurd hr hne
  | cons row rows =>
    rw [hr] at hlen hok hsp hc
    have hfl : ∀ l : List (List (Sep × Num)), (l.map toks).flatten = toks l.flatten := by
      intro l; unfold toks; rw [List.map_flatten]
    have e : p.show = showRow ((toks row) :: rows.map toks).flatten ++ showWs p.trail := by
      unfold Points.show
      rw [hr, ← List.map_cons (f := toks), hfl, showRow_toks]
    have hnum : ∀ x ∈ toks row :: rows.map toks, NumRow 1 x := by
      intro x hx
      rw [← List.map_cons (f := toks)] at hx
      obtain ⟨y, hy, rfl⟩ := List.mem_map.1 hx
      refine ⟨by simp only [toks, List.length_map]; exact hlen y hy, ?_⟩
      intro t ht
      obtain ⟨z, -, rfl⟩ := List.mem_map.1 ht
      rfl
    have hgrp := strGroups_ok 1 (fun (st : St K) v => pathMove st false (argP v 0)) (fun st v => pathLine k st false (argP v 0))
      (toks row) (rows.map toks) (r := showWs p.trail) hnum
      (by rw [← List.map_cons (f := toks), hfl]; exact toks_ok hok)
      (by rw [← List.map_cons (f := toks), hfl]; exact hsp)
      (by
        rw [← List.map_cons (f := toks), hfl]
        intro t ht
        unfold toks at ht
        rw [List.head?_map, Option.map_eq_some_iff] at ht
        obtain ⟨z, hz, rfl⟩ := ht
        exact hc z hz)
      (follow_ws p.trail) (p.show.length + 1)
      (by
        rw [List.length_map]
        have : rows.length ≤ (showArgs (row :: rows).flatten).length := by
          have h2 : ∀ l : List (List (Sep × Num)), (∀ r ∈ l, r.length = 2) → (∀ a ∈ l.flatten, a.2.Ok) →
              l.length ≤ (showArgs l.flatten).length := by
            intro l
            induction l with
            | nil => intro _ _; simp
            | cons r l ih =>
              intro hl ho
              rw [List.flatten_cons]
              unfold showArgs at ih ⊢
              rw [List.flatMap_append, List.length_append, List.length_cons]
              have h3 := ih (fun r hr => hl r (List.mem_cons_of_mem _ hr)) (fun a ha => ho a (by
                rw [List.flatten_cons]; exact List.mem_append_right _ ha))
              obtain ⟨u, v, rfl⟩ := List.length_eq_two.1 (hl r (List.mem_cons_self ..))
              have hu : u.2.Ok := ho u (by simp)
              obtain ⟨c, t, e1, -⟩ := num_head u.2 hu []
              rw [List.append_nil] at e1
              have : 1 ≤ u.2.show.length := by rw [e1]; simp
              simp only [List.flatMap_cons, List.length_append]
              omega
          have := h2 (row :: rows) hlen hok
          simp only [List.length_cons] at this
          omega
        have h4 : p.show = showArgs (row :: rows).flatten ++ showWs p.trail := by unfold Points.show; rw [hr]
        rw [h4, List.length_append]
        omega) St.new
    have hend : sSep false (showWs p.trail) = [] := by
      have := sSep_ws false p.trail []
      rw [List.append_nil] at this
      rw [this]; rfl
    have hsub : ∀ (l : List (List (Sep × Num))), (∀ r ∈ l, r.length = 2) → ∀ st : St K,
        (l.map toks).foldl (fun st row => pathLine k st false (argP (row.map fun t => tokQ t.2) 0)) st
          = ((l.filterMap fun r => match r with | [x, y] => some (⟨((x.2.val : ℚ) : K), ((y.2.val : ℚ) : K)⟩ : P K) | _ => none).map
              fun p => Cmd.line false p).foldl (exec k) st := by
      intro l
      induction l with
      | nil => intro _ st; rfl
      | cons r l ih =>
        intro hl st
        obtain ⟨u, v, rfl⟩ := List.length_eq_two.1 (hl r (List.mem_cons_self ..))
        rw [List.map_cons, List.foldl_cons, ih fun r hr => hl r (List.mem_cons_of_mem _ hr)]
        rfl
    obtain ⟨u, v, rfl⟩ := List.length_eq_two.1 (hlen row (List.mem_cons_self ..))
    have hpts : (p.pts : List (P K)) = ⟨((u.2.val : ℚ) : K), ((v.2.val : ℚ) : K)⟩
        :: (rows.filterMap fun r => match r with | [x, y] => some (⟨((x.2.val : ℚ) : K), ((y.2.val : ℚ) : K)⟩ : P K) | _ => none) := by
      unfold Points.pts
      rw [hr]
      rfl
    have hst : (rows.map toks).foldl (fun st row => pathLine k st false (argP (row.map fun t => tokQ t.2) 0))
          (pathMove (St.new : St K) false (argP ((toks [u, v]).map fun t => tokQ t.2) 0))
        = (polyCmds p.pts false).foldl (exec k) St.new := by
      rw [hsub rows fun r hr => hlen r (List.mem_cons_of_mem _ hr), hpts]
      unfold polyCmds
      simp only [List.cons_append, List.nil_append, Bool.false_eq_true, if_false, List.append_nil, List.foldl_cons]
      rfl
    unfold polyDraw
    rw [ha]
    simp only
    rw [← e] at hgrp
    rw [hgrp, hst]
    simp only [hend]
    have hend2 : (sSep false ([] : List Char)).isEmpty = true := rfl
    rw [if_pos hend2]
    refine ⟨_, rfl, ?_⟩
    rw [← pts_of_cmds k he _ hf]
    cases close with
    | false => rfl
    | true =>
      unfold polyCmds
      simp only [if_true, Bool.false_eq_true, if_false, List.append_nil, List.foldl_append]
      rfl

end

/-! ## Circles and ellipses -/

theorem roundPath_ok (eps : ℝ) (fn : ℝ → ℝ → Nat) (cx cy rx ry : ℝ) (he : 0 < eps) (he1 : eps ≤ 1) (hrx : eps ≤ rx) (hry : eps ≤ ry)
    (hn : 1 ≤ fn rx ry) :
    (roundPath eps fn cx cy rx ry).pts = tagged [(List.range (fn rx ry)).map fun (i : Nat) =>
      (⟨cx + rx * Real.cos (2 * Real.pi * i / fn rx ry), cy + ry * Real.sin (2 * Real.pi * i / fn rx ry)⟩ : P ℝ)] := by
  have hpi : (1 : ℝ) < 2 * Real.pi := by have := Real.two_le_pi; linarith
  have hneg : ¬ (eqR eps rx 0 ∨ eqR eps ry 0 ∨ eqR eps (2 * Real.pi) 0) := by
    unfold eqR
    simp only [sub_zero, not_or, not_lt]
    refine ⟨?_, ?_, ?_⟩
    · rw [abs_of_nonneg (by linarith)]; exact hrx
    · rw [abs_of_nonneg (by linarith)]; exact hry
    · rw [abs_of_nonneg (by linarith)]; linarith
  unfold roundPath arc2
  simp only [if_neg hneg, if_true]
  have hcore : Core (pathStart (pathMove (St.new : St ℝ) false ⟨cx + rx, cy⟩)) [⟨cx + rx, cy⟩] [] := by
    refine ⟨?_, rfl, rfl⟩
    rfl
  have h2 := hcore.pushAll ((List.range' 1 (fn rx ry - 1)).map fun (i : Nat) =>
    arcPoint ⟨rx, ry, 0, 2 * Real.pi, ⟨cx, cy⟩, 1, 0⟩ (0 + 2 * Real.pi * ((i : ℝ) / (fn rx ry : ℝ))))
  have h3 : ∀ st : St ℝ, (pathClose st).pts = st.pts := by
    intro st
    unfold pathClose
    simp only
    split
    · rfl
    · split <;> rfl
  rw [h3, h2.pts, List.nil_append]
  congr 2
  obtain ⟨n, hn'⟩ : ∃ n, fn rx ry = n + 1 := ⟨fn rx ry - 1, by omega⟩
  rw [hn', List.range_succ_eq_map, Nat.add_sub_cancel, List.range'_eq_map_range, List.map_cons, List.map_map, List.map_map,
    List.singleton_append]
  congr 1
  · simp
  · refine List.map_congr_left fun i _ => ?_
    simp only [Function.comp, arcPoint, xform, P.mk.injEq]
    have e : (0 : ℝ) + 2 * Real.pi * (((1 + i : ℕ) : ℝ) / ((n + 1 : ℕ) : ℝ)) = 2 * Real.pi * ((i.succ : ℕ) : ℝ) / ((n + 1 : ℕ) : ℝ) := by
      rw [Nat.add_comm 1 i]; ring
    rw [e]
    constructor <;> ring

end Hob3l.Svg
