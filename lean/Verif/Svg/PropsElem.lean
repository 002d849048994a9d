import Verif.Svg.LemmasView
import Verif.Svg.LemmasTree
import Verif.Svg.Props

/-!
C104: the attribute `transform`.
C105: the basic shapes.
C106: the nesting of elements, and layers.
C107: view boxes.
-/

namespace Hob3l.Svg

/-! ## C104 -/

section

variable {K : Type} [Field K]

/-- C104: every well-formed value of `transform`, in any notation, is accepted, and the new coordinate system is the old one
composed with the functions from the first to the last.

Partial: other texts are not always rejected without an effect (`C104_prefix_wrong`, `C104_count_wrong`, `C104_error_wrong`). -/
theorem C104_transform_partial (t : Trig K) (m : Mat K) (lead : List Space) (fs : List Fn) (h : ∀ f ∈ fs, f.Ok) :
    ∃ m', xformAttr t m (showFns lead fs) = (m', true) ∧ ∀ p, m'.app p = m.app (mapFns t fs p) :=
  xformAttr_ok t m lead fs h

end

/-- trigonometric functions for examples: they are right for multiples of 90 degrees -/
def trig0 : Trig ℚ :=
  ⟨fun a => if a = 90 then 1 else if a = 270 then -1 else 0, fun a => if a = 0 then 1 else if a = 180 then -1 else 0, fun a => a⟩

/-- the identity -/
def idMat : Mat ℚ := ⟨1, 0, 0, 0, 1, 0⟩

/-- ` translate (5), rotate(90 1,2)scale(2) ` -/
def fns0 : List Fn :=
  [⟨.translate, [.sp], [(.none, .nat [5])], [], ⟨[], true, [.sp]⟩⟩,
   ⟨.rotate, [], [(.none, .nat [9, 0]), (.space, .nat [1]), (⟨[], true, []⟩, .nat [2])], [], .none⟩,
   ⟨.scale, [], [(.none, .nat [2])], [], .space⟩]

example : showFns [.sp] fns0 = " translate (5), rotate(90 1,2)scale(2) ".toList := by decide +kernel

example : ∀ f ∈ fns0, f.Ok := by
  intro f hf
  simp only [fns0, List.mem_cons, List.not_mem_nil, or_false] at hf
  rcases hf with rfl | rfl | rfl <;>
    simp [Fn.Ok, FnKind.arity, Num.Ok, Num.nat, Spaced, Sep.show, showWs, Sep.space, Sep.none]

/-- the point (3, 4) is scaled to (6, 8), turned around (1, 2) to (-5, 7), and moved to (0, 7) -/
example : mapFns trig0 fns0 ⟨3, 4⟩ = ⟨0, 7⟩ := by decide +kernel

/-- C104: the names of the functions can be abbreviated: only the given letters are compared (svg-parse.c:1356 etc.) -/
theorem C104_prefix_wrong :
    xformAttr trig0 idMat "t(5)".toList = (.xlat 5 0, true) ∧ xformAttr trig0 idMat "s(2)".toList = (.scale 2 2, true) := by
  decide +kernel

/-- C104: numbers of arguments that SVG does not have are accepted: `matrix` with one, `rotate` with two -/
theorem C104_count_wrong :
    xformAttr trig0 idMat "matrix(2)".toList = (⟨2, 0, 0, 0, 0, 0⟩, true)
    ∧ xformAttr trig0 idMat "rotate(90,5)".toList = (.rot 1 0, true) := by decide +kernel

/-- C104: if there is an error, the functions before it have an effect nonetheless -/
theorem C104_error_wrong : xformAttr trig0 idMat "translate(5) foo(1)".toList = (.xlat 5 0, false) := by decide +kernel

/-! ## C105 -/

section

variable {K : Type} [Field K] [LinearOrder K] [IsStrictOrderedRing K]

/-- C105: a rectangle is drawn as SVG defines it, for any lengths in any notation and with any units.

Partial: if `x` is missing, then `y` has to be missing, too (`C105_y_wrong`); `Fits` means that there are no lines shorter
than the epsilon. -/
theorem C105_rect_partial (k : Cfg K) (he : 0 < k.eps) (c : Local K) (a : Attrs) {lx ly lw lh lrx lry : Option Len}
    (hx : Has a "x" lx) (hy : Has a "y" ly) (hw : Has a "width" lw) (hh : Has a "height" lh)
    (hrx : HasAuto a "rx" lrx) (hry : HasAuto a "ry" lry)
    (hxy : lx = none → ly = none)
    (hw0 : 0 < lenVal c.width lw) (hh0 : 0 < lenVal c.height lh)
    (hr0 : 0 ≤ lenVal c.width lrx) (hr1 : 0 ≤ lenVal c.height lry)
    (hf : Fits k Pen.new (rectCmds (lenVal c.width lx) (lenVal c.height ly) (lenVal c.width lw) (lenVal c.height lh)
      (rectRadii (lenVal c.width lw) (lenVal c.height lh) (lrx.map (Len.val c.width)) (lry.map (Len.val c.height))).1
      (rectRadii (lenVal c.width lw) (lenVal c.height lh) (lrx.map (Len.val c.width)) (lry.map (Len.val c.height))).2)) :
    ∃ st, rectDraw k c a = some st ∧
      st.pts = tagged (draw k (rectCmds (lenVal c.width lx) (lenVal c.height ly) (lenVal c.width lw) (lenVal c.height lh)
        (rectRadii (lenVal c.width lw) (lenVal c.height lh) (lrx.map (Len.val c.width)) (lry.map (Len.val c.height))).1
        (rectRadii (lenVal c.width lw) (lenVal c.height lh) (lrx.map (Len.val c.width)) (lry.map (Len.val c.height))).2)) :=
  rectDraw_ok k he c a hx hy hw hh hrx hry hxy hw0 hh0 hr0 hr1 hf

/-- C105: a rectangle without width or height is not drawn -/
theorem C105_rect_empty (k : Cfg K) (c : Local K) (a : Attrs) {lw lh : Option Len}
    (hw : Has a "width" lw) (hh : Has a "height" lh) (h0 : lenVal c.width lw ≤ 0 ∨ lenVal c.height lh ≤ 0) :
    rectDraw k c a = none := by
  unfold rectDraw
  simp only
  rw [if_pos]
  cases lw with
  | none =>
    left
    unfold attrCoord
    rw [attrDim_none c.width hw]
  | some lw =>
    obtain ⟨h1, h2, -⟩ := attrCoord_ok c hw hh (fun h => by cases h)
    rw [h1, h2]; exact h0

/-- C105: a polygon or a polyline is drawn with the points that are given, in any notation -/
theorem C105_poly_partial (k : Cfg K) (he : 0 < k.eps) (close : Bool) (a : Attrs) (p : Points) (hp : p.Ok)
    (ha : a.get "points" = some p.show) (hf : Fits k Pen.new (polyCmds p.pts close)) :
    ∃ st, polyDraw k close a = some st ∧ st.pts = tagged (draw k (polyCmds p.pts close)) :=
  polyDraw_ok k he close a p hp ha hf

/-- C105: a line is drawn between its two ends.

Partial: all four coordinates have to be given (`C105_line_wrong`). -/
theorem C105_line_partial (k : Cfg K) (he : 0 < k.eps) (c : Local K) (a : Attrs) {x1 y1 x2 y2 : Len}
    (h1 : Has a "x1" (some x1)) (h2 : Has a "y1" (some y1)) (h3 : Has a "x2" (some x2)) (h4 : Has a "y2" (some y2))
    (hf : Fits k Pen.new (polyCmds [⟨x1.val c.width, y1.val c.height⟩, ⟨x2.val c.width, y2.val c.height⟩] false)) :
    ∃ st, lineDraw k c a = some st ∧
      st.pts = tagged (draw k (polyCmds [⟨x1.val c.width, y1.val c.height⟩, ⟨x2.val c.width, y2.val c.height⟩] false)) := by
  obtain ⟨a1, a2, a3⟩ := attrCoord_ok c h1 h2 (fun h => nomatch h)
  obtain ⟨b1, b2, b3⟩ := attrCoord_ok c h3 h4 (fun h => nomatch h)
  refine ⟨_, ?_, pts_of_cmds k he _ hf⟩
  unfold lineDraw
  simp only [a1, a2, a3, b1, b2, b3]
  rfl

end

/-- the outline of a circle or an ellipse: `n` points at equal angles, starting on the right -/
noncomputable def roundPts (n : Nat) (cx cy rx ry : ℝ) : List (P ℝ) :=
  (List.range n).map fun (i : Nat) => ⟨cx + rx * Real.cos (2 * Real.pi * i / n), cy + ry * Real.sin (2 * Real.pi * i / n)⟩

/-- C105: a circle is drawn with points on it at equal angles.

Partial: if `cx` is missing, then `cy` has to be missing, too; the radius is not less than the epsilon. -/
theorem C105_circle_partial (eps : ℝ) (fn : ℝ → ℝ → Nat) (c : Local ℝ) (bare : Bool) (a : Attrs) {lx ly : Option Len} {lr : Len}
    (hx : Has a "cx" lx) (hy : Has a "cy" ly) (hr : Has a "r" (some lr)) (hxy : lx = none → ly = none)
    (he : 0 < eps) (he1 : eps ≤ 1) (hr0 : eps ≤ lr.val c.dim) (hn : 1 ≤ fn (lr.val c.dim) (lr.val c.dim)) :
    ∃ st, circleDraw eps fn c bare a = .path st ∧
      st.pts = tagged [roundPts (fn (lr.val c.dim) (lr.val c.dim)) (lenVal c.width lx) (lenVal c.height ly) (lr.val c.dim) (lr.val c.dim)] := by
  obtain ⟨h1, h2, -⟩ := attrCoord_ok c hx hy hxy
  unfold circleDraw
  simp only [attrDim_some c.dim hr, h1, h2, Option.getD_some]
  rw [if_neg (by linarith)]
  exact ⟨_, rfl, roundPath_ok eps fn _ _ _ _ he he1 hr0 hr0 hn⟩

/-- C105: an ellipse is drawn with points on it at equal angles; one of the radii may be missing.

Partial: if `cx` is missing, then `cy` has to be missing, too; the radii are not less than the epsilon. -/
theorem C105_ellipse_partial (eps : ℝ) (fn : ℝ → ℝ → Nat) (c : Local ℝ) (bare : Bool) (a : Attrs) {lx ly lrx lry : Option Len}
    (hx : Has a "cx" lx) (hy : Has a "cy" ly) (hrx : HasAuto a "rx" lrx) (hry : HasAuto a "ry" lry) (hxy : lx = none → ly = none)
    (he : 0 < eps) (he1 : eps ≤ 1) (rx ry : ℝ)
    (hr : (lrx.map (Len.val c.width) = some rx ∧ lry.map (Len.val c.height) = some ry)
      ∨ (lrx.map (Len.val c.width) = some rx ∧ lry = none ∧ ry = rx)
      ∨ (lrx = none ∧ lry.map (Len.val c.height) = some ry ∧ rx = ry))
    (hr1 : eps ≤ rx) (hr2 : eps ≤ ry) (hn : 1 ≤ fn rx ry) :
    ∃ st, ellipseDraw eps fn c bare a = .path st ∧
      st.pts = tagged [roundPts (fn rx ry) (lenVal c.width lx) (lenVal c.height ly) rx ry] := by
  obtain ⟨h1, h2, -⟩ := attrCoord_ok c hx hy hxy
  have h3 : attrSize c a "rx" "ry" = (rx, ry) := by
    rw [attrSize_ok c hrx hry]
    rcases hr with ⟨h4, h5⟩ | ⟨h4, h5, h6⟩ | ⟨h4, h5, h6⟩
    · rw [h4, h5]; rfl
    · rw [h4, h5, h6]; rfl
    · rw [h4, h5, h6]; rfl
  unfold ellipseDraw
  simp only [h1, h2, h3]
  rw [if_neg (by linarith), if_neg (by linarith)]
  exact ⟨_, rfl, roundPath_ok eps fn _ _ _ _ he he1 hr1 hr2 hn⟩

/-- a context for examples -/
def ctx0 : Local ℚ := ⟨idMat, 0, 0, 0, none, 96, false, false⟩

/-- the corners of a rectangle, in different units -/
example : (rectDraw cfg0 ctx0
    [("x", "1in".toList), ("y", " 2 ".toList), ("width", "12pt".toList), ("height", "1pc".toList)]).map (·.pts)
    = some (tagged [[⟨96, 2⟩, ⟨112, 2⟩, ⟨112, 18⟩, ⟨96, 18⟩, ⟨96, 2⟩]]) := by decide +kernel

/-- this is what `C105_rect_partial` says -/
example : Fits cfg0 Pen.new (rectCmds 96 2 16 16 0 0)
    ∧ draw cfg0 (rectCmds 96 2 16 16 0 0) = [[⟨96, 2⟩, ⟨112, 2⟩, ⟨112, 18⟩, ⟨96, 18⟩, ⟨96, 2⟩]] := by decide +kernel

/-- the hypotheses about the attributes are met -/
example : Has [("x", "1in".toList), ("width", "12pt".toList)] "x" (some ⟨[], .nat [1], .inch, []⟩)
    ∧ Has [("x", "1in".toList), ("width", "12pt".toList)] "y" none
    ∧ (Len.val (0 : ℚ) ⟨[], .nat [1], .inch, []⟩ = 96) := by
  refine ⟨⟨by decide +kernel, ?_⟩, ⟨by decide +kernel, by intro x hx; cases hx⟩, by decide +kernel⟩
  rintro x h; cases h; simp [Num.Ok, Num.nat]

/-- rounded corners: with the arcs of the example (lines), there are eight -/
example : (rectDraw cfg0 ctx0 [("width", "10".toList), ("height", "8".toList), ("rx", "9".toList), ("ry", "1".toList)]).map (·.pts)
    = some (tagged (draw cfg0 (rectCmds 0 0 10 8 5 1)))
    ∧ rectRadii (10 : ℚ) 8 (some 9) (some 1) = (5, 1) ∧ Fits cfg0 Pen.new (rectCmds 0 0 10 8 5 1) := by decide +kernel

/-- a polygon -/
example : (polyDraw cfg0 true [("points", "0,0 4,0 4-3".toList)]).map (·.pts) = some (tagged [[⟨0, 0⟩, ⟨4, 0⟩, ⟨4, -3⟩]])
    ∧ Fits cfg0 Pen.new (polyCmds [⟨0, 0⟩, ⟨4, 0⟩, ⟨4, -3⟩] true) := by decide +kernel

/-- C105: `y` is ignored if `x` is missing: `s_attr_coord` 1100-1111 does not look at it -/
theorem C105_y_wrong :
    (rectDraw cfg0 ctx0 [("y", "5".toList), ("width", "2".toList), ("height", "1".toList)]).map (·.pts)
      = some (tagged [[⟨0, 0⟩, ⟨2, 0⟩, ⟨2, 1⟩, ⟨0, 1⟩, ⟨0, 0⟩]])
    ∧ draw cfg0 (rectCmds 0 5 2 1 0 0) = [[⟨0, 5⟩, ⟨2, 5⟩, ⟨2, 6⟩, ⟨0, 6⟩, ⟨0, 5⟩]] := by decide +kernel

/-- C105: coordinates of a line are 0 if they are missing, says SVG; here the line is not drawn then -/
theorem C105_line_wrong :
    (lineDraw cfg0 ctx0 [("x2", "3".toList), ("y2", "4".toList)]).map (·.pts) = none
    ∧ draw cfg0 (polyCmds [⟨0, 0⟩, ⟨3, 4⟩] false) = [[⟨0, 0⟩, ⟨3, 4⟩]] := by decide +kernel

/-- a line with all its coordinates -/
example : (lineDraw cfg0 ctx0 [("x1", "1".toList), ("y1", "2".toList), ("x2", "3".toList), ("y2", "4".toList)]).map (·.pts)
    = some (tagged [[⟨1, 2⟩, ⟨3, 4⟩]]) := by decide +kernel

/-- C105: `<circle/>` and `<ellipse/>`, without attributes and content, lead to an access to a null pointer when the warning
about the radius is made (svg-parse.c:1668, 1692) -/
theorem C105_circle_wrong (eps : ℝ) (fn : ℝ → ℝ → Nat) (c : Local ℝ) :
    circleDraw eps fn c true [] = .crash ∧ ellipseDraw eps fn c true [] = .crash := by
  have h1 : ∀ n : String, Attrs.get [] n = none := fun n => rfl
  have h2 : attrDim [] "r" c.dim 1 = none := rfl
  have h3 : attrSize c [] "rx" "ry" = (0, 0) := rfl
  unfold circleDraw ellipseDraw
  simp [h1, h2, h3]

/-- C105: a line whose ends are equal, and a polygon with one point, make the program abort: `path_fini` is invoked for a
path without points -/
theorem C105_abort_wrong (xf : P ℚ → P ℚ) (srt : List (P ℚ × Nat × Nat) → List (P ℚ × Nat × Nat)) (eqv : P ℚ → P ℚ → Bool) :
    (lineDraw cfg0 ctx0 [("x1", "1".toList), ("y1", "2".toList), ("x2", "1".toList), ("y2", "2".toList)]).map (pathFini xf srt eqv)
      = some none
    ∧ (polyDraw cfg0 true [("points", "1,2".toList)]).map (pathFini xf srt eqv) = some none := by
  have key : ∀ o : Option (St ℚ), o.map (·.pts) = some [] → o.map (pathFini xf srt eqv) = some none := by
    intro o ho
    cases o with
    | none => cases ho
    | some st =>
      simp only [Option.map_some, Option.some.injEq] at ho ⊢
      unfold pathFini
      simp only [pathClose_pts, ho]
      rfl
  exact ⟨key _ (by decide +kernel), key _ (by decide +kernel)⟩

/-! ## C106 -/

section

variable {K : Type} [Field K]

/-- C106: exactly the shapes that are to be shown are drawn, in the order of the document, and each one in the coordinate system
that is given by the transformations of all elements that it is in.

Partial: the element that is the layer has to have a `transform` attribute (`C106_layer_wrong`); `svg` elements are treated
in C107. -/
theorem C106_tree_partial (t : Trig K) (svg : Local K → Attrs → Local K) (c : Local K) (l : List Node) (hn : noSvgs l)
    (ho : ∀ ch ∈ shapesOf l, ∀ e ∈ ch, ElemOk e)
    (hl : ∀ n, c.layer = some n → ∀ ch ∈ shapesOf l, ∀ e ∈ ch, e.attrs.get "id" = some n → e.attrs.get "transform" ≠ none) :
    List.Forall₂ (fun chain k => ∃ e g, chain.getLast? = some e ∧ k.name = e.name ∧ k.attrs = e.attrs ∧ ChainMap t chain g
        ∧ (∀ p, k.ctx.mat.app p = c.mat.app (g p))
        ∧ k.ctx.width = c.width ∧ k.ctx.height = c.height ∧ k.ctx.dim = c.dim)
      ((shapesOf l).filter (Shown c.layer)) (walk t svg c l) :=
  walk_ok t svg c l hn fun ch hch e he => ⟨ho ch hch e he, fun n hn' => hl n hn' ch hch e he⟩

end

/-- a document with a group that is the layer `a`, and one shape outside of it -/
def tree0 : List Node :=
  [.mk true "g" [("id", "a".toList), ("transform", "translate(1,2)".toList)]
    [.mk true "g" [("transform", "scale(2)".toList)] [.mk true "rect" [] [], .mk true "title" [] [.mk true "path" [] []]],
     .mk false "path" [] []],
   .mk true "circle" [("r", "1".toList)] []]

deriving instance DecidableEq for Elem
deriving instance DecidableEq for Local
deriving instance DecidableEq for Call

/-- the context of the layer `a` -/
def ctxA : Local ℚ := { ctx0 with layer := some "a".toList }

/-- only the rectangle is drawn -/
example : walk trig0 (fun c _ => c) ctxA tree0 = [⟨"rect", [], { ctx0 with mat := ⟨2, 0, 1, 0, 2, 2⟩ }⟩] := by decide +kernel

example : (shapesOf tree0).map List.length = [3, 1] ∧ ((shapesOf tree0).filter (Shown ctxA.layer)).map List.length = [3] := by
  decide +kernel

example : noSvgs tree0 := by simp [tree0, noSvgs, noSvg]

/-- C106: a layer without the attribute `transform` is never found: `process_std_attr` 1447-1475 returns before it looks at `id` -/
theorem C106_layer_wrong :
    walk trig0 (fun c _ => c) ctxA [.mk true "g" [("id", "a".toList)] [.mk true "rect" [] []]] = []
    ∧ (shapesOf [.mk true "g" [("id", "a".toList)] [.mk true "rect" [] []]]).map (Shown ctxA.layer) = [true] := by decide +kernel

/-! ## C107 -/

section

variable {K : Type} [Field K] [LinearOrder K] [IsStrictOrderedRing K]

/-- C107: if the view box and the size have the same aspect ratio, the contents of the view box are mapped to the area.

Partial: for different aspect ratios, this is wrong (`C107_default_wrong`, `C107_align_wrong`). -/
theorem C107_view_partial (eps vx vy vw vh ew eh : K) (a : Aspect) (hw : eps ≤ vw) (hh : eps ≤ vh) (he : 0 < eps)
    (hr : ew * vh = eh * vw) (p : P K) :
    (svgXform eps vx vy vw vh ew eh a.show).app p = viewMap vx vy vw vh ew eh a p := by
  have hvw : 0 < vw := lt_of_lt_of_le he hw
  have hvh : 0 < vh := lt_of_lt_of_le he hh
  have d2 : eh / vh = ew / vw := by rw [div_eq_div_iff hvh.ne' hvw.ne', hr]
  have d3 : ew - vw * (ew / vw) = 0 := by rw [mul_div_cancel₀ _ hvw.ne']; ring
  have d4 : eh - vh * (ew / vw) = 0 := by
    rw [← d2, mul_div_cancel₀ _ hvh.ne']; ring
  rw [svgXform_same eps vx vy vw vh ew eh _ hw hh he hr]
  cases a with
  | none =>
    unfold Mat.app viewMap
    simp only [d2, P.mk.injEq]
    constructor <;> ring
  | keep ax ay slice =>
    unfold Mat.app viewMap
    simp only [d2, max_self, min_self, ite_self, d3, d4, zero_mul, add_zero, P.mk.injEq]
    constructor <;> ring

/-- C107: an image with a view box and a size of the same aspect ratio is placed on the outside in millimetres, with the lower
left corner of the view box at the origin, or with its centre there if this is requested.  (The axis `y` of the outer system
points downwards.)

Partial: as before; without `transform`. -/
theorem C107_image_partial (t : Trig K) (eps : K) (sqrt : K → K) (c0 : Local K) (a : Attrs) (lw lh : Len) (b : VBox)
    (hw : Has a "width" (some lw)) (hh : Has a "height" (some lh)) (hb : b.Ok) (hbox : a.get "viewBox" = some b.show)
    (ht : a.get "transform" = none) (htop : c0.toplevel = true)
    (hew : 0 < lw.outer c0.dpi c0.width) (heh : 0 < lh.outer c0.dpi c0.height)
    (he : 0 < eps) (hvw : eps ≤ ((b.w.2.val : ℚ) : K)) (hvh : eps ≤ ((b.h.2.val : ℚ) : K))
    (hr : lw.outer c0.dpi c0.width * ((b.h.2.val : ℚ) : K) = lh.outer c0.dpi c0.height * ((b.w.2.val : ℚ) : K)) :
    ∃ c, svgStep t eps sqrt c0 a = some c
      ∧ (∀ p : P K, c.mat.app p = c0.mat.app
          (let s := lw.outer c0.dpi c0.width / ((b.w.2.val : ℚ) : K) * (254 / 960)
           let left := ((b.x.2.val : ℚ) : K) + (if c0.center then ((b.w.2.val : ℚ) : K) / 2 else 0)
           let bottom := ((b.y.2.val : ℚ) : K) + ((b.h.2.val : ℚ) : K) - (if c0.center then ((b.h.2.val : ℚ) : K) / 2 else 0)
           ⟨(p.x - left) * s, (p.y - bottom) * s⟩))
      ∧ c.width = ((b.w.2.val : ℚ) : K) ∧ c.height = ((b.h.2.val : ℚ) : K) ∧ c.toplevel = false ∧ c.center = false
      ∧ c.layer = c0.layer := by
  have hvw0 : 0 < ((b.w.2.val : ℚ) : K) := lt_of_lt_of_le he hvw
  have hvh0 : 0 < ((b.h.2.val : ℚ) : K) := lt_of_lt_of_le he hvh
  have h1 := svgSize_ok a "width" c0.width (96 / c0.dpi) _ (attrDim_outer a "width" lw hw c0.width c0.dpi) hew
  have h2 := svgSize_ok a "height" c0.height (96 / c0.dpi) _ (attrDim_outer a "height" lh hh c0.height c0.dpi) heh
  have h3 := readBox_ok c0 b hb hvw0 hvh0
  have h4 : ∀ c : Local K, stdAttr t c a = c := by intro c; unfold stdAttr; rw [ht]
  unfold svgStep
  simp only [h1, h2, h3, h4, hbox, htop, Option.bind_some, if_true, Bool.and_self, Bool.or_self, Bool.and_true]
  rw [svgXform_same eps _ _ _ _ _ _ _ hvw hvh he hr]
  cases hc : c0.center with
  | false =>
    simp only [Bool.false_eq_true, if_false]
    refine ⟨_, rfl, fun p => ?_, rfl, rfl, rfl, rfl, rfl⟩
    simp only [mul_app]
    congr 1
    unfold Mat.app Mat.scale Mat.xlat
    simp only [P.mk.injEq]
    constructor <;> ring
  | true =>
    simp only [if_true]
    refine ⟨_, rfl, fun p => ?_, rfl, rfl, rfl, rfl, rfl⟩
    simp only [mul_app]
    congr 1
    unfold Mat.app Mat.scale Mat.xlat
    simp only [P.mk.injEq]
    constructor <;> ring

end

/-- the context at the top -/
def ctxTop : Local ℚ := { ctx0 with toplevel := true, dpi := 96 }

/-- an example: 96 units of 1/96 inch for a view box of the size 48 x 24 -/
example : (svgStep trig0 (1 / 2 ^ 15) id ctxTop
    [("width", "1in".toList), ("height", "48".toList), ("viewBox", "10 20 48 24".toList)]).map (fun c => (c.mat.app ⟨58, 20⟩, c.width))
    = some (⟨254 / 10, -127 / 10⟩, 48) := by decide +kernel

/-- C107: without `preserveAspectRatio`, the default is to put the image into the middle.  Instead, it is moved out of the area:
its space is put before it with the sign reversed.  View box 0 0 10 10, size 20 x 10 -/
theorem C107_default_wrong :
    (svgXform (1 / 2 ^ 15) 0 0 10 10 20 10 []).app (⟨0, 0⟩ : P ℚ) = ⟨-10, 0⟩
    ∧ viewMap 0 0 10 10 20 10 (.keep .mid .mid false) (⟨0, 0⟩ : P ℚ) = ⟨5, 0⟩ := by decide +kernel

/-- C107: with `xMidYMid`, the image is distorted; and with `none`, it is not distorted: `do_align` is true if there is no
alignment (svg-parse.c:1029) -/
theorem C107_align_wrong :
    (svgXform (1 / 2 ^ 15) 0 0 10 10 20 10 "xMidYMid".toList).app (⟨10, 10⟩ : P ℚ) = ⟨20, 10⟩
    ∧ viewMap 0 0 10 10 20 10 (.keep .mid .mid false) (⟨10, 10⟩ : P ℚ) = ⟨15, 10⟩
    ∧ (svgXform (1 / 2 ^ 15) 0 0 10 10 20 10 "none".toList).app (⟨10, 10⟩ : P ℚ) = ⟨0, 10⟩
    ∧ viewMap 0 0 10 10 20 10 .none (⟨10, 10⟩ : P ℚ) = ⟨20, 10⟩ := by decide +kernel

/-- C107: an image that has a size but no view box is centred with values that have not been set (svg-parse.c:1573-1580) -/
theorem C107_center_wrong :
    svgStep trig0 (1 / 2 ^ 15) id { ctxTop with center := true } [("width", "10".toList), ("height", "10".toList)] = none := by
  decide +kernel

end Hob3l.Svg
