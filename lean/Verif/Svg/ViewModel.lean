import Verif.Svg.ElemModel

/-!
Model of `svg` elements: src/hob3l/svg-parse.c:748-758, 1016-1056, 1496-1593.

Simplification: `sqrt` is a parameter.
-/

namespace Hob3l.Svg

variable {K : Type} [Field K] [LinearOrder K]

/-- `strstr(haystack, needle) != NULL` -/
def hasSub (needle : List Char) : List Char → Bool
  | [] => needle.isEmpty
  | c :: s => needle.isPrefixOf (c :: s) || hasSub needle s

/-- `match_align` 748-758 -/
def matchAlign (s : List Char) (min mid max : String) : K :=
  if hasSub min.toList s then 0
  else if hasSub mid.toList s then 1 / 2
  else if hasSub max.toList s then 1
  else -1

/-- `cp_div0` include/hob3lmat/algo.h:713-716 -/
def kdiv0 (eps a b : K) : K := if |b - 0| < eps then 0 else a / b

/-- `s_expect(&pas, "defer")` 1024 -/
def skipDefer (s : List Char) : List Char :=
  let s := sSep false s
  if "defer".toList.isPrefixOf s then s.drop 5 else s

/-- `svg_xform` 1016-1056, without the inverse; `ex` and `ey` are 0 -/
def svgXform (eps vx vy vw vh ew eh : K) (pas : List Char) : Mat K :=
  let pas := skipDefer pas
  let alignX : K := matchAlign pas "xMin" "xMid" "xMax"
  let alignY : K := matchAlign pas "YMin" "YMid" "YMax"
  let doAlign := decide (alignX < 0) && decide (alignY < 0)
  let slice := hasSub "slice".toList pas
  let sx := kdiv0 eps ew vw
  let sy := kdiv0 eps eh vh
  let s : K × K := if doAlign then (if (decide (sx < sy)) ^^ slice then (sx, sx) else (sy, sy)) else (sx, sy)
  let tx := 0 - vx * s.1
  let ty := 0 - vy * s.2
  let t : K × K := if doAlign then (tx + (ew - vw * s.1) * alignX, ty + (eh - vh * s.2) * alignY) else (tx, ty)
  ⟨s.1, 0, t.1, 0, s.2, t.2⟩

/-- 1532-1540: the four numbers -/
def readBox (c : Local K) (s : List Char) : Option (K × K × K × K) :=
  match sDim c.width 1 false s with
  | none => none
  | some (vx, s) =>
    match sDim c.height 1 true s with
    | none => none
    | some (vy, s) =>
      match sDim c.width 1 true s with
      | none => none
      | some (vw, s) =>
        match sDim c.height 1 true s with
        | none => none
        | some (vh, s) => if (sSep false s).isEmpty && decide (vw > 0) && decide (vh > 0) then some (vx, vy, vw, vh) else none

/-- 1519-1527: the size, and whether there is one -/
def svgSize (a : Attrs) (name : String) (w0 unit1 : K) : K × Bool :=
  match attrDim a name w0 unit1 with
  | some w => (w, decide (0 < w))
  | none => (w0, decide (0 < w0))

/-- `csg2_from_svg` 1496-1593: the context for the elements inside; `none`: `vw` or `vh` is used without a value (it may also
have one if only `s_end` or the test of the signs failed; this is not distinguished) -/
def svgStep (t : Trig K) (eps : K) (sqrt : K → K) (c0 : Local K) (a : Attrs) : Option (Local K) :=
  let unit1 := 96 / c0.dpi
  let ew := svgSize a "width" c0.width unit1
  let eh := svgSize a "height" c0.height unit1
  let haveSize := ew.2 && eh.2
  let box := (a.get "viewBox").bind (readBox c0)
  let pas := (a.get "preserveAspectRatio").getD []
  let c : Local K := { c0 with toplevel := false, center := false, dpi := 96 }
  let p := attrCoord c a "x" "y"
  let c := if c0.toplevel then c else { c with mat := c.mat.mul (.xlat p.1 p.2.1) }
  let c := stdAttr t c a
  let c : Local K := match box with
    | none => c
    | some (vx, vy, vw, vh) =>
      let c : Local K :=
        if c0.toplevel then
          let u : K := if haveSize then (254 / 10) / 96 else (254 / 10) / (c0.dpi + 0)
          { c with mat := c.mat.mul (.scale u u) }
        else c
      if haveSize then
        { c with width := vw, height := vh, dim := sqrt ((vw * vw + vh * vh) / 2),
                 mat := c.mat.mul (svgXform eps vx vy vw vh ew.1 eh.1 pas) }
      else c
  let c : Option (Local K) :=
    if c0.center && (ew.2 || eh.2) then
      match box with
      | none => none
      | some (_, _, vw, vh) =>
        let m := if ew.2 then c.mat.mul (.xlat (-vw / 2) 0) else c.mat
        let m := if eh.2 then m.mul (.xlat 0 (vh / 2)) else m
        some { c with mat := m }
    else some c
  match c with
  | none => none
  | some c =>
    match box with
    | none => some c
    | some (_, _, _, vh) => if c0.toplevel then some { c with mat := c.mat.mul (.xlat 0 (-vh)) } else some c

end Hob3l.Svg
