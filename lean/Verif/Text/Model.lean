import Mathlib.Data.Rat.Defs
import Mathlib.Algebra.Order.Ring.Rat

/-!
`text` and `surface` (src/hob3l/csg3.c `csg3_from_text`, `csg3_from_surface`).

Numbers are rationals, strings are lists of characters.  The renderer of fonts (`cp_font_print`) is abstract: it gives the polygons
and the final position of the pen, or fails because of the encoding of the text.  The final union of the polygons
(`cp_csg2_flatten`) is left out.
-/

namespace Hob3l.Text

abbrev Str := List Char

/-- `strstr` of the C library: the rest of `s` from the first place on where `n` begins -/
def strstr (n : Str) : Str → Option Str
  | [] => if n.isPrefixOf [] then some [] else none
  | c :: s => if n.isPrefixOf (c :: s) then some (c :: s) else strstr n s

def sStyle : Str := [':', 's', 't', 'y', 'l', 'e', '=']
def sOblique : Str := ['O', 'b', 'l', 'i', 'q', 'u', 'e']
def sItalic : Str := ['I', 't', 'a', 'l', 'i', 'c']
def sBold : Str := ['B', 'o', 'l', 'd']
def sMedium : Str := ['M', 'e', 'd', 'i', 'u', 'm']
def sBlack : Str := ['B', 'l', 'a', 'c', 'k']
def sLight : Str := ['L', 'i', 'g', 'h', 't']
def sLeft : Str := ['l', 'e', 'f', 't']
def sCenter : Str := ['c', 'e', 'n', 't', 'e', 'r']
def sRight : Str := ['r', 'i', 'g', 'h', 't']
def sTop : Str := ['t', 'o', 'p']
def sBaseline : Str := ['b', 'a', 's', 'e', 'l', 'i', 'n', 'e']
def sBottom : Str := ['b', 'o', 't', 't', 'o', 'm']

inductive Weight | regular | bold | medium | black | light
  deriving DecidableEq

/-- one of the fonts `cp_font_nozzl3_sans…` -/
structure Font where
  oblique : Bool
  weight : Weight
  deriving DecidableEq

/-- the weight, csg3.c:1027-1033 and 1036-1042 -/
def weightOf (fstyle : Str) : Weight :=
  if (strstr sBold fstyle).isSome then .bold
  else if (strstr sMedium fstyle).isSome then .medium
  else if (strstr sBlack fstyle).isSome then .black
  else if (strstr sLight fstyle).isSome then .light
  else .regular

/-- the choice of the font, csg3.c:1021-1044 -/
def fontOf (font : Str) : Font :=
  match strstr sStyle font with
  | none => ⟨false, .regular⟩
  | some fstyle =>
    if (strstr sOblique fstyle).isSome || (strstr sItalic fstyle).isSome then ⟨true, weightOf fstyle⟩
    else ⟨false, weightOf fstyle⟩

structure V2 where
  x : ℚ
  y : ℚ
  deriving DecidableEq

/-- `cp_mat3w_t` mat_tam.h; the third row does not enter the result and is left out (in the right factor of a product it is that of
the unit matrix) -/
structure M where
  m00 : ℚ
  m01 : ℚ
  m02 : ℚ
  m10 : ℚ
  m11 : ℚ
  m12 : ℚ
  wx : ℚ
  wy : ℚ

/-- `mat_new` csg3.c: the unit matrix -/
def M.unit : M := ⟨1, 0, 0, 0, 1, 0, 0, 0⟩

/-- `cp_mat3w_mul` mat_gen_ext.c:1059-1078, where the third row of `b` is (0 0 1 | 0) -/
def M.mul (a b : M) : M where
  m00 := a.m00 * b.m00 + a.m01 * b.m10
  m01 := a.m00 * b.m01 + a.m01 * b.m11
  m02 := a.m00 * b.m02 + a.m01 * b.m12 + a.m02
  m10 := a.m10 * b.m00 + a.m11 * b.m10
  m11 := a.m10 * b.m01 + a.m11 * b.m11
  m12 := a.m10 * b.m02 + a.m11 * b.m12 + a.m12
  wx := a.m00 * b.wx + a.m01 * b.wy + a.wx
  wy := a.m10 * b.wx + a.m11 * b.wy + a.wy

/-- `cp_vec2w_xform` with the matrix of `cp_mat2w_from_mat3w` algo.c:621-637 -/
def M.xform (m : M) (p : V2) : V2 := ⟨m.m00 * p.x + m.m01 * p.y + m.wx, m.m10 * p.x + m.m11 * p.y + m.wy⟩

/-- smallest and largest y coordinate, `cp_vec2_minmax` mat_gen_ext.c:165-171 from csg3.c:1080-1086 on; `none`: no point.  The x
coordinates are not used. -/
def bbox : List V2 → Option (ℚ × ℚ)
  | [] => none
  | p :: l =>
    match bbox l with
    | none => some (p.y, p.y)
    | some (lo, hi) => some (min p.y lo, max p.y hi)

/-- positioning of the text, csg3.c:1068-1112; `ha`, `_va`: the arguments `halign`, `valign`; `cur`: final position of the pen -/
def place (ha _va : Str) (cur : ℚ) (rc : List (List V2)) (mo : M) : List (List V2) :=
  let m := M.unit
  let m := if ha = sRight then { m with wx := m.wx - cur } else m
  let m := if ha = sCenter then { m with wx := m.wx - cur / 2 } else m
  match bbox rc.flatten with
  | none => []
  | some (lo, hi) =>
    let m := if ha = sTop then { m with wy := m.wy - hi } else m
    let m := if ha = sBottom then { m with wy := m.wy - lo } else m
    let m := mo.mul m
    rc.map fun p => p.map m.xform

/-- the outcome: an error, a message that is not an error, the end of the program by `cp_panic` include/hob3lbase/panic.h:18-19, or
polygons -/
inductive Res
  | fail
  | warn
  | abort
  | ok (polys : List (List V2))
  deriving DecidableEq

/-- the renderer `cp_font_print`: polygons and position of the pen for font and text (size, language, spacing, tracking are fixed);
`none`: error in the encoding -/
abbrev Printer := Font → Str → Option (List (List V2) × ℚ)

structure TextArg where
  text : Str
  font : Str
  halign : Str
  valign : Str

/-- `csg3_from_text` csg3.c:1006-1130.  `two`: 2D context, `err`: the option `err_outside_2d` is that of an error, `withFont`: the
program was built with fonts -/
def fromText (two err withFont : Bool) (print : Printer) (mo : M) (s : TextArg) : Res :=
  if !two then (if err then .fail else .warn)
  else if withFont then
    match print (fontOf s.font) s.text with
    | none => .fail
    | some (rc, cur) => .ok (place s.halign s.valign cur rc mo)
  else .ok []

/-- `csg3_from_surface` csg3.c:980-1004.  `readable`: `cp_syn_read` succeeds -/
def fromSurface (three err readable : Bool) : Res :=
  if !three then (if err then .fail else .warn)
  else if !readable then .fail
  else .abort

end Hob3l.Text
