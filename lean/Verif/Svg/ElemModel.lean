import Verif.Svg.Model

/-!
Model of the elements of the SVG reader: attributes, transformations, shapes, and the recursion through the tree
(src/hob3l/svg-parse.c:808-850, 1058-1158, 1304-1475, 1595-1852).

Simplifications (in addition to those of `Model.lean`):
* Of a matrix with its inverse and determinant (`cp_mat2wi_t`), only the matrix is modelled: the points are transformed by it
  (`path_uniquify` 314-317).
* Trigonometric functions are parameters.
* The attributes of an element are a list of names and values; attributes without a value are left out, as they are like
  missing ones (`s_attr_str` 1058-1065).
* Of warnings nothing is modelled.  No function in svg-parse.c adds an error message (`ERR` is not used), so the failure of an
  element is always ignored (1841-1848).
* `svg` elements are modelled in `ViewModel.lean`; here they are a parameter.
-/

namespace Hob3l.Svg

section

variable {K : Type} [Field K]

/-- `cp_mat2w_t`: the rows are `a c e` and `b d f` -/
structure Mat (K : Type) where
  (a c e b d f : K)
  deriving DecidableEq

/-- `cp_mat2w_mul` src/hob3lmat/mat_gen_ext.c:1006-1019 -/
def Mat.mul (m n : Mat K) : Mat K where
  a := m.a * n.a + m.c * n.b
  c := m.a * n.c + m.c * n.d
  e := m.a * n.e + m.c * n.f + m.e
  b := m.b * n.a + m.d * n.b
  d := m.b * n.c + m.d * n.d
  f := m.b * n.e + m.d * n.f + m.f

/-- `cp_vec2w_xform` src/hob3lmat/mat_gen_ext.c:411-418 -/
def Mat.app (m : Mat K) (p : P K) : P K := ⟨m.a * p.x + m.c * p.y + m.e, m.b * p.x + m.d * p.y + m.f⟩

/-- `cp_mat2wi_xlat` -/
def Mat.xlat (x y : K) : Mat K := ⟨1, 0, x, 0, 1, y⟩

/-- `cp_mat2wi_scale` src/hob3lmat/mat_gen_ext.c:466-474 -/
def Mat.scale (x y : K) : Mat K := ⟨x, 0, 0, 0, y, 0⟩

/-- `cp_mat2wi_rot` src/hob3lmat/mat_gen_ext.c:912-919 with the sine and the cosine -/
def Mat.rot (s c : K) : Mat K := ⟨c, -s, 0, s, c, 0⟩

/-- `cp_sin_deg`, `cp_cos_deg`, `cp_tan_deg` -/
structure Trig (K : Type) where
  (sin cos tan : K → K)

/-- `syn_is_alpha` src/hob3l/syn.c -/
def isAlpha (c : Char) : Bool := (decide ('a' ≤ c) && decide (c ≤ 'z')) || (decide ('A' ≤ c) && decide (c ≤ 'Z'))

/-- `s_expect` 794-800 with a single character -/
def sExpect (x : Char) (s : List Char) : Option (List Char) :=
  match sSep false s with
  | [] => none
  | c :: s => if c = x then some s else none

/-- the loop 1346-1348; the number of values that are still allowed is given -/
def sVals : Nat → List Char → List ℚ × List Char
  | 0, s => ([], s)
  | n + 1, s =>
    match sDouble true s with
    | (none, s) => ([], s)
    | (some v, s) => let r := sVals n s; (v :: r.1, r.2)

/-- `strnequ(cmd, name, cmd_len)` (include/hob3lbase/def.h): only the first `cmd_len` characters are compared -/
def isCmd (cmd : List Char) (name : String) : Bool := cmd.isPrefixOf name.toList

/-- the value of an argument; the array is initialised with 0 (1343) -/
def val (l : List ℚ) (i : Nat) : K := ((l.getD i 0 : ℚ) : K)

/-- the matrices that are multiplied one after the other: 1354-1444; `none` is failure -/
def xformMats (t : Trig K) (cmd : List Char) (v : List ℚ) : Option (List (Mat K)) :=
  match cmd.head? with
  | some 't' =>
    if isCmd cmd "translate" then
      if v.length > 2 then none else some [.xlat (val v 0) (val v 1)]
    else none
  | some 's' =>
    if isCmd cmd "scale" then
      if v.length > 2 then none else some [.scale (val v 0) (if v.length < 2 then val v 0 else val v 1)]
    else if isCmd cmd "skewX" then
      if v.length > 1 then none else some [⟨1, t.tan (val v 0), 0, 0, 1, 0⟩]
    else if isCmd cmd "skewY" then
      if v.length > 1 then none else some [⟨1, 0, 0, t.tan (val v 0), 1, 0⟩]
    else none
  | some 'r' =>
    if isCmd cmd "rotate" then
      if v.length > 3 then none
      else if v.length ≥ 3 then
        some [.xlat (val v 1) (val v 2), .rot (t.sin (val v 0)) (t.cos (val v 0)), .xlat (-val v 1) (-val v 2)]
      else some [.rot (t.sin (val v 0)) (t.cos (val v 0))]
    else none
  | some 'm' =>
    if isCmd cmd "matrix" then
      if v.length > 6 then none else some [⟨val v 0, val v 2, val v 4, val v 1, val v 3, val v 5⟩]
    else none
  | _ => none

/-- `xform_cmd` 1323-1445, with `xform_apply` 1314-1321: the new matrix, and what follows unless it failed -/
def xformCmd (t : Trig K) (m : Mat K) (s : List Char) : Mat K × Option (List Char) :=
  let cmd := s.takeWhile isAlpha
  match sExpect '(' (s.dropWhile isAlpha) with
  | none => (m, none)
  | some s =>
    match sDouble false s with
    | (none, _) => (m, none)
    | (some v, s) =>
      let r := sVals 7 s
      match sExpect ')' r.2 with
      | none => (m, none)
      | some s =>
        match xformMats t cmd (v :: r.1) with
        | none => (m, none)
        | some l => (l.foldl Mat.mul m, some s)

/-- the loop of `process_std_attr` 1457-1463; each round takes at least one character -/
def xformLoop (t : Trig K) : Nat → Mat K → List Char → Mat K × Bool
  | 0, m, _ => (m, false)
  | fuel + 1, m, s =>
    if s.isEmpty then (m, true)
    else
      match xformCmd t m s with
      | (m, none) => (m, false)
      | (m, some s) => xformLoop t fuel m (sSep true s)

/-- the value of the attribute `transform`: 1456-1463; the result is the new matrix, and whether the end was reached -/
def xformAttr (t : Trig K) (m : Mat K) (s : List Char) : Mat K × Bool := xformLoop t (s.length + 1) m (sSep false s)

/-- the attributes of an element -/
abbrev Attrs := List (String × List Char)

/-- `s_attr_str` 1058-1065 -/
def Attrs.get (a : Attrs) (name : String) : Option (List Char) := (a.find? fun x => x.1 == name).map (·.2)

/-- `local_t` 59-71 without `u` and `detail` -/
structure Local (K : Type) where
  mat : Mat K
  (width height dim : K)
  layer : Option (List Char)
  dpi : K
  (center toplevel : Bool)

/-- `process_std_attr` 1447-1475 -/
def stdAttr (t : Trig K) (c : Local K) (a : Attrs) : Local K :=
  match a.get "transform" with
  | none => c
  | some s =>
    let r := xformAttr t c.mat s
    let c := { c with mat := r.1 }
    if !r.2 then c
    else
      match c.layer with
      | none => c
      | some l => if a.get "id" = some l then { c with layer := none } else c

/-! ## The tree -/

/-- an element: whether its namespace is that of SVG, name, attributes, and the elements inside.  Text is left out
(it is without a namespace). -/
inductive Node where
  | mk (svg : Bool) (name : String) (attrs : Attrs) (sub : List Node)

/-- the first column of src/hob3l/svg-elem.sieve -/
inductive ElemKind where
  | svg | g | obj | noRec
  deriving DecidableEq

/-- src/hob3l/svg-elem.sieve:22-48; the default is `csg2_from_g_warn` 1771-1779 -/
def elemKind (name : String) : ElemKind :=
  if name = "svg" then .svg
  else if name = "g" then .g
  else if name ∈ ["circle", "ellipse", "line", "rect", "path", "polygon", "polyline"] then .obj
  else if name ∈ ["title", "desc", "metadata", "style", "defs", "use", "symbol", "switch", "marker", "image", "foreignObject"]
    then .noRec
  else .g

/-- a worker is invoked: name and attributes of the element, and the context -/
structure Call (K : Type) where
  name : String
  attrs : Attrs
  ctx : Local K

mutual

/-- `csg2_from_elem_rec` 1814-1825 with `csg2_from_svg` (a parameter), `csg2_from_g` 1758-1769, `csg2_from_obj` 1781-1800,
`csg2_from_no_rec` 1802-1810 -/
def walkNode (t : Trig K) (svg : Local K → Attrs → Local K) (c : Local K) : Node → List (Call K)
  | .mk ns name attrs sub =>
    if !ns then []
    else
      match elemKind name with
      | .svg => walk t svg (svg c attrs) sub
      | .g => walk t svg (stdAttr t c attrs) sub
      | .noRec => []
      | .obj =>
        let c := stdAttr t c attrs
        if c.layer.isSome then [] else [⟨name, attrs, c⟩]

/-- `csg2_from_elem` 1827-1852 -/
def walk (t : Trig K) (svg : Local K → Attrs → Local K) (c : Local K) : List Node → List (Call K)
  | [] => []
  | n :: l => walkNode t svg c n ++ walk t svg c l

end

/-! ## Dimensions -/

/-- `s_unit_dim` 808-850: what a unit is worth, and what follows it -/
def sUnit (perc unit1 : K) : List Char → K × List Char
  | '%' :: s => (perc / 100, s)
  | 'i' :: 'n' :: s => (96, s)
  | 'm' :: 'm' :: s => (96 / (254 / 10), s)
  | 'c' :: 'm' :: s => (10 * (96 / (254 / 10)), s)
  | 'p' :: 'x' :: s => (1, s)
  | 'p' :: 't' :: s => (96 / 72, s)
  | 'p' :: 'c' :: s => (96 / 6, s)
  | s => (unit1, s)

/-- `s_dim` 1067-1083 -/
def sDim (perc unit1 : K) (comma : Bool) (s : List Char) : Option (K × List Char) :=
  match sDouble false (sSep comma s) with
  | (none, _) => none
  | (some v, s) => let u := sUnit perc unit1 s; some ((v : K) * u.1, u.2)

/-- `s_dim(..) && s_end(..)` -/
def dimEnd (perc unit1 : K) (s : List Char) : Option K :=
  match sDim perc unit1 false s with
  | none => none
  | some (v, s) => if (sSep false s).isEmpty then some v else none

/-- `s_attr_dim` 1085-1098 -/
def attrDim (a : Attrs) (name : String) (perc unit1 : K) : Option K := (a.get name).bind (dimEnd perc unit1)

/-- `s_attr_coord` 1100-1111: the values, and the result -/
def attrCoord (c : Local K) (a : Attrs) (nx ny : String) : K × K × Bool :=
  match attrDim a nx c.width 1 with
  | none => (0, 0, false)
  | some x =>
    match attrDim a ny c.height 1 with
    | none => (x, 0, false)
    | some y => (x, y, true)

/-- an attribute whose value is not `auto`: 1123-1127 -/
def notAuto (s : Option (List Char)) : Option (List Char) := if s = some "auto".toList then none else s

/-- `s_attr_size` 1113-1158; if it fails, the values are 0 -/
def attrSize (c : Local K) (a : Attrs) (nw nh : String) : K × K :=
  match notAuto (a.get nw), notAuto (a.get nh) with
  | none, none => (0, 0)
  | some sw, some sh =>
    match dimEnd c.width 1 sw with
    | none => (0, 0)
    | some w =>
      match dimEnd c.height 1 sh with
      | none => (0, 0)
      | some h => (w, h)
  | none, some sh =>
    match dimEnd c.height 1 sh with
    | none => (0, 0)
    | some h => (h, h)
  | some sw, none =>
    match dimEnd c.width 1 sw with
    | none => (0, 0)
    | some w => (w, w)

end

/-! ## Shapes -/

section

variable {K : Type} [Field K] [LinearOrder K]

/-- `csg2_from_rect` 1608-1654 up to `path_fini`: the path, or nothing -/
def rectDraw (k : Cfg K) (c : Local K) (a : Attrs) : Option (St K) :=
  let p := attrCoord c a "x" "y"
  let d := attrCoord c a "width" "height"
  let w := d.1
  let h := d.2.1
  if w ≤ 0 ∨ h ≤ 0 then none
  else
    let r := attrSize c a "rx" "ry"
    let q : K × K × K × K :=
      if r.1 ≤ 0 ∨ r.2 ≤ 0 then (0, 0, w, h)
      else
        let rx := if r.1 > w / 2 then w / 2 else r.1
        let ry := if r.2 > h / 2 then h / 2 else r.2
        (rx, ry, w - 2 * rx, h - 2 * ry)
    let rx := q.1
    let ry := q.2.1
    let w := q.2.2.1
    let h := q.2.2.2
    let s := pathMove St.new false ⟨p.1 + rx, p.2.1⟩
    let s := pathLine k s true ⟨w, 0⟩
    let s := pathArc k s true rx ry 0 false true ⟨rx, ry⟩
    let s := pathLine k s true ⟨0, h⟩
    let s := pathArc k s true rx ry 0 false true ⟨-rx, ry⟩
    let s := pathLine k s true ⟨-w, 0⟩
    let s := pathArc k s true rx ry 0 false true ⟨-rx, -ry⟩
    let s := pathLine k s true ⟨0, -h⟩
    let s := pathArc k s true rx ry 0 false true ⟨rx, -ry⟩
    some (pathClose s)

/-- `csg2_from_line` 1709-1728 up to `path_fini` -/
def lineDraw (k : Cfg K) (c : Local K) (a : Attrs) : Option (St K) :=
  let p := attrCoord c a "x1" "y1"
  let q := attrCoord c a "x2" "y2"
  if !p.2.2 then none
  else if !q.2.2 then none
  else some (pathLine k (pathMove St.new false ⟨p.1, p.2.1⟩) false ⟨q.1, q.2.1⟩)

/-- `csg2_from_polyline` 1730-1742 and `csg2_from_polygon` 1744-1756 up to `path_fini`, given whether the path is closed.
If the points cannot be read, the worker returns before `path_fini`; what it has pushed is then a polygon that has points
but no paths. -/
def polyDraw (k : Cfg K) (close : Bool) (a : Attrs) : Option (St K) :=
  match a.get "points" with
  | none => none
  | some s =>
    match strGroups 2 (fun st v => pathMove st false (argP v 0)) (fun st v => pathLine k st false (argP v 0)) (s.length + 1)
        St.new s with
    | (_, none) => none
    | (st, some s) => if (sSep false s).isEmpty then some (if close then pathClose st else st) else none

end

end Hob3l.Svg
