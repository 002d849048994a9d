import Mathlib.Algebra.Order.Field.Basic
import Mathlib.Algebra.Order.Field.Rat

/-!
Model of the path part of the SVG reader: src/hob3l/svg-parse.c.

The first part is the drawing of paths (`path_*`), the second is the reading of path data (`s_*`, `str_path*`).

Simplifications:
* `double` is modelled by an ordered field `K`: arithmetic is exact, and `strtod` is ideal.
* Locations, and the messages, are left out.
* The number of lines used for a curve (`quad_get_fn`, `cub_get_fn` 187-237) is a parameter.  So is `path_arc2_abs` with the
  part of `path_arc_abs` that computes its arguments; this part is modelled in `ArcModel.lean`.
* Text is a list of ASCII characters.
-/

namespace Hob3l.Svg

/-- `cp_vec2_t` -/
structure P (K : Type) where
  (x y : K)
  deriving DecidableEq

section Draw

variable {K : Type} [Field K] [LinearOrder K]

/-- what the drawing depends on -/
structure Cfg (K : Type) where
  /-- `cp_eq_epsilon` -/
  eps : K
  /-- `quad_get_fn` 187-207 -/
  quadFn : P K → P K → P K → Nat
  /-- `cub_get_fn` 214-237 -/
  cubFn : P K → P K → P K → P K → Nat
  /-- `path_arc_abs` 676-724 from the current point: whether `path_arc2_abs` invokes `path_start`, and the points that it
  pushes.  Arguments: current point, `rx`, `ry`, `ph`, `fa`, `fs`, end point -/
  arc : P K → K → K → K → Bool → Bool → P K → Bool × List (P K)

/-- `path_t` 66-78; `prev` is `prev_cmd`; `pts` is `poly->point` with `aux1` and `aux2`.

`poly` is non-`NULL` iff a point has been pushed, i.e., iff `pts` is not empty.  The asserts in `path_push` 371-372 hold:
both indices are 0 initially and only change if `poly` is non-`NULL` (283, 385). -/
structure St (K : Type) where
  cur : P K
  init : P K
  prev : Option Char
  ctrl : P K
  pts : List (P K × Nat × Nat)
  pointIdx : Nat
  pathIdx : Nat

/-- `path_new` 156-166 -/
def St.new : St K := ⟨⟨0, 0⟩, ⟨0, 0⟩, none, ⟨0, 0⟩, [], 0, 0⟩

/-- `cp_eq` include/hob3lmat/algo.h:80,89 -/
def ceq (c : Cfg K) (a b : K) : Bool := decide (|a - b| < c.eps)

/-- `path_cur` 261-276 -/
def pathCur (s : St K) (p : P K) (cmd : Option Char) (ctrl : P K) : St K := { s with cur := p, prev := cmd, ctrl := ctrl }

/-- `path_close` 278-291, also `path_end` 293-306 -/
def pathClose (s : St K) : St K :=
  let s := pathCur s s.init none ⟨0, 0⟩
  if s.pts.isEmpty then s
  else if s.pointIdx = 0 then s
  else { s with pointIdx := 0, pathIdx := s.pathIdx + 1 }

/-- `path_push` 360-386 -/
def pathPush (s : St K) (p : P K) : St K :=
  { s with pts := s.pts ++ [(p, s.pointIdx, s.pathIdx)], pointIdx := s.pointIdx + 1 }

/-- `path_start` 388-397 -/
def pathStart (s : St K) : St K :=
  if s.pointIdx = 0 then pathPush { s with init := s.cur } s.cur else s

/-- `path_line_abs` 399-411 -/
def pathLineAbs (c : Cfg K) (s : St K) (p : P K) : St K :=
  if ceq c s.cur.x p.x && ceq c s.cur.y p.y then s
  else pathCur (pathPush (pathStart s) p) p none ⟨0, 0⟩

/-- `x += p->cur_x; y += p->cur_y` if relative -/
def relTo (s : St K) (rel : Bool) (p : P K) : P K := if rel then ⟨p.x + s.cur.x, p.y + s.cur.y⟩ else p

/-- `path_line` 413-425 -/
def pathLine (c : Cfg K) (s : St K) (rel : Bool) (p : P K) : St K := pathLineAbs c s (relTo s rel p)

/-- `path_horiz` 427-437 -/
def pathHoriz (c : Cfg K) (s : St K) (rel : Bool) (x : K) : St K :=
  pathLineAbs c s ⟨if rel then x + s.cur.x else x, s.cur.y⟩

/-- `path_vert` 439-449 -/
def pathVert (c : Cfg K) (s : St K) (rel : Bool) (y : K) : St K :=
  pathLineAbs c s ⟨s.cur.x, if rel then y + s.cur.y else y⟩

/-- `path_move` 451-464 -/
def pathMove (s : St K) (rel : Bool) (p : P K) : St K :=
  let q := relTo s rel p
  pathCur (pathClose s) q none ⟨0, 0⟩

/-- `cp_interpol2` src/hob3lbase/arith.c:45-49 -/
def interpol2 (a b c t : K) : K := (a * (1 - t) * (1 - t)) + (2 * b * (1 - t) * t) + (c * t * t)

/-- `cp_interpol3` src/hob3lbase/arith.c:53-59 -/
def interpol3 (a b c d t : K) : K :=
  let s := 1 - t
  let t2 := t * t
  let s2 := s * s
  (a * s2 * s) + (3 * b * s2 * t) + (3 * c * s * t2) + (d * t * t2)

/-- the pushes of a list of points -/
def pushAll (s : St K) (l : List (P K)) : St K := l.foldl pathPush s

/-- `path_quad_abs` 466-486 -/
def pathQuadAbs (c : Cfg K) (s : St K) (p1 p2 : P K) : St K :=
  let s := pathStart s
  let n := c.quadFn s.cur p1 p2
  let l := (List.range' 1 (n - 1)).map fun (i : Nat) =>
    let t : K := (i : K) / (n : K)
    (⟨interpol2 s.cur.x p1.x p2.x t, interpol2 s.cur.y p1.y p2.y t⟩ : P K)
  pathCur (pathPush (pushAll s l) p2) p2 (some 'Q') p1

/-- `path_quad` 488-504 -/
def pathQuad (c : Cfg K) (s : St K) (rel : Bool) (p1 p2 : P K) : St K :=
  pathQuadAbs c s (relTo s rel p1) (relTo s rel p2)

/-- `path_squad` 506-533 -/
def pathSquad (c : Cfg K) (s : St K) (rel : Bool) (p2 : P K) : St K :=
  let p2 := relTo s rel p2
  let p1 : P K := if s.prev = some 'Q' then ⟨2 * s.cur.x - s.ctrl.x, 2 * s.cur.y - s.ctrl.y⟩ else s.cur
  pathQuadAbs c s p1 p2

/-- `path_cub_abs` 535-557 -/
def pathCubAbs (c : Cfg K) (s : St K) (p1 p2 p3 : P K) : St K :=
  let s := pathStart s
  let n := c.cubFn s.cur p1 p2 p3
  let l := (List.range' 1 (n - 1)).map fun (i : Nat) =>
    let t : K := (i : K) / (n : K)
    (⟨interpol3 s.cur.x p1.x p2.x p3.x t, interpol3 s.cur.y p1.y p2.y p3.y t⟩ : P K)
  pathCur (pathPush (pushAll s l) p3) p3 (some 'C') p2

/-- `path_cub` 559-579 -/
def pathCub (c : Cfg K) (s : St K) (rel : Bool) (p1 p2 p3 : P K) : St K :=
  pathCubAbs c s (relTo s rel p1) (relTo s rel p2) (relTo s rel p3)

/-- `path_scub` 581-614 -/
def pathScub (c : Cfg K) (s : St K) (rel : Bool) (p2 p3 : P K) : St K :=
  let p2 := relTo s rel p2
  let p3 := relTo s rel p3
  let p1 : P K := if s.prev = some 'C' then ⟨2 * s.cur.x - s.ctrl.x, 2 * s.cur.y - s.ctrl.y⟩ else s.cur
  pathCubAbs c s p1 p2 p3

/-- `path_arc_abs` 648-727; 676-724 is the parameter `arc` -/
def pathArcAbs (c : Cfg K) (s : St K) (rx ry ph : K) (fa fs : Bool) (p : P K) : St K :=
  if ceq c s.cur.x p.x && ceq c s.cur.y p.y then s
  else if ceq c rx 0 || ceq c ry 0 then pathLineAbs c s p
  else
    let r := c.arc s.cur rx ry ph fa fs p
    let s := if r.1 then pushAll (pathStart s) r.2 else s
    pathCur (pathPush s p) p none ⟨0, 0⟩

/-- `path_arc` 729-746 -/
def pathArc (c : Cfg K) (s : St K) (rel : Bool) (rx ry ph : K) (fa fs : Bool) (p : P K) : St K :=
  pathArcAbs c s rx ry ph fa fs (relTo s rel p)

/-- `path_uniquify` 308-342 after the transformation and the sort: the loop 323-341.

`q` is the sorted list with the tags (index of the point in its path, index of the path).  The result is the list of the
points that are kept and the assignments of a reference to a place (point index, path index).  `eqv` is
`cp_vec2_lex_cmp(..) == 0`. -/
def uniqLoop {A : Type} (eqv : A → A → Bool) : List (A × Nat × Nat) → Option A → Nat → List A × List ((Nat × Nat) × Nat)
  | [], _, _ => ([], [])
  | (a, i, j) :: l, last, k =>
    match last with
    | none => let r := uniqLoop eqv l (some a) (k + 1); (a :: r.1, ((i, j), k) :: r.2)
    | some b =>
      if eqv a b then let r := uniqLoop eqv l (some b) k; (r.1, ((i, j), k - 1) :: r.2)
      else let r := uniqLoop eqv l (some a) (k + 1); (a :: r.1, ((i, j), k) :: r.2)

/-- `cp_v_ensure_size` (vec.c:100) and then the assignment of `x` at `i`: the new entries are `z` -/
def ensureSet {A : Type} (z : A) (l : List A) (i : Nat) (f : A → A) : List A :=
  (l ++ List.replicate (i + 1 - l.length) z).modify i f

/-- 335-339: the references are put into the paths -/
def putRefs : List ((Nat × Nat) × Nat) → List (List Nat) → List (List Nat)
  | [], p => p
  | ((i, j), r) :: l, p => putRefs l (ensureSet [] p j (fun u => ensureSet 0 u i (fun _ => r)))

/-- `path_uniquify` 308-342: `xf` is the transformation 314-317, `srt` is `cp_v_qsort` 320 -/
def uniquify {A B : Type} (xf : A → B) (srt : List (B × Nat × Nat) → List (B × Nat × Nat)) (eqv : B → B → Bool)
    (pts : List (A × Nat × Nat)) : List B × List (List Nat) :=
  let r := uniqLoop eqv (srt (pts.map fun q => (xf q.1, q.2))) none 0
  (r.1, putRefs r.2 [])

/-- `path_fini` 344-358; `none`: the assert 311 fails, as there is no polygon.  The result is the polygon that is left in
the list of objects (it is without points if there are less than 3) -/
def pathFini {B : Type} (xf : P K → B) (srt : List (B × Nat × Nat) → List (B × Nat × Nat)) (eqv : B → B → Bool) (s : St K) :
    Option (List B × List (List Nat)) :=
  let s := pathClose s
  if s.pts.isEmpty then none
  else
    let r := uniquify xf srt eqv s.pts
    if r.1.length < 3 then some ([], []) else some r

end Draw

/-! ## Path data -/

/-- `cp_xml_is_space` src/hob3l/xml-parse.c:150-163, for ASCII characters -/
def isSpace (c : Char) : Bool := c = ' ' || c = '\t' || c = '\r' || c = '\n' || c = '\x0c'

/-- `s_sep` 760-776 -/
def sSep : Bool → List Char → List Char
  | _, [] => []
  | comma, c :: s =>
    if comma && c = ',' then sSep false s
    else if isSpace c then sSep comma s
    else c :: s

/-- a decimal digit -/
def isDigit (c : Char) : Bool := decide ('0' ≤ c) && decide (c ≤ '9')

/-- `looking_at_float` 853-862 after its `s_sep` -/
def looksFloat : List Char → Bool
  | [] => false
  | c :: _ => c = ',' || c = '.' || c = '-' || c = '+' || isDigit c

/-- the loop 891-904; the result is `have_digit` and what follows -/
def floatBody : Bool → Bool → List Char → Bool × List Char
  | _, digit, [] => (digit, [])
  | dot, digit, c :: s =>
    if isDigit c then floatBody dot true s
    else if !dot && c = '.' then floatBody true digit s
    else (digit, c :: s)

/-- `s_expect_raw(&s, "-") || s_expect_raw(&s, "+")` -/
def skipSign : List Char → List Char
  | [] => []
  | c :: s => if c = '-' then s else if c = '+' then s else c :: s

/-- the exponent 917-929.  `s_expect_raw` in 920 is applied to `s`, which is at the letter, so it never matches -/
def floatExp (s : List Char) : List Char :=
  match s with
  | [] => []
  | c :: t =>
    if c = 'e' || c = 'E' then
      let s := skipSign (c :: t)
      let t' := t.dropWhile isDigit
      if t'.length < t.length then t' else s
    else c :: t

/-- `s_str_float` 871-933 after its `s_sep`: what follows the number -/
def strFloat (s : List Char) : Option (List Char) :=
  let r := floatBody false false (skipSign s)
  if r.1 then some (floatExp r.2) else none

/-- the value of a digit -/
def digitVal (c : Char) : Nat := c.toNat - '0'.toNat

/-- the value of a sequence of digits -/
def digitsVal (l : List Char) : Nat := l.foldl (fun n c => 10 * n + digitVal c) 0

/-- the digit of a hexadecimal number -/
def isHex (c : Char) : Bool := isDigit c || (decide ('a' ≤ c) && decide (c ≤ 'f')) || (decide ('A' ≤ c) && decide (c ≤ 'F'))

/-- the exponent of a number for `strtod` (C11 7.22.1.3) -/
def strtodExp (s : List Char) : Int × List Char :=
  match s with
  | [] => (0, [])
  | c :: t =>
    if c = 'e' || c = 'E' then
      let u := skipSign t
      let ds := u.takeWhile isDigit
      if ds.isEmpty then (0, c :: t)
      else
        let v : Int := (digitsVal ds : Int)
        (if t.head? = some '-' then -v else v, u.dropWhile isDigit)
    else (0, c :: t)

/-- the digits after the dot for `strtod` (C11 7.22.1.3), and what follows -/
def strtodFrac (s : List Char) : List Char × List Char :=
  match s with
  | [] => ([], [])
  | c :: t => if c = '.' then (t.takeWhile isDigit, t.dropWhile isDigit) else ([], c :: t)

/-- `strtod` (C11 7.22.1.3) for text that begins with an optional sign and a number: the value and what follows.  For a
hexadecimal number, which begins with `0x` or `0X` and a hexadecimal digit (or a dot and one), only the fact that it extends further than the
`0` is modelled. -/
def strtod (s : List Char) : ℚ × List Char :=
  let neg := s.head? = some '-'
  let b := skipSign s
  let d1 := b.takeWhile isDigit
  let r1 := b.dropWhile isDigit
  let f := strtodFrac r1
  let m : ℚ := (digitsVal (d1 ++ f.1) : ℚ) / 10 ^ f.1.length
  let e := strtodExp f.2
  let v := m * (10 : ℚ) ^ e.1
  match d1, r1 with
  | ['0'], x :: h :: r =>
    if (x = 'x' || x = 'X') && (isHex h || (h = '.' && r.head?.any isHex)) then (0, r.dropWhile isHex)
    else (if neg then -v else v, e.2)
  | _, _ => (if neg then -v else v, e.2)

/-- `s_double` 935-947: the number, if any, and the new `*sp`.  `ep == se` is the equality of what follows. -/
def sDouble (comma : Bool) (s : List Char) : Option ℚ × List Char :=
  let s := sSep comma s
  match strFloat s with
  | none => (none, s)
  | some se =>
    let r := strtod s
    if r.2.length = se.length then (some r.1, se) else (none, s)

/-- `s_bool` 949-966: the new value, given the old one -/
def sBool (old : Bool) (comma : Bool) (s : List Char) : Bool × List Char :=
  match sSep comma s with
  | [] => (old, [])
  | c :: t => if c = '0' then (false, t) else if c = '1' then (true, t) else (old, c :: t)

/-- `n` numbers: `s_double`, `s_coord`, `s_coord2`, `s_coord3` 935-999 -/
def sNums : Nat → Bool → List Char → Option (List ℚ × List Char)
  | 0, _, s => some ([], s)
  | n + 1, comma, s =>
    match sDouble comma s with
    | (none, _) => none
    | (some v, s) => (sNums n true s).map fun r => (v :: r.1, r.2)

/-- `s_arc` 1001-1014 -/
def sArc (fa fs : Bool) (comma : Bool) (s : List Char) : Option ((List ℚ × Bool × Bool × List ℚ) × List Char) :=
  match sNums 3 comma s with
  | none => none
  | some (l, s) =>
    let a := sBool fa true s
    let b := sBool fs true a.2
    (sNums 2 true b.2).map fun r => ((l, a.1, b.1, r.1), r.2)

/-- `str_path_val1`, `str_path_coord1`, `str_path_coord2`, `str_path_coord3` 1160-1253: one or more groups of `n` numbers;
`fuel` is the number of rounds that are allowed.  The result is the new state, and what follows unless it failed. -/
def strRows {S : Type} (n : Nat) (other : S → List ℚ → S) : Nat → S → List Char → S × Option (List Char)
  | 0, st, _ => (st, none)
  | fuel + 1, st, s =>
    if looksFloat (sSep false s) then
      match sNums n true (sSep false s) with
      | none => (st, none)
      | some (l, s) => strRows n other fuel (other st l) s
    else (st, some (sSep false s))

/-- the same, with the first group -/
def strGroups {S : Type} (n : Nat) (first other : S → List ℚ → S) (fuel : Nat) (st : S) (s : List Char) :
    S × Option (List Char) :=
  match sNums n false (sSep false s) with
  | none => (st, none)
  | some (l, s) => strRows n other fuel (first st l) s

/-- the further rounds of `str_path_arc` 1255-1276; `fa`, `fs` keep their value if they are not read -/
def strArcs {S : Type} (arc : S → List ℚ × Bool × Bool × List ℚ → S) :
    Nat → Bool → Bool → S → List Char → S × Option (List Char)
  | 0, _, _, st, _ => (st, none)
  | fuel + 1, fa, fs, st, s =>
    if looksFloat (sSep false s) then
      match sArc fa fs true (sSep false s) with
      | none => (st, none)
      | some (l, s) => strArcs arc fuel l.2.1 l.2.2.1 (arc st l) s
    else (st, some (sSep false s))

/-- `str_path_arc` 1255-1276 -/
def strArc {S : Type} (arc : S → List ℚ × Bool × Bool × List ℚ → S) (fuel : Nat) (st : S) (s : List Char) :
    S × Option (List Char) :=
  match sArc false false false (sSep false s) with
  | none => (st, none)
  | some (l, s) => strArcs arc fuel l.2.1 l.2.2.1 (arc st l) s

section Path

variable {K : Type} [Field K] [LinearOrder K]

/-- the `i`th number of a group -/
def arg (l : List ℚ) (i : Nat) : K := ((l.getD i 0 : ℚ) : K)

/-- a pair of numbers of a group -/
def argP (l : List ℚ) (i : Nat) : P K := ⟨arg l i, arg l (i + 1)⟩

/-- `str_path` 1278-1302: one command, given its letter -/
def strCmd (c : Cfg K) (fuel : Nat) (l : Char) (st : St K) (s : List Char) : St K × Option (List Char) :=
  let rel := decide ('a' ≤ l) && decide (l ≤ 'z')
  if l = 'Z' ∨ l = 'z' then (pathClose st, some s)
  else if l = 'M' ∨ l = 'm' then
    strGroups 2 (fun st v => pathMove st rel (argP v 0)) (fun st v => pathLine c st rel (argP v 0)) fuel st s
  else if l = 'L' ∨ l = 'l' then
    strGroups 2 (fun st v => pathLine c st rel (argP v 0)) (fun st v => pathLine c st rel (argP v 0)) fuel st s
  else if l = 'H' ∨ l = 'h' then
    strGroups 1 (fun st v => pathHoriz c st rel (arg v 0)) (fun st v => pathHoriz c st rel (arg v 0)) fuel st s
  else if l = 'V' ∨ l = 'v' then
    strGroups 1 (fun st v => pathVert c st rel (arg v 0)) (fun st v => pathVert c st rel (arg v 0)) fuel st s
  else if l = 'Q' ∨ l = 'q' then
    strGroups 4 (fun st v => pathQuad c st rel (argP v 0) (argP v 2))
      (fun st v => pathQuad c st rel (argP v 0) (argP v 2)) fuel st s
  else if l = 'C' ∨ l = 'c' then
    strGroups 6 (fun st v => pathCub c st rel (argP v 0) (argP v 2) (argP v 4))
      (fun st v => pathCub c st rel (argP v 0) (argP v 2) (argP v 4)) fuel st s
  else if l = 'T' ∨ l = 't' then
    strGroups 2 (fun st v => pathSquad c st rel (argP v 0)) (fun st v => pathSquad c st rel (argP v 0)) fuel st s
  else if l = 'S' ∨ l = 's' then
    strGroups 4 (fun st v => pathScub c st rel (argP v 0) (argP v 2))
      (fun st v => pathScub c st rel (argP v 0) (argP v 2)) fuel st s
  else if l = 'A' ∨ l = 'a' then
    strArc (fun st v => pathArc c st rel (arg v.1 0) (arg v.1 1) (arg v.1 2) v.2.1 v.2.2.1 (argP v.2.2.2 0)) fuel st s
  else (st, none)

/-- `str_path` 1278-1302; every round takes at least one character, so that the length of the text is enough fuel -/
def strPathLoop (c : Cfg K) : Nat → St K → List Char → St K × Bool
  | 0, st, _ => (st, false)
  | fuel + 1, st, s =>
    match sSep false s with
    | [] => (st, true)
    | l :: s =>
      match strCmd c (s.length + 1) l st s with
      | (st, none) => (st, false)
      | (st, some s) => strPathLoop c fuel st s

/-- `str_path` on a fresh path -/
def strPath (c : Cfg K) (s : List Char) : St K × Bool := strPathLoop c (s.length + 1) St.new s

end Path

end Hob3l.Svg
