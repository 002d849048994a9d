import Verif.Syn.Model

/-!
# Model of the conversion of the syntax tree to SCAD objects (`src/hob3l/scad.c`)

The input is the syntax tree of `Verif/Syn/Model.lean`.  Floating point numbers are abstract (`Flt`), so that the theorems hold for
any arithmetic.  Locations and messages are left out: an error message is the outcome `fail`.
-/
namespace Hob3l.Args

open Hob3l.Syn (Text txt Value Arg Item Stmt)

/-- Outcome.  `crash`: failed assertion, access via a NULL pointer, or use of an uninitialised variable. -/
inductive Out (α : Type) where
  | ok (a : α)
  | fail
  | crash
  deriving Repr, DecidableEq

/-- Sequencing. -/
def Out.bind {α β : Type} (x : Out α) (f : α → Out β) : Out β :=
  match x with
  | .ok a => f a
  | .fail => .fail
  | .crash => .crash

instance : Monad Out where
  pure := .ok
  bind := Out.bind

/-- Error message if there is no value. -/
def Out.orFail {α : Type} : Option α → Out α
  | some a => .ok a
  | none => .fail

/-- Read of a variable that may be uninitialised. -/
def Out.orCrash {α : Type} : Option α → Out α
  | some a => .ok a
  | none => .crash

/-- Operations on `double` used by scad.c. -/
class Flt (F : Type) where
  /-- `strtod`, syn.c:521 -/
  ofText : Text → F
  /-- conversion of `long long` -/
  ofInt : Int → F
  /-- `CP_PI` -/
  pi : F
  /-- `x / 2` -/
  half : F → F
  /-- `!(cp_lt(f, 0) || cp_gt(f, 1))`, scad.c:316 -/
  unit : F → Bool
  /-- `lrint(f * 255) & 0xff`, scad.c:319 -/
  byte : F → Nat
  /-- `cp_eq` include/hob3lmat/algo.h -/
  eq : F → F → Bool

variable {F : Type} [Flt F]

/-- A constant as `double`. -/
def con (i : Int) : F := Flt.ofInt i

/-! ## Values -/

/-- scad.c:41-46 -/
inductive Const where
  | pi
  | true
  | false
  | undef
  deriving Repr, DecidableEq

/-- scad.c:146-176 `evaluate` -/
def evaluate : Value → Option Const
  | .id s =>
    if s = txt "PI" then some .pi
    else if s = txt "true" then some .true
    else if s = txt "false" then some .false
    else if s = txt "undef" then some .undef
    else none
  | _ => none

/-- scad.c:178-199 `try_get_longlong` -/
def tryInt (v : Value) : Option Int :=
  match v with
  | .int i => some i
  | _ =>
    match evaluate v with
    | some .true => some 1
    | some .false => some 0
    | _ => none

/-- scad.c:201-217 `try_get_uint32` -/
def tryU32 (v : Value) : Option Nat := do
  let i ← tryInt v
  if i < 0 then none
  else if i ≥ 2 ^ 32 then none
  else some i.toNat

/-- scad.c:239-249 `try_get_bool` -/
def tryBool (v : Value) : Option Bool := do
  let u ← tryU32 v
  some (u != 0)

/-- scad.c:270-289 `try_get_float` -/
def tryFloat (v : Value) : Option F :=
  match v with
  | .float s => some (Flt.ofText s)
  | _ =>
    match tryInt v with
    | some i => some (Flt.ofInt i)
    | none => if evaluate v = some .pi then some Flt.pi else none

/-- scad.c:310-324 `try_get_grey` -/
def tryGrey (F : Type) [Flt F] (v : Value) : Option Nat := do
  let f : F ← tryFloat v
  if Flt.unit f then some (Flt.byte f) else none

/-- scad.c:345-355 `try_get_str` -/
def tryStr : Value → Option Text
  | .str s => some s
  | _ => none

/-- scad.c:376-394 `try_get_size`; `size_t` and `long long` have the same size. -/
def trySize (v : Value) : Option Nat := do
  let i ← tryInt v
  if i < 0 then none else some i.toNat

/-- The common part of `get_vec2` scad.c:416-438, `get_vec3` :471-493, `get_vec4` :566-588: an array of `n` numbers. -/
def getVec (n : Nat) (v : Value) : Option (List F) :=
  match v with
  | .arr l => if l.length ≠ n then none else l.mapM tryFloat
  | _ => none

/-- What is stored by the getters. -/
inductive Val (F : Type) where
  | bool (b : Bool)
  | uint (n : Nat)
  | num (x : F)
  | grey (n : Nat)
  | str (s : Text)
  | vec (l : List F)
  | mat (rows : List (List F))
  | raw (v : Value)
  deriving Repr

/-- A vector of two numbers, as stored by `get_vec2` (scad.c:416-438). -/
def getVec2 (v : Value) : Option (Val F) := do some (.vec (← getVec 2 v))

/-- scad.c:471-493 `get_vec3` -/
def getVec3 (v : Value) : Option (Val F) := do some (.vec (← getVec 3 v))

/-- scad.c:449-461 `get_vec2_or_float` -/
def getVec2Float (v : Value) : Option (Val F) :=
  match (tryFloat v : Option F) with
  | some x => some (.vec [x, x])
  | none => getVec2 v

/-- scad.c:523-536 `get_vec3_or_float` -/
def getVec3Float (v : Value) : Option (Val F) :=
  match (tryFloat v : Option F) with
  | some x => some (.vec [x, x, x])
  | none => getVec3 v

/-- The z component of a stored vector. -/
def zOf : Option (Val F) → Option F
  | some (.vec [_, _, z]) => some z
  | _ => none

/-- `get_vec2(&r->b, t, v)` in scad.c:510 and :553: x and y are overwritten, z is left unchanged. -/
def getXY (old : Option (Val F)) (v : Value) : Out (Val F) := do
  let l ← Out.orFail (getVec 2 v : Option (List F))
  let z ← Out.orCrash (zOf old)
  .ok (.vec (l ++ [z]))

/-- scad.c:503-513 `get_vec2_3` -/
def getVec23 (old : Option (Val F)) (v : Value) : Out (Val F) :=
  match v with
  | .arr [_, _] => getXY old v
  | _ => .orFail (getVec3 v)

/-- scad.c:546-556 `get_vec2_3_float` -/
def getVec23Float (old : Option (Val F)) (v : Value) : Out (Val F) :=
  match v with
  | .arr [_, _] => getXY old v
  | _ => .orFail (getVec3Float v)

/-- A row of a matrix, scad.c:613-624: three numbers leave the fourth of the unit matrix. -/
def getRow (y : Nat) (v : Value) : Option (List F) :=
  match v with
  | .arr [_, _, _] => do some ((← getVec 3 v) ++ [con (if y = 3 then 1 else 0)])
  | _ => getVec 4 v

/-- A row of the unit matrix, `cp_mat4_unit` scad.c:595. -/
def unitRow (y : Nat) : List F := (List.range 4).map fun x => con (if x = y then 1 else 0)

/-- scad.c:590-627 `get_mat4`: the cast `cp_syn_cast(*a, v)` before the type check asserts that `v` is an array. -/
def getMat4 (v : Value) : Out (List (List F)) :=
  match v with
  | .arr l =>
    if l.length ≠ 2 ∧ l.length ≠ 3 ∧ l.length ≠ 4 then .fail
    else do
      let rows ← Out.orFail ((List.range l.length).mapM fun y => l[y]?.bind fun v => (getRow y v : Option (List F)))
      .ok (rows ++ ((List.range 4).drop l.length).map unitRow)
  | _ => .crash

/-- src/hob3lmat/algo.c:557-572 `cp_mat3w_from_mat4`: whether the last row is (0, 0, 0, 1) -/
def lastRow (m : List (List F)) : Bool :=
  match m with
  | [_, _, _, [a, b, c, d]] => Flt.eq a (con 0) && Flt.eq b (con 0) && Flt.eq c (con 0) && Flt.eq d (con 1)
  | _ => false

/-- scad.c:629-646 `get_mat3w` -/
def getMat3w (v : Value) : Out (Val F) := do
  let m : List (List F) ← getMat4 v
  if lastRow m then .ok (.mat (m.take 3)) else .fail

/-! ## Parameters -/

/-- The getters used in parameter lists, scad.c:681-694 -/
inductive Kind where
  | bool
  | uint32
  | float
  | grey
  | str
  | vec2Float
  | vec3
  | vec23
  | vec3Float
  | vec23Float
  | mat3w
  | raw
  deriving Repr, DecidableEq

/-- `p->get(p->data, t, a->value)`; `old` is the value stored before -/
def get (k : Kind) (old : Option (Val F)) (v : Value) : Out (Val F) :=
  match k with
  | .bool => .orFail ((tryBool v).map .bool)
  | .uint32 => .orFail ((tryU32 v).map .uint)
  | .float => .orFail ((tryFloat v).map .num)
  | .grey => .orFail ((tryGrey F v).map .grey)
  | .str => .orFail ((tryStr v).map .str)
  | .vec2Float => .orFail (getVec2Float v)
  | .vec3 => .orFail (getVec3 v)
  | .vec23 => getVec23 old v
  | .vec3Float => .orFail (getVec3Float v)
  | .vec23Float => getVec23Float old v
  | .mat3w => getMat3w v
  | .raw => .ok (.raw v)

/-- scad.c:673-679 `param_t`: `init` is the value of `*data` before the call (`none`: uninitialised or NULL), `flag` that of
`*have_p`.  `mandatory` is `have_p == NULL`. -/
structure Param (F : Type) where
  name : Text
  kind : Kind
  init : Option (Val F)
  mandatory : Bool
  flag : Option Bool

/-- What is known about a parameter: `*data` and `have`. -/
structure Slot (F : Type) where
  val : Option (Val F)
  have_ : Bool
  deriving Repr

/-- Index of the parameter for an argument, scad.c:720-745: `i` is the index of the argument, `need` is `need_name`. -/
inductive Target where
  | at (k : Nat)
  | noName
  | unknown
  deriving Repr, DecidableEq

/-- scad.c:720-746 -/
def target (pos names : List (Param F)) (need : Bool) (i : Nat) (a : Arg) : Target :=
  match a.key with
  | none => if pos.length ≤ i ∨ need then .noName else .at i
  | some k =>
    match (pos ++ names).findIdx? (fun p => p.name == k) with
    | some j => .at j
    | none => .unknown

/-- Result of `get_arg`: what is stored; `early`: it returned at an unknown parameter. -/
structure Got (F : Type) where
  slots : List (Slot F)
  early : Bool
  deriving Repr

/-- `p->get(...)` and `p->have = true` for parameter `k`, scad.c:748-753 -/
def store (ps : List (Param F)) (s : List (Slot F)) (k : Nat) (v : Value) : Out (List (Slot F)) := do
  let p ← Out.orCrash ps[k]?
  let o ← Out.orCrash s[k]?
  let x ← get p.kind o.val v
  .ok (s.set k ⟨some x, true⟩)

/-- The loop over the arguments scad.c:715-754.  `strict`: an unknown parameter is an error; otherwise it is a warning or it is
ignored, `msg` returns true, and so does `get_arg`. -/
def getLoop (strict : Bool) (pos names : List (Param F)) : Bool → Nat → List Arg → List (Slot F) → Out (Got F)
  | _, _, [], s => .ok ⟨s, false⟩
  | need, i, a :: l, s =>
    match target pos names need i a with
    | .noName => .fail
    | .unknown => if strict then .fail else .ok ⟨s, true⟩
    | .at k => do
      let s ← store (pos ++ names) s k a.value
      getLoop strict pos names (need || a.key.isSome) (i + 1) l s

/-- The check for missing parameters scad.c:756-774 -/
def missing (ps : List (Param F)) (s : List (Slot F)) : Bool :=
  (ps.zip s).any fun x => x.1.mandatory && !x.2.have_

/-- The parameters before the loop. -/
def start (ps : List (Param F)) : List (Slot F) := ps.map fun p => ⟨p.init, false⟩

/-- scad.c:706-778 `get_arg` -/
def getArg (strict : Bool) (pos names : List (Param F)) (args : List Arg) : Out (Got F) := do
  let g ← getLoop strict pos names false 0 args (start (pos ++ names))
  if g.early then .ok g
  else if missing (pos ++ names) g.slots then .fail
  else .ok g

/-- Value of `*data` of the parameter with number `k`. -/
def Got.val (g : Got F) (k : Nat) : Option (Val F) := do (← g.slots[k]?).val

/-- Value of `*have_p` of the parameter with number `k`, which is not written if `get_arg` returns early. -/
def Got.flag (g : Got F) (ps : List (Param F)) (k : Nat) : Option Bool :=
  if g.early then do (← ps[k]?).flag else do some (← g.slots[k]?).have_

/-! ### Reading the parameters; all of them are read with the type with which they are written -/

/-- read a `double` -/
def Got.num (g : Got F) (k : Nat) : Out F :=
  match g.val k with
  | some (.num x) => .ok x
  | _ => .crash

/-- read a `bool` -/
def Got.bool (g : Got F) (k : Nat) : Out Bool :=
  match g.val k with
  | some (.bool x) => .ok x
  | _ => .crash

/-- read an `unsigned` -/
def Got.uint (g : Got F) (k : Nat) : Out Nat :=
  match g.val k with
  | some (.uint x) => .ok x
  | _ => .crash

/-- read an `unsigned char` -/
def Got.grey (g : Got F) (k : Nat) : Out Nat :=
  match g.val k with
  | some (.grey x) => .ok x
  | _ => .crash

/-- read a vector -/
def Got.vec (g : Got F) (k : Nat) : Out (List F) :=
  match g.val k with
  | some (.vec x) => .ok x
  | _ => .crash

/-- read a matrix -/
def Got.mat (g : Got F) (k : Nat) : Out (List (List F)) :=
  match g.val k with
  | some (.mat x) => .ok x
  | _ => .crash

/-- read a `char const *`, which may be NULL -/
def Got.str (g : Got F) (k : Nat) : Option Text :=
  match g.val k with
  | some (.str x) => some x
  | _ => none

/-- read a `cp_syn_value_t const *`, which may be NULL -/
def Got.raw (g : Got F) (k : Nat) : Option Value :=
  match g.val k with
  | some (.raw x) => some x
  | _ => none

/-- read a flag -/
def Got.have_ (g : Got F) (ps : List (Param F)) (k : Nat) : Out Bool := .orCrash (g.flag ps k)

/-! ## Objects -/

/-- include/hob3l/scad_tam.h:83-88 `cp_detail_t` -/
structure Detail (F : Type) where
  fn : Nat
  fs : F
  fa : F
  deriving Repr

/-- include/hob3l/scad_tam.h:90-287: the objects without the children -/
inductive Obj (F : Type) where
  | union
  | difference
  | intersection
  | hull
  | multmatrix (rows : List (List F))
  | translate (v : List F)
  | mirror (v : List F)
  | scale (v : List F)
  | rotate (around : Bool) (n : List F) (a : F)
  | color (rgba : Option (List Nat))
  | linext (height twist : F) (scale : List F) (slices : Nat) (center : Bool) (detail : Detail F)
  | rotext (angle : F) (detail : Detail F)
  | projection (cut : Bool)
  | sphere (r : F) (detail : Detail F)
  | circle (r : F) (detail : Detail F)
  | cube (size : List F) (center : Bool)
  | square (size : List F) (center : Bool)
  | cylinder (h r1 r2 : F) (center : Bool) (detail : Detail F)
  | polyhedron (points : List (List F)) (faces : List (List Nat))
  | polygon (points : List (List F)) (paths : List (List Nat))
  | import_ (file : Text) (layer : Option Text) (center : Bool) (id : Option Text) (dpi : F) (detail : Detail F)
  | surface (file : Text) (center : Bool)
  | text (text : Option Text) (size : F) (font halign valign direction language script : Option Text) (spacing tracking : F)
  deriving Repr

/-- an optional parameter (`OPTIONAL`, scad.c:699) with its default -/
def opt (name : String) (kind : Kind) (init : Val F) : Param F := ⟨txt name, kind, some init, false, some false⟩

/-- an optional parameter that is not read unless it is given, or whose default is NULL -/
def optU (name : String) (kind : Kind) (flag : Option Bool) : Param F := ⟨txt name, kind, none, false, flag⟩

/-- a mandatory parameter (`MANDATORY`, scad.c:704); `calloc` has set the memory to 0 -/
def man (name : String) (kind : Kind) (init : Option (Val F)) : Param F := ⟨txt name, kind, init, true, none⟩

/-- the parameters `$fa`, `$fs`, `$fn` with `CP_DETAIL_INIT` include/hob3l/scad_tam.h:88 -/
def detailParams : List (Param F) :=
  [opt "$fa" .float (.num (con 12)), opt "$fs" .float (.num (con 2)), opt "$fn" .uint32 (.uint 0)]

/-- `r->detail`, whose parameters have the numbers from `k` on -/
def Got.detail (g : Got F) (k : Nat) : Out (Detail F) := do
  let fa ← g.num k
  let fs ← g.num (k + 1)
  let fn ← g.uint (k + 2)
  .ok ⟨fn, fs, fa⟩

/-- the functors of src/hob3l/scad-cmd.sieve:14-39 by the function that converts them -/
inductive Fn where
  | circle | color | cube | cylinder | difference | union | hull | import_ | intersection | linext | mirror | multmatrix | polygon
  | polyhedron | projection | rotate | rotext | scale | sphere | square | surface | text | translate
  deriving Repr, DecidableEq

/-- `cmd_find`, src/hob3l/scad-cmd.sieve:14-39 -/
def cmdTable : List (Text × Fn) :=
  [(txt "circle", .circle), (txt "color", .color), (txt "cube", .cube), (txt "cylinder", .cylinder),
    (txt "difference", .difference), (txt "group", .union), (txt "hull", .hull), (txt "import", .import_),
    (txt "import_stl", .import_), (txt "intersection", .intersection), (txt "linear_extrude", .linext), (txt "mirror", .mirror),
    (txt "multmatrix", .multmatrix), (txt "polygon", .polygon), (txt "polyhedron", .polyhedron),
    (txt "projection", .projection), (txt "render", .union), (txt "rotate", .rotate), (txt "rotate_extrude", .rotext),
    (txt "scale", .scale), (txt "sphere", .sphere), (txt "square", .square), (txt "surface", .surface), (txt "text", .text),
    (txt "translate", .translate), (txt "union", .union), (txt "{", .union)]

/-- `cmd_find` -/
def cmdFind (s : Text) : Option Fn := cmdTable.lookup s

/-- the parameters with position -/
def posParams : Fn → List (Param F)
  /- scad.c:798 -/
  | .multmatrix => [man "m" .mat3w none]
  /- scad.c:820-821 with :815-816 -/
  | .cube => [opt "size" .vec3Float (.vec [con 1, con 1, con 1]), opt "center" .bool (.bool false)]
  /- scad.c:838-839 with :833-834 -/
  | .square => [opt "size" .vec2Float (.vec [con 1, con 1]), opt "center" .bool (.bool false)]
  /- scad.c:859 and :897 with :852, :890 -/
  | .sphere | .circle => [opt "r" .float (.num (con 1))]
  /- scad.c:934-935 -/
  | .polyhedron => [man "points" .raw none, optU "faces" .raw (some false)]
  /- scad.c:1022-1024 -/
  | .polygon => [man "points" .raw none, optU "paths" .raw (some false), optU "convexity" .uint32 (some false)]
  /- scad.c:1103, :1120; `calloc` has set z to 0 -/
  | .mirror | .translate => [man "v" .vec23 (some (.vec [con 0, con 0, con 0]))]
  /- scad.c:1144-1145 with :1140 -/
  | .color => [man "c" .raw none, opt "alpha" .grey (.grey 0)]
  /- scad.c:1207 with :1204 -/
  | .scale => [man "v" .vec23Float (some (.vec [con 0, con 0, con 1]))]
  /- scad.c:1232-1233 with :1223-1225; `have_v` is not initialised, :1229 -/
  | .rotate => [man "a" .raw none, ⟨txt "v", .vec3, some (.vec [con 0, con 0, con 1]), false, none⟩]
  /- scad.c:1277 -/
  | .linext => [man "height" .float (some (.num (con 0)))]
  | .rotext => []
  /- scad.c:1350-1353 with :1333-1336 -/
  | .cylinder =>
    [opt "h" .float (.num (con 1)), opt "r1" .float (.num (con 1)), opt "r2" .float (.num (con 1)),
      opt "center" .bool (.bool false)]
  /- scad.c:1453-1455 -/
  | .import_ => [man "file" .str none, optU "layer" .str (some false), optU "convexity" .uint32 (some false)]
  /- scad.c:1493-1494 -/
  | .surface => [man "file" .str none, opt "center" .bool (.bool false)]
  /- scad.c:1530 -/
  | .text => [man "text" .str none]
  /- scad.c:1560 -/
  | .projection => [opt "cut" .bool (.bool false)]
  /- no parameters are read: scad.c:110-144 -/
  | .union | .difference | .intersection | .hull => []

/-- the parameters without position -/
def nameParams : Fn → List (Param F)
  /- scad.c:862-865, :900-903 -/
  | .sphere | .circle => optU "d" .float (some false) :: detailParams
  /- scad.c:938-939 -/
  | .polyhedron => [optU "triangles" .raw (some false), optU "convexity" .uint32 (some false)]
  /- scad.c:1280-1287 with :1268-1272 -/
  | .linext =>
    [opt "center" .bool (.bool false), opt "slices" .uint32 (.uint 1), opt "twist" .float (.num (con 0)),
      opt "scale" .vec2Float (.vec [con 1, con 1]), optU "convexity" .uint32 (some false)] ++ detailParams
  /- scad.c:1311-1315 with :1304 -/
  | .rotext => [opt "angle" .float (.num (con 360)), optU "convexity" .uint32 (some false)] ++ detailParams
  /- scad.c:1356-1362 -/
  | .cylinder =>
    [optU "d" .float (some false), optU "d1" .float (some false), optU "d2" .float (some false),
      optU "r" .float (some false)] ++ detailParams
  /- scad.c:1458-1463 with :1447 -/
  | .import_ =>
    [opt "center" .bool (.bool false), optU "id" .str (some false), opt "dpi" .float (.num (con 72))] ++ detailParams
  /- scad.c:1497-1498 -/
  | .surface => [optU "invert" .bool (some false), optU "convexity" .uint32 (some false)]
  /- scad.c:1533-1541 with :1518-1526 -/
  | .text =>
    [opt "size" .float (.num (con 10)), opt "font" .str (.str (txt "Nozzl3 Sans")), opt "halign" .str (.str (txt "left")),
      opt "valign" .str (.str (txt "baseline")), opt "direction" .str (.str (txt "ltr")),
      opt "language" .str (.str (txt "en")), opt "script" .str (.str (txt "latin")),
      opt "spacing" .float (.num (con 1)), opt "tracking" .float (.num (con 0))]
  /- scad.c:1563 -/
  | .projection => [optU "convexity" .uint32 (some false)]
  | _ => []

/-- `pos` and `name` in one list, by number -/
def params (f : Fn) : List (Param F) := posParams f ++ nameParams f

/-- scad.c:871-877, :909-915: radius or diameter; `r` and `d` have the numbers 0 and 1 -/
def radius (f : Fn) (g : Got F) : Out F := do
  let haveR ← g.have_ (params f) 0
  let haveD ← g.have_ (params f) 1
  if haveR && haveD then .fail
  else if haveD then do .ok (Flt.half (← g.num 1))
  else g.num 0

/-- scad.c:1368-1404: the radii of a cylinder; the numbers are h 0, r1 1, r2 2, center 3, d 4, d1 5, d2 6, r 7 -/
def radii (g : Got F) : Out (F × F) := do
  let haveR1 ← g.have_ (params .cylinder) 1
  let haveR2 ← g.have_ (params .cylinder) 2
  let haveD ← g.have_ (params .cylinder) 4
  let haveD1 ← g.have_ (params .cylinder) 5
  let haveD2 ← g.have_ (params .cylinder) 6
  let haveR ← g.have_ (params .cylinder) 7
  if haveD && (haveD1 || haveD2) then .fail
  else
    let kd1 := if haveD then 4 else 5
    let kd2 := if haveD then 4 else 6
    let haveD1 := haveD1 || haveD
    let haveD2 := haveD2 || haveD
    if haveR && (haveR1 || haveR2) then .fail
    else
      let kr1 := if haveR then 7 else 1
      let kr2 := if haveR then 7 else 2
      let haveR1 := haveR1 || haveR
      let haveR2 := haveR2 || haveR
      if haveR && haveD then .fail
      else if haveR1 && haveD1 then .fail
      else if haveR2 && haveD2 then .fail
      else do
        let r1 ← (if haveD1 then (g.num kd1).bind fun d => .ok (Flt.half d) else g.num kr1 : Out F)
        let r2 ← (if haveD2 then (g.num kd2).bind fun d => .ok (Flt.half d) else g.num kr2 : Out F)
        .ok (r1, r2)

/-- The elements of an array; `none`: the value is no array. -/
def elems : Value → Option (List Value)
  | .arr l => some l
  | _ => none

/-- the points: scad.c:957-967, :1031-1041; the pointer may be NULL -/
def getPoints (n : Nat) (v : Option Value) : Out (List (List F)) := do
  let v ← Out.orCrash v
  let l ← Out.orFail (elems v)
  Out.orFail (l.mapM (getVec n))

/-- an index of a point: scad.c:988-997, :1073-1082 -/
def getIndex (cnt : Nat) (v : Value) : Option Nat := do
  let i ← trySize v
  if i < cnt then some i else none

/-- a face or path: scad.c:975-1003, :1058-1088 -/
def getFace (cnt : Nat) (v : Value) : Option (List Nat) := do
  let l ← elems v
  if l.length < 3 then none else l.mapM (getIndex cnt)

/-- the faces or paths: scad.c:969-1004, :1052-1089 -/
def getFaces (cnt : Nat) (v : Value) : Option (List (List Nat)) := do
  let l ← elems v
  l.mapM (getFace cnt)

/-- which value has the faces: scad.c:945-955 -/
def pickFaces (faces triangles : Option Value) : Option Value :=
  match triangles, faces with
  | some _, some _ => none
  | some t, none => some t
  | none, f => f

/-- scad.c:920-1007 `polyhedron_from_item` after `GET_ARG` -/
def polyhedron (g : Got F) : Out (Obj F) := do
  let fv ← Out.orFail (pickFaces (g.raw 1) (g.raw 2))
  let pts : List (List F) ← getPoints 3 (g.raw 0)
  let faces ← Out.orFail (getFaces pts.length fv)
  .ok (.polyhedron pts faces)

/-- the paths of a polygon: scad.c:1043-1090 -/
def getPaths (cnt : Nat) (v : Option Value) : Out (List (List Nat)) :=
  match v with
  | none => .ok [List.range cnt]
  | some v => if evaluate v = some .undef then .ok [List.range cnt] else .orFail (getFaces cnt v)

/-- scad.c:1009-1093 `polygon_from_item` after `GET_ARG` -/
def polygon (g : Got F) : Out (Obj F) := do
  let pts : List (List F) ← getPoints 2 (g.raw 0)
  let paths ← getPaths pts.length (g.raw 1)
  .ok (.polygon pts paths)

/-- the colours by name, `cp_color_by_name` src/hob3l/gc.c: modelled in `Verif/Color` -/
abbrev Colors := Text → Option (List Nat)

/-- scad.c:1152-1188: the colour without `alpha` -/
def rgba (F : Type) [Flt F] (colors : Colors) (haveAlpha : Bool) (v : Option Value) : Out (Option (List Nat)) :=
  match v with
  | none => .ok none
  | some v =>
    if evaluate v = some .undef then .ok none
    else match v with
      | .arr l =>
        if l.length < 3 then .fail
        else if l.length > 3 + (if haveAlpha then 0 else 1) then .fail
        else do
          let c ← Out.orFail (l.mapM (tryGrey F))
          .ok (some (if c.length = 3 then c ++ [255] else c))
      | .str s => do
        let c ← Out.orFail (colors s)
        .ok (some (c ++ [255]))
      | _ => .fail

/-- scad.c:1129-1196 `color_from_item` after `GET_ARG` -/
def color (colors : Colors) (g : Got F) : Out (Obj F) := do
  let haveAlpha ← g.have_ (params .color) 1
  let c ← rgba F colors haveAlpha (g.raw 0)
  if haveAlpha then do
    let a ← g.grey 1
    .ok (.color (c.map fun c => c.take 3 ++ [a]))
  else .ok (.color c)

/-- scad.c:1216-1259 `rotate_from_item` after `GET_ARG` -/
def rotate (g : Got F) : Out (Obj F) := do
  let a ← Out.orCrash (g.raw 0)
  match a with
  | .arr _ => do
    let haveV ← g.have_ (params .rotate) 1
    if haveV then .fail
    else do
      let n ← Out.orFail (getVec 3 a)
      .ok (.rotate false n (con 0))
  | _ => do
    let x ← Out.orFail (tryFloat a)
    let n ← g.vec 1
    .ok (.rotate true n x)

/-- scad.c:1409-1433 `string_unquote` -/
def unquote : Text → Option Text
  | [] => some []
  | 92 :: 92 :: l => (unquote l).map (92 :: ·)
  | 92 :: 34 :: l => (unquote l).map (34 :: ·)
  | 92 :: 116 :: l => (unquote l).map (9 :: ·)
  | 92 :: 110 :: l => (unquote l).map (10 :: ·)
  | 92 :: 114 :: l => (unquote l).map (13 :: ·)
  | 92 :: _ => none
  | c :: l => (unquote l).map (c :: ·)

/-- scad.c:1472-1476: the optional text `id` -/
def unquoteOpt : Option Text → Option (Option Text)
  | none => some none
  | some s => (unquote s).map some

/-- what the functions `..._from_item` make from the parameters (without the children) -/
def build (colors : Colors) (f : Fn) (g : Got F) : Out (Obj F) :=
  match f with
  /- scad.c:110-144 -/
  | .union => .ok .union
  | .hull => .ok .hull
  | .intersection => .ok .intersection
  | .difference => .ok .difference
  /- scad.c:789-806; without the parameter, the matrix is 0 -/
  | .multmatrix =>
    match g.val 0 with
    | some (.mat m) => .ok (.multmatrix m)
    | _ => .ok (.multmatrix (List.replicate 3 (List.replicate 4 (con 0))))
  /- scad.c:808-824 -/
  | .cube => do .ok (.cube (← g.vec 0) (← g.bool 1))
  /- scad.c:826-842 -/
  | .square => do .ok (.square (← g.vec 0) (← g.bool 1))
  /- scad.c:844-880 -/
  | .sphere => do .ok (.sphere (← radius .sphere g) (← g.detail 2))
  /- scad.c:882-918 -/
  | .circle => do .ok (.circle (← radius .circle g) (← g.detail 2))
  | .polyhedron => polyhedron g
  | .polygon => polygon g
  /- scad.c:1095-1110 -/
  | .mirror => do .ok (.mirror (← g.vec 0))
  /- scad.c:1112-1127 -/
  | .translate => do .ok (.translate (← g.vec 0))
  | .color => color colors g
  /- scad.c:1198-1214 -/
  | .scale => do .ok (.scale (← g.vec 0))
  | .rotate => rotate g
  /- scad.c:1261-1294 -/
  | .linext => do
    .ok (.linext (← g.num 0) (← g.num 3) (← g.vec 4) (← g.uint 2) (← g.bool 1) (← g.detail 6))
  /- scad.c:1296-1322 -/
  | .rotext => do .ok (.rotext (← g.num 0) (← g.detail 2))
  /- scad.c:1324-1407 -/
  | .cylinder => do
    let (r1, r2) ← radii g
    .ok (.cylinder (← g.num 0) r1 r2 (← g.bool 3) (← g.detail 8))
  /- scad.c:1435-1479: `strlen` is applied to `file_tok` -/
  | .import_ => do
    let file ← Out.orCrash (g.str 0)
    let file ← Out.orFail (unquote file)
    let id ← Out.orFail (unquoteOpt (g.str 4))
    .ok (.import_ file (g.str 1) (← g.bool 3) id (← g.num 5) (← g.detail 6))
  /- scad.c:1481-1509 -/
  | .surface => do
    let file ← Out.orCrash (g.str 0)
    let file ← Out.orFail (unquote file)
    .ok (.surface file (← g.bool 1))
  /- scad.c:1511-1548 -/
  | .text => do
    .ok (.text (g.str 0) (← g.num 1) (g.str 2) (g.str 3) (g.str 4) (g.str 5) (g.str 6) (g.str 7) (← g.num 8) (← g.num 9))
  /- scad.c:1550-1570 -/
  | .projection => do .ok (.projection (← g.bool 0))

/-- whether the function reads the parameters: scad.c:110-144 do not -/
def reads : Fn → Bool
  | .union | .difference | .intersection | .hull => false
  | _ => true

/-- `GET_ARG` and what follows, for one object -/
def fromArgs (strict : Bool) (colors : Colors) (f : Fn) (args : List Arg) : Out (Obj F) :=
  if reads f then do
    let g : Got F ← getArg strict (posParams f) (nameParams f) args
    build colors f g
  else build colors f ⟨[], false⟩

/-- whether the function converts the body of the item -/
def hasChild : Fn → Bool
  | .union | .difference | .intersection | .hull | .multmatrix | .mirror | .translate | .color | .scale | .rotate | .linext
  | .rotext | .projection => true
  | _ => false

/-! ## The tree -/

/-- A SCAD object with its number in order of creation (which stands for its address), its modifiers and its children. -/
inductive Tree (F : Type) where
  | mk (id : Nat) (obj : Obj F) (modifier : Nat) (child : List (Tree F))

/-- State: number of objects created, `t->top->root`. -/
structure St where
  cnt : Nat
  root : Option Nat
  deriving Repr, DecidableEq

/-- `r->modifier & CP_GC_MOD_ROOT`, include/hob3l/gc_tam.h:18 -/
def isRoot (m : Nat) : Bool := m.testBit 2

/-- scad.c:60-108 `func_new_` -/
def funcNew (m : Nat) (s : St) : Out (Nat × St) :=
  if isRoot m then
    match s.root with
    | some _ => .fail
    | none => .ok (s.cnt, ⟨s.cnt + 1, some s.cnt⟩)
  else .ok (s.cnt, ⟨s.cnt + 1, s.root⟩)

/-- Options: whether an unknown functor and an unknown parameter are errors (`--unsupported-functor`, `--unknown-param`). -/
structure Opts where
  functor : Bool
  param : Bool
  colors : Colors

mutual

/-- scad.c:1574-1594 `v_scad_from_syn_stmt_item`: the objects that are pushed -/
def fromItem (o : Opts) : Item → St → Out (List (Tree F) × St)
  | .mk functor args body m, s =>
    match cmdFind functor with
    | none => if o.functor then .fail else .ok ([], s)
    | some f => do
      let (id, s) ← funcNew m s
      let obj : Obj F ← fromArgs o.param o.colors f args
      let (l, s) ← (if hasChild f then fromItems o body s else .ok ([], s) : Out (List (Tree F) × St))
      .ok ([.mk id obj m l], s)

/-- scad.c:1619-1630 `v_scad_from_v_syn_stmt_item` -/
def fromItems (o : Opts) : List Item → St → Out (List (Tree F) × St)
  | [], s => .ok ([], s)
  | i :: l, s => do
    let (a, s) ← fromItem o i s
    let (b, s) ← fromItems o l s
    .ok (a ++ b, s)

end

/-- scad.c:1604-1643 `v_scad_from_syn_stmt`, `v_scad_from_v_syn_stmt`; `use` panics (`CP_NYI`, :1601) -/
def fromStmts (o : Opts) : List Stmt → St → Out (List (Tree F) × St)
  | [], s => .ok ([], s)
  | .use _ :: _, _ => .crash
  | .item i :: l, s => do
    let (a, s) ← fromItem o i s
    let (b, s) ← fromStmts o l s
    .ok (a ++ b, s)

/-- scad.c:1654-1668 `cp_scad_from_syn_tree`: the objects and the root -/
def fromTree (o : Opts) (l : List Stmt) : Out (List (Tree F) × Option Nat) := do
  let (t, s) ← fromStmts o l ⟨0, none⟩
  .ok (t, s.root)

end Hob3l.Args
