/-!
# Command line options

`main` (the loop over the arguments and the choice of the output format), `parse_opt`, `opt_cmp`, `has_suffix`, and the
conversions `get_arg_...` (src/hob3l/main.c), the table of options (src/hob3l/opt.switch), and how the table is made from
that file (script/mkswitch).

A string is the list of its bytes without the terminating zero.  Doubles are an abstract type: `Env` has `strtod`,
division, `pow`, and the test for finite values.  `unsigned long` has 64 bits.  The build is without `PSTRACE`, which is
the default.  Opening and writing the output file is not modelled.
-/
namespace Hob3l.Opt

abbrev Str := List Nat

/-- a string constant -/
def str (s : String) : Str := s.toList.map Char.toNat

/-- `'-'` -/
def dash : Nat := 45
/-- `'='` -/
def equ : Nat := 61

/-! ### the options -/

/-- `dump_t` main.c:21-33 -/
inductive Dump where
  | none | syn | scad | csg3 | csg2 | ps | stl | stla | stlb | js
  deriving DecidableEq

/-- `auto_scale_t` main.c:35-39 -/
inductive Auto where
  | float | int | none
  deriving DecidableEq

/-- `CP_ERR_FAIL`, `CP_ERR_WARN`, `CP_ERR_IGNORE` include/hob3lbase/err_tam.h:11-19 -/
inductive Err where
  | fail | warn | ignore
  deriving DecidableEq

/-- `cp_color_rgb_t` -/
structure Rgb where
  r : Nat
  g : Nat
  b : Nat
  deriving DecidableEq

/-- the factors that are multiplied to `opt->ps.xform2`: rotations and a scaling; the last one is the first of the list -/
inductive Xform (D : Type) where
  | rotX (a : D)
  | rotY (a : D)
  | rotZ (a : D)
  | scale (s : D)

/-- `cp_opt_t` main.c:41-61, `cp_csg_opt_t` csg_tam.h:125-195, `cp_ps_opt_t` ps_tam.h, `cp_scad_opt_t`, and the global
variables `cq_dim_scale`, `cp_eq_epsilon`, `cp_sqr_epsilon`; bit masks are one `Bool` for each bit -/
structure Opts (D : Type) where
  zMin : D
  zMax : D
  zStep : D
  haveZMin : Bool := false
  haveZMax : Bool := false
  dump : Dump := .none
  noTri : Bool := false
  noCsg : Bool := false
  noDiff : Bool := false
  verbose : Nat := 1
  psScaleStep : Nat := 0
  psSinglePage : Bool := false
  psNoTri : Bool := false
  psNoPath : Bool := false
  psNoMark : Bool := false
  psXform : List (Xform D) := []
  psPersp : D
  psColorPath : Rgb := ⟨0, 0, 0⟩
  psColorTri : Rgb := ⟨0, 153, 153⟩
  psColorFill : Rgb := ⟨204, 204, 204⟩
  psColorVertex : Rgb := ⟨255, 0, 0⟩
  psColorMark : Rgb := ⟨0, 0, 255⟩
  psLineWidth : D
  outFile : Option Str := none
  preferStlBin : Bool := false
  autoScale : Auto := .float
  grid : D
  gran : D
  eps : D
  eps2 : D
  layerGap : D
  maxFn : Nat := 100
  optSkipEmpty : Bool := true
  optDropCollinear : Bool := true
  maxSimultaneous : Nat := 10
  colorRand : Nat := 0
  jsGroup : Str := []
  keepCtxt : Bool := false
  triAddPath : Bool := false
  errEmpty : Err := .fail
  errCollapse : Err := .fail
  errOutside3d : Err := .fail
  errOutside2d : Err := .fail
  errUnsupportedFunctor : Err := .warn
  errUnknownFunctor : Err := .fail
  errUnknownParam : Err := .warn

/-- what is used of doubles: `strtod` with the rest of the string, `none` if nothing could be converted; `/`; `pow`;
`cp_isfinite` -/
structure Env (D : Type) where
  strtod : Str → Option (D × Str)
  div : D → D → D
  pow : D → D → D
  finite : D → Bool

/-- how an option or the program ends: `fail` is an error message and `exit(EXIT_FAILURE)`, `help` is `help()`, which ends
in `exit(0)`, `ub` is undefined behaviour -/
inductive Res (α : Type) where
  | ok (a : α)
  | fail
  | help
  | ub

/-! ### conversions -/

/-- `get_arg_bool` main.c:400-424; `none` as the result is the error -/
def getBool : Option Str → Option Bool
  | none => some true
  | some s =>
    if s = str "true" ∨ s = str "1" ∨ s = str "yes" then some true
    else if s = str "false" ∨ s = str "0" ∨ s = str "no" then some false
    else none

/-- `get_arg_err` main.c:426-456 -/
def getErr (s : Str) : Option Err :=
  if s = str "fail" ∨ s = str "error" ∨ s = str "err" then some .fail
  else if s = str "ign" ∨ s = str "ignore" then some .ignore
  else if s = str "warn" ∨ s = str "warning" then some .warn
  else none

/-- `get_arg_dim` main.c:471-506 -/
def getDim {D : Type} (env : Env D) (s : Str) : Option D :=
  match env.strtod s with
  | none => none
  | some (v1, r) =>
    match r with
    | 47 :: c :: r =>
      match env.strtod (c :: r) with
      | none => none
      | some (v2, r) => if r ≠ [] ∨ env.finite (env.div v1 v2) = false then none else some (env.div v1 v2)
    | 94 :: c :: r =>
      match env.strtod (c :: r) with
      | none => none
      | some (v2, r) => if r ≠ [] ∨ env.finite (env.pow v1 v2) = false then none else some (env.pow v1 v2)
    | r => if r ≠ [] ∨ env.finite v1 = false then none else some v1

/-- white space of `isspace` in the C locale -/
def isSpace (c : Nat) : Bool := c = 32 || (9 ≤ c && c ≤ 13)

/-- the value of a digit of a base up to 16 -/
def digit (base c : Nat) : Option Nat :=
  let v := if 48 ≤ c ∧ c ≤ 57 then some (c - 48) else if 97 ≤ c ∧ c ≤ 102 then some (c - 87)
    else if 65 ≤ c ∧ c ≤ 70 then some (c - 55) else none
  match v with
  | some v => if v < base then some v else none
  | none => none

/-- the longest sequence of digits: its value, starting from `acc`, and the rest -/
def digits (base acc : Nat) : Str → Nat × Str
  | [] => (acc, [])
  | c :: s =>
    match digit base c with
    | none => (acc, c :: s)
    | some v => digits base (acc * base + v) s

/-- skip white space -/
def skipSpace : Str → Str
  | [] => []
  | c :: s => if isSpace c then skipSpace s else c :: s

/-- is there a minus sign? -/
def isNeg : Str → Bool
  | c :: _ => c = 45
  | [] => false

/-- skip the sign -/
def skipSign : Str → Str
  | c :: t => if c = 45 ∨ c = 43 then t else c :: t
  | [] => []

/-- skip `0x` of a hexadecimal number -/
def skipHex (base : Nat) : Str → Str
  | z :: x :: d :: t =>
    if base = 16 ∧ z = 48 ∧ (x = 120 ∨ x = 88) ∧ (digit 16 d).isSome then d :: t else z :: x :: d :: t
  | t => t

/-- the digits of a number, `none` if there is none; the result is the largest value if it does not fit, and is negated
modulo 2^64 after a minus sign -/
def unsignedAt (base : Nat) (neg : Bool) : Str → Option (Nat × Str)
  | [] => none
  | c :: t =>
    match digit base c with
    | none => none
    | some _ =>
      let r := digits base 0 (c :: t)
      if r.1 ≥ 2 ^ 64 then some (2 ^ 64 - 1, r.2)
      else if neg then some ((2 ^ 64 - r.1) % 2 ^ 64, r.2)
      else some (r.1, r.2)

/-- `strtoull`, `strtoul` (C11 7.22.1.4) with base 10 or 16 and 64 bits: white space, an optional sign, for base 16
optionally `0x`, digits -/
def strtoull (base : Nat) (s : Str) : Option (Nat × Str) :=
  let s := skipSpace s
  unsignedAt base (isNeg s) (skipHex base (skipSign s))

/-- `get_arg_size` main.c:508-520 -/
def getSize (s : Str) : Option Nat :=
  match strtoull 10 s with
  | some (v, []) => some v
  | _ => none

/-- `get_arg_uint32` main.c:522-534 -/
def getUint32 (s : Str) : Option Nat :=
  match getSize s with
  | some v => if v ≠ v % 2 ^ 32 then none else some v
  | none => none

/-- `get_arg_uint8` main.c:536-548 -/
def getUint8 (s : Str) : Option Nat :=
  match getSize s with
  | some v => if v > 255 then none else some v
  | none => none

/-- `get_arg_rgb` main.c:550-565 -/
def getRgb (s : Str) : Option Rgb :=
  match strtoull 16 s with
  | some (w, []) => some ⟨w / 2 ^ 16 % 256, w / 2 ^ 8 % 256, w % 256⟩
  | _ => none

/-! ### the table -/

/-- the variable declared in the handler of an option, for options with a type -/
inductive Loc (D : Type) where
  | none
  | bool (b : Bool)
  | dim (d : D)

/-- the argument of an option: the conversion and the variable that is set -/
inductive Arg (D : Type) where
  | none
  | str (set : Opts D → Str → Opts D)
  | dim (set : Opts D → D → Opts D)
  | dimLoc
  | size (set : Opts D → Nat → Opts D)
  | uint32 (set : Opts D → Nat → Opts D)
  | uint8 (set : Opts D → Nat → Opts D)
  | err (set : Opts D → Err → Opts D)
  | rgb (set : Opts D → Rgb → Opts D)
  | append (set : Opts D → Str → Opts D)
  | bool (neg : Bool) (set : Opts D → Bool → Opts D)
  | boolLoc (neg : Bool)
  /-- any argument, in a part that is not compiled (`#ifdef PSTRACE`) -/
  | unused
  /-- an argument with `bool` in its conversion, in a part that is not compiled -/
  | unusedBool (neg : Bool)

/-- an entry of opt.switch: the words, the argument, the statements -/
structure Case (D : Type) where
  words : List Str
  arg : Arg D := .none
  act : Loc D → Opts D → Res (Opts D) := fun _ o => .ok o

/-- shorthand for statements without local variable -/
def act {D : Type} (f : Opts D → Opts D) : Loc D → Opts D → Res (Opts D) := fun _ o => .ok (f o)

/-- opt.switch:1-396 -/
def cases (D : Type) : List (Case D) := [
  { words := [str "h", str "?", str "help"], act := fun _ _ => .help },
  { words := [str "q", str "quiet"], act := act fun o => { o with verbose := 0 } },
  { words := [str "v", str "verbose"], act := act fun o => { o with verbose := (o.verbose + 1) % 2 ^ 32 } },
  { words := [str "o"], arg := .str fun o s => { o with outFile := some s } },
  { words := [str "stl-bin"], act := act fun o => { o with preferStlBin := true } },
  { words := [str "stl-txt"], act := act fun o => { o with preferStlBin := false } },
  { words := [str "layer-gap"], arg := .dim fun o v => { o with layerGap := v } },
  { words := [str "min"], arg := .dim fun o v => { o with zMin := v }, act := act fun o => { o with haveZMin := true } },
  { words := [str "max"], arg := .dim fun o v => { o with zMax := v }, act := act fun o => { o with haveZMax := true } },
  { words := [str "step"], arg := .dim fun o v => { o with zStep := v } },
  { words := [str "z"], arg := .dim fun o v => { o with zMin := v },
    act := act fun o => { o with zMax := o.zMin, haveZMin := true, haveZMax := true } },
  { words := [str "max-fn"], arg := .uint32 fun o v => { o with maxFn := v } },
  { words := [str "opt-no-skip-empty"], arg := .boolLoc true,
    act := fun l o => match l with | .bool a => .ok { o with optSkipEmpty := a } | _ => .ub },
  { words := [str "opt-no-drop-collinear"], arg := .boolLoc true,
    act := fun l o => match l with | .bool a => .ok { o with optDropCollinear := a } | _ => .ub },
  { words := [str "max-simultaneous"], arg := .size fun o v => { o with maxSimultaneous := v },
    act := fun _ o => if o.maxSimultaneous < 2 then .fail else .ok o },
  { words := [str "grid"], arg := .dim fun o v => { o with grid := v } },
  { words := [str "no-auto-grid"], act := act fun o => { o with autoScale := .none } },
  { words := [str "auto-grid"], act := act fun o => { o with autoScale := .float } },
  { words := [str "auto-grid-max"], act := act fun o => { o with autoScale := .int } },
  { words := [str "gran"], arg := .dim fun o v => { o with gran := v } },
  { words := [str "eps"], arg := .dim fun o v => { o with eps := v } },
  { words := [str "eps2"], arg := .dim fun o v => { o with eps2 := v } },
  { words := [str "empty"], arg := .err fun o v => { o with errEmpty := v } },
  { words := [str "collapse"], arg := .err fun o v => { o with errCollapse := v } },
  { words := [str "outside-3d"], arg := .err fun o v => { o with errOutside3d := v } },
  { words := [str "outside-2d"], arg := .err fun o v => { o with errOutside2d := v } },
  { words := [str "unsupported-functor"], arg := .err fun o v => { o with errUnsupportedFunctor := v } },
  { words := [str "unknown-functor"], arg := .err fun o v => { o with errUnknownFunctor := v } },
  { words := [str "unknown-param"], arg := .err fun o v => { o with errUnknownParam := v } },
  { words := [str "dump-syn"], act := act fun o => { o with dump := .syn } },
  { words := [str "dump-scad"], act := act fun o => { o with dump := .scad } },
  { words := [str "dump-csg3"], act := act fun o => { o with dump := .csg3 } },
  { words := [str "dump-csg2"], act := act fun o => { o with dump := .csg2 } },
  { words := [str "dump-ps"], act := act fun o => { o with dump := .ps } },
  { words := [str "dump-stl"], act := act fun o => { o with dump := .stla } },
  { words := [str "dump-stlb"], act := act fun o => { o with dump := .stlb } },
  { words := [str "dump-js"], act := act fun o => { o with dump := .js } },
  { words := [str "no-csg"], arg := .bool false fun o v => { o with noCsg := v } },
  { words := [str "no-tri"], arg := .bool false fun o v => { o with noTri := v } },
  { words := [str "no-diff"], arg := .bool false fun o v => { o with noDiff := v } },
  { words := [str "no-path"], arg := .bool true fun o v => { o with triAddPath := v } },
  { words := [str "js-color-rand"], arg := .uint8 fun o v => { o with colorRand := v } },
  { words := [str "js-group"], arg := .append fun o s => { o with jsGroup := o.jsGroup ++ (32 :: s) } },
  { words := [str "js-no-keep-ctxt"], arg := .bool true fun o v => { o with keepCtxt := v } },
  { words := [str "ps-scale-fit"], act := act fun o => { o with psScaleStep := 1 } },
  { words := [str "ps-scale-max"], act := act fun o => { o with psScaleStep := 2 } },
  { words := [str "ps-no-single-page"], arg := .bool true fun o v => { o with psSinglePage := v } },
  { words := [str "ps-no-tri"], arg := .bool false fun o v => { o with psNoTri := v } },
  { words := [str "ps-no-path"], arg := .bool false fun o v => { o with psNoPath := v } },
  { words := [str "ps-no-mark"], arg := .bool false fun o v => { o with psNoMark := v } },
  { words := [str "ps-no-wire"], act := act fun o => { o with psNoTri := true, psNoPath := true, psNoMark := true } },
  { words := [str "ps-rot-x"], arg := .dimLoc,
    act := fun l o => match l with | .dim a => .ok { o with psXform := .rotX a :: o.psXform } | _ => .ub },
  { words := [str "ps-rot-y"], arg := .dimLoc,
    act := fun l o => match l with | .dim a => .ok { o with psXform := .rotY a :: o.psXform } | _ => .ub },
  { words := [str "ps-rot-z"], arg := .dimLoc,
    act := fun l o => match l with | .dim a => .ok { o with psXform := .rotZ a :: o.psXform } | _ => .ub },
  { words := [str "ps-scale"], arg := .dimLoc,
    act := fun l o => match l with | .dim s => .ok { o with psXform := .scale s :: o.psXform } | _ => .ub },
  { words := [str "ps-persp"], arg := .dim fun o v => { o with psPersp := v } },
  { words := [str "ps-color-path"], arg := .rgb fun o v => { o with psColorPath := v } },
  { words := [str "ps-color-tri"], arg := .rgb fun o v => { o with psColorTri := v } },
  { words := [str "ps-color-fill"], arg := .rgb fun o v => { o with psColorFill := v } },
  { words := [str "ps-color-vertex"], arg := .rgb fun o v => { o with psColorVertex := v } },
  { words := [str "ps-color-mark"], arg := .rgb fun o v => { o with psColorMark := v } },
  { words := [str "ps-line-width"], arg := .dim fun o v => { o with psLineWidth := v } },
  { words := [str "debug-ps"], arg := .unused },
  { words := [str "debug-ps-page-skip"], arg := .unused },
  { words := [str "debug-ps-page-count"], arg := .unused },
  { words := [str "debug-ps-scale-x"], arg := .unused },
  { words := [str "debug-ps-scale-y"], arg := .unused },
  { words := [str "debug-ps-scale"], arg := .unused },
  { words := [str "debug-ps-xlat-x"], arg := .unused },
  { words := [str "debug-ps-xlat-y"], arg := .unused },
  { words := [str "debug-ps-no-dots"], arg := .unusedBool true }]

/-- the number of arguments: `need_arg` mkswitch:43-47: 0 none, 1 optional, 2 required -/
def Arg.need {D : Type} : Arg D → Nat
  | .none => 0
  | .bool _ _ | .boolLoc _ | .unusedBool _ => 1
  | _ => 2

/-- the argument of the negated option mkswitch:49-57, if there is one -/
def Arg.negated {D : Type} : Arg D → Option (Arg D)
  | .bool n f => some (.bool (!n) f)
  | .boolLoc n => some (.boolLoc (!n))
  | .unusedBool n => some (.unusedBool (!n))
  | _ => Option.none

/-- match `^(.*)-no-(.*)$`, where the first part is as long as possible -/
def cutNo : Str → Option (Str × Str)
  | [] => none
  | c :: s =>
    match cutNo s with
    | some (a, b) => some (c :: a, b)
    | none => if (str "-no-").isPrefixOf (c :: s) then some ([], (c :: s).drop 4) else none

/-- the word of the negated option mkswitch:76-83 -/
def negWord (w : Str) : Option Str :=
  if (str "no-").isPrefixOf w then some (w.drop 3)
  else match cutNo w with
    | some (a, b) => some (a ++ dash :: b)
    | none => none

/-- an entry of `opt_list` with its handler: the name, the argument, the statements -/
structure Entry (D : Type) where
  name : Str
  arg : Arg D
  act : Loc D → Opts D → Res (Opts D)

/-- `learn_case` mkswitch:25-95: the entries made from a case; the second case has the negated words and the negated
conversion, but no statements; it is not negated again, because no word contains `no` twice; words are not duplicated -/
def learnCase {D : Type} (c : Case D) : List (Entry D) :=
  c.words.map (fun w => ⟨w, c.arg, c.act⟩) ++
  match c.arg.negated with
  | none => []
  | some a => (c.words.filterMap negWord).map (fun w => ⟨w, a, fun _ o => .ok o⟩)

/-- the order of Perl's `sort`: of strings by bytes -/
def strLe : Str → Str → Bool
  | [], _ => true
  | _ :: _, [] => false
  | a :: s, b :: t => if a < b then true else if b < a then false else strLe s t

/-- `sort keys %case` mkswitch:250: insertion -/
def insertEntry {D : Type} (e : Entry D) : List (Entry D) → List (Entry D)
  | [] => [e]
  | f :: l => if strLe e.name f.name then e :: f :: l else f :: insertEntry e l

/-- sorting -/
def sortEntries {D : Type} : List (Entry D) → List (Entry D)
  | [] => []
  | e :: l => insertEntry e (sortEntries l)

/-- `opt_list` of opt.inc -/
def optList (D : Type) : List (Entry D) := sortEntries ((cases D).flatMap learnCase)

/-! ### parsing -/

/-- `strncmp`: the comparison of bytes, including the terminating zero -/
def strncmp : Nat → Str → Str → Ordering
  | 0, _, _ => .eq
  | _ + 1, [], [] => .eq
  | _ + 1, [], _ :: _ => .lt
  | _ + 1, _ :: _, [] => .gt
  | n + 1, a :: s, b :: t => if a < b then .lt else if b < a then .gt else strncmp n s t

/-- `s[i]` with the terminating zero; `none` is an access behind it -/
def charAt : Str → Nat → Option Nat
  | [], 0 => some 0
  | [], _ + 1 => none
  | a :: _, 0 => some a
  | _ :: s, n + 1 => charAt s n

/-- `opt_cmp` main.c:598-611; `none` is an access outside of the string -/
def optCmp (s : Str) (n : Nat) (name : Str) : Option Ordering :=
  match strncmp n s name with
  | .eq => match charAt name n with
    | none => none
    | some c => if c ≠ 0 then some .lt else some .eq
  | o => some o

/-- `bsearch` between `l` and `u` (the C library's; the C standard requires the list to be sorted); the outer `none` is an
access outside of the table or of a string -/
def bsearch {D : Type} (s : Str) (n : Nat) (t : List (Entry D)) (l u : Nat) : Option (Option (Entry D)) :=
  if l < u then
    match t[(l + u) / 2]? with
    | none => none
    | some e =>
      match optCmp s n e.name with
      | none => none
      | some .lt => bsearch s n t l ((l + u) / 2)
      | some .gt => bsearch s n t ((l + u) / 2 + 1) u
      | some .eq => some (some e)
  else some none
termination_by u - l
decreasing_by all_goals omega

/-- the generated function `get_opt_...` mkswitch:217-247: conversion of the argument, then the statements.  A missing
argument is `NULL`. -/
def handle {D : Type} (env : Env D) (a : Arg D) (act : Loc D → Opts D → Res (Opts D)) (o : Opts D) (arg : Option Str) :
    Res (Opts D) :=
  match a, arg with
  | .none, _ => act .none o
  | .unused, _ => .ok o
  | .unusedBool _, _ => .ok o
  | .bool neg set, arg => match getBool arg with
    | some v => act .none (set o (v != neg))
    | none => .fail
  | .boolLoc neg, arg => match getBool arg with
    | some v => act (.bool (v != neg)) o
    | none => .fail
  | _, none => .ub
  | .str set, some s => act .none (set o s)
  | .append set, some s => act .none (set o s)
  | .dim set, some s => match getDim env s with
    | some v => act .none (set o v)
    | none => .fail
  | .dimLoc, some s => match getDim env s with
    | some v => act (.dim v) o
    | none => .fail
  | .size set, some s => match getSize s with
    | some v => act .none (set o v)
    | none => .fail
  | .uint32 set, some s => match getUint32 s with
    | some v => act .none (set o v)
    | none => .fail
  | .uint8 set, some s => match getUint8 s with
    | some v => act .none (set o v)
    | none => .fail
  | .err set, some s => match getErr s with
    | some v => act .none (set o v)
    | none => .fail
  | .rgb set, some s => match getRgb s with
    | some v => act .none (set o v)
    | none => .fail

/-- skip `-` main.c:621-624 -/
def skipDash : Str → Str
  | [] => []
  | c :: s => if c = dash then skipDash s else c :: s

/-- `strchr(key.s, '=')`, or else the length main.c:625-629 -/
def keyLen : Str → Nat
  | [] => 0
  | c :: s => if c = equ then 0 else keyLen s + 1

/-- `parse_opt` main.c:613-657: `argvi` is the argument, `rest` are the following ones; the result has the number
of those that are used -/
def parseOpt {D : Type} (env : Env D) (o : Opts D) (argvi : Str) (rest : List Str) : Res (Opts D × Nat) :=
  let s := skipDash argvi
  let n := keyLen s
  match bsearch s n (optList D) 0 (optList D).length with
  | none => .ub
  | some none => .fail
  | some (some e) =>
    let done (arg : Option Str) (k : Nat) : Res (Opts D × Nat) :=
      match handle env e.arg e.act o arg with
      | .ok o => .ok (o, k)
      | .fail => .fail
      | .help => .help
      | .ub => .ub
    if e.arg.need > 0 then
      if charAt s n = some equ then done (some (s.drop (n + 1))) 0
      else if e.arg.need = 2 then
        match rest with
        | [] => .fail
        | a :: _ => done (some a) 1
      else done none 0
    else done none 0

/-- the loop of `main` main.c:692-706: the options and the name of the input file; the first `skip` arguments have been used
by an option -/
def parseFrom {D : Type} (env : Env D) : Nat → Opts D → Option Str → List Str → Res (Opts D × Option Str)
  | _, o, inFile, [] => .ok (o, inFile)
  | skip + 1, o, inFile, _ :: rest => parseFrom env skip o inFile rest
  | 0, o, inFile, a :: rest =>
    if a.head? = some dash then
      match parseOpt env o a rest with
      | .ok (o, k) => parseFrom env k o inFile rest
      | .fail => .fail
      | .help => .help
      | .ub => .ub
    else match inFile with
      | none => parseFrom env 0 o (some a) rest
      | some _ => .fail

/-- the command line -/
def parseArgs {D : Type} (env : Env D) (o : Opts D) (args : List Str) : Res (Opts D × Option Str) :=
  parseFrom env 0 o none args

/-- `has_suffix` main.c:659-669 -/
def hasSuffix (h n : Str) : Bool := if h.length < n.length then false else h.drop (h.length - n.length) == n

/-- the output format main.c:734-784, and what it means for `--dump-stl` vs. `.stl` in `do_file` main.c:328-343; `none` is
the error message -/
def format {D : Type} (o : Opts D) : Option Dump :=
  let d := match o.outFile with
    | none => some o.dump
    | some fn =>
      if o.dump ≠ Dump.none then some o.dump
      else if hasSuffix fn (str ".stl") then some .stl
      else if hasSuffix fn (str ".stb") || hasSuffix fn (str ".stlb") then some .stlb
      else if hasSuffix fn (str ".js") then some .js
      else if hasSuffix fn (str ".scad") || hasSuffix fn (str ".csg") then some .csg2
      else if hasSuffix fn (str ".ps") then some .ps
      else none
  match d with
  | some .stl => if o.preferStlBin then some .stlb else some .stla
  | d => d

end Hob3l.Opt
