import Mathlib.Algebra.Order.Group.Abs
import Mathlib.Algebra.Order.Ring.Rat
import Verif.Opt.Model

/-!
# The run of the program

`main` behind the loop over the arguments: the adjustment of the options, opening of the output file, and the order of the
stages in `do_file` (src/hob3l/main.c).

The stages are abstract functions that may look at all files, because the input may include or import other files; the
options are fixed, so they are not parameters of the stages.  A stage that fails is `none`; the text on stderr is not
modelled, nor is an assertion that fails inside a stage.  Files are named by strings: two names of the same file (links) are
not modelled, and the disk is never full.  What is written is seen in the file after `fclose` or `exit`.
-/
namespace Hob3l.Main

open Hob3l.Opt (Str Opts Dump)

/-- the contents of the files; `none` is a file that does not exist -/
abbrev Files := Str → Option Str

/-- the file `n` gets the contents `t` -/
def Files.set (F : Files) (n t : Str) : Files := fun m => if m = n then some t else F m

/-- the stages of `do_file` main.c:187-345 for the options that are set: `parse` is `cp_syn_parse`, given the name and the
contents of the file, `scad` is `cp_scad_from_syn_tree`, `csg3` is `cp_csg3_from_scad_tree`, `csg2` is everything from
`auto_dim_scale` to `process_stack_csg`, and the others are the functions that print -/
structure Stages where
  Syn : Type
  Scad : Type
  Csg3 : Type
  Csg2 : Type
  parse : Files → Str → Str → Option Syn
  scad : Files → Syn → Option Scad
  csg3 : Files → Scad → Option Csg3
  csg2 : Csg3 → Option Csg2
  putSyn : Syn → Str
  putScad : Scad → Str
  putCsg3 : Csg3 → Str
  /-- `cp_csg2_tree_put_scad`, `..._put_stl`, `..._put_js`, `..._put_ps` -/
  putCsg2 : Dump → Csg3 → Csg2 → Str

/-- the last `switch` of `do_file` main.c:309-376; `DUMP_STL` has been resolved in `Opt.format` -/
def print (P : Stages) (d : Dump) (c3 : P.Csg3) (c2 : P.Csg2) : Str :=
  match d with
  | .csg2 => P.putCsg2 .csg2 c3 c2
  | .stla => P.putCsg2 .stla c3 c2
  | .stlb => P.putCsg2 .stlb c3 c2
  | .js => P.putCsg2 .js c3 c2
  | .ps => P.putCsg2 .ps c3 c2
  | _ => []

/-- `do_file` main.c:187-377: what is printed, or `none` for an error -/
def doFile (P : Stages) (F : Files) (fn : Str) (d : Dump) : Option Str :=
  match F fn with
  | none => none
  | some text =>
    match P.parse F fn text with
    | none => none
    | some r =>
      if d = .syn then some (P.putSyn r)
      else match P.scad F r with
        | none => none
        | some s =>
          if d = .scad then some (P.putScad s)
          else match P.csg3 F s with
            | none => none
            | some c3 =>
              if d = .csg3 then some (P.putCsg3 c3)
              else match P.csg2 c3 with
                | none => none
                | some c2 => some (print P d c3 c2)

/-- how the program ends: `exit(EXIT_SUCCESS)`, `exit(EXIT_FAILURE)`, or undefined behaviour -/
inductive Exit where
  | success | failure | undef
  deriving DecidableEq

/-- after the run: the files, what has been written to stdout, and the end -/
structure Done where
  files : Files
  stdout : Str
  exit : Exit

/-- the part of `main` from main.c:735: `can` are the names that can be opened for writing.  Without an input file, the name is
`NULL` and is passed to `printf` for `%s` syn.c:985, which is undefined.  In the code the output file is open while `do_file`
runs: it has been emptied, and what is printed is printed at the end only. -/
def run {D : Type} (P : Stages) (can : Str → Bool) (F : Files) (o : Opts D) (inFile : Option Str) : Done :=
  match o.outFile with
  | some w =>
    if can w then
      let F1 := F.set w []
      match Opt.format o with
      | none => ⟨F1, [], .failure⟩
      | some d =>
        match inFile with
        | none => ⟨F1, [], .undef⟩
        | some fn =>
          match doFile P F1 fn d with
          | none => ⟨F1, [], .failure⟩
          | some t => ⟨F1.set w t, [], .success⟩
    else ⟨F, [], .failure⟩
  | none =>
    match Opt.format o with
    | none => ⟨F, [], .failure⟩
    | some d =>
      match inFile with
      | none => ⟨F, [], .undef⟩
      | some fn =>
        match doFile P F fn d with
        | none => ⟨F, [], .failure⟩
        | some t => ⟨F, t, .success⟩

/-- `cp_eq` include/hob3lmat/algo.h:78,89 -/
def eq (eps a b : ℚ) : Bool := |a - b| < eps

/-- `1.0 / x`; `none` is infinity -/
def recip (x : ℚ) : Option ℚ := if x = 0 then none else some (1 / x)

/-- main.c:708-711: `cq_dim_scale` after the options have been read; `none` is infinity -/
def scale (o : Opts ℚ) : Option ℚ := if eq o.eps o.gran 0 then some o.grid else recip o.gran

/-- main.c:712-714: `cp_sqr_epsilon` after the options have been read -/
def eps2 (o : Opts ℚ) : ℚ := if o.eps2 > o.eps then o.eps else o.eps2

end Hob3l.Main
