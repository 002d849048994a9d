import Verif.Opt.Model
/-!
# What options mean
-/
namespace Hob3l.Opt

/-- all options with their meaning, in the order of the file opt.switch -/
def entries (D : Type) : List (Entry D) := (cases D).flatMap learnCase

/-- an argument with `k + 1` dashes -/
def dashed (k : Nat) (w : Str) : Str := List.replicate (k + 1) dash ++ w

/-- an argument with a value after `=` -/
def withValue (w v : Str) : Str := w ++ equ :: v

/-- the result of an option that used `k` further arguments -/
def Res.used {D : Type} (k : Nat) : Res (Opts D) → Res (Opts D × Nat)
  | .ok o => .ok (o, k)
  | .fail => .fail
  | .help => .help
  | .ub => .ub

/-- the options that switch something on or off, with their opposites -/
def pairs : List (Str × Str) := [
  (str "no-csg", str "csg"), (str "no-tri", str "tri"), (str "no-diff", str "diff"), (str "no-path", str "path"),
  (str "js-no-keep-ctxt", str "js-keep-ctxt"), (str "ps-no-single-page", str "ps-single-page"),
  (str "ps-no-tri", str "ps-tri"), (str "ps-no-path", str "ps-path"), (str "ps-no-mark", str "ps-mark")]

/-- options with a number as value, and where the value is kept -/
def dimOptions (D : Type) : List (Str × (Opts D → D)) := [
  (str "layer-gap", (·.layerGap)), (str "min", (·.zMin)), (str "max", (·.zMax)), (str "step", (·.zStep)),
  (str "grid", (·.grid)), (str "gran", (·.gran)), (str "eps", (·.eps)), (str "eps2", (·.eps2)),
  (str "ps-persp", (·.psPersp)), (str "ps-line-width", (·.psLineWidth))]

/-- options that tell how to treat a problem, and where the treatment is kept -/
def errOptions (D : Type) : List (Str × (Opts D → Err)) := [
  (str "empty", (·.errEmpty)), (str "collapse", (·.errCollapse)), (str "outside-3d", (·.errOutside3d)),
  (str "outside-2d", (·.errOutside2d)), (str "unsupported-functor", (·.errUnsupportedFunctor)),
  (str "unknown-functor", (·.errUnknownFunctor)), (str "unknown-param", (·.errUnknownParam))]

/-- options with a color, and where the color is kept -/
def rgbOptions (D : Type) : List (Str × (Opts D → Rgb)) := [
  (str "ps-color-path", (·.psColorPath)), (str "ps-color-tri", (·.psColorTri)), (str "ps-color-fill", (·.psColorFill)),
  (str "ps-color-vertex", (·.psColorVertex)), (str "ps-color-mark", (·.psColorMark))]

/-- the switches in `pairs`: where the state is kept and its value for the first word -/
def switches (D : Type) : List ((Str × Str) × (Opts D → Bool) × Bool) := [
  ((str "no-csg", str "csg"), (·.noCsg), true), ((str "no-tri", str "tri"), (·.noTri), true),
  ((str "no-diff", str "diff"), (·.noDiff), true), ((str "no-path", str "path"), (·.triAddPath), false),
  ((str "js-no-keep-ctxt", str "js-keep-ctxt"), (·.keepCtxt), false),
  ((str "ps-no-single-page", str "ps-single-page"), (·.psSinglePage), false),
  ((str "ps-no-tri", str "ps-tri"), (·.psNoTri), true), ((str "ps-no-path", str "ps-path"), (·.psNoPath), true),
  ((str "ps-no-mark", str "ps-mark"), (·.psNoMark), true)]

/-- the options that select the output format -/
def dumps : List (Str × Dump) := [
  (str "dump-syn", .syn), (str "dump-scad", .scad), (str "dump-csg3", .csg3), (str "dump-csg2", .csg2),
  (str "dump-ps", .ps), (str "dump-stl", .stla), (str "dump-stlb", .stlb), (str "dump-js", .js)]

/-- the options that may be given several times to accumulate something -/
def accumulating : List Str := [str "v", str "verbose", str "js-group", str "ps-rot-x", str "ps-rot-y", str "ps-rot-z",
  str "ps-scale"]

/-- the documented formats of file endings -/
def endings : List (Str × Dump) := [
  (str ".stl", .stl), (str ".stlb", .stlb), (str ".stb", .stlb), (str ".scad", .csg2), (str ".csg", .csg2),
  (str ".ps", .ps), (str ".js", .js)]

/-- the number written by digits in a base -/
def number (base : Nat) (d : List Nat) : Nat := d.foldl (fun a x => a * base + x) 0

/-- a digit as a character -/
def digitChar (x : Nat) : Nat := if x < 10 then x + 48 else x + 87

end Hob3l.Opt
