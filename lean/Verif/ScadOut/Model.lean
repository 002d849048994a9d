import Verif.Dump3.Model
import Mathlib.Algebra.Order.Field.Basic
/-!
# The SCAD output of the layers: src/hob3l/csg2-2scad.c

As in `Verif/Args/DumpModel.lean`, format strings are given by the syntax tree of what they print.  Numbers are an ordered field: rounding
of `thick - gap` is not modelled.
-/
namespace Hob3l.ScadOut

open Hob3l.Syn (Text txt Value Arg indent)
open Hob3l.Args
open Hob3l.Dump3 (call block)

variable {F : Type} [Flt F] [Field F] [LinearOrder F]

/-- `cp_csg2_poly_t`: points, paths, triangles -/
structure Poly (F : Type) where
  points : List (List F)
  paths : List (List Nat)
  tri : List (Nat × Nat × Nat)

/-- `cp_csg2_layer_t`: `zi`, and `root->add` (empty if `root` is NULL).  Other objects than polygons are not modelled: the boolean operations
make one polygon for each layer (csg2-bool.c:519-538). -/
structure Layer (F : Type) where
  zi : Nat
  polys : List (Poly F)

/-- `cp_csg2_tree_t` with the `cp_csg2_stack_t` in `root` (csg2-bool.c:641-660), `idx0` of which is 0 -/
structure Tree2 (F : Type) where
  thick : F
  gap : F
  z : List F
  layers : List (Layer F)

/-- `layer_gap` csg2-2scad.c:25-28 -/
def layerGap (x : F) : F := if Flt.eq x (con (-1)) then 0 else x

/-- `cp_monus` include/hob3lbase/arith.h:115-118 -/
def monus (a b : F) : F := if b < a then a - b else 0

/-- the height of a layer, csg2-2scad.c:38-40; `cp_csg2_layer_thickness` csg2-layer.c:344-350 -/
def height (t : Tree2 F) : F := monus t.thick (layerGap t.gap)

/-- csg2-2scad.c:39 -/
def extrudeArgs (pr : Printf F) (h : F) : List Arg :=
  [key "height" (.float (pr.ff h)), key "center" (.int 0), key "convexity" (.int 2), key "twist" (.int 0)]

/-- the paths that are printed, csg2-2scad.c:51-68 -/
def printed (p : Poly F) : List (List Nat) :=
  if p.tri.length > 0 then p.tri.map (fun f => [f.1, f.2.1, f.2.2]) else p.paths

/-- `poly_put_scad` csg2-2scad.c:30-71 -/
def putPoly (pr : Printf F) (t : Tree2 F) (d : Nat) (p : Poly F) : Text :=
  indent d ++ (call "linear_extrude" (extrudeArgs pr (height t)) ++
    (call "polygon" (objArgs pr (.polygon p.points (printed p))) ++ txt ";\n"))

/-- `v_csg2_put_scad` csg2-2scad.c:213-223 -/
def putPolys (pr : Printf F) (t : Tree2 F) (d : Nat) (l : List (Poly F)) : Text := (l.map (putPoly pr t d)).flatten

/-- csg2-2scad.c:147 -/
def moveArgs (pr : Printf F) (z : F) : List Arg := [⟨none, .arr [.int 0, .int 0, .float (pr.ff z)]⟩]

/-- `layer_put_scad` csg2-2scad.c:129-153; `none` is a failed assertion, or an access outside of the array -/
def putLayer (pr : Printf F) (t : Tree2 F) (d zi : Nat) (r : Layer F) : Option Text :=
  if r.polys.length = 0 then some []
  else if zi ≠ r.zi then none
  else
    match t.z[r.zi]? with
    | none => none
    | some z =>
      some (indent d ++ (call "translate" (moveArgs pr z) ++ (txt " {\n" ++ (putPolys pr t (d + 2) r.polys ++
        (indent d ++ txt "}\n")))))

/-- the loop csg2-2scad.c:166-168 -/
def putLayers (pr : Printf F) (t : Tree2 F) (d : Nat) : Nat → List (Layer F) → Option Text
  | _, [] => some []
  | i, r :: l =>
    match putLayer pr t d i r, putLayers pr t d (i + 1) l with
    | some a, some b => some (a ++ b)
    | _, _ => none

/-- `cp_csg2_tree_put_scad`, `stack_put_scad` csg2-2scad.c:155-172, 240-247 -/
def putTree (pr : Printf F) (t : Tree2 F) : Option Text :=
  if t.layers.length = 0 then some []
  else (putLayers pr t 2 0 t.layers).map (block 0 "group")

end Hob3l.ScadOut
