import Verif.Scad.Model
import Verif.Layer.Model

/-!
The stages of `do_file` (src/hob3l/main.c:214-330) from the SCAD tree to the polygons of the layers: the conversion to a
3D CSG tree (`Scad`), the tree of stacks and the processing layer by layer (`Layer`, `Flatten`).

`sl o m` is what the cutting of the object `o` under the matrix `m` gives for each layer.
-/

namespace Hob3l.Whole

open Hob3l.Flatten Hob3l.Layer

section
variable {O M P : Type}

mutual
/-- the 3D tree as input for `cp_csg2_tree_from_csg3` -/
def toCsg3 (sl : O → M → Solid P) : Scad.Csg O M → Csg3 P
  | .leaf o m => .obj (sl o m)
  | .sub a b => .sub (toCsg3s sl a) (toCsg3s sl b)
  | .cut l => .cut (toCsg3Adds sl l)
def toCsg3s (sl : O → M → Solid P) : List (Scad.Csg O M) → Csg3s P
  | [] => .nil
  | x :: xs => .cons (toCsg3 sl x) (toCsg3s sl xs)
def toCsg3Adds (sl : O → M → Solid P) : List (List (Scad.Csg O M)) → Csg3Adds P
  | [] => .nil
  | x :: xs => .cons (toCsg3s sl x) (toCsg3Adds sl xs)
end

/-- stages 3 and 4 of `do_file` main.c:250-325 -/
def run [Mul M] [One M] (opt : Opt) (sw : Sweep P) (sl : O → M → Solid P) (cnt : Nat) (l : List (Scad.Scad O M)) :
    Option (List (Option (P → Bool))) := do
  let r ← Scad.convTop l
  layers opt sw cnt (toCsg3s sl r)

end

end Hob3l.Whole
