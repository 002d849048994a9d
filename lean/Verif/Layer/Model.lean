import Verif.Flatten.Model

/-!
Model of the layer-by-layer processing: `src/hob3l/csg2-tree.c` (a tree of empty stacks is made from the 3D tree),
`src/hob3l/csg2-layer.c` (one layer is cut out of each 3D object), and the loop of `src/hob3l/main.c` that does this for
each layer and reduces the layer to one polygon (`opFlattenLayer` in the model of csg2-bool.c).

Simplifications: the cutting of one object at layer `zi` (csg2_add_layer_poly, csg2_add_layer_sphere) is a parameter of
the object: the number of lines and the point set of the polygon, or `none` if nothing was cut out (see `Slice` for the
cutting).  The link `csg3` of a stack is the object itself.  Triangulation is not modelled: the polygon of the output
layer is represented by its point set.
-/

namespace Hob3l.Layer

open Hob3l.Bitmap Hob3l.Flatten

/-- what `csg2_add_layer_poly`/`csg2_add_layer_sphere` push for a layer (csg2-layer.c:19-48, 50-150) -/
abbrev Solid (P : Type) := Nat → Option (Nat × (P → Bool))

mutual
/-- 3D CSG trees: `cp_csg3_t`; objects, `cp_csg_add_t`, `cp_csg_xor_t`, `cp_csg_sub_t`, `cp_csg_cut_t` -/
inductive Csg3 (P : Type) where
  | obj (o : Solid P)
  | add (xs : Csg3s P)
  | xor (xss : Csg3Adds P)
  | sub (xs ys : Csg3s P)
  | cut (xss : Csg3Adds P)
/-- `cp_v_obj_p_t` -/
inductive Csg3s (P : Type) where
  | nil
  | cons (x : Csg3 P) (xs : Csg3s P)
/-- vector of `cp_csg_add_t *` -/
inductive Csg3Adds (P : Type) where
  | nil
  | cons (x : Csg3s P) (xs : Csg3Adds P)
end

/-- `cp_csg2_layer_t`: `zi` and `root` (`none` = NULL), the latter with the polygons in `root->add` -/
structure Lay (P : Type) where
  zi : Nat
  root : Option (List (Nat × (P → Bool)))

mutual
/-- the tree of stacks: `cp_csg2_t` with `cp_csg2_stack_t` as leaves; `o` is the link `csg3`; `idx0` is always 0 -/
inductive Tree (P : Type) where
  | stack (o : Solid P) (ls : List (Lay P))
  | add (xs : Trees P)
  | xor (xss : TreeAdds P)
  | sub (xs ys : Trees P)
  | cut (xss : TreeAdds P)
inductive Trees (P : Type) where
  | nil
  | cons (x : Tree P) (xs : Trees P)
inductive TreeAdds (P : Type) where
  | nil
  | cons (x : Trees P) (xs : TreeAdds P)
end

section
variable {P : Type}

mutual
/-- `csg2_tree_from_csg3` csg2-tree.c:113-142 with the functions it calls, 40-111; `cnt` = `s->cnt` -/
def fromCsg3 (cnt : Nat) : Csg3 P → Tree P
  | .obj o => .stack o (List.replicate cnt ⟨0, none⟩)
  | .add xs => .add (fromCsg3s cnt xs)
  | .xor xss => .xor (fromCsg3Adds cnt xss)
  | .sub xs ys => .sub (fromCsg3s cnt xs) (fromCsg3s cnt ys)
  | .cut xss => .cut (fromCsg3Adds cnt xss)
/-- `csg2_tree_from_v_csg3` csg2-tree.c:36-47 -/
def fromCsg3s (cnt : Nat) : Csg3s P → Trees P
  | .nil => .nil
  | .cons x xs => .cons (fromCsg3 cnt x) (fromCsg3s cnt xs)
/-- the loops in csg2-tree.c:80-82, 94-96 -/
def fromCsg3Adds (cnt : Nat) : Csg3Adds P → TreeAdds P
  | .nil => .nil
  | .cons x xs => .cons (fromCsg3s cnt x) (fromCsg3Adds cnt xs)
end

/-- csg2-layer.c:233-258: the layer `l` after cutting layer `zi` out of `o`, and whether `*no` is set -/
def sliceLay (zi : Nat) (o : Solid P) (l : Lay P) : Bool × Lay P :=
  let root := l.root.getD [] ++ (o zi).toList
  (0 < root.length, ⟨zi, some root⟩)

/-- `csg2_add_layer_stack` csg2-layer.c:220-260 (`cp_csg2_stack_get_layer` 303-315 with `idx0 = 0`) -/
def addStack (zi : Nat) (o : Solid P) (no : Bool) (ls : List (Lay P)) : Bool × List (Lay P) :=
  match ls[zi]? with
  | none => (no, ls)
  | some l => (no || (sliceLay zi o l).1, ls.set zi (sliceLay zi o l).2)

mutual
/-- `csg2_add_layer` csg2-layer.c:262-298 -/
def addLayer (zi : Nat) (no : Bool) : Tree P → Bool × Tree P
  | .stack o ls => ((addStack zi o no ls).1, .stack o (addStack zi o no ls).2)
  | .add xs => ((addLayers zi no xs).1, .add (addLayers zi no xs).2)
  | .xor xss => ((addLayerAdds zi no xss).1, .xor (addLayerAdds zi no xss).2)
  | .sub xs ys =>
    /- `csg2_add_layer_sub` csg2-layer.c:178-192 -/
    if (addLayers zi false xs).1 then
      ((addLayers zi true ys).1, .sub (addLayers zi false xs).2 (addLayers zi true ys).2)
    else (no, .sub (addLayers zi false xs).2 ys)
  | .cut xss => ((addLayerAdds zi no xss).1, .cut (addLayerAdds zi no xss).2)
/-- `csg2_add_layer_v` csg2-layer.c:156-166 -/
def addLayers (zi : Nat) (no : Bool) : Trees P → Bool × Trees P
  | .nil => (no, .nil)
  | .cons x xs =>
    ((addLayers zi (addLayer zi no x).1 xs).1, .cons (addLayer zi no x).2 (addLayers zi (addLayer zi no x).1 xs).2)
/-- `csg2_add_layer_cut`, `csg2_add_layer_xor` csg2-layer.c:194-218 -/
def addLayerAdds (zi : Nat) (no : Bool) : TreeAdds P → Bool × TreeAdds P
  | .nil => (no, .nil)
  | .cons x xs =>
    ((addLayerAdds zi (addLayers zi no x).1 xs).1,
     .cons (addLayers zi no x).2 (addLayerAdds zi (addLayers zi no x).1 xs).2)
end

/-- `cp_csg2_tree_add_layer` csg2-layer.c:328-338; `n` = `r->z.size`, the tree is the root's list -/
def treeAddLayer (n zi : Nat) (t : Trees P) : Option (Trees P) := do
  ass (zi < n)
  some (addLayers zi false t).2

/-- the polygons of a layer as seen by csg2-bool.c -/
def toCsgs : List (Nat × (P → Bool)) → Csgs P
  | [] => .nil
  | (n, r) :: l => .cons (.vline2 n r) (toCsgs l)

/-- the layers of a stack as seen by csg2-bool.c -/
def toLayers : List (Lay P) → Layers P
  | [] => .nil
  | ⟨zi, none⟩ :: ls => .unset zi (toLayers ls)
  | ⟨zi, some root⟩ :: ls => .layer zi (toCsgs root) (toLayers ls)

mutual
/-- the tree as seen by csg2-bool.c -/
def toCsg : Tree P → Csg P
  | .stack _ ls => .stack 0 (toLayers ls)
  | .add xs => .add (toCsgsT xs)
  | .xor xss => .xor (toAdds xss)
  | .sub xs ys => .sub (toCsgsT xs) (toCsgsT ys)
  | .cut xss => .cut (toAdds xss)
def toCsgsT : Trees P → Csgs P
  | .nil => .nil
  | .cons x xs => .cons (toCsg x) (toCsgsT xs)
def toAdds : TreeAdds P → CsgAdds P
  | .nil => .nil
  | .cons x xs => .cons (toCsgsT x) (toAdds xs)
end

/-- The loop of `process_stack_csg` main.c:82-123: for the layers `zi, zi+1, …` (`k` of them).  `n` is the number of
layers of the tree.  The result are the output layers (`none` = no polygon) for these. -/
def process (opt : Opt) (sw : Sweep P) (n : Nat) : Nat → Nat → Trees P → Option (List (Option (P → Bool)))
  | 0, _, _ => some []
  | k + 1, zi, t => do
    let t ← treeAddLayer n zi t
    let o ← opFlattenLayer opt sw zi (.add (toCsgsT t))
    let os ← process opt sw n k (zi + 1) t
    some (o :: os)

/-- stage 4 of `do_file` main.c:299-325: the layers of a 3D tree -/
def layers (opt : Opt) (sw : Sweep P) (cnt : Nat) (t : Csg3s P) : Option (List (Option (P → Bool))) :=
  process opt sw cnt cnt 0 (fromCsg3s cnt t)

end

end Hob3l.Layer
