import Verif.Matq.Model

/-!
Model of the conversion of a SCAD tree into a CSG tree: `src/hob3l/csg3.c`, the part that deals with unions, differences,
intersections, transformations, and disabled subtrees.

`O` are the basic objects, `M` are the transformation matrices with their product.  Simplifications: a basic object (cube,
sphere, extrusion, …) is converted into exactly one leaf that refers to it and to the matrix (`obj`), or into nothing
(`hollow`: an object without extent, if this is not configured to be an error); colours and modifiers that do not disable
are not modelled; nor is the search for a root (`search_root == NULL`); transformations are invertible (others are rejected
by `good_scale`, `cp_mat3wi_from_mat3w`).  Errors in children are not modelled, so that the only failure (`none`) is the one
of the assertion csg3.c:259.
-/

namespace Hob3l.Scad

open Hob3l.Matq

/-- `cp_scad_t` include/hob3l/scad_tam.h -/
inductive Scad (O M : Type) where
  /-- a basic object -/
  | obj (o : O)
  /-- a basic object without extent -/
  | hollow
  /-- a subtree with a modifier that disables it (`CP_GC_MOD_IGNORE`) -/
  | ignored (s : Scad O M)
  | union (l : List (Scad O M))
  | diff (l : List (Scad O M))
  | inter (l : List (Scad O M))
  /-- `translate`, `mirror`, `scale`, `rotate`, `multmatrix` -/
  | xform (t : M) (l : List (Scad O M))

/-- `cp_csg3_t`: objects, `cp_csg_sub_t`, `cp_csg_cut_t` -/
inductive Csg (O M : Type) where
  | leaf (o : O) (m : M)
  | sub (a b : List (Csg O M))
  | cut (l : List (List (Csg O M)))
  deriving Repr

variable {O M : Type}

/-- a conversion, with the in/out parameters `*no` and `*r` -/
abbrev Conv (O M : Type) := Bool × List (Csg O M) → Option (Bool × List (Csg O M))

/-- `csg3_from_v_scad` csg3.c:97-111, `csg3_from_rec` 113-121 -/
def fromV : List (Conv O M) → Conv O M
  | [], st => some st
  | c :: cs, st => do
    let st ← c st
    fromV cs st

/-- the loop of `csg3_from_difference` csg3.c:148-156: `add_no`, `f`, and the children that were not visited -/
def diffHead : List (Conv O M) → Bool → List (Csg O M) → Option (Bool × List (Csg O M) × List (Conv O M))
  | [], addNo, f => some (addNo, f, [])
  | c :: cs, addNo, f =>
    if addNo = false then do
      let st ← c (addNo, f)
      diffHead cs st.1 st.2
    else some (addNo, f, c :: cs)

/-- csg3.c:166-216: the rest of `csg3_from_difference` with the positive part `f` and the other children -/
def diffTail (f : List (Csg O M)) (rest : List (Conv O M)) (no : Bool) (r : List (Csg O M)) :
    Option (Bool × List (Csg O M)) :=
  match f with
  | [] => some (no, r)
  | [.sub a b] => do
    let st ← fromV rest (no, b)
    some (st.1, r ++ [.sub a st.2])
  | f => do
    let st ← fromV rest (no, [])
    if st.2.length = 0 then some (st.1, r ++ f) else some (st.1, r ++ [.sub f st.2])

/-- `csg3_from_difference` csg3.c:123-216 -/
def fromDiff (l : List (Conv O M)) : Conv O M := fun st => do
  let h ← diffHead l false []
  diffTail h.2.1 h.2.2 (if h.1 then true else st.1) st.2

/-- `csg3_cut_push_add` csg3.c:218-231 -/
def cutPush (cut : List (List (Csg O M))) (add : List (Csg O M)) : List (List (Csg O M)) :=
  if add.length > 0 then cut ++ [add] else cut

/-- the loop of `csg3_from_intersection` csg3.c:244-250: `*no`, `cut`, `add` -/
def interLoop : List (Conv O M) → Bool → List (List (Csg O M)) → List (Csg O M) →
    Option (Bool × List (List (Csg O M)) × List (Csg O M))
  | [], no, cut, add => some (no, cut, add)
  | c :: cs, no, cut, add => do
    let cut' := cutPush cut add
    let st ← c (no, if add.length > 0 then [] else add)
    interLoop cs st.1 cut' st.2

/-- `csg3_from_intersection` csg3.c:233-267 -/
def fromInter (l : List (Conv O M)) : Conv O M := fun st => do
  let h ← interLoop l st.1 [] []
  if h.2.1.length = 0 then some (h.1, st.2 ++ h.2.2)
  else do
    let cut := cutPush h.2.1 h.2.2
    ass (cut.length ≥ 2)
    some (h.1, st.2 ++ [.cut cut])

mutual
/-- `csg3_from_scad` csg3.c:2100-2270; `m` is the matrix `mo->mat`; transformations 268-420 (`cp_mat3wi_mul(m1, mo->mat, m1)`)
-/
def conv [Mul M] (m : M) : Scad O M → Conv O M
  | .obj o => fun st => some (true, st.2 ++ [.leaf o m])
  | .hollow => fun st => some (true, st.2)
  | .ignored _ => fun st => some st
  | .union l => fromV (convs m l)
  | .diff l => fromDiff (convs m l)
  | .inter l => fromInter (convs m l)
  | .xform t l => fromV (convs (m * t) l)
/-- the conversions of children -/
def convs [Mul M] (m : M) : List (Scad O M) → List (Conv O M)
  | [] => []
  | s :: l => conv m s :: convs m l
end

/-- `cp_csg3_from_v_scad` csg3.c:2296-2320: the toplevel -/
def convTop [Mul M] [One M] (l : List (Scad O M)) : Option (List (Csg O M)) :=
  (fromV (convs 1 l) (false, [])).map Prod.snd

end Hob3l.Scad
