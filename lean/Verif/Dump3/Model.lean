import Verif.Args.DumpModel
import Verif.Scad.Model
/-!
# Printing the tree of 3D objects: src/hob3l/csg3-2scad.c (option `--dump-csg3`)

As in `Verif/Args/DumpModel.lean`, format strings are given by the syntax tree of what they print (`putList`, `objArgs`).
-/
namespace Hob3l.Dump3

open Hob3l.Syn (Text txt Value Arg indent)
open Hob3l.Args

variable {F : Type} [Flt F]

/-- `cp_csg3_t` (include/hob3l/csg3_tam.h, csg_tam.h): `cp_csg3_sphere_t` with the rows of `mat->n`, `_fn`, `gc.modifier`;
`cp_csg3_poly_t` with points, faces (as indices: `cp_v_idx`), `gc.modifier`; differences, intersections, and `xor`. -/
inductive Csg3 (F : Type) where
  | sphere (rows : List (List F)) (fn mods : Nat)
  | poly (points : List (List F)) (faces : List (List Nat)) (mods : Nat)
  | sub (a b : List (Csg3 F))
  | cut (l : List (List (Csg3 F)))
  | xor (l : List (List (Csg3 F)))

/-- csg3-2scad.c:41: `r=1,center=true,$fn=%zu` -/
def sphereArgs (fn : Nat) : List Arg := [key "r" (.int 1), key "center" (word true), key "$fn" (.int fn)]

/-- the arguments of a call; between them is a comma -/
def call (name : String) (args : List Arg) : Text := txt name ++ txt "(" ++ putList (txt ",") true args ++ txt ")"

/-- a block: `name(){`, the content, `}` -/
def block (d : Nat) (name : String) (content : Text) : Text :=
  indent d ++ (txt name ++ (txt "(){\n" ++ (content ++ (indent d ++ txt "}\n"))))

/-- a line of comment -/
def comment (d : Nat) (s : String) : Text := indent d ++ (txt "// " ++ (txt s ++ txt "\n"))

/-- `union_put_scad` csg3-2scad.c:45-57; `n` is the number of elements, `v` prints them -/
def putUnion (n d : Nat) (v : Nat → Text) : Text := if n = 1 then v d else block d "union" (v (d + 2))

mutual
/-- `csg3_put_scad` csg3-2scad.c:121-154 -/
def put (pr : Printf F) (d : Nat) : Csg3 F → Text
  /- `sphere_put_scad`, `mat3wi_put_scad` csg3-2scad.c:17-43 -/
  | .sphere rows fn m =>
    indent d ++ (putMods m ++ (call "multmatrix" (objArgs pr (.multmatrix rows)) ++
      (txt " " ++ (call "sphere" (sphereArgs fn) ++ txt ";\n"))))
  /- `poly_put_scad` csg3-2scad.c:95-119 -/
  | .poly points faces m =>
    indent d ++ (putMods m ++ (call "polyhedron" (objArgs pr (.polyhedron points faces)) ++ txt ";\n"))
  /- `sub_put_scad` csg3-2scad.c:59-70 -/
  | .sub a b =>
    block d "difference" (comment (d + 2) "add" ++ (putUnion a.length (d + 2) (fun d => putV pr d a) ++
      (comment (d + 2) "sub" ++ putV pr (d + 2) b)))
  /- `cut_put_scad` csg3-2scad.c:84-93 -/
  | .cut l => block d "intersection" (putAdds pr (d + 2) l)
  /- `xor_put_scad` csg3-2scad.c:72-82 -/
  | .xor l => block d "hob3l_xor" (putAdds pr (d + 2) l)

/-- `v_csg3_put_scad` csg3-2scad.c:156-164 -/
def putV (pr : Printf F) (d : Nat) : List (Csg3 F) → Text
  | [] => []
  | c :: l => put pr d c ++ putV pr d l

/-- the loops csg3-2scad.c:78-80, 90-92 -/
def putAdds (pr : Printf F) (d : Nat) : List (List (Csg3 F)) → Text
  | [] => []
  | a :: l => putUnion a.length d (fun d => putV pr d a) ++ putAdds pr d l
end

/-- `cp_csg3_tree_put_scad` csg3-2scad.c:169-180 -/
def dump3 (pr : Printf F) (l : List (Csg3 F)) : Text := putV pr 0 l

/-! ### reading the objects -/

/-- the basic objects: balls with radius and `$fn`, solids with points and faces -/
inductive Geo (F : Type) where
  | ball (r : F) (fn : Nat)
  | solid (points : List (List F)) (faces : List (List Nat))
  | other

open Hob3l.Scad (Scad Csg)

variable {M : Type}

/-- An object as seen by the conversion `Hob3l.Scad.conv` (`csg3_from_scad` csg3.c:2126-2270), with its children; `none` is an
error (the default of `--empty`).  `mat` is the matrix for the rows of multmatrix() (csg3.c:391-420), `dup` is the check for
duplicate points of a polyhedron (csg3.c:860-872).  Objects that are not in a dump are not distinguished. -/
def scadObj (mat : List (List F) → M) (dup : List (List F) → Bool) (obj : Obj F) (child : Option (List (Scad (Geo F) M))) :
    Option (Scad (Geo F) M) :=
  match obj with
  | .union => child.map .union
  | .difference => child.map .diff
  | .intersection => child.map .inter
  | .multmatrix rows => child.map (.xform (mat rows))
  | .sphere r d => some (.obj (.ball r d.fn))
  | .polyhedron points faces =>
    /- csg3.c:846-872 -/
    if points.length < 4 ∨ faces.length < 4 ∨ dup points = true then none else some (.obj (.solid points faces))
  | _ => some (.obj .other)

mutual
/-- the tree as seen by the conversion; `CP_GC_MOD_IGNORE` is bit 1 (include/hob3l/gc_tam.h:16), csg3.c:2142 -/
def scadOf (mat : List (List F) → M) (dup : List (List F) → Bool) : Args.Tree F → Option (Scad (Geo F) M)
  | .mk _ obj m child =>
    if m.testBit 1 then some (.ignored (.union [])) else scadObj mat dup obj (scadOfs mat dup child)

def scadOfs (mat : List (List F) → M) (dup : List (List F) → Bool) : List (Args.Tree F) → Option (List (Scad (Geo F) M))
  | [] => some []
  | t :: l =>
    match scadOf mat dup t, scadOfs mat dup l with
    | some a, some b => some (a :: b)
    | _, _ => none
end

end Hob3l.Dump3
