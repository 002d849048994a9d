import Verif.Args.Model
import Verif.Syn.PrintModel
/-!
# Printing the tree of SCAD objects: src/hob3l/scad-2scad.c (option `--dump-scad`)

The format strings are given by the syntax tree of what they print: `.float t` stands for the number with text `t`, and
`putValue id` (`Verif/Syn/PrintModel.lean`) writes it out, without blanks.  The blanks and line ends of the format strings are
in `lead`, `sep` and `opening`.
-/
namespace Hob3l.Args

open Hob3l.Syn (Text txt Value Arg indent putArg)

variable {F : Type} [Flt F]

/-- What `printf` prints; the C library is not modelled. -/
structure Printf (F : Type) where
  /-- `FF`, i.e. `%.16g`, include/hob3ldef/def-float.h:34 -/
  ff : F → Text
  /-- `%g` -/
  gg : F → Text
  /-- `%.3g` for a colour component divided by 255.0 -/
  cc : Nat → Text

/-- `key=value` -/
def key (k : String) (v : Value) : Arg := ⟨some (txt k), v⟩

/-- `b ? "true" : "false"` -/
def word (b : Bool) : Value := .id (txt (if b then "true" else "false"))

/-- numbers in brackets -/
def nums (ff : F → Text) (l : List F) : Value := .arr (l.map fun x => .float (ff x))

/-- indices in brackets, scad-2scad.c:258-264, :289-295; `%zu` -/
def nats (l : List Nat) : Value := .arr (l.map fun (i : Nat) => .int i)

/-- `$fn=%u, $fa=%g, $fs=%g` -/
def detailArgs (pr : Printf F) (d : Detail F) : List Arg :=
  [key "$fn" (.int d.fn), key "$fa" (.float (pr.gg d.fa)), key "$fs" (.float (pr.gg d.fs))]

/-- `%s` for a string that may be NULL -/
def strOf (s : Option Text) : Value := .str (s.getD (txt "(null)"))

/-- the names that are printed -/
def objName : Obj F → String
  | .union => "union"
  | .difference => "difference"
  | .intersection => "intersection"
  | .hull => "hull"
  | .multmatrix _ => "multmatrix"
  | .translate _ => "translate"
  | .mirror _ => "mirror"
  | .scale _ => "scale"
  | .rotate .. => "rotate"
  | .color _ => "color"
  | .linext .. => "linear_extrude"
  | .rotext .. => "rotate_extrude"
  | .projection _ => "projection"
  | .sphere .. => "sphere"
  | .circle .. => "circle"
  | .cube .. => "cube"
  | .square .. => "square"
  | .cylinder .. => "cylinder"
  | .polyhedron .. => "polyhedron"
  | .polygon .. => "polygon"
  | .import_ .. => "import"
  | .surface .. => "surface"
  | .text .. => "text"

/-- the arguments that are printed -/
def objArgs (pr : Printf F) : Obj F → List Arg
  /- `combine_put_scad` scad-2scad.c:16-25, `hull_put_scad` :90-98 -/
  | .union | .difference | .intersection | .hull => []
  /- `multmatrix_put_scad` scad-2scad.c:178-197 -/
  | .multmatrix rows =>
    [key "m" (.arr (rows.map (nums pr.ff) ++ [.arr [.int 0, .int 0, .int 0, .int 1]]))]
  /- `xyz_put_scad` scad-2scad.c:27-61 -/
  | .translate v | .mirror v | .scale v => [key "v" (nums pr.ff v)]
  /- `rotate_put_scad` scad-2scad.c:160-176 -/
  | .rotate around n a =>
    if around then [key "a" (.float (pr.ff a)), key "v" (nums pr.ff n)] else [key "a" (nums pr.ff n)]
  /- `color_put_scad` scad-2scad.c:100-119; the alpha of a colour that is not valid is not in the model of the object: it is
  taken to be 255 -/
  | .color (some c) => [key "c" (.arr (c.map fun n => .float (pr.cc n)))]
  | .color none => [key "alpha" (.float (pr.cc 255))]
  /- `linext_put_scad` scad-2scad.c:63-77 -/
  | .linext height twist scale slices center detail =>
    [key "height" (.float (pr.ff height)), key "scale" (nums pr.ff scale), key "twist" (.float (pr.ff twist)),
      key "slices" (.int slices), key "center" (word center)] ++ detailArgs pr detail
  /- `rotext_put_scad` scad-2scad.c:79-88 -/
  | .rotext angle detail => key "angle" (.float (pr.gg angle)) :: detailArgs pr detail
  /- `projection_put_scad` scad-2scad.c:150-158 -/
  | .projection cut => [key "cut" (word cut)]
  /- `sphere_put_scad`, `circle_put_scad` scad-2scad.c:199-219 -/
  | .sphere r detail | .circle r detail => key "r" (.float (pr.ff r)) :: detailArgs pr detail
  /- `cube_put_scad`, `square_put_scad` scad-2scad.c:234-246 -/
  | .cube size center | .square size center => [key "size" (nums pr.ff size), key "center" (word center)]
  /- `cylinder_put_scad` scad-2scad.c:221-232 -/
  | .cylinder h r1 r2 center detail =>
    [key "h" (.float (pr.ff h)), key "r1" (.float (pr.ff r1)), key "r2" (.float (pr.ff r2)), key "center" (word center)] ++
      detailArgs pr detail
  /- `polyhedron_put_scad` scad-2scad.c:248-275 -/
  | .polyhedron points faces => [key "points" (.arr (points.map (nums pr.ff))), key "faces" (.arr (faces.map nats))]
  /- `polygon_put_scad` scad-2scad.c:277-304 -/
  | .polygon points paths => [key "points" (.arr (points.map (nums pr.ff))), key "paths" (.arr (paths.map nats))]
  /- `import_put_scad` scad-2scad.c:121-129; `file_tok` is the file name as it was in the input, before backslashes were
  replaced: here, the file name has none -/
  | .import_ file _ _ _ _ detail => key "s" (.str file) :: detailArgs pr detail
  /- `surface_put_scad` scad-2scad.c:131-136 -/
  | .surface file center => [key "s" (.str file), key "center" (word center)]
  /- `text_put_scad` scad-2scad.c:138-148; `detail` is all 0: it is never set, scad.c:1511-1548 -/
  | .text text size font halign valign direction language script spacing _ =>
    [key "text" (strOf text), key "size" (.float (pr.gg size)), key "font" (strOf font), key "halign" (strOf halign),
      key "valign" (strOf valign), key "spacing" (.float (pr.gg spacing)), key "direction" (strOf direction),
      key "language" (strOf language), key "script" (strOf script)] ++ detailArgs pr ⟨0, con 0, con 0⟩

/-- whether the function prints the children -/
def hasBody : Obj F → Bool
  | .sphere .. | .circle .. | .cube .. | .square .. | .cylinder .. | .polyhedron .. | .polygon .. | .import_ .. | .surface ..
  | .text .. => false
  | _ => true

/-- what is printed in front of the first argument -/
def lead (d : Nat) : Obj F → Text
  | .polyhedron .. | .polygon .. => txt "\n" ++ indent (d + 2)
  | _ => []

/-- what is printed between arguments -/
def sep (d : Nat) : Obj F → Text
  | .polyhedron .. | .polygon .. => txt ",\n" ++ indent (d + 2)
  | .surface .. | .text .. => txt ","
  | _ => txt ", "

/-- what is printed behind `)` if there are children -/
def opening : Obj F → Text
  | .multmatrix _ => txt " {\n"
  | _ => txt "{\n"

/-- the arguments with what is between them; `first`: there is none before -/
def putList (sep : Text) : Bool → List Arg → Text
  | _, [] => []
  | first, a :: l => (if first then [] else sep) ++ putArg id a ++ putList sep false l

/-- `cp_gc_modifier_put_scad` src/hob3l/gc.c:15-31 -/
def putMods (m : Nat) : Text :=
  (if m &&& 0x11 = 0x11 then txt "#" else []) ++
  ((if m &&& 0x23 = 0x23 then txt "%" else []) ++
  ((if m &&& 0x82 = 0x82 then txt "*" else []) ++
  (if m &&& 0x44 = 0x44 then txt "!" else [])))

mutual

/-- `scad_put_scad` scad-2scad.c:306-407; `IND` is 2 -/
def putScad (pr : Printf F) (d : Nat) : Tree F → Text
  | .mk _ obj m child =>
    indent d ++ putMods m ++ txt (objName obj) ++ txt "(" ++ lead d obj ++ putList (sep d obj) true (objArgs pr obj) ++ txt ")" ++
    (if hasBody obj then opening obj ++ putScads pr (d + 2) child ++ indent d ++ txt "}\n" else txt ";\n")

/-- `v_scad_put_scad` scad-2scad.c:409-417 -/
def putScads (pr : Printf F) (d : Nat) : List (Tree F) → Text
  | [] => []
  | t :: l => putScad pr d t ++ putScads pr d l

end

/-- `cp_scad_tree_put_scad` scad-2scad.c:422-427 -/
def dump (pr : Printf F) (l : List (Tree F)) : Text := putScads pr 0 l

end Hob3l.Args
