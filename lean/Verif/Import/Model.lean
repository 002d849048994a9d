import Verif.Stl.Model

/-!
`import`: the name of the file, the choice of the format, and the solid (src/hob3l/csg3.c `csg3_from_import`, src/hob3l/syn.c
`read_file`).

A file is the list of its bytes.  The reader of STL files is that of `Verif.Stl.Model`; the readers of XML and SVG (see
`Verif.Xml.Model` and `Verif.Svg.Model`) are abstract here.  Names are those of systems other than Windows; locations, colours and
read errors are left out.
-/

namespace Hob3l.Import

abbrev Str := List Nat

/-- `is_path_sep` syn.c:931-943 -/
def isSep (c : Nat) : Bool := c == 0x2f

/-- `is_absolute` syn.c:945-957 -/
def isAbsolute (fn : Str) : Bool :=
  match fn with
  | [] => false
  | c :: _ => isSep c

/-- the loop syn.c:981-983: remove characters from the end up to a separator -/
def dirOf (name : Str) : Str := (name.reverse.dropWhile fun c => !isSep c).reverse

/-- the name of the file that is opened, syn.c:969-989; `inc` is the name of the file with the `import` -/
def resolve (inc fn : Str) : Str := if isAbsolute fn then fn else dirOf inc ++ fn

/-- `strpref` include/hob3lbase/base-def.h:73-77 is not 0; the prefix has no NUL -/
def pref (h n : Str) : Bool := n.isPrefixOf h

/-- `CP_UTF8_BOM` include/hob3lbase/utf8_tam.h:11 -/
def bom : Str := [0xef, 0xbb, 0xbf]

/-- csg3.c:911-914: is it some XML format? -/
def isXml (file : Str) : Bool :=
  let cd := if pref file bom then file.drop 3 else file
  pref cd [0x3c, 0x3f] || pref cd [0x3c, 0x21] || pref cd [0x3c, 0x73, 0x76, 0x67]

/-- `c->context` -/
inductive Ctx where
  | in2d | in3d
  deriving DecidableEq

/-- where the object was found; `outside2`, `outside3`: the options `err_outside_2d`, `err_outside_3d` are that of a failure; `xml`:
name and namespace of the first element, `none` if the file is rejected; `svg`: what is drawn -/
structure Env (S : Type) where
  ctx : Ctx
  outside2 : Bool
  outside3 : Bool
  xml : Str → Option (Str × Option Str)
  svg : Str → Option S

/-- result: the function returns false; it returns true and adds nothing; it adds what the SVG file has; it adds a solid -/
inductive Out (V S : Type) where
  | fail
  | nothing
  | svg (s : S)
  | solid (points : List V) (faces : List (List Nat))
  deriving DecidableEq

/-- `"svg"` -/
def svgName : Str := [0x73, 0x76, 0x67]

/-- `CP_SVG_NS`: `http://www.w3.org/2000/svg` -/
def svgNs : Str := "http://www.w3.org/2000/svg".toList.map Char.toNat

/-- `msg` csg3.c:60-78 -/
def msg {V S : Type} (fails : Bool) : Out V S := if fails then .fail else .nothing

section
variable {V F S : Type} (eq : V → V → Bool) (strtod : Str → F) (vec : F → F → F → V) (conv : Stl.Words → V)

/-- XML formats csg3.c:915-951 -/
def importXml (env : Env S) (file : Str) : Out V S :=
  match env.xml file with
  | none => .fail
  | some (name, ns) =>
    if name = svgName then
      let ns := match ns with
        | none => svgNs
        | some n => n
      if ns ≠ svgNs then .fail
      else if env.ctx ≠ .in2d then msg env.outside2
      else match env.svg file with
        | none => .fail
        | some s => .svg s
    else .fail

/-- `csg3_from_import` csg3.c:895-981 for the contents of the file; `move` is the transformation, `neg` iff its determinant is negative -/
def importFile (env : Env S) (move : V → V) (neg : Bool) (file : Str) : Out V S :=
  if isXml file then importXml env file
  else if env.ctx ≠ .in3d then msg env.outside3
  else match Stl.stlParse eq strtod vec conv file with
    | .error _ => .fail
    | .ok p => .solid (p.points.map move) (p.faces.map fun f => if neg then f.reverse else f)

/-- `csg3_from_import`; `files` are the files that can be read -/
def importName (env : Env S) (files : Str → Option Str) (inc : Str) (move : V → V) (neg : Bool) (fn : Str) : Out V S :=
  match files (resolve inc fn) with
  | none => .fail
  | some file => importFile eq strtod vec conv env move neg file

end

end Hob3l.Import
