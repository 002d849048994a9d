import Verif.Args.Spec

/-!
# Specification of the objects made from the arguments of functors

What a value means, which parameters a functor has, and which field of the object each of them sets.
-/
namespace Hob3l.Args

open Hob3l.Syn (Text txt Value Arg)

variable {F : Type} [Flt F]

/-! ## Values -/

/-- The value is an integer: `true` is 1, `false` is 0. -/
inductive IsInt : Value → Int → Prop where
  | int (i : Int) : IsInt (.int i) i
  | one : IsInt (.id (txt "true")) 1
  | zero : IsInt (.id (txt "false")) 0

/-- The value is a number. -/
inductive IsNum : Value → F → Prop where
  | float (s : Text) : IsNum (.float s) (Flt.ofText s)
  | int {v : Value} {i : Int} : IsInt v i → IsNum v (Flt.ofInt i)
  | pi : IsNum (.id (txt "PI")) Flt.pi

/-- The value is a count: it is not negative and fits into 32 bits. -/
def IsCount (v : Value) (n : Nat) : Prop := IsInt v n ∧ n < 4294967296

/-- The value is a truth value: any count is, and only 0 is false. -/
def IsBool (v : Value) (b : Bool) : Prop := ∃ n, IsCount v n ∧ (b = false ↔ n = 0)

/-- The value is a text. -/
def IsStr (v : Value) (s : Text) : Prop := v = .str s

/-- The value is a number from 0 to 1, as a byte. -/
def IsGrey (F : Type) [Flt F] (v : Value) (n : Nat) : Prop := ∃ x : F, IsNum v x ∧ Flt.unit x = true ∧ n = Flt.byte x

/-- The value is a vector of `n` numbers. -/
def IsVec (n : Nat) (v : Value) (l : List F) : Prop := ∃ c, v = .arr c ∧ c.length = n ∧ List.Forall₂ IsNum c l

/-- The value is a vector of `n` numbers, or one number that is used `n` times. -/
def IsSize (n : Nat) (v : Value) (l : List F) : Prop := IsVec n v l ∨ ∃ x, IsNum v x ∧ l = List.replicate n x

/-! ## Parameters -/

/-- The parameters with position. -/
def posNames : Fn → List String
  | .union | .difference | .intersection | .hull | .rotext => []
  | .multmatrix => ["m"]
  | .translate | .mirror | .scale => ["v"]
  | .rotate => ["a", "v"]
  | .color => ["c", "alpha"]
  | .linext => ["height"]
  | .projection => ["cut"]
  | .sphere | .circle => ["r"]
  | .cube | .square => ["size", "center"]
  | .cylinder => ["h", "r1", "r2", "center"]
  | .polyhedron => ["points", "faces"]
  | .polygon => ["points", "paths", "convexity"]
  | .import_ => ["file", "layer", "convexity"]
  | .surface => ["file", "center"]
  | .text => ["text"]

/-- The parameters that can only be given by name. -/
def keyNames : Fn → List String
  | .sphere | .circle => ["d", "$fa", "$fs", "$fn"]
  | .cylinder => ["d", "d1", "d2", "r", "$fa", "$fs", "$fn"]
  | .polyhedron => ["triangles", "convexity"]
  | .linext => ["center", "slices", "twist", "scale", "convexity", "$fa", "$fs", "$fn"]
  | .rotext => ["angle", "convexity", "$fa", "$fs", "$fn"]
  | .import_ => ["center", "id", "dpi", "$fa", "$fs", "$fn"]
  | .surface => ["invert", "convexity"]
  | .text => ["size", "font", "halign", "valign", "direction", "language", "script", "spacing", "tracking"]
  | .projection => ["convexity"]
  | _ => []

/-- The value given for parameter `n` (the last one if there are several). -/
def given (f : Fn) (n : String) (args : List Arg) : Option Value :=
  (values ((posNames f).map txt) (txt n) 0 args).getLast?

/-- `x` is what parameter `n` says, and `d` if it is not given. -/
def Field {α : Type} (f : Fn) (args : List Arg) (n : String) (R : Value → α → Prop) (d x : α) : Prop :=
  match given f n args with
  | none => x = d
  | some v => R v x

/-- The same if there is no default. -/
def FieldOpt {α : Type} (f : Fn) (args : List Arg) (n : String) (R : Value → α → Prop) (x : Option α) : Prop :=
  match given f n args with
  | none => x = none
  | some v => ∃ y, x = some y ∧ R v y

/-- The same if it must be given. -/
def Must {α : Type} (f : Fn) (args : List Arg) (n : String) (R : Value → α → Prop) (x : α) : Prop :=
  ∃ v, given f n args = some v ∧ R v x

/-- The precision of round objects. -/
def DetailOf (f : Fn) (args : List Arg) (d : Detail F) : Prop :=
  Field f args "$fn" IsCount 0 d.fn ∧ Field f args "$fs" IsNum (con 2) d.fs ∧ Field f args "$fa" IsNum (con 12) d.fa

/-- A vector for translate, mirror and scale, which is given once; `z` is used if there are only two numbers. -/
def Vec23Of (f : Fn) (args : List Arg) (z : Int) (num : Bool) (l : List F) : Prop :=
  ∀ v, values ((posNames f).map txt) (txt "v") 0 args = [v] →
    IsVec 3 v l ∨ (∃ x y, IsVec 2 v [x, y] ∧ l = [x, y, con z]) ∨ (num = true ∧ ∃ x, IsNum v x ∧ l = [x, x, x])

/-- A colour: three or four numbers, or a name; `alpha` is used if there is no fourth number, and it is 255 if it is not given.
Nothing is said by `undef`. -/
def ColorOf (F : Type) [Flt F] (colors : Colors) (v : Value) (alpha : Option Nat) (c : Option (List Nat)) : Prop :=
  (v = .id (txt "undef") ∧ c = none) ∨
  (∃ l r g b, v = .arr l ∧ List.Forall₂ (IsGrey F) l [r, g, b] ∧ c = some [r, g, b, alpha.getD 255]) ∨
  (∃ l r g b a, v = .arr l ∧ alpha = none ∧ List.Forall₂ (IsGrey F) l [r, g, b, a] ∧ c = some [r, g, b, a]) ∨
  (∃ s r g b, v = .str s ∧ colors s = some [r, g, b] ∧ c = some [r, g, b, alpha.getD 255])

/-- What an object must be for given arguments.  Radii: see C80; points and faces: see C81; the matrix: see C82. -/
def Describes (colors : Colors) (args : List Arg) : Obj F → Prop
  | .union | .difference | .intersection | .hull => True
  | .multmatrix _ | .polyhedron .. | .polygon .. => True
  | .translate l => Vec23Of .translate args 0 false l
  | .mirror l => Vec23Of .mirror args 0 false l
  | .scale l => Vec23Of .scale args 1 true l
  | .rotate around n a =>
    (around = false ∧ a = con 0 ∧ Must .rotate args "a" (IsVec 3) n ∧ given .rotate "v" args = none) ∨
    (around = true ∧ Must .rotate args "a" IsNum a ∧ Field .rotate args "v" (IsVec 3) [con 0, con 0, con 1] n)
  | .color c => ∃ v alpha, given .color "c" args = some v ∧ FieldOpt .color args "alpha" (IsGrey F) alpha ∧ ColorOf F colors v alpha c
  | .linext height twist scale slices center detail =>
    Must .linext args "height" IsNum height ∧ Field .linext args "twist" IsNum (con 0) twist ∧
    Field .linext args "scale" (IsSize 2) [con 1, con 1] scale ∧ Field .linext args "slices" IsCount 1 slices ∧
    Field .linext args "center" IsBool false center ∧ DetailOf .linext args detail
  | .rotext angle detail => Field .rotext args "angle" IsNum (con 360) angle ∧ DetailOf .rotext args detail
  | .projection cut => Field .projection args "cut" IsBool false cut
  | .sphere _ detail => DetailOf .sphere args detail
  | .circle _ detail => DetailOf .circle args detail
  | .cube size center =>
    Field .cube args "size" (IsSize 3) [con 1, con 1, con 1] size ∧ Field .cube args "center" IsBool false center
  | .square size center =>
    Field .square args "size" (IsSize 2) [con 1, con 1] size ∧ Field .square args "center" IsBool false center
  | .cylinder h _ _ center detail =>
    Field .cylinder args "h" IsNum (con 1) h ∧ Field .cylinder args "center" IsBool false center ∧ DetailOf .cylinder args detail
  | .import_ file layer center id dpi detail =>
    Must .import_ args "file" (fun v s => ∃ t, IsStr v t ∧ Esc t s) file ∧ FieldOpt .import_ args "layer" IsStr layer ∧
    Field .import_ args "center" IsBool false center ∧
    FieldOpt .import_ args "id" (fun v s => ∃ t, IsStr v t ∧ Esc t s) id ∧
    Field .import_ args "dpi" IsNum (con 72) dpi ∧ DetailOf .import_ args detail
  | .surface file center =>
    Must .surface args "file" (fun v s => ∃ t, IsStr v t ∧ Esc t s) file ∧ Field .surface args "center" IsBool false center
  | .text text size font halign valign direction language script spacing tracking =>
    (∃ s, text = some s ∧ Must .text args "text" IsStr s) ∧ Field .text args "size" IsNum (con 10) size ∧
    (∃ s, font = some s ∧ Field .text args "font" IsStr (txt "Nozzl3 Sans") s) ∧
    (∃ s, halign = some s ∧ Field .text args "halign" IsStr (txt "left") s) ∧
    (∃ s, valign = some s ∧ Field .text args "valign" IsStr (txt "baseline") s) ∧
    (∃ s, direction = some s ∧ Field .text args "direction" IsStr (txt "ltr") s) ∧
    (∃ s, language = some s ∧ Field .text args "language" IsStr (txt "en") s) ∧
    (∃ s, script = some s ∧ Field .text args "script" IsStr (txt "latin") s) ∧
    Field .text args "spacing" IsNum (con 1) spacing ∧ Field .text args "tracking" IsNum (con 0) tracking

/-! ## Functors -/

/-- The names of a functor. -/
def fnNames : Fn → List String
  | .union => ["union", "group", "render", "{"]
  | .import_ => ["import", "import_stl"]
  | .circle => ["circle"]
  | .color => ["color"]
  | .cube => ["cube"]
  | .cylinder => ["cylinder"]
  | .difference => ["difference"]
  | .hull => ["hull"]
  | .intersection => ["intersection"]
  | .linext => ["linear_extrude"]
  | .mirror => ["mirror"]
  | .multmatrix => ["multmatrix"]
  | .polygon => ["polygon"]
  | .polyhedron => ["polyhedron"]
  | .projection => ["projection"]
  | .rotate => ["rotate"]
  | .rotext => ["rotate_extrude"]
  | .scale => ["scale"]
  | .sphere => ["sphere"]
  | .square => ["square"]
  | .surface => ["surface"]
  | .text => ["text"]
  | .translate => ["translate"]

/-- The functors that make a shape from their arguments alone. -/
def isShape (f : Fn) : Bool :=
  [Fn.sphere, .cube, .cylinder, .polyhedron, .import_, .surface, .circle, .square, .polygon, .text].contains f

end Hob3l.Args
