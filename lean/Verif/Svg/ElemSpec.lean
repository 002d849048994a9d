import Verif.Svg.Spec
import Verif.Svg.ElemModel

/-!
Specification of the attribute `transform` (SVG 1.1, 7.6), of lengths (4.2), of the basic shapes (9), and of the coordinate
systems of nested elements.  Of the model only the types are used (points, contexts, elements).
-/

namespace Hob3l.Svg

/-! ## Transformations -/

/-- the names of the functions -/
inductive FnKind where
  | translate | scale | rotate | skewX | skewY | matrix

/-- the name -/
def FnKind.name : FnKind → String
  | .translate => "translate"
  | .scale => "scale"
  | .rotate => "rotate"
  | .skewX => "skewX"
  | .skewY => "skewY"
  | .matrix => "matrix"

/-- the possible numbers of arguments -/
def FnKind.arity : FnKind → List Nat
  | .translate => [1, 2]
  | .scale => [1, 2]
  | .rotate => [1, 3]
  | .skewX => [1]
  | .skewY => [1]
  | .matrix => [6]

/-- a function with its arguments; `sep` is what follows it -/
structure Fn where
  kind : FnKind
  gap : List Space
  args : List (Sep × Num)
  tail : List Space
  sep : Sep

/-- the text of arguments -/
def showArgs (l : List (Sep × Num)) : List Char := l.flatMap fun a => a.1.show ++ a.2.show

/-- the text -/
def Fn.show (f : Fn) : List Char :=
  f.kind.name.toList ++ showWs f.gap ++ ['('] ++ showArgs f.args ++ showWs f.tail ++ [')'] ++ f.sep.show

/-- a well-formed function: the number of arguments is right, they are separated, and there is no comma before the first -/
def Fn.Ok (f : Fn) : Prop :=
  f.args.length ∈ f.kind.arity
  ∧ (∀ a ∈ f.args, a.2.Ok)
  ∧ Spaced (f.args.map fun a => (a.1, Tok.num a.2))
  ∧ (∀ a, f.args.head? = some a → a.1.comma = false)

/-- the text of the attribute -/
def showFns (lead : List Space) (l : List Fn) : List Char := showWs lead ++ l.flatMap Fn.show

section

variable {K : Type} [Field K]

/-- the map of the plane -/
def Fn.map (t : Trig K) (f : Fn) (p : P K) : P K :=
  match f.kind, f.args.map (fun a => ((a.2.val : ℚ) : K)) with
  | .translate, [x] => ⟨p.x + x, p.y⟩
  | .translate, [x, y] => ⟨p.x + x, p.y + y⟩
  | .scale, [s] => ⟨s * p.x, s * p.y⟩
  | .scale, [x, y] => ⟨x * p.x, y * p.y⟩
  | .rotate, [a] => ⟨p.x * t.cos a - p.y * t.sin a, p.x * t.sin a + p.y * t.cos a⟩
  | .rotate, [a, x, y] =>
    ⟨x + ((p.x - x) * t.cos a - (p.y - y) * t.sin a), y + ((p.x - x) * t.sin a + (p.y - y) * t.cos a)⟩
  | .skewX, [a] => ⟨p.x + t.tan a * p.y, p.y⟩
  | .skewY, [a] => ⟨p.x, p.y + t.tan a * p.x⟩
  | .matrix, [a, b, c, d, e, f] => ⟨a * p.x + c * p.y + e, b * p.x + d * p.y + f⟩
  | _, _ => p

/-- the map of a list of functions: the last one is applied first -/
def mapFns (t : Trig K) : List Fn → P K → P K
  | [], p => p
  | f :: l, p => f.map t (mapFns t l p)

end

/-! ## Lengths -/

/-- the units -/
inductive Unt where
  | none | px | inch | cm | mm | pt | pc | perc

/-- the text -/
def Unt.show : Unt → List Char
  | .none => []
  | .px => ['p', 'x']
  | .inch => ['i', 'n']
  | .cm => ['c', 'm']
  | .mm => ['m', 'm']
  | .pt => ['p', 't']
  | .pc => ['p', 'c']
  | .perc => ['%']

/-- a length -/
structure Len where
  lead : List Space
  num : Num
  unit : Unt
  trail : List Space

/-- the text -/
def Len.show (l : Len) : List Char := showWs l.lead ++ l.num.show ++ l.unit.show ++ showWs l.trail

/-- the value in user units; `ref` is what a percentage refers to: 1in = 96px = 2.54cm = 25.4mm = 72pt = 6pc -/
def Len.val {K : Type} [Field K] (ref : K) (l : Len) : K :=
  let v : K := ((l.num.val : ℚ) : K)
  match l.unit with
  | .none => v
  | .px => v
  | .inch => 96 * v
  | .cm => 4800 / 127 * v
  | .mm => 480 / 127 * v
  | .pt => 4 / 3 * v
  | .pc => 16 * v
  | .perc => v * ref / 100

/-- the value of an attribute; it is 0 if the attribute is missing -/
def lenVal {K : Type} [Field K] (ref : K) (l : Option Len) : K := match l with | none => 0 | some l => l.val ref

/-- the attribute is given as a well-formed length, or it is missing -/
def Has (a : Attrs) (name : String) (l : Option Len) : Prop :=
  a.get name = l.map Len.show ∧ ∀ x, l = some x → x.num.Ok

/-! ## Shapes -/

section

variable {K : Type} [Field K]

/-- the outline of a rectangle: SVG 1.1, 9.2 -/
def rectCmds (x y w h rx ry : K) : List (Cmd K) :=
  [.move false ⟨x + rx, y⟩,
   .line false ⟨x + w - rx, y⟩,
   .arc false rx ry 0 false true ⟨x + w, y + ry⟩,
   .line false ⟨x + w, y + h - ry⟩,
   .arc false rx ry 0 false true ⟨x + w - rx, y + h⟩,
   .line false ⟨x + rx, y + h⟩,
   .arc false rx ry 0 false true ⟨x, y + h - ry⟩,
   .line false ⟨x, y + ry⟩,
   .arc false rx ry 0 false true ⟨x + rx, y⟩,
   .close]

/-- the attribute is given as a well-formed length, or it is `auto`, or it is missing -/
def HasAuto (a : Attrs) (name : String) (l : Option Len) : Prop := Has a name l ∨ (a.get name = some "auto".toList ∧ l = none)

/-- the radii of the corners: SVG 1.1, 9.2: if one is missing, it is the other one; at most half of the size; if one is 0,
the corners are not rounded -/
def rectRadii [LinearOrder K] (w h : K) (rx ry : Option K) : K × K :=
  let r : K × K := match rx, ry with
    | none, none => (0, 0)
    | some a, none => (a, a)
    | none, some b => (b, b)
    | some a, some b => (a, b)
  if r.1 = 0 ∨ r.2 = 0 then (0, 0) else (min r.1 (w / 2), min r.2 (h / 2))

/-- a list of points in the attribute `points`, given as one or more rows of two numbers -/
structure Points where
  rows : List (List (Sep × Num))
  trail : List Space

/-- the text -/
def Points.show (p : Points) : List Char := showArgs p.rows.flatten ++ showWs p.trail

/-- well-formed -/
def Points.Ok (p : Points) : Prop :=
  p.rows ≠ [] ∧ (∀ r ∈ p.rows, r.length = 2) ∧ (∀ a ∈ p.rows.flatten, a.2.Ok)
  ∧ Spaced (p.rows.flatten.map fun a => (a.1, Tok.num a.2))
  ∧ (∀ a, p.rows.flatten.head? = some a → a.1.comma = false)

/-- the points -/
def Points.pts (p : Points) : List (P K) :=
  p.rows.filterMap fun r => match r with | [x, y] => some ⟨((x.2.val : ℚ) : K), ((y.2.val : ℚ) : K)⟩ | _ => none

/-- the path of a polyline or a polygon -/
def polyCmds (l : List (P K)) (close : Bool) : List (Cmd K) :=
  (match l with
  | [] => []
  | p :: l => .move false p :: l.map fun p => .line false p)
  ++ if close then [.close] else []

end

/-! ## The tree -/

/-- an element without what is inside -/
structure Elem where
  name : String
  attrs : Attrs

/-- the shapes -/
def shapeNames : List String := ["circle", "ellipse", "line", "rect", "path", "polygon", "polyline"]

/-- the elements whose content is not shown -/
def hiddenNames : List String :=
  ["title", "desc", "metadata", "style", "defs", "use", "symbol", "switch", "marker", "image", "foreignObject"]

mutual

/-- the shapes in an element with the elements that they are in, from the outermost one to the shape itself -/
def shapesIn : Node → List (List Elem)
  | .mk ns name attrs sub =>
    if ns = false ∨ name ∈ hiddenNames then []
    else if name ∈ shapeNames then [[⟨name, attrs⟩]]
    else (shapesOf sub).map (⟨name, attrs⟩ :: ·)

/-- the shapes in a list of elements -/
def shapesOf : List Node → List (List Elem)
  | [] => []
  | n :: l => shapesIn n ++ shapesOf l

end

mutual

/-- there is no `svg` element -/
def noSvg : Node → Prop
  | .mk _ name _ sub => name ≠ "svg" ∧ noSvgs sub

/-- there is none in a list of elements -/
def noSvgs : List Node → Prop
  | [] => True
  | n :: l => noSvg n ∧ noSvgs l

end

/-- an element is transformed by its attribute `transform`, if it has one -/
def ElemMap {K : Type} [Field K] (t : Trig K) (e : Elem) (g : P K → P K) : Prop :=
  (e.attrs.get "transform" = none ∧ g = id)
  ∨ ∃ lead fs, e.attrs.get "transform" = some (showFns lead fs) ∧ (∀ f ∈ fs, f.Ok) ∧ g = mapFns t fs

/-- a shape is transformed by its own attribute first, then by those of the elements around it, from the inside to the outside -/
def ChainMap {K : Type} [Field K] (t : Trig K) : List Elem → (P K → P K) → Prop
  | [], g => g = id
  | e :: l, g => ∃ a b, ElemMap t e a ∧ ChainMap t l b ∧ g = a ∘ b

/-- an element whose attribute `transform` is well-formed -/
def ElemOk (e : Elem) : Prop :=
  e.attrs.get "transform" = none ∨ ∃ lead fs, e.attrs.get "transform" = some (showFns lead fs) ∧ ∀ f ∈ fs, f.Ok

/-- a shape is shown if no layer is asked for, or if it is in an element that has the name of the layer -/
def Shown (layer : Option (List Char)) (chain : List Elem) : Bool :=
  match layer with
  | none => true
  | some l => chain.any fun e => decide (e.attrs.get "id" = some l)

end Hob3l.Svg
