import Verif.Svg.ElemSpec

/-!
Specification of view boxes: SVG 1.1, 7.7 and 7.8 (the transformation is that of SVG 2, 8.2).
-/

namespace Hob3l.Svg

/-- where the image is placed in one direction -/
inductive Align where
  | min | mid | max

/-- `preserveAspectRatio`: the image may be distorted, or it is placed, and covers at least (`slice`) or at most the area -/
inductive Aspect where
  | none
  | keep (x y : Align) (slice : Bool)

/-- the text for one direction -/
def Align.text : Align → String
  | .min => "Min"
  | .mid => "Mid"
  | .max => "Max"

/-- the text of the attribute -/
def Aspect.show : Aspect → List Char
  | .none => "none".toList
  | .keep x y slice => ("x" ++ x.text ++ "Y" ++ y.text ++ (if slice then " slice" else " meet")).toList

section

variable {K : Type} [Field K] [LinearOrder K]

/-- the part of the space that is left over that is before the image -/
def Align.frac : Align → K
  | .min => 0
  | .mid => 1 / 2
  | .max => 1

/-- the map from the view box to the area of the size `ew`, `eh` -/
def viewMap (vx vy vw vh ew eh : K) (a : Aspect) (p : P K) : P K :=
  match a with
  | .none => ⟨(p.x - vx) * (ew / vw), (p.y - vy) * (eh / vh)⟩
  | .keep ax ay slice =>
    let s := if slice then max (ew / vw) (eh / vh) else min (ew / vw) (eh / vh)
    ⟨(p.x - vx) * s + (ew - vw * s) * ax.frac, (p.y - vy) * s + (eh - vh * s) * ay.frac⟩

end

/-- the value of a length on the outside in units of 1/96 inch: a number without unit is in dots, of which there are `dpi` in an
inch -/
def Len.outer {K : Type} [Field K] (dpi ref : K) (l : Len) : K :=
  match l.unit with
  | .none => 96 * (((l.num.val : ℚ) : K) / dpi)
  | _ => l.val ref

/-- the attribute `viewBox` -/
structure VBox where
  (x y w h : Sep × Num)
  trail : List Space

/-- its numbers -/
def VBox.args (b : VBox) : List (Sep × Num) := [b.x, b.y, b.w, b.h]

/-- the text -/
def VBox.show (b : VBox) : List Char := showArgs b.args ++ showWs b.trail

/-- well-formed -/
def VBox.Ok (b : VBox) : Prop :=
  (∀ a ∈ b.args, a.2.Ok) ∧ Spaced (b.args.map fun a => (a.1, Tok.num a.2)) ∧ b.x.1.comma = false

end Hob3l.Svg
