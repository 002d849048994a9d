import Verif.Text.Model
import Mathlib.Order.Bounds.Defs

/-!
What doc/scadformat.md says about `text`.
-/

namespace Hob3l.Text

/-- the keyword of a weight -/
def keyword : Weight → Option Str
  | .regular => none
  | .bold => some ['B', 'o', 'l', 'd']
  | .medium => some ['M', 'e', 'd', 'i', 'u', 'm']
  | .black => some ['B', 'l', 'a', 'c', 'k']
  | .light => some ['L', 'i', 'g', 'h', 't']

/-- the keyword of the weight is in the name of the font -/
def Asks (font : Str) (w : Weight) : Prop := ∃ k, keyword w = some k ∧ k <:+: font

/-- the keywords that are in the name of the font select the style; if several weights are in it, then one of them is taken -/
structure StyleOk (font : Str) (f : Font) : Prop where
  oblique : f.oblique = true ↔ ['O', 'b', 'l', 'i', 'q', 'u', 'e'] <:+: font ∨ ['I', 't', 'a', 'l', 'i', 'c'] <:+: font
  weight : (f.weight = .regular ∧ ∀ w, ¬ Asks font w) ∨ Asks font f.weight

/-- all the keywords of the name are after some `:style=` -/
def AfterStyle (font : Str) : Prop :=
  ∀ k, (k = ['O', 'b', 'l', 'i', 'q', 'u', 'e'] ∨ k = ['I', 't', 'a', 'l', 'i', 'c'] ∨ ∃ w, keyword w = some k) → k <:+: font →
    ∃ a b, font = a ++ [':', 's', 't', 'y', 'l', 'e', '='] ++ b ∧ k <:+: b

/-- `d` is the x coordinate of the text that goes to 0; the text extends from 0 to `cur` -/
inductive HPos (cur : ℚ) : Str → ℚ → Prop
  | left : HPos cur ['l', 'e', 'f', 't'] 0
  | center : HPos cur ['c', 'e', 'n', 't', 'e', 'r'] (cur / 2)
  | right : HPos cur ['r', 'i', 'g', 'h', 't'] cur

/-- `d` is the y coordinate of the text that goes to 0 -/
inductive VPos (ys : Set ℚ) : Str → ℚ → Prop
  | top {d} : IsGreatest ys d → VPos ys ['t', 'o', 'p'] d
  | baseline : VPos ys ['b', 'a', 's', 'e', 'l', 'i', 'n', 'e'] 0
  | bottom {d} : IsLeast ys d → VPos ys ['b', 'o', 't', 't', 'o', 'm'] d

/-- the y coordinates of the points -/
def ysOf (rc : List (List V2)) : Set ℚ := {y | ∃ p ∈ rc, ∃ v ∈ p, v.y = y}

/-- the text is moved as the arguments say and then transformed by what is around it -/
def Placed (ha va : Str) (cur : ℚ) (rc : List (List V2)) (around : V2 → V2) (out : List (List V2)) : Prop :=
  ∃ dx dy, HPos cur ha dx ∧ VPos (ysOf rc) va dy ∧ out = rc.map fun p => p.map fun v => around ⟨v.x - dx, v.y - dy⟩

end Hob3l.Text
