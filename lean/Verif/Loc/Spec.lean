import Mathlib.Data.List.Basic

/-!
What line numbers mean: the number of line feeds before a position.
-/

namespace Hob3l.Loc

/-- the number of line feeds among the first `pos` bytes: lines are counted from 0 -/
def lineOf (text : List Nat) (pos : Nat) : Nat := ((text.take pos).filter (· = 10)).length

/-- the position is the first one of a line other than the first -/
def AtLineStart (text : List Nat) (pos : Nat) : Prop := 0 < pos ∧ text[pos - 1]? = some 10

/-- the end of a file whose last line is not terminated -/
def AtOpenEnd (text : List Nat) (pos : Nat) : Prop := 0 < pos ∧ pos = text.length ∧ text[pos - 1]? ≠ some 10

instance (text pos) : Decidable (AtLineStart text pos) := inferInstanceAs (Decidable (_ ∧ _))
instance (text pos) : Decidable (AtOpenEnd text pos) := inferInstanceAs (Decidable (_ ∧ _))

/-- the bytes of a line, including its line feed -/
def lineText : List Nat → Nat → List Nat
  | [], _ => []
  | c :: cs, 0 => if c = 10 then [10] else c :: lineText cs 0
  | c :: cs, n + 1 => if c = 10 then lineText cs n else lineText cs (n + 1)

end Hob3l.Loc
