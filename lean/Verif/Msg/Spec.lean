import Verif.Loc.Spec

/-!
What a message should show.
-/

namespace Hob3l.Msg

/-- the text as a terminal shows it from column `x` on, with tab stops every four columns -/
def shown : Nat → List Nat → List Nat
  | _, [] => []
  | x, c :: l => if c = 9 then List.replicate (4 - x % 4) 32 ++ shown (x + (4 - x % 4)) l else c :: shown (x + 1) l

/-- printable ASCII, or white space that is used in source texts -/
def Plain (c : Nat) : Prop := c = 9 ∨ c = 10 ∨ c = 13 ∨ 32 ≤ c ∧ c ≤ 126

instance (c) : Decidable (Plain c) := inferInstanceAs (Decidable (_ ∨ _))

/-- the position is `k` bytes after the beginning of its line -/
structure InLine (text : List Nat) (pos k : Nat) : Prop where
  le : k ≤ pos
  start : k = pos ∨ text[pos - k - 1]? = some 10
  same : ∀ i, i < k → text[pos - k + i]? ≠ some 10

end Hob3l.Msg
