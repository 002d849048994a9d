import Verif.Rect.Model
import Verif.Xform.Spec
import Mathlib.Logic.Equiv.Fin.Basic
import Mathlib.GroupTheory.Perm.Fin

/-!
What an axis permutation is.
-/

namespace Hob3l.Rect

open Hob3l.Xform

/-- There is exactly one non-zero entry in each row and in each column: it maps each axis to an axis. -/
def AxisPerm (m : M3) : Prop := ∃ σ : Equiv.Perm (Fin 3), ∀ i j, m.toMatrix i j ≠ 0 ↔ σ i = j

/-- no entry is so small but not zero that it is taken for zero -/
def Clear (e : Eps) (m : M3) : Prop := ∀ i j, m.toMatrix i j = 0 ∨ e.eq ≤ |m.toMatrix i j|

end Hob3l.Rect
