import Verif.VChar.Model

/-
Specification of growing strings: lists of characters, stored with a zero behind the last one.
-/

namespace Hob3l.VChar

/-- the contents -/
def text (v : VChar) : List Nat := v.mem.take v.size

/-- nothing allocated yet, or terminated by a zero -/
def Valid (v : VChar) : Prop := (v.mem = [] ∧ v.size = 0) ∨ v.mem[v.size]? = some 0

end Hob3l.VChar
