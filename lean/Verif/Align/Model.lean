import Verif.Matq.Model

/-
Model of the alignment arithmetic in /repo/include/hob3lbase/base-def.h:48-136.

`size_t` is `BitVec 64`.  `none` = failed assertion.
-/

namespace Hob3l.Align

open Hob3l.Matq

abbrev Sz := BitVec 64

/-- `cp_size_align` base-def.h:48-51 -/
def sizeAlign (x : Sz) : Sz := x &&& -x

/-- `cp_align_down` base-def.h:95-100 -/
def alignDown (n a : Sz) : Option Sz := do
  ass (a ≠ 0)
  ass (a &&& (a - 1) = 0)
  some (n &&& -a)

/-- `cp_align_down_diff` base-def.h:102-105 -/
def alignDownDiff (n a : Sz) : Option Sz := do
  let d ← alignDown n a
  some (n - d)

/-- `cp_align_up` base-def.h:107-110 -/
def alignUp (n a : Sz) : Option Sz := alignDown (n + a - 1) a

/-- `cp_align_up_diff` base-def.h:112-115 -/
def alignUpDiff (n a : Sz) : Option Sz := do
  let u ← alignUp n a
  some (u - n)

/-- `cp_idx0` base-def.h:120-123 -/
def idx0 (n i : Sz) : Sz := i &&& -(if i < n then 1 else 0)

end Hob3l.Align
