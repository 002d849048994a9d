import Verif.Main.Model

/-!
# What a run of the program should do
-/
namespace Hob3l.Main

open Hob3l.Opt (Str Opts Dump)

/-- `Makes P F fn d t`: the input file `fn` is accepted as far as is needed for the format `d`, and `t` is its output -/
inductive Makes (P : Stages) (F : Files) (fn : Str) : Dump → Str → Prop
  | syn {x r} : F fn = some x → P.parse F fn x = some r → Makes P F fn .syn (P.putSyn r)
  | scad {x r s} : F fn = some x → P.parse F fn x = some r → P.scad F r = some s → Makes P F fn .scad (P.putScad s)
  | csg3 {x r s c} : F fn = some x → P.parse F fn x = some r → P.scad F r = some s → P.csg3 F s = some c →
      Makes P F fn .csg3 (P.putCsg3 c)
  | layers {x r s c l} (d) : d ∈ [Dump.csg2, .stla, .stlb, .js, .ps] → F fn = some x → P.parse F fn x = some r →
      P.scad F r = some s → P.csg3 F s = some c → P.csg2 c = some l → Makes P F fn d (P.putCsg2 d c l)
  | nothing {x r s c l} : F fn = some x → P.parse F fn x = some r → P.scad F r = some s → P.csg3 F s = some c →
      P.csg2 c = some l → Makes P F fn .none []

/-- the input `fn` is not the file `w`, and does not include or import it -/
def Apart (P : Stages) (w fn : Str) : Prop :=
  fn ≠ w ∧ ∀ (F : Files) t, (∀ n x, P.parse (F.set w t) n x = P.parse F n x) ∧ (∀ r, P.scad (F.set w t) r = P.scad F r) ∧
    ∀ s, P.csg3 (F.set w t) s = P.csg3 F s

/-- the two file systems are the same except for the contents of `w` -/
def SameBut (w : Str) (F G : Files) : Prop := ∀ n, n ≠ w → F n = G n

end Hob3l.Main
