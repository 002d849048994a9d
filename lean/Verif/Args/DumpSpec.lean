import Verif.Args.DumpModel
import Verif.Syn.Spec
/-!
# When the dump of an object can be read back
-/
namespace Hob3l.Args

open Hob3l.Syn (Text txt NumberText IsFloat intValue)

variable {F : Type} [Flt F]

/-- The text is a number, without plus sign, and it is read as `x`. -/
def PrintsAs (t : Text) (x : F) : Prop :=
  NumberText t ∧ t.head? ≠ some 43 ∧ (if IsFloat t then Flt.ofText t else Flt.ofInt (intValue t)) = x

/-- The text is a number, without plus sign, and it is read as colour component `n`. -/
def PrintsGrey (F : Type) [Flt F] (t : Text) (n : Nat) : Prop := ∃ x : F, PrintsAs t x ∧ Flt.unit x = true ∧ Flt.byte x = n

/-- The numbers of an object that are lengths, angles, coordinates or factors. -/
def Obj.fine : Obj F → List F
  | .multmatrix rows => rows.flatten
  | .translate v | .mirror v | .scale v => v
  | .rotate around n a => if around then a :: n else n
  | .linext height twist factor _ _ _ => height :: twist :: factor
  | .sphere r _ | .circle r _ => [r]
  | .cube size _ | .square size _ => size
  | .cylinder h r1 r2 _ _ => [h, r1, r2]
  | .polyhedron points _ | .polygon points _ => points.flatten
  | _ => []

/-- The numbers of an object that are printed with six digits. -/
def Obj.coarse : Obj F → List F
  | .linext _ _ _ _ _ d | .sphere _ d | .circle _ d | .cylinder _ _ _ _ d => [d.fa, d.fs]
  | .rotext angle d => [angle, d.fa, d.fs]
  | _ => []

/-- The objects that can be read back: no files and no text, no colour without a value (see the theorems `_wrong`), all paths
have at least three points, and the number of points fits into 64 bits. -/
def Obj.Dumpable : Obj F → Prop
  | .import_ .. | .surface .. | .text .. | .color none => False
  | .polyhedron points _ => points.length ≤ 2 ^ 63
  | .polygon points paths => points.length ≤ 2 ^ 63 ∧ ∀ p ∈ paths, 3 ≤ p.length
  | _ => True

/-- All numbers of an object are printed in a way that they can be read back. -/
def Obj.Exact (pr : Printf F) (o : Obj F) : Prop :=
  (∀ x ∈ o.fine, PrintsAs (pr.ff x) x) ∧ (∀ x ∈ o.coarse, PrintsAs (pr.gg x) x)

/-- The arithmetic knows that 0 is 0 and 1 is 1. -/
def EqLaw (F : Type) [Flt F] : Prop := Flt.eq (con 0 : F) (con 0) = true ∧ Flt.eq (con 1 : F) (con 1) = true

/-- Colour components are bytes: `lrint(f * 255) & 0xff`. -/
def ByteLaw (F : Type) [Flt F] : Prop := ∀ x : F, Flt.byte x ≤ 255

/-- The table of colours has three bytes for each name. -/
def ColorLaw (colors : Colors) : Prop := ∀ s c, colors s = some c → c.length = 3 ∧ ∀ n ∈ c, n ≤ 255

mutual

/-- all objects of a tree satisfy `p` -/
def Tree.All (p : Obj F → Prop) : Tree F → Prop
  | .mk _ o _ l => p o ∧ Tree.AllList p l

def Tree.AllList (p : Obj F → Prop) : List (Tree F) → Prop
  | [] => True
  | t :: l => t.All p ∧ Tree.AllList p l

end

end Hob3l.Args
