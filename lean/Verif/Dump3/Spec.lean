import Verif.Dump3.Model
import Verif.Args.DumpSpec
/-!
# The dump of the 3D tree
-/
namespace Hob3l.Dump3

open Hob3l.Syn (Text txt)
open Hob3l.Args
open Hob3l.Scad (Scad Csg)

variable {F M O : Type} [Flt F]

mutual
/-- What a tree of 3D objects is: a ball of radius 1 with its matrix; a solid, whose points are already transformed.  For `xor`,
which is not in `Csg`, there is an invalid tree (see `Shape`). -/
def csgOf [One M] (mat : List (List F) → M) : Csg3 F → Csg (Geo F) M
  | .sphere rows _ _ => .leaf (.ball (con 1) 0) (mat rows)
  | .poly points faces _ => .leaf (.solid points faces) 1
  | .sub a b => .sub (csgOfs mat a) (csgOfs mat b)
  | .cut l => .cut (csgOfss mat l)
  | .xor _ => .cut []
def csgOfs [One M] (mat : List (List F) → M) : List (Csg3 F) → List (Csg (Geo F) M)
  | [] => []
  | c :: l => csgOf mat c :: csgOfs mat l
def csgOfss [One M] (mat : List (List F) → M) : List (List (Csg3 F)) → List (List (Csg (Geo F) M))
  | [] => []
  | a :: l => csgOfs mat a :: csgOfss mat l
end

/-- a difference -/
def isSub : Csg O M → Bool
  | .sub _ _ => true
  | _ => false

mutual
/-- The form of the trees that are made from programs: a difference has something to subtract from, which is not just another
difference, and something that is subtracted; an intersection has at least two parts, which are not empty. -/
def Shape : Csg O M → Prop
  | .leaf _ _ => True
  | .sub a b => a ≠ [] ∧ (∀ c, a = [c] → isSub c = false) ∧ b ≠ [] ∧ Shapes a ∧ Shapes b
  | .cut l => 2 ≤ l.length ∧ (∀ a ∈ l, a ≠ []) ∧ Shapess l
def Shapes : List (Csg O M) → Prop
  | [] => True
  | c :: l => Shape c ∧ Shapes l
def Shapess : List (List (Csg O M)) → Prop
  | [] => True
  | a :: l => Shapes a ∧ Shapess l
end

/-- an object without modifiers, or with `#` -/
def PlainMods (m : Nat) : Prop := m = 0 ∨ m = 0x11

mutual
/-- What is required of the objects: the numbers are printed so that they can be read; solids have at least four points, no
duplicate ones, and four faces, which have at least three points each, with valid indices; no `!`. -/
def Leaves (pr : Printf F) (dup : List (List F) → Bool) : Csg3 F → Prop
  | .sphere rows fn m =>
    (rows.length = 3 ∧ (∀ r ∈ rows, r.length = 4) ∧ ∀ x ∈ rows.flatten, PrintsAs (pr.ff x) x) ∧ fn < 2 ^ 63 ∧ PlainMods m
  | .poly points faces m =>
    ((∀ p ∈ points, p.length = 3) ∧ (∀ f ∈ faces, 3 ≤ f.length ∧ ∀ i ∈ f, i < points.length) ∧
      ∀ x ∈ points.flatten, PrintsAs (pr.ff x) x) ∧
    (4 ≤ points.length ∧ points.length ≤ 2 ^ 63 ∧ 4 ≤ faces.length ∧ dup points = false) ∧ PlainMods m
  | .sub a b => Leavess pr dup a ∧ Leavess pr dup b
  | .cut l | .xor l => Leavesss pr dup l
def Leavess (pr : Printf F) (dup : List (List F) → Bool) : List (Csg3 F) → Prop
  | [] => True
  | c :: l => Leaves pr dup c ∧ Leavess pr dup l
def Leavesss (pr : Printf F) (dup : List (List F) → Bool) : List (List (Csg3 F)) → Prop
  | [] => True
  | a :: l => Leavess pr dup a ∧ Leavesss pr dup l
end

end Hob3l.Dump3
