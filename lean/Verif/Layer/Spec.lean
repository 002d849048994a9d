import Verif.Layer.Model
import Verif.Flatten.Spec

/-!
Which points belong to a 3D CSG tree at the height of layer `zi`, independently of stacks and of the order in which layers
are cut.
-/

namespace Hob3l.Layer

open Hob3l.Flatten

section
variable {P : Type}

/-- the point belongs to the object at layer `zi` -/
def Solid.has (zi : Nat) (p : P) (o : Solid P) : Bool :=
  match o zi with
  | none => false
  | some (_, r) => r p

/-- a cut without lines has no points -/
def Solid.WF (o : Solid P) : Prop := ∀ zi n r, o zi = some (n, r) → n = 0 → ∀ p, r p = false

mutual
/-- point sets at layer `zi` -/
def Csg3.has (zi : Nat) (p : P) : Csg3 P → Bool
  | .obj o => Solid.has zi p o
  | .add xs => xs.hasAny zi p
  | .xor xss => xss.hasOdd zi p
  | .sub xs ys => xs.hasAny zi p && !ys.hasAny zi p
  | .cut .nil => false
  | .cut (.cons x xs) => x.hasAny zi p && xs.hasAll zi p
def Csg3s.hasAny (zi : Nat) (p : P) : Csg3s P → Bool
  | .nil => false
  | .cons x xs => x.has zi p || xs.hasAny zi p
def Csg3Adds.hasAll (zi : Nat) (p : P) : Csg3Adds P → Bool
  | .nil => true
  | .cons x xs => x.hasAny zi p && xs.hasAll zi p
def Csg3Adds.hasOdd (zi : Nat) (p : P) : Csg3Adds P → Bool
  | .nil => false
  | .cons x xs => x.hasAny zi p != xs.hasOdd zi p
end

mutual
/-- all objects are well-formed -/
def Csg3.WF : Csg3 P → Prop
  | .obj o => Solid.WF o
  | .add xs => xs.WF
  | .xor xss => xss.WF
  | .sub xs ys => xs.WF ∧ ys.WF
  | .cut xss => xss.WF
def Csg3s.WF : Csg3s P → Prop
  | .nil => True
  | .cons x xs => x.WF ∧ xs.WF
def Csg3Adds.WF : Csg3Adds P → Prop
  | .nil => True
  | .cons x xs => x.WF ∧ xs.WF
end

end

end Hob3l.Layer
