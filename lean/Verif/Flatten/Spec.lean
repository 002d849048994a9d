import Verif.Flatten.Model

/-!
Specification of the reduction of a 2D CSG tree: which points belong to a tree at a given height.
-/

namespace Hob3l.Flatten

open Hob3l.Bitmap

section
variable {P : Type}

mutual
/-- point `p` belongs to the tree at height index `zi`: union, difference, intersection, symmetric difference of
point sets.  An intersection of no operands is empty (as in OpenSCAD). -/
def Csg.has (zi : Nat) (p : P) : Csg P → Bool
  | .vline2 _ reg => reg p
  | .poly _ reg => reg p
  | .stack idx0 ls => decide (idx0 ≤ zi) && ls.has zi p (zi - idx0)
  | .add xs => xs.hasAny zi p
  | .xor xss => xss.hasOdd zi p
  | .sub xs ys => xs.hasAny zi p && !ys.hasAny zi p
  | .cut .nil => false
  | .cut (.cons x xs) => x.hasAny zi p && xs.hasAll zi p
/-- union -/
def Csgs.hasAny (zi : Nat) (p : P) : Csgs P → Bool
  | .nil => false
  | .cons x xs => x.has zi p || xs.hasAny zi p
/-- intersection -/
def CsgAdds.hasAll (zi : Nat) (p : P) : CsgAdds P → Bool
  | .nil => true
  | .cons x xs => x.hasAny zi p && xs.hasAll zi p
/-- symmetric difference: an odd number of operands -/
def CsgAdds.hasOdd (zi : Nat) (p : P) : CsgAdds P → Bool
  | .nil => false
  | .cons x xs => x.hasAny zi p != xs.hasOdd zi p
/-- `i` layers further up, there is the layer for height index `zi`, and it has the point -/
def Layers.has (zi : Nat) (p : P) : Layers P → Nat → Bool
  | .nil, _ => false
  | .unset _ _, 0 => false
  | .layer lzi root _, 0 => decide (zi = lzi) && root.hasAny zi p
  | .unset _ ls, i + 1 => ls.has zi p i
  | .layer _ _ ls, i + 1 => ls.has zi p i
end

mutual
/-- What the code assumes of its input: polygons without vertices/lines are empty sets, and each layer of a stack is
either marked with its own height index or was never visited (index 0). -/
def Csg.WF : Csg P → Prop
  | .vline2 n reg => n = 0 → ∀ p, reg p = false
  | .poly n reg => n = 0 → ∀ p, reg p = false
  | .stack idx0 ls => ls.WF idx0
  | .add xs => xs.WF
  | .xor xss => xss.WF
  | .sub xs ys => xs.WF ∧ ys.WF
  | .cut xss => xss.WF
def Csgs.WF : Csgs P → Prop
  | .nil => True
  | .cons x xs => x.WF ∧ xs.WF
def CsgAdds.WF : CsgAdds P → Prop
  | .nil => True
  | .cons x xs => x.WF ∧ xs.WF
def Layers.WF : Layers P → Nat → Prop
  | .nil, _ => True
  | .unset lzi ls, i => (lzi = i ∨ lzi = 0) ∧ ls.WF (i + 1)
  | .layer lzi root ls, i => (lzi = i ∨ lzi = 0) ∧ root.WF ∧ ls.WF (i + 1)
end

mutual
/-- number of polygons of the tree at height index `zi` -/
def Csg.leaves (zi : Nat) : Csg P → Nat
  | .vline2 _ _ => 1
  | .poly _ _ => 1
  | .stack idx0 ls => ls.leaves zi (zi - idx0)
  | .add xs => xs.leaves zi
  | .xor xss => xss.leaves zi
  | .sub xs ys => xs.leaves zi + ys.leaves zi
  | .cut xss => xss.leaves zi
def Csgs.leaves (zi : Nat) : Csgs P → Nat
  | .nil => 0
  | .cons x xs => x.leaves zi + xs.leaves zi
def CsgAdds.leaves (zi : Nat) : CsgAdds P → Nat
  | .nil => 0
  | .cons x xs => x.leaves zi + xs.leaves zi
def Layers.leaves (zi : Nat) : Layers P → Nat → Nat
  | .nil, _ => 0
  | .unset _ _, 0 => 0
  | .layer _ root _, 0 => root.leaves zi
  | .unset _ ls, i + 1 => ls.leaves zi i
  | .layer _ _ ls, i + 1 => ls.leaves zi i
end

/-- The set of polygons containing `p` as a bit mask: bit `i` stands for polygon number `i`. -/
def mask : List (P → Bool) → P → Nat
  | [], _ => 0
  | r :: rs, p => (r p).toNat + 2 * mask rs p

/-- What is assumed of the plane sweep: if it is given 1 to 10 polygons and a truth table that says "outside" for
points outside of all polygons, then the result is the point set described by the table; it may report "empty" only
if that set is empty. -/
def Sweep.Ok (sw : Sweep P) : Prop :=
  ∀ (rs : List (P → Bool)) (t : Mem), 1 ≤ rs.length → rs.length ≤ 10 → t.getLsbD 0 = false →
    match sw.run rs t with
    | none => ∀ p, t.getLsbD (mask rs p) = false
    | some g => ∀ p, g p = t.getLsbD (mask rs p)

/-- the point set of a result: `none` is the empty polygon -/
def Res.has : Option (P → Bool) → P → Bool
  | none, _ => false
  | some g, p => g p

end

end Hob3l.Flatten
