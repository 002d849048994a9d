import Verif.Syn.Spec
/-!
# What a printed syntax tree means

How the tree changes if floating point numbers are replaced by their printed form and modifiers are lost.
-/
namespace Hob3l.Syn

mutual

/-- all names, numbers and strings in a value satisfy `p` -/
def Value.All (p : Value → Prop) : Value → Prop
  | .range a b => a.All p ∧ b.All p
  | .range3 a i b => a.All p ∧ i.All p ∧ b.All p
  | .arr l => Value.AllList p l
  | .id s => p (.id s)
  | .int v => p (.int v)
  | .float s => p (.float s)
  | .str s => p (.str s)

def Value.AllList (p : Value → Prop) : List Value → Prop
  | [] => True
  | v :: l => v.All p ∧ Value.AllList p l

end

mutual

/-- all items satisfy `p` (name, arguments, modifiers) -/
def Item.All (p : Text → List Arg → Nat → Prop) : Item → Prop
  | .mk f args body m => p f args m ∧ Item.AllList p body

def Item.AllList (p : Text → List Arg → Nat → Prop) : List Item → Prop
  | [] => True
  | i :: l => i.All p ∧ Item.AllList p l

end

/-- all items of the statements satisfy `p` -/
def AllItems (p : Text → List Arg → Nat → Prop) (l : List Stmt) : Prop := ∀ i, Stmt.item i ∈ l → i.All p

/-- all values in the arguments satisfy `p` -/
def AllValues (p : Value → Prop) (l : List Stmt) : Prop := AllItems (fun _ args _ => ∀ a ∈ args, a.value.All p) l

/-- a floating point number is printed as a number, without a plus sign -/
def PrintsNumber (ff : Text → Text) : Value → Prop
  | .float s => NumberText (ff s) ∧ (ff s).head? ≠ some 43
  | _ => True

/-- a floating point number is printed as it was read -/
def PrintsBack (ff : Text → Text) : Value → Prop
  | .float s => NumberText s ∧ ff s = s
  | _ => True

mutual

/-- the value with floating point numbers as printed: without point and exponent it is an integer -/
def Value.printed (ff : Text → Text) : Value → Value
  | .id s => .id s
  | .int v => .int v
  | .float s => if IsFloat (ff s) then .float (ff s) else .int (intValue (ff s))
  | .str s => .str s
  | .range a b => .range (a.printed ff) (b.printed ff)
  | .range3 a i b => .range3 (a.printed ff) (i.printed ff) (b.printed ff)
  | .arr l => .arr (Value.printedList ff l)

def Value.printedList (ff : Text → Text) : List Value → List Value
  | [] => []
  | v :: l => v.printed ff :: Value.printedList ff l

end

mutual

/-- the item with numbers as printed, without modifiers -/
def Item.printed (ff : Text → Text) : Item → Item
  | .mk f args body _ => .mk f (args.map fun a => ⟨a.key, a.value.printed ff⟩) (Item.printedList ff body) 0

def Item.printedList (ff : Text → Text) : List Item → List Item
  | [] => []
  | i :: l => i.printed ff :: Item.printedList ff l

end

def Stmt.printed (ff : Text → Text) : Stmt → Stmt
  | .item i => .item (i.printed ff)
  | .use p => .use p

end Hob3l.Syn
