import Verif.Ns.Model

/-!
The elements of an XML tree that belong to SVG.
-/

namespace Hob3l.Ns

open Hob3l.Xml (Nd)

/-- an element: name, namespace, attributes without a namespace -/
structure E where
  name : Str
  ns : Option Str
  attrs : List (Str × Option Str)

/-- the attributes without a namespace -/
def plain : List Nd → List (Str × Option Str)
  | [] => []
  | .attr _ n none v :: l => (n, v) :: plain l
  | _ :: l => plain l

/-- the value of an attribute -/
def E.get (e : E) (n : Str) : Option Str := (e.attrs.find? fun a => a.1 == n).bind (·.2)

mutual
/-- the elements of a tree in the order of the document, each with all the elements around it (outermost first) -/
def chains : Nd → List (List E)
  | .elem _ n ns c => [⟨n, ns, plain c⟩] :: (chainsL c).map (⟨n, ns, plain c⟩ :: ·)
  | _ => []
def chainsL : List Nd → List (List E)
  | [] => []
  | x :: l => chains x ++ chainsL l
end

/-- all the elements of the chain are in the wanted namespaces, and all but the last one are entered -/
def Wanted (ok : Option Str → Bool) (enter : Str → Bool) : List E → Bool
  | [] => true
  | [e] => ok e.ns
  | e :: l => ok e.ns && enter e.name && Wanted ok enter l

/-- the namespace of SVG -/
def isSvg (ns : Option Str) : Bool := ns == some ("http://www.w3.org/2000/svg".toList.map Char.toNat)

/-- attributes come first -/
def first : List Nd → Prop
  | [] => True
  | .attr .. :: l => first l
  | _ :: l => ∀ x ∈ l, match x with | .attr .. => False | _ => True

mutual
/-- attributes come first in all elements -/
def Tidy : Nd → Prop
  | .elem _ _ _ c => first c ∧ TidyL c
  | _ => True
def TidyL : List Nd → Prop
  | [] => True
  | x :: l => Tidy x ∧ TidyL l
end

/-- what can be seen of an element -/
def E.view (e : E) : Str × (Str → Option Str) := (e.name, e.get)

end Hob3l.Ns
