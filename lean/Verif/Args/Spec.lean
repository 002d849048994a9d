import Verif.Args.Model
import Mathlib.Data.List.Forall2

/-!
# Specification of the arguments of functors

Only names, positions and values of arguments are used.
-/
namespace Hob3l.Args

open Hob3l.Syn (Text txt Value Arg Item Stmt)

/-- The unnamed arguments come first, there is a position for each of them (`pos`: names of the parameters with position), and the
names of the others are names of parameters (`all`). -/
structure Proper (pos all : List Text) (args : List Arg) : Prop where
  unnamed : ∀ (i : Nat) (a : Arg), args[i]? = some a → a.key = none → i < pos.length ∧ ∀ b ∈ args.take i, b.key = none
  known : ∀ a ∈ args, ∀ n : Text, a.key = some n → n ∈ all

/-- Whether the argument `a`, which is the one with number `i`, is for parameter `n`. -/
def isFor (pos : List Text) (n : Text) (i : Nat) (a : Arg) : Bool :=
  match a.key with
  | some m => m == n
  | none => pos[i]? == some n

/-- The values given for parameter `n`, in order, if the first argument has number `i`. -/
def values (pos : List Text) (n : Text) : Nat → List Arg → List Value
  | _, [] => []
  | i, a :: l => (if isFor pos n i a then [a.value] else []) ++ values pos n (i + 1) l

/-- Names of parameters. -/
def namesOf {F : Type} (ps : List (Param F)) : List Text := ps.map (·.name)

/-- The last value given for parameter `n` of functor `f`. -/
def lastFor (F : Type) [Flt F] (f : Fn) (n : String) (args : List Arg) : Option Value :=
  (values (namesOf (posParams f : List (Param F))) (txt n) 0 args).getLast?

/-- The number given for parameter `n` of functor `f`, if any. -/
def numFor {F : Type} [Flt F] (f : Fn) (n : String) (args : List Arg) : Option F :=
  (lastFor F f n args).bind tryFloat

/-- `Proper` for the parameters of a functor. -/
def ProperFor (F : Type) [Flt F] (f : Fn) (args : List Arg) : Prop :=
  Proper (namesOf (posParams f : List (Param F))) (namesOf (params f : List (Param F))) args

/-- At most one of several sources gives a number, which is then the result; otherwise the default is. -/
def OneOf {F : Type} (l : List (Option F)) (default x : F) : Prop :=
  l.filterMap id = [x] ∨ l.filterMap id = [] ∧ x = default

/-- The kind of an object. -/
def Obj.fn {F : Type} : Obj F → Fn
  | .union => .union
  | .difference => .difference
  | .intersection => .intersection
  | .hull => .hull
  | .multmatrix .. => .multmatrix
  | .translate .. => .translate
  | .mirror .. => .mirror
  | .scale .. => .scale
  | .rotate .. => .rotate
  | .color .. => .color
  | .linext .. => .linext
  | .rotext .. => .rotext
  | .projection .. => .projection
  | .sphere .. => .sphere
  | .circle .. => .circle
  | .cube .. => .cube
  | .square .. => .square
  | .cylinder .. => .cylinder
  | .polyhedron .. => .polyhedron
  | .polygon .. => .polygon
  | .import_ .. => .import_
  | .surface .. => .surface
  | .text .. => .text

/-- Shape of a program: kinds of objects, their modifiers, and their children. -/
inductive Shape where
  | mk (fn : Fn) (modifier : Nat) (child : List Shape)

mutual
/-- The shape of an item: functors that are not known are left out together with what is in them; solids and 2D objects have no
children. -/
def shapeItem : Item → List Shape
  | .mk functor _ body m =>
    match cmdFind functor with
    | none => []
    | some f => [.mk f m (if hasChild f then shapeItems body else [])]
/-- The shape of a list of items. -/
def shapeItems : List Item → List Shape
  | [] => []
  | i :: l => shapeItem i ++ shapeItems l
end

/-- The shape of a program. -/
def shapeStmts : List Stmt → List Shape
  | [] => []
  | .use _ :: l => shapeStmts l
  | .item i :: l => shapeItem i ++ shapeStmts l

mutual
/-- The shape of an object. -/
def Tree.shape {F : Type} : Tree F → Shape
  | .mk _ o m l => .mk o.fn m (shapes l)
/-- The shapes of a list of objects. -/
def shapes {F : Type} : List (Tree F) → List Shape
  | [] => []
  | t :: l => t.shape :: shapes l
end

mutual
/-- The objects of a tree with their numbers, kinds and modifiers: every object is before its children. -/
def Tree.all {F : Type} : Tree F → List (Nat × Nat)
  | .mk i _ m l => (i, m) :: allOf l
/-- The objects of several trees. -/
def allOf {F : Type} : List (Tree F) → List (Nat × Nat)
  | [] => []
  | t :: l => t.all ++ allOf l
end

mutual
/-- The modifiers in a shape, from outside to inside, from left to right. -/
def Shape.mods : Shape → List Nat
  | .mk _ m l => m :: modsOf l
/-- The modifiers in shapes. -/
def modsOf : List Shape → List Nat
  | [] => []
  | s :: l => s.mods ++ modsOf l
end

mutual
/-- The arguments of every object are all right, and functors that are not known are not errors. -/
def goodItem (F : Type) [Flt F] (o : Opts) : Item → Prop
  | .mk functor args body _ =>
    match cmdFind functor with
    | none => o.functor = false
    | some f => (∃ obj : Obj F, fromArgs o.param o.colors f args = .ok obj) ∧ (hasChild f = true → goodItems F o body)
/-- The same for several items. -/
def goodItems (F : Type) [Flt F] (o : Opts) : List Item → Prop
  | [] => True
  | i :: l => goodItem F o i ∧ goodItems F o l
end

mutual
/-- The kinds of the objects in a shape. -/
def Shape.fns : Shape → List Fn
  | .mk f _ l => f :: fnsOf l
/-- The same for several shapes. -/
def fnsOf : List Shape → List Fn
  | [] => []
  | s :: l => s.fns ++ fnsOf l
end

/-- The values given for a parameter of a functor. -/
abbrev valuesFor (F : Type) [Flt F] (f : Fn) (n : Text) (args : List Arg) : List Value :=
  values (namesOf (posParams f : List (Param F))) n 0 args

/-- Whether a value can be converted for a parameter of kind `k`. -/
def Accepts (F : Type) [Flt F] (k : Kind) (v : Value) : Prop :=
  ∃ x, get k (some (.vec [con 0, con 0, con 0] : Val F)) v = .ok x

/-- The value is an array of points with `n` coordinates. -/
def Points {F : Type} [Flt F] (n : Nat) (v : Value) (pts : List (List F)) : Prop :=
  ∃ l, v = .arr l ∧ List.Forall₂ (fun e p => ∃ c, e = Value.arr c ∧ c.length = n ∧
    List.Forall₂ (fun x y => tryFloat x = some y) c p) l pts

/-- The value is an array of arrays of indices. -/
def Faces (v : Value) (faces : List (List Nat)) : Prop :=
  ∃ l, v = .arr l ∧ List.Forall₂ (fun e f => ∃ c, e = Value.arr c ∧
    List.Forall₂ (fun x (i : Nat) => tryInt x = some (i : Int)) c f) l faces

/-- Every face has at least three corners, which are among `n` points. -/
def FacesOk (n : Nat) (faces : List (List Nat)) : Prop := ∀ f ∈ faces, 3 ≤ f.length ∧ ∀ i ∈ f, i < n

/-- Escape sequences: the first text means the second. -/
inductive Esc : Text → Text → Prop where
  | nil : Esc [] []
  | plain (c : Nat) (s t : Text) : c ≠ 92 → Esc s t → Esc (c :: s) (c :: t)
  | backslash (s t : Text) : Esc s t → Esc (txt "\\\\" ++ s) (txt "\\" ++ t)
  | quotes (s t : Text) : Esc s t → Esc (txt "\\\"" ++ s) (txt "\"" ++ t)
  | tab (s t : Text) : Esc s t → Esc (txt "\\t" ++ s) (txt "\t" ++ t)
  | newline (s t : Text) : Esc s t → Esc (txt "\\n" ++ s) (txt "\n" ++ t)
  | ret (s t : Text) : Esc s t → Esc (txt "\\r" ++ s) (txt "\r" ++ t)

/-- A text as it is written between quotes in a program: the characters with an escape sequence are replaced by it. -/
def quote (s : Text) : Text :=
  s.flatMap fun c => if c = 92 then [92, 92] else if c = 34 then [92, 34] else if c = 9 then [92, 116]
    else if c = 10 then [92, 110] else if c = 13 then [92, 114] else [c]

end Hob3l.Args
