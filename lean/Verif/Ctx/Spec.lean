import Verif.Ctx.Model

/-!
What an object gets from the objects around it, in terms of the path that leads to it.
-/

namespace Hob3l.Ctx

variable {T M X S : Type}

/-- an object on a path, with its modifiers -/
abbrev Frame (T X S : Type) := Node T X S × Nat

/-- from the outermost object to the innermost -/
abbrev Path (T X S : Type) := List (Frame T X S)

mutual
/-- the paths to the shapes and the extrusions of a tree, in order of the text -/
def paths : Tree T X S → List (Path T X S)
  | .mk _ (.shape s) mods _ => [[(.shape s, mods)]]
  | .mk _ (.ext x) mods l => [(.ext x, mods)] :: (pathss l).map ((.ext x, mods) :: ·)
  | .mk _ n mods l => (pathss l).map ((n, mods) :: ·)
def pathss : List (Tree T X S) → List (Path T X S)
  | [] => []
  | t :: l => paths t ++ pathss l
end

/-- a shape or an extrusion with its matrix, its colour and its modifiers -/
inductive Thing (M X S : Type) where
  | shape (s : S) (m : M) (g : Gc)
  | ext (x : X) (m : M) (g : Gc)
  deriving Repr, DecidableEq

mutual
/-- the shapes and extrusions of the result in order -/
def Csg.things : Csg M X S → List (Thing M X S)
  | .leaf s m g => [.shape s m g]
  | .ext x m g l => .ext x m g :: thingss l
  | .hull l => thingss l
  | .proj l => thingss l
  | .sub a b => thingss a ++ thingss b
  | .cut l => thingsss l
def thingss : List (Csg M X S) → List (Thing M X S)
  | [] => []
  | c :: l => c.things ++ thingss l
def thingsss : List (List (Csg M X S)) → List (Thing M X S)
  | [] => []
  | c :: l => thingss c ++ thingsss l
end

/-- all modifiers on the path -/
def modsOf (q : Path T X S) : Nat := q.foldl (fun a f => a ||| f.2) 0

/-- the innermost colour given on the path -/
def rgbOf (q : Path T X S) : Nat × Nat × Nat :=
  ((q.filterMap fun f => match f.1 with | .color (some c) _ => some c | _ => none).getLast?).getD (220, 220, 64)

/-- the innermost alpha -/
def alphaOf (q : Path T X S) : Nat :=
  ((q.filterMap fun f => match f.1 with | .color _ a => some a | _ => none).getLast?).getD 255

def gcOf (q : Path T X S) : Gc := ⟨rgbOf q, alphaOf q, modsOf q⟩

/-- objects that start a new coordinate system for what is in them -/
def Node.fresh : Node T X S → Bool
  | .ext _ | .hull | .proj _ => true
  | _ => false

/-- the objects within the innermost extrusion, hull, or projection -/
def inner (q : Path T X S) : Path T X S := (q.reverse.takeWhile fun f => !f.1.fresh).reverse

/-- the matrices of the transformations on a path, from the outermost to the innermost -/
def matsOf (e : Env T M X S) (q : Path T X S) : List M :=
  q.filterMap fun f => match f.1 with
    | .xform t => (match e.xf t with | .mat t => some t | _ => none)
    | _ => none

/-- product -/
def prodOf [Mul M] [One M] (l : List M) : M := l.foldl (· * ·) 1

/-- 2D inside extrusions, 3D inside projections and outside of everything -/
def twoOf (q : Path T X S) : Bool :=
  ((q.filterMap fun f => match f.1 with | .ext _ => some true | .proj _ => some false | _ => none).getLast?).getD false

/-- whether an object below `q` is converted -/
def okAt (e : Env T M X S) (q : Path T X S) (f : Frame T X S) : Bool :=
  !ignored f.2 &&
  match f.1 with
  | .xform t => (match e.xf t with | .bad | .collapse => false | _ => true)
  | .ext _ => !twoOf q
  | .hull => twoOf q
  | .proj cut => twoOf q && cut
  | .shape s => e.is2 s == twoOf q && e.size s == .good
  | _ => true

/-- all objects of a path, of which `q` is the part that has been seen, are converted -/
def fitsFrom (e : Env T M X S) (q : Path T X S) : Path T X S → Bool
  | [] => true
  | f :: p => okAt e q f && fitsFrom e (q ++ [f]) p

def fits (e : Env T M X S) (p : Path T X S) : Bool := fitsFrom e [] p

/-- nothing on the path is disabled -/
def visible (p : Path T X S) : Bool := p.all fun f => !ignored f.2

/-- what is at the end of the path `p`: its matrix is the product of the transformations within the innermost extrusion,
hull, or projection around it; its colour is the innermost one, its modifiers are all those given, including its own. -/
def thingOf [Mul M] [One M] (e : Env T M X S) (p : Path T X S) : Option (Thing M X S) :=
  match p.getLast? with
  | some (.shape s, _) => some (.shape s (prodOf (matsOf e (inner p.dropLast))) (gcOf p))
  | some (.ext x, _) => some (.ext x (prodOf (matsOf e (inner p.dropLast))) (gcOf p))
  | _ => none

/-- the things that a list of objects below `q` should give -/
def wanted [Mul M] [One M] (e : Env T M X S) (q : Path T X S) (l : List (Path T X S)) : List (Thing M X S) :=
  (l.filter (fitsFrom e q)).filterMap fun p => thingOf e (q ++ p)

def Thing.isShape : Thing M X S → Bool
  | .shape .. => true
  | .ext .. => false

mutual
/-- all objects of a tree with the paths that lead to them (without the objects themselves), in order of the text; shapes have
no children -/
def nodes : Tree T X S → List (Path T X S × Tree T X S)
  | .mk id (.shape s) mods l => [([], .mk id (.shape s) mods l)]
  | .mk id n mods l => ([], .mk id n mods l) :: (nodess l).map fun p => ((n, mods) :: p.1, p.2)
def nodess : List (Tree T X S) → List (Path T X S × Tree T X S)
  | [] => []
  | t :: l => nodes t ++ nodess l
end

def Tree.frame : Tree T X S → Frame T X S
  | .mk _ n mods _ => (n, mods)

/-- the objects above are neither disabled nor do they collapse space -/
def reached (e : Env T M X S) (q : Path T X S) : Bool :=
  q.all fun f => !ignored f.2 && match f.1 with
    | .xform t => (match e.xf t with | .bad | .collapse => false | _ => true)
    | _ => true

/-- every error is reported as such -/
structure Strict (e : Env T M X S) : Prop where
  empty : e.errEmpty = true
  collapse : e.errCollapse = true
  two : e.err2 = true
  three : e.err3 = true

/-- extrusions and hulls of something are something -/
structure Filled (e : Env T M X S) : Prop where
  extr : ∀ x l, e.extr x l = .empty → l = []
  hull : ∀ l, e.hull l ≠ .push → e.hull l ≠ .bad → l = []

/-- extrusions and hulls are not rejected -/
structure Good (e : Env T M X S) : Prop where
  extr : ∀ x l, e.extr x l ≠ .bad ∧ e.extr x l ≠ .hollow
  hull : ∀ l, e.hull l ≠ .bad

/-- what the object with `!` keeps of the objects around it: colours and modifiers -/
def keepGc (f : Frame T X S) : Frame T X S :=
  match f.1 with
  | .color c a => (.color c a, f.2)
  | _ => (.union, f.2)

mutual
/-- the result without colours and modifiers -/
def Csg.bare : Csg M X S → Csg M X S
  | .leaf s m _ => .leaf s m gc0
  | .ext x m _ l => .ext x m gc0 (bares l)
  | .hull l => .hull (bares l)
  | .proj l => .proj (bares l)
  | .sub a b => .sub (bares a) (bares b)
  | .cut l => .cut (baress l)
def bares : List (Csg M X S) → List (Csg M X S)
  | [] => []
  | c :: l => c.bare :: bares l
def baress : List (List (Csg M X S)) → List (List (Csg M X S))
  | [] => []
  | c :: l => bares c :: baress l
end

/-- extrusions and hulls do not look at colours -/
structure Blind (e : Env T M X S) : Prop where
  extr : ∀ x a b, bares a = bares b → e.extr x a = e.extr x b
  hull : ∀ a b, bares a = bares b → e.hull a = e.hull b

end Hob3l.Ctx
