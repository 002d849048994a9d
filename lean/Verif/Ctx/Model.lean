import Verif.Args.Model

/-!
Model of the conversion of a SCAD tree into a CSG tree with everything that is handed down from an object to its children:
transformation, colour, modifiers, dimension (2D or 3D), and the search for the object with the modifier `!`.
`src/hob3l/csg3.c`: `csg3_from_scad` and the functions for operators, transformations and colours.

`M` are the transformation matrices with their product, `T` the parameters of transformations, `X` those of extrusions,
`S` the shapes.  Simplifications: a shape that is accepted gives exactly one leaf (text() and import() of SVG may give any
number of polygons; they have the same matrix and the same colour); whether a shape, an extrusion, or a hull is empty or
rejected is given by `Env`; an extrusion gives one object (csg3.c:1700-1745, 2060-2100 make one or more polyhedra with the
same matrix and colour); locations and texts of messages are left out.
-/

namespace Hob3l.Ctx

open Hob3l.Args (Out)

/-- `cp_gc_t` include/hob3l/gc_tam.h:48-65 -/
structure Gc where
  rgb : Nat × Nat × Nat
  a : Nat
  mods : Nat
  deriving Repr, DecidableEq

/-- `cp_scad_t::type` with the parameters, include/hob3l/scad_tam.h -/
inductive Node (T X S : Type) where
  | union
  | diff
  | inter
  /-- `translate`, `mirror`, `scale`, `rotate`, `multmatrix` -/
  | xform (t : T)
  /-- `rgba.rgb` if `valid`, and `rgba.a` -/
  | color (c : Option (Nat × Nat × Nat)) (a : Nat)
  /-- `linear_extrude`, `rotate_extrude` -/
  | ext (x : X)
  | hull
  | proj (cut : Bool)
  | shape (s : S)
  deriving Repr, DecidableEq

/-- `cp_scad_t`: address, kind, `modifier`, children -/
inductive Tree (T X S : Type) where
  | mk (id : Nat) (n : Node T X S) (mods : Nat) (l : List (Tree T X S))

/-- `cp_csg3_t`, and polygons in 2D context -/
inductive Csg (M X S : Type) where
  | leaf (s : S) (m : M) (g : Gc)
  | ext (x : X) (m : M) (g : Gc) (l : List (Csg M X S))
  | hull (l : List (Csg M X S))
  | proj (l : List (Csg M X S))
  | sub (a b : List (Csg M X S))
  | cut (l : List (List (Csg M X S)))
  deriving Repr

/-- what a transformation does: error, error if so configured, nothing, or a matrix -/
inductive Xf (M : Type) where
  /-- `mirror` with a vector of length 0, csg3.c:298-300 -/
  | bad
  /-- `scale` by 0, csg3.c:335-338, `multmatrix` with a matrix that is not invertible, 355-358 -/
  | collapse
  /-- `translate` by 0, csg3.c:276-280 -/
  | same
  | mat (t : M)

/-- shapes: accepted, empty, rejected, or in a file that cannot be read (csg3.c:904-909) -/
inductive Size where
  | good
  | hollow
  | bad
  | unread
  deriving Repr, DecidableEq

/-- outcome of an extrusion or a hull after its children have been converted -/
inductive Eff where
  /-- `msg(c, CP_ERR_FAIL, …)` or error by `cp_csg2_flatten` -/
  | bad
  /-- the parameters make it empty: `msg(c, c->opt->err_empty, …)` -/
  | hollow
  /-- nothing there: csg3.c:1786-1788, 2035-2037 -/
  | empty
  | push
  deriving Repr, DecidableEq

/-- the parts that are not modelled, and the options `c->opt` (`true`: `CP_ERR_FAIL`) -/
structure Env (T M X S : Type) where
  xf : T → Xf M
  /-- 2D shape -/
  is2 : S → Bool
  /-- `import` sets `*no` before anything else, csg3.c:902 -/
  file : S → Bool
  size : S → Size
  extr : X → List (Csg M X S) → Eff
  hull : List (Csg M X S) → Eff
  errEmpty : Bool
  errCollapse : Bool
  err2 : Bool
  err3 : Bool

/-- `*no`, `*r`, `c->tree->root_xform` -/
structure St (M X S : Type) where
  no : Bool
  r : List (Csg M X S)
  rx : Option M

variable {T M X S : Type}

abbrev Conv (M X S : Type) := St M X S → Out (St M X S)

/-- `msg` csg3.c:38-46, `cp_syn_vmsg` syn-msg.c:219-252 -/
def msg (lvl : Bool) (st : St M X S) : Out (St M X S) := if lvl then .fail else .ok st

/-- `csg3_from_v_scad` csg3.c:97-111, `csg3_from_rec` 113-121 -/
def fromV : List (Conv M X S) → Conv M X S
  | [], st => .ok st
  | c :: cs, st => (c st).bind (fromV cs)

/-- the loop of `csg3_from_difference` csg3.c:148-156: `add_no`, `f`, and the children that were not visited -/
def diffHead : List (Conv M X S) → St M X S → Out (St M X S × List (Conv M X S))
  | [], st => .ok (st, [])
  | c :: cs, st => if st.no then .ok (st, c :: cs) else (c st).bind (diffHead cs)

/-- csg3.c:162-216: the rest of `csg3_from_difference` with the positive part `f` and the other children -/
def diffTail (f : List (Csg M X S)) (rest : List (Conv M X S)) (st : St M X S) : Out (St M X S) :=
  match f with
  | [] => .ok st
  | [.sub a b] => (fromV rest ⟨st.no, b, st.rx⟩).bind fun q => .ok ⟨q.no, st.r ++ [.sub a q.r], q.rx⟩
  | f => (fromV rest ⟨st.no, [], st.rx⟩).bind fun q =>
      if q.r.length = 0 then .ok ⟨q.no, st.r ++ f, q.rx⟩ else .ok ⟨q.no, st.r ++ [.sub f q.r], q.rx⟩

/-- `csg3_from_difference` csg3.c:123-216 -/
def fromDiff (l : List (Conv M X S)) : Conv M X S := fun st =>
  (diffHead l ⟨false, [], st.rx⟩).bind fun h => diffTail h.1.r h.2 ⟨if h.1.no then true else st.no, st.r, h.1.rx⟩

/-- `csg3_cut_push_add` csg3.c:218-231 -/
def cutPush (cut : List (List (Csg M X S))) (add : List (Csg M X S)) : List (List (Csg M X S)) :=
  if add.length > 0 then cut ++ [add] else cut

/-- the loop of `csg3_from_intersection` csg3.c:244-250: `cut`, and `add` in the state -/
def interLoop : List (Conv M X S) → List (List (Csg M X S)) → St M X S → Out (List (List (Csg M X S)) × St M X S)
  | [], cut, st => .ok (cut, st)
  | c :: cs, cut, st =>
    (c ⟨st.no, if st.r.length > 0 then [] else st.r, st.rx⟩).bind fun q => interLoop cs (cutPush cut st.r) q

/-- `csg3_from_intersection` csg3.c:233-267; `assert(cut.size >= 2)` 259 -/
def fromInter (l : List (Conv M X S)) : Conv M X S := fun st =>
  (interLoop l [] ⟨st.no, [], st.rx⟩).bind fun h =>
    if h.1.length = 0 then .ok ⟨h.2.no, st.r ++ h.2.r, h.2.rx⟩
    else if (cutPush h.1 h.2.r).length ≥ 2 then .ok ⟨h.2.no, st.r ++ [.cut (cutPush h.1 h.2.r)], h.2.rx⟩
    else .crash

/-- `csg3_from_translate`, `_mirror`, `_scale`, `_multmatrix`, `_rotate` csg3.c:269-364, 381-408: `k` converts the children
with a matrix (`cp_mat3wi_mul(m1, mo->mat, m1)`). -/
def fromXform [Mul M] (e : Env T M X S) (x : Xf M) (m : M) (k : M → Conv M X S) : Conv M X S :=
  match x with
  | .bad => fun _ => .fail
  | .collapse => msg e.errCollapse
  | .same => k m
  | .mat t => k (m * t)

/-- The shapes: `csg3_from_sphere` csg3.c:746, `_polyhedron` 833, `_import` 895, `_surface` 980, `_text` 1006, `_polygon` 1203,
`_cube` 1262, `_circle` 1326, `_square` 1386, `_cylinder` 1492: context, `*no = true`, extent. -/
def fromShape (e : Env T M X S) (two : Bool) (m : M) (g : Gc) (s : S) : Conv M X S := fun st =>
  if e.file s = true ∧ e.size s = .unread then .fail
  else if e.is2 s ≠ two then
    msg (if e.is2 s then e.err2 else e.err3) (if e.file s then ⟨true, st.r, st.rx⟩ else st)
  else match e.size s with
    | .good => .ok ⟨true, st.r ++ [.leaf s m g], st.rx⟩
    | .hollow => msg e.errEmpty ⟨true, st.r, st.rx⟩
    | _ => .fail

/-- `csg3_from_linext` csg3.c:1560-1746, `csg3_from_rotext` 1969-2102; `k` converts the children in 2D context with a fresh
matrix. -/
def fromExt (e : Env T M X S) (two : Bool) (m : M) (g : Gc) (x : X) (k : Conv M X S) : Conv M X S := fun st =>
  if two then msg e.err3 st
  else (k ⟨st.no, [], st.rx⟩).bind fun q =>
    match e.extr x q.r with
    | .bad => .fail
    | .hollow => msg e.errEmpty ⟨q.no, st.r, q.rx⟩
    | .empty => .ok ⟨q.no, st.r, q.rx⟩
    | .push => .ok ⟨q.no, st.r ++ [.ext x m g q.r], q.rx⟩

/-- `csg3_from_hull` csg3.c:1748-1808; `k` converts the children with a fresh matrix; `m` is not used. -/
def fromHull (e : Env T M X S) (two : Bool) (k : Conv M X S) : Conv M X S := fun st =>
  if two = false then msg e.err3 st
  else (k ⟨st.no, [], st.rx⟩).bind fun q =>
    match e.hull q.r with
    | .bad => .fail
    | .push => .ok ⟨q.no, st.r ++ [.hull q.r], q.rx⟩
    | _ => .ok ⟨q.no, st.r, q.rx⟩

/-- `csg3_from_projection` csg3.c:1144-1201; `k` converts the children in 3D context with a fresh matrix; `m` is not used.
-/
def fromProj (e : Env T M X S) (two cut : Bool) (k : Conv M X S) : Conv M X S := fun st =>
  if two = false then msg e.err2 st
  else (k ⟨st.no, [], st.rx⟩).bind fun q =>
    if cut then .ok ⟨q.no, st.r ++ [.proj q.r], q.rx⟩ else .fail

/-- `csg3_from_color` csg3.c:366-379 -/
def Gc.color (g : Gc) (c : Option (Nat × Nat × Nat)) (a : Nat) : Gc :=
  match c with
  | some c => ⟨c, a, g.mods⟩
  | none => ⟨g.rgb, a, g.mods⟩

/-- `modifier & CP_GC_MOD_IGNORE`, include/hob3l/gc_tam.h:15 -/
def ignored (mods : Nat) : Bool := mods.testBit 1

/-- csg3.c:2127-2128: this is the object searched for -/
def hit (se : Option Nat) (id mods : Nat) : Bool := mods != 0 && se == some id

mutual
/-- `csg3_from_scad` csg3.c:2104-2272.  `se`: `c->search_root`, `two`: `c->context == IN2D`, `m`: `m->mat`, `g`: `m->gc`. -/
def conv [Mul M] [One M] (e : Env T M X S) (se : Option Nat) (two : Bool) (m : M) (g : Gc) : Tree T X S → Conv M X S
  | .mk id n mods l => fun st =>
    -- 2119-2121
    if se.isSome && st.rx.isSome then .ok st
    else
      -- 2127-2139
      let st := if hit se id mods then ⟨st.no, st.r, some m⟩ else st
      let m := if hit se id mods then 1 else m
      let se := if hit se id mods then none else se
      -- 2142-2144
      if ignored mods then .ok st
      else
        let g : Gc := ⟨g.rgb, g.a, g.mods ||| mods⟩
        -- 2154-2191: the search does not look at operators, and skips shapes
        if se.isSome then
          match n with
          | .xform t => fromXform e (e.xf t) m (fun m => fromV (convs e se two m g l)) st
          | .color c a => fromV (convs e se two m (g.color c a) l) st
          | .shape _ => .ok st
          | _ => fromV (convs e se two m g l) st
        else
          match n with
          | .union => fromV (convs e none two m g l) st
          | .diff => fromDiff (convs e none two m g l) st
          | .inter => fromInter (convs e none two m g l) st
          | .xform t => fromXform e (e.xf t) m (fun m => fromV (convs e none two m g l)) st
          | .color c a => fromV (convs e none two m (g.color c a) l) st
          | .ext x => fromExt e two m g x (fromV (convs e none true 1 g l)) st
          | .hull => fromHull e two (fromV (convs e none two 1 g l)) st
          | .proj cut => fromProj e two cut (fromV (convs e none false 1 g l)) st
          | .shape s => fromShape e two m g s st
/-- the conversions of children -/
def convs [Mul M] [One M] (e : Env T M X S) (se : Option Nat) (two : Bool) (m : M) (g : Gc) :
    List (Tree T X S) → List (Conv M X S)
  | [] => []
  | s :: l => conv e se two m g s :: convs e se two m g l
end

/-- `mat_ctxt_init` csg3.c:70-80 -/
def gc0 : Gc := ⟨(220, 220, 64), 255, 0⟩

def Tree.id : Tree T X S → Nat
  | .mk id _ _ _ => id

/-- `cp_csg3_from_scad_tree` csg3.c:2475-2500 with `cp_csg3_from_scad` 2274-2298 and `cp_csg3_from_v_scad` 2300-2325: `root` is
`scad->root`, which is one of the objects of the tree; the result is `tree->root->add` and `tree->root_xform`. -/
def convTree [Mul M] [One M] (e : Env T M X S) (keep : Bool) (top : List (Tree T X S)) (root : Option (Tree T X S)) :
    Out (List (Csg M X S) × Option M) :=
  match root with
  | none => (fromV (convs e none false 1 gc0 top) ⟨false, [], none⟩).bind fun q => .ok (q.r, q.rx)
  | some t =>
    if keep then (fromV (convs e (some t.id) false 1 gc0 top) ⟨false, [], none⟩).bind fun q => .ok (q.r, q.rx)
    else (conv e none false 1 gc0 t ⟨false, [], none⟩).bind fun q => .ok (q.r, q.rx)

end Hob3l.Ctx
