import Verif.Bitmap.Model

/-
Model of /repo/src/hob3l/csg2-bool.c: reduction of a 2D CSG tree at one height `zi` to one polygon.

Simplifications:
* a polygon is represented by its point set `P → Bool` (`P`: any type of points) and, for the input kinds, by the
  number the code inspects (`q.size` / `q.point.size`);
* the plane sweep (cq_sweep_new .. cq_sweep_reduce, cq_sweep_empty) is a parameter `Sweep`; what is assumed of it
  is written down in Spec.lean and is a hypothesis of the theorems;
* entries of `data` at or beyond `size` are not represented (`size` = `data.length`), nor is `data[i] = NULL`
  of consumed sweeps;
* trees are mutual inductive types; the NULL-`root` of a layer is the constructor `unset`.
`none` = failed assertion / CP_DIE / access outside of the truth table.
-/

namespace Hob3l.Flatten

open Hob3l.Bitmap

/-- the kinds of `cp_csg2_t` that can be in `cp_csg2_lazy_t.data` csg2-bool.c:38-46 -/
inductive Obj (P : Type) where
  /-- `CP_CSG2_VLINE2`; `n` = `q.size` -/
  | vline2 (n : Nat) (reg : P → Bool)
  /-- `CP_CSG2_POLY`; `n` = `q.point.size` -/
  | poly (n : Nat) (reg : P → Bool)
  /-- `CP_CSG2_SWEEP` -/
  | sweep (reg : P → Bool)

def Obj.reg {P : Type} : Obj P → P → Bool
  | .vline2 _ r => r
  | .poly _ r => r
  | .sweep r => r

/-- `cp_csg2_lazy_t` csg2-bool.c:30-53 -/
structure Lazy (P : Type) where
  data : List (Obj P)
  comb : Mem

/-- `lazy_t o = { 0 }` -/
def Lazy.zero {P : Type} : Lazy P := ⟨[], 0⟩

abbrev Lazy.size {P : Type} (l : Lazy P) : Nat := l.data.length

/-- `cp_csg2_bool_mode_t` -/
inductive Mode | path | tri | vline2
deriving DecidableEq, Repr

/-- The plane sweep: from the list of input polygons (number `i` is added with member bit `1 << i`,
csg2-bool.c:105-126) and the truth table, `none` if `cq_sweep_empty`, else the resulting polygon
(csg2-bool.c:102, :130-131). -/
structure Sweep (P : Type) where
  run : List (P → Bool) → Mem → Option (P → Bool)

/-- the options of `cp_csg_opt_t` that are read: `max_simultaneous` and CP_CSG2_OPT_SKIP_EMPTY -/
structure Opt where
  maxSimultaneous : Nat
  skipEmpty : Bool

/-- csg2-bool.c:101-144 (the part of `flatten_eager` after the early returns).
`r->comb.b[0] = 2` is a byte write into the table. -/
def sweepAll {P : Type} (sw : Sweep P) (r : Lazy P) : Option (Lazy P) :=
  match sw.run (r.data.map Obj.reg) r.comb with
  | none => some ⟨[], r.comb⟩
  | some g => do
    let c ← wr 8 r.comb 0 2
    return ⟨[.sweep g], c⟩

/-- `flatten_eager` csg2-bool.c:81-145 -/
def flattenEager {P : Type} (sw : Sweep P) (r : Lazy P) (mode : Mode) : Option (Lazy P) :=
  match r.data with
  | [] => some r
  | [.sweep _] => some r
  | [.vline2 _ _] => if mode = .vline2 then some r else sweepAll sw r
  | _ => sweepAll sw r

/-- outcome of the `for (loop ..)` at csg2-bool.c:409-446: `return` or `break` -/
inductive Loop (P : Type) where
  | ret (r : Lazy P)
  | brk (r b : Lazy P)

/-- `cp_min(opt->max_simultaneous, cp_countof(r->data))` csg2-bool.c:408 -/
def maxSim (opt : Opt) : Nat := min opt.maxSimultaneous 10

/-- csg2-bool.c:409-446; `n` rounds left, i.e., `loop = 3 - n` -/
def lazyLoop {P : Type} (opt : Opt) (sw : Sweep P) (op : Op) : Nat → Lazy P → Lazy P → Option (Loop P)
  | 0, r, b => some (.brk r b)
  | n + 1, r, b =>
    if opt.skipEmpty = true ∧ b.size = 0 then
      some (.ret (if op = .cut then Lazy.zero else r))
    else if opt.skipEmpty = true ∧ r.size = 0 then
      some (.ret (if op = .add ∨ op = .xor then b else r))
    else if r.size + b.size ≤ maxSim opt then
      some (.brk r b)
    else do
      ass (3 - (n + 1) < 2)
      if r.size > b.size then
        let r ← flattenEager sw r .vline2
        ass (r.size ≤ 1)
        lazyLoop opt sw op n r b
      else
        let b ← flattenEager sw b .vline2
        ass (b.size ≤ 1)
        lazyLoop opt sw op n r b

/-- csg2-bool.c:448-466, after the loop -/
def joinLazy {P : Type} (op : Op) (r b : Lazy P) : Option (Lazy P) := do
  ass (r.size + b.size ≤ 10)
  let rc ← «repeat» r.comb r.size b.size
  let bc ← spread b.comb b.size r.size
  let c ← combine rc bc (r.size + b.size) op
  return ⟨r.data ++ b.data, c⟩

def finishLoop {P : Type} (op : Op) : Loop P → Option (Lazy P)
  | .ret r => some r
  | .brk r b => joinLazy op r b

/-- `flatten_lazy` csg2-bool.c:400-472 -/
def flattenLazy {P : Type} (opt : Opt) (sw : Sweep P) (r b : Lazy P) (op : Op) : Option (Lazy P) := do
  ass (2 ≤ opt.maxSimultaneous)
  let l ← lazyLoop opt sw op 3 r b
  finishLoop op l

/-- `flatten_lazy_vline2` csg2-bool.c:149-159 and `flatten_lazy_poly` :161-171 -/
def flattenLeaf {P : Type} (n : Nat) (o : Obj P) : Option (Lazy P) :=
  if n > 0 then do
    let c ← wr 8 0 0 2
    return ⟨[o], c⟩
  else some Lazy.zero

mutual
/-- 2D CSG trees: `cp_csg2_t`, csg2_tam.h:53-86, csg_tam.h -/
inductive Csg (P : Type) where
  | vline2 (n : Nat) (reg : P → Bool)
  | poly (n : Nat) (reg : P → Bool)
  /-- `cp_csg2_stack_t`: `idx0`, `layer` -/
  | stack (idx0 : Nat) (ls : Layers P)
  /-- `cp_csg_add_t.add` -/
  | add (xs : Csgs P)
  /-- `cp_csg_xor_t.xor`, a vector of `cp_csg_add_t` -/
  | xor (xss : CsgAdds P)
  /-- `cp_csg_sub_t`: `add->add`, `sub->add` -/
  | sub (xs ys : Csgs P)
  /-- `cp_csg_cut_t.cut` -/
  | cut (xss : CsgAdds P)
/-- `cp_v_obj_p_t` -/
inductive Csgs (P : Type) where
  | nil
  | cons (x : Csg P) (xs : Csgs P)
/-- vector of `cp_csg_add_t *` -/
inductive CsgAdds (P : Type) where
  | nil
  | cons (x : Csgs P) (xs : CsgAdds P)
/-- `cp_v_csg2_layer_t`: for each layer, `zi` and `root` -/
inductive Layers (P : Type) where
  | nil
  /-- `root == NULL` -/
  | unset (zi : Nat) (ls : Layers P)
  | layer (zi : Nat) (root : Csgs P) (ls : Layers P)
end

section
variable {P : Type} (opt : Opt) (sw : Sweep P)

mutual
/-- `flatten_lazy_rec` csg2-bool.c:308-350 -/
def flattenRec (zi : Nat) : Csg P → Option (Lazy P)
  | .vline2 n reg => flattenLeaf n (.vline2 n reg)
  | .poly n reg => flattenLeaf n (.poly n reg)
  | .stack idx0 ls =>
    /- `flatten_lazy_stack` :287-306, with `cp_csg2_stack_get_layer` csg2-layer.c:303-315 -/
    if idx0 ≤ zi then flattenStack zi (zi - idx0) ls else some Lazy.zero
  | .add xs => flattenV zi xs
  | .xor xss => flattenAdds zi .xor xss
  | .sub xs ys => do
    /- `flatten_lazy_sub` :273-285 -/
    let o ← flattenV zi xs
    let os ← flattenV zi ys
    flattenLazy opt sw o os .sub
  | .cut xss => flattenAdds zi .cut xss

/-- `flatten_lazy_v_csg2` :191-209 and `flatten_lazy_add` :211-219: first element -/
def flattenV (zi : Nat) : Csgs P → Option (Lazy P)
  | .nil => some Lazy.zero
  | .cons x xs => do
    let o ← flattenRec zi x
    flattenVRest zi o xs

/-- further elements of `flatten_lazy_v_csg2` -/
def flattenVRest (zi : Nat) (o : Lazy P) : Csgs P → Option (Lazy P)
  | .nil => some o
  | .cons x xs => do
    let oi ← flattenRec zi x
    let o ← flattenLazy opt sw o oi .add
    flattenVRest zi o xs

/-- `flatten_lazy_cut` :221-239 (`op` = cut) and `flatten_lazy_xor` :241-259 (`op` = xor): first element -/
def flattenAdds (zi : Nat) (op : Op) : CsgAdds P → Option (Lazy P)
  | .nil => some Lazy.zero
  | .cons x xs => do
    let o ← flattenV zi x
    flattenAddsRest zi op o xs

/-- further elements of `flatten_lazy_cut`/`flatten_lazy_xor` -/
def flattenAddsRest (zi : Nat) (op : Op) (o : Lazy P) : CsgAdds P → Option (Lazy P)
  | .nil => some o
  | .cons x xs => do
    let oc ← flattenV zi x
    let o ← flattenLazy opt sw o oc op
    flattenAddsRest zi op o xs

/-- the layer number `i` of the stack: `flatten_lazy_stack` :294-305 and `flatten_lazy_layer` :261-271 -/
def flattenStack (zi : Nat) : Nat → Layers P → Option (Lazy P)
  | _, .nil => some Lazy.zero
  | 0, .unset lzi _ => do
    if zi ≠ lzi then ass (lzi = 0)
    return Lazy.zero
  | 0, .layer lzi root _ =>
    if zi ≠ lzi then do
      ass (lzi = 0)
      return Lazy.zero
    else flattenV zi root
  | i + 1, .unset _ ls => flattenStack zi i ls
  | i + 1, .layer _ _ ls => flattenStack zi i ls
end

/-- the end of `cp_csg2_op_flatten_layer` :505-516 and of `cp_csg2_flatten` :579-588: `none` failure,
`some none` no polygon (empty), `some (some g)` the polygon handed to the triangulation/path extraction -/
def finishSweep (ol : Lazy P) : Option (Option (P → Bool)) :=
  match ol.data with
  | [] => some none
  | [.sweep g] => some (some g)
  | _ => none

/-- `cp_csg2_op_flatten_layer` :489-541 up to `cq_sweep_trianglify` -/
def opFlattenLayer (zi : Nat) (root : Csg P) : Option (Option (P → Bool)) := do
  let ol ← flattenRec opt sw zi root
  let ol ← flattenEager sw ol .tri
  finishSweep ol

/-- `cp_csg2_flatten` :561-628 up to the path extraction/triangulation.  (`root->size == 0` returns NULL, as
does an empty result.) -/
def csg2Flatten (root : Csgs P) (mode : Mode) : Option (Option (P → Bool)) := do
  match root with
  | .nil => return none
  | root =>
    let ol ← flattenV opt sw 0 root
    let ol ← flattenEager sw ol mode
    finishSweep ol

end

end Hob3l.Flatten
