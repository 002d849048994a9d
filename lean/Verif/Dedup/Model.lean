import Verif.Dict.Model

/-!
Model of the deduplication of vertices: `src/hob3l/vec3-dict.c`, and of the comparison it uses, `cp_lex_cmp`
src/hob3lmat/algo.c:41-49.

A node (`cp_vec3_dict_node_t`) is the pair of its index and its coordinates; the location is left out.  The search tree is
the one of the model of dict.c.
-/

namespace Hob3l.Dedup

open Hob3l.Dict

/-- `cp_vec3_dict_t`: `root` and `size` -/
structure VDict (V : Type) where
  root : Tree (Nat × V)
  size : Nat

/-- a fresh dictionary -/
def VDict.empty {V : Type} : VDict V := ⟨.leaf, 0⟩

/-- `cp_vec3_dict_insert` vec3-dict.c:24-42; `cmp` is the comparison of `cmp_vec3` 10-17 -/
def insert {V : Type} [DecidableEq V] (cmp : V → V → Int) (v : V) (d : VDict V) : Option ((Nat × V) × VDict V) :=
  match findRet (fun n => cmp v n.2) 0 d.root with
  | some n => some (n, d)
  | none => do
    let r := findRef (fun n => cmp v n.2) 0 d.root
    let t ← insertRef (d.size, v) r.p r.i d.root
    some ((d.size, v), ⟨t.1, d.size + 1⟩)

/-- a sequence of vertices is inserted, as in the readers and `iterate.c`: the indices -/
def insertAll {V : Type} [DecidableEq V] (cmp : V → V → Int) : List V → VDict V → Option (List Nat × VDict V)
  | [], d => some ([], d)
  | v :: vs, d => do
    let r ← insert cmp v d
    let rs ← insertAll cmp vs r.2
    some (r.1.1 :: rs.1, rs.2)

/-- `cp_lex_cmp` algo.c:41-49 with the epsilon `eps`; coordinates are modelled as integers (multiples of some unit) -/
def lexCmp (eps : Nat) : List Int → List Int → Int
  | a :: as, b :: bs => if (a - b).natAbs < eps then lexCmp eps as bs else if a < b then -1 else 1
  | _, _ => 0

end Hob3l.Dedup
