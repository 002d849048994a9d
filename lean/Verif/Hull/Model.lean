import Verif.Matq.Model
import Mathlib.Data.Rat.Defs
import Mathlib.Algebra.Order.Group.Unbundled.Abs
import Mathlib.Algebra.Order.Ring.Rat

/-!
Model of the convex hull in two dimensions, src/hob3l/csg2-hull.c.

Simplifications: `double` is modelled by rational numbers, i.e., arithmetic is exact; the comparisons with an epsilon are modelled
as they are.  `qsort_r` is modelled by what the C library promises for it: a permutation that is sorted; nothing is assumed about
the order of elements that compare equal.  The location and colour of a point are left out.
-/

namespace Hob3l.Hull

open Hob3l.Matq

/-- `cp_eq_epsilon`, `cp_sqr_epsilon` algo.c:7-8 -/
structure Eps where
  eq : ℚ
  sqr : ℚ

/-- the defaults, include/hob3ldef/def-float.h:31-32 -/
def Eps.dflt : Eps := ⟨1 / 2 ^ 15, 1 / 2 ^ 30⟩

/-- `cp_vec2_t` -/
structure V where
  x : ℚ
  y : ℚ
  deriving DecidableEq, Repr

/-- `cp_e_cmp` algo.h:84-87 -/
def cmpE (e a b : ℚ) : Int := if |a - b| < e then 0 else if a < b then -1 else 1

/-- `cp_vec2_lex_cmp` mat_gen_inl.h:12-17, `cp_lex_cmp` algo.c:41-49 -/
def lexCmp (e : Eps) (a b : V) : Int :=
  if |a.x - b.x| < e.eq then
    if |a.y - b.y| < e.eq then 0 else if a.y < b.y then -1 else 1
  else if a.x < b.x then -1 else 1

/-- `cp_vec2_right_normal3_z` include/hob3lmat/mat.h:96-102, `cp_normal_z` 35-38 -/
def normalZ (e : Eps) (a o b : V) : Int := cmpE e.sqr ((a.x - o.x) * (b.y - o.y)) ((a.y - o.y) * (b.x - o.x))

/-- `cp_vec2_sqr_dist` mat_gen_inl.h:863-870 -/
def sqrDist (a b : V) : ℚ := (a.x - b.x) * (a.x - b.x) + (a.y - b.y) * (a.y - b.y)

/-- `pt_y_angle_cmp` csg2-hull.c:73-89 -/
def angleCmp (e : Eps) (u a b : V) : Int :=
  if normalZ e a u b ≠ 0 then normalZ e a u b else cmpE e.eq (sqrDist u a) (sqrDist u b)

/-- the loop csg2-hull.c:112-117 -/
def firstLoop (e : Eps) : V → List V → V
  | first, [] => first
  | first, p :: ps => if lexCmp e p first < 0 then firstLoop e p ps else firstLoop e first ps

/-- what is known of `cp_v_qsort` csg2-hull.c:120: `l'` is a result for the input `l` -/
def Qsort (cmp : V → V → Int) (l l' : List V) : Prop := l.Perm l' ∧ l'.Pairwise fun a b => cmp a b ≤ 0

/-- the inner loop csg2-hull.c:126-137 -/
def popLoop (e : Eps) (arr : List V) (i : Nat) : Nat → Option Nat
  | 0 => some 0
  | last + 1 => do
    let cp ← arr[last]?
    let cl ← arr[last + 1]?
    let cc ← arr[i]?
    if normalZ e cp cl cc > 0 then some (last + 1) else popLoop e arr i last

/-- the loop csg2-hull.c:124-144 from `i` on, for `n` elements: `last` and the array -/
def scanLoop (e : Eps) : Nat → Nat → Nat → List V → Option (Nat × List V)
  | 0, _, last, arr => some (last, arr)
  | n + 1, i, last, arr => do
    let last ← popLoop e arr i last
    let cc ← arr[i]?
    ass (last + 1 < arr.length)
    scanLoop e n (i + 1) (last + 1) (arr.set (last + 1) cc)

/-- csg2-hull.c:123-149: the result for a sorted array -/
def scan (e : Eps) (arr : List V) : Option (List V) := do
  let r ← scanLoop e (arr.length - 1) 1 0 arr
  ass (r.1 < arr.length)
  some (r.2.take (r.1 + 1))

/-- `first` csg2-hull.c:111-117 -/
def first (e : Eps) : List V → V
  | [] => ⟨0, 0⟩
  | p :: ps => firstLoop e p ps

/-- `cp_csg2_hull` csg2-hull.c:99-150: `out` is a possible result for `l` (`none`: a failing assertion); which one depends on how
`qsort_r` orders elements that compare equal -/
def Hull (e : Eps) (l : List V) (out : Option (List V)) : Prop :=
  if l.length ≤ 2 then out = some l
  else ∃ l', Qsort (angleCmp e (first e l)) l l' ∧ out = scan e l'

end Hob3l.Hull
