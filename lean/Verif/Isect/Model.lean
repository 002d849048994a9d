import Verif.Sweep.Model

/-
Model of `cq_has_intersect` (/repo/src/hob3lop/op-sweep.c:1457-1528).
Outer `none`: a failed assertion or a trapped overflow.
-/

namespace Hob3l.Isect

open Hob3l.Matq Hob3l.Sweep

/-- `cq_line2_t` include/hob3lop/matq_tam.h -/
structure Line where
  a : Vec2
  b : Vec2
  deriving DecidableEq

/-- the interval tests op-sweep.c:1495-1515, after `a1..a2` and `b1..b2` were selected and sorted; the point is the one
written to `i` -/
def overlapTests (a b : Line) (a1 a2 b1 b2 : Int) : Option (Option Vec2if) := do
  ass (a1 ≠ a2)
  ass (b1 ≠ b2)
  if b1 < a1 ∧ a1 < b2 then return some (vec2ifi a.a.x a.a.y)
  else if b1 < a2 ∧ a2 < b2 then return some (vec2ifi a.b.x a.b.y)
  else if a1 < b1 ∧ b1 < a2 then return some (vec2ifi b.a.x b.a.y)
  else if a1 < b2 ∧ b2 < a2 then return some (vec2ifi b.b.x b.b.y)
  else return none

/-- op-sweep.c:1493-1494: `if (a1 > a2) { CP_SWAP(&a1, &a2); }` and the same for `b` -/
def sorted (x y : Int) : Int × Int := if x > y then (y, x) else (x, y)

/-- op-sweep.c:1476-1516: parallel lines -/
def parallelCase (a b : Line) : Option (Option Vec2if) := do
  let c ← cross3 a.b a.a b.b
  if c = 0 then
    let (a1, a2, b1, b2) :=
      if a.a.x = a.b.x then (a.a.y, a.b.y, b.a.y, b.b.y) else (a.a.x, a.b.x, b.a.x, b.b.x)
    let s := sorted a1 a2
    let t := sorted b1 b2
    overlapTests a b s.1 s.2 t.1 t.2
  else return none

/-- the `switch` op-sweep.c:1469-1517 for one pair of lines.  For code 1 the point is always there. -/
def pairCase (debug : Bool) (a b : Line) : Option (Option Vec2if) := do
  let r ← intersect debug a.a a.b b.a b.b
  if r.1 = 1 then return r.2
  else if r.1 = -1 then parallelCase a b
  else return none

/-- the inner loop -/
def inner (debug : Bool) (a : Line) : List Line → Option (Option (Vec2if × Line × Line))
  | [] => some none
  | b :: bs => do
    match ← pairCase debug a b with
    | some i => return some (i, a, b)
    | none => inner debug a bs

/-- the outer loop -/
def outer (debug : Bool) (gon : List Line) : List Line → Option (Option (Vec2if × Line × Line))
  | [] => some none
  | a :: as => do
    match ← inner debug a gon with
    | some r => return some r
    | none => outer debug gon as

/-- `cq_has_intersect`: `some none` for return value 0, `some (some (ip, ap, bp))` for return value 1 -/
def hasIntersect (debug : Bool) (gon : List Line) : Option (Option (Vec2if × Line × Line)) := outer debug gon gon

end Hob3l.Isect
