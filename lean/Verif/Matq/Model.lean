/-
Model of the exact integer arithmetic of hob3l: /repo/src/hob3lop/matq.c and
/repo/include/hob3lop/matq.h.

Conventions.  `cq_dim_t` = 32-bit `int`, `cq_dimw_t` = 64-bit `long long`
(/repo/include/hob3lop/def_tam.h:29-46, with the `static_assert`s at :83-87).
Signed values are `Int`, unsigned values are `Nat`; every checked operation returns `Option`, where
`none` stands for "the process does not continue normally": `cq_overflow_fail`, a failed `assert`,
or undefined behaviour of C.
-/
import Mathlib.Data.Nat.Log

namespace Hob3l.Matq

/-- value range of `cq_dim_t` (def_tam.h:29-33) -/
def I32 (x : Int) : Prop := -2147483648 ≤ x ∧ x ≤ 2147483647
/-- value range of `cq_dimw_t` (def_tam.h:40-44) -/
def I64 (x : Int) : Prop := -9223372036854775808 ≤ x ∧ x ≤ 9223372036854775807

instance (x : Int) : Decidable (I32 x) := by unfold I32; infer_instance
instance (x : Int) : Decidable (I64 x) := by unfold I64; infer_instance

/-- `CQ_DIM_W` = 2^32 (def_tam.h:49) -/
def W : Nat := 4294967296
/-- 2^64, the modulus of `cq_udimw_t` -/
def W2 : Nat := 18446744073709551616

/-- store into a `cq_dim_t`, failing if the exact value does not fit -/
def chk32 (x : Int) : Option Int := if I32 x then some x else none
/-- store into a `cq_dimw_t`, failing if the exact value does not fit -/
def chk64 (x : Int) : Option Int := if I64 x then some x else none

/-! ### Overflow aware arithmetics: matq.h:165-222 -/

/-- `cq_dim_add` matq.h:190 -/
def dimAdd (a b : Int) : Option Int := chk32 (a + b)
/-- `cq_dim_sub` matq.h:195 -/
def dimSub (a b : Int) : Option Int := chk32 (a - b)
/-- `cq_dimw_add` matq.h:192 -/
def dimwAdd (a b : Int) : Option Int := chk64 (a + b)
/-- `cq_dimw_sub` matq.h:197 -/
def dimwSub (a b : Int) : Option Int := chk64 (a - b)
/-- `cq_dim_mul` matq.h:200 (32x32 -> 64 bit) -/
def dimMul (a b : Int) : Option Int := chk64 (a * b)
/-- `cq_dimw_neg` matq.h:207-210 -/
def dimwNeg (x : Int) : Option Int := dimwSub 0 x
/-- `cq_udimw_add` matq.h:193: unsigned 64-bit add, aborts on carry -/
def udimwAdd (a b : Nat) : Option Nat := if a + b < W2 then some (a + b) else none
/-- `cq_udimw_sub` matq.h:198: unsigned 64-bit subtract, aborts on borrow -/
def udimwSub (a b : Nat) : Option Nat := if b ≤ a then some (a - b) else none
/-- `cq_udim_mul` matq.h:201: unsigned 32x32 -> 64 bit -/
def udimMul (a b : Nat) : Option Nat := if a * b < W2 then some (a * b) else none
/-- `cq_udim_abs` matq.h:212-216 -/
def udimAbs (x : Int) : Option Nat := do
  let x ← if x < 0 then dimSub 0 x else some x
  return x.toNat
/-- `cq_udimw_abs` matq.h:218-222 -/
def udimwAbs (x : Int) : Option Nat := do
  let x ← if x < 0 then dimwNeg x else some x
  return x.toNat
/-- `cq_udimw_hi` matq.h:224-227 -/
def hi (x : Nat) : Nat := (x >>> 32) % W
/-- `cq_udimw_lo` matq.h:229-232 -/
def lo (x : Nat) : Nat := x % W
/-- `cq_udimw` matq.h:234-237 -/
def udimw (max min : Nat) : Nat := (max <<< 32) % W2 ||| min

/-- `CP_CMP` /repo/include/hob3ldef/def.h:110-121 -/
def cpCmp {α} [LT α] [DecidableLT α] (a b : α) : Int := if a < b then -1 else if b < a then 1 else 0
/-- `CP_SIGN` def.h:123-133 -/
def cpSign (a : Int) : Int := if a < 0 then -1 else if 0 < a then 1 else 0

/-! ### Euclidean division: matq.c:42-117 -/

/-- quotient and remainder -/
structure DivMod where
  div : Int
  mod : Int
deriving DecidableEq, Repr

/-- The common body of `cq_divmod` (matq.c:46-66, `chk = chk32`) and `cq_divmodw` (matq.c:72-92,
`chk = chk64`).  C's `/` and `%` truncate (`Int.tdiv`, `Int.tmod`); a zero divisor and a quotient
out of range (`INT_MIN / -1`, also for `%`) are undefined behaviour. -/
def divmodG (chk : Int → Option Int) (x d : Int) : Option DivMod := do
  if d = 0 then none
  let q ← chk (x.tdiv d)
  let r := x.tmod d
  if r ≥ 0 then return ⟨q, r⟩
  if d ≥ 0 then
    return ⟨← chk (q - 1), ← chk (r + d)⟩
  else
    return ⟨← chk (q + 1), ← chk (r - d)⟩

/-- `cq_divmod` matq.c:46-66 -/
def divmod (x d : Int) : Option DivMod := divmodG chk32 x d
/-- `cq_divmodw` matq.c:72-92 -/
def divmodw (x d : Int) : Option DivMod := divmodG chk64 x d

/-- conversion of a 64-bit value to `cq_dim_t` (implementation defined; all supported compilers
reduce modulo 2^32) -/
def cast32 (x : Int) : Int := (x + 2147483648) % 4294967296 - 2147483648

/-- `cq_divmodx` matq.c:98-121.  `v.div * d` at line 106 is an `int` product: signed overflow is
undefined behaviour, as is overflow of the `int` sum.  `cq_fail` aborts. -/
def divmodx (x d : Int) : Option DivMod := do
  if d = 0 then none
  let q64 ← chk64 (x.tdiv d)
  let q := cast32 q64
  let r := cast32 (x.tmod d)
  let p ← chk32 (q * d)
  let s ← chk32 (r + p)
  if s ≠ x then none
  if r ≥ 0 then return ⟨q, r⟩
  if d ≥ 0 then
    return ⟨← chk32 (q - 1), ← chk32 (r + d)⟩
  else
    return ⟨← chk32 (q + 1), ← chk32 (r - d)⟩

/-- `cq_divw_rnd` matq.h:155-162.  `d & 1` on a two's complement value is `d mod 2` (Euclidean). -/
def divwRnd (x d : Int) : Option Int := do
  let r ← divmodw x d
  if r.mod ≥ d.tdiv 2 + d % 2 then chk64 (r.div + 1) else return r.div

/-! ### Cross products: matq.h:304-340 -/

/-- `cq_cross_z` matq.h:304-309 -/
def crossZ (ax ay bx by' : Int) : Option Int := do
  dimwSub (← dimMul ax by') (← dimMul ay bx)
/-- `cq_right_cross3_z` matq.h:313-321 -/
def rightCross3Z (ax ay ox oy bx by' : Int) : Option Int := do
  crossZ (← dimSub ax ox) (← dimSub ay oy) (← dimSub bx ox) (← dimSub by' oy)
/-- `cq_sqr_len` matq.h:359-364 -/
def sqrLen (x y : Int) : Option Int := do
  dimwAdd (← dimMul x x) (← dimMul y y)

/-! ### Rounded pixel versus edge: matq.c:123-165 -/

/-- `cq_cmp_edge_rnd` matq.c:123-165.  `bb *= 2` cannot overflow because `|bb| < 2^32` there. -/
def cmpEdgeRnd (vx vy lx ly kx ky : Int) : Option Int := do
  let bb ← rightCross3Z vx vy lx ly kx ky
  if bb ≥ (W : Int) then return 1
  if bb ≤ -(W : Int) then return -1
  if vx < lx ∧ vx < kx then return if bb = 0 then -1 else cpSign bb
  if vx > lx ∧ vx > kx then return if bb = 0 then 1 else cpSign bb
  if vy < ly ∧ vy < ky then return if bb = 0 then -1 else cpSign bb
  if vy > ly ∧ vy > ky then return if bb = 0 then 1 else cpSign bb
  let ky_ly ← dimSub ky ly
  let kx_lx ← dimSub kx lx
  let bb := bb * 2
  let bbp ← dimwAdd bb ky_ly
  let bbm ← dimwSub bb ky_ly
  if (← dimwAdd bbm kx_lx) > 0 then
    if (← dimwAdd bbp kx_lx) ≥ 0 then
      return 1
  if (← dimwSub bbm kx_lx) ≤ 0 then
    if (← dimwSub bbp kx_lx) ≤ 0 then
      return -1
  return 0

/-! ### 96 bit arithmetics: matq.c:167-274 -/

/-- `cq_udime_t` matq.c:171-174: `hi` 64 bit, `lo` 32 bit -/
structure Udime where
  hi : Nat
  lo : Nat
deriving DecidableEq, Repr

/-- `cq_udime_sub` matq.c:191-201; `cq_udim_sub_ovf` wraps modulo 2^32 and reports the borrow -/
def udimeSub (a b : Udime) : Option Udime := do
  let h ← udimwSub a.hi b.hi
  let l := (a.lo + W - b.lo) % W
  if a.lo < b.lo then
    return ⟨← udimwSub h 1, l⟩
  else
    return ⟨h, l⟩

/-- `cq_udime_add` matq.c:179-189 -/
def udimeAdd (a b : Udime) : Option Udime := do
  let h ← udimwAdd a.hi b.hi
  let l := (a.lo + b.lo) % W
  if a.lo + b.lo ≥ W then
    return ⟨← udimwAdd h 1, l⟩
  else
    return ⟨h, l⟩

/-- `cq_udime_mul_wn` matq.c:203-217 (plain unsigned arithmetic: wraps modulo 2^64) -/
def udimeMulWn (a b : Nat) : Udime :=
  let al := a % W
  let ah := (a >>> 32) % W
  let low := (al * b) % W2
  let hiw := (ah * b) % W2
  let hiw := (hiw + (low >>> 32) % W) % W2
  ⟨hiw, low % W⟩

/-- The `for (;;)` loop at matq.c:259-268.  `fuel` bounds the number of iterations; running out of
fuel is `none` (proved not to happen for 4). -/
def divLoop (v1 v0 u0 : Nat) : Nat → Nat → Nat → Option Nat
  | 0, _, _ => none
  | fuel + 1, q, r =>
    if q ≥ W ∨ (q * v0) % W2 > ((r * W) % W2 + u0) % W2 then
      let q := (q + W2 - 1) % W2
      let r := (r + v1) % W2
      if r < W then divLoop v1 v0 u0 fuel q r else some q
    else some q

/-- `cq_dim_div_ew` matq.c:219-271 (the `__GNUC__` branch of the normalisation, :234-241;
`__builtin_clzll v` = 63 - log2 v). -/
def divEw (u : Udime) (v : Nat) : Option Nat := do
  if v = 0 then none
  if u.hi ≥ v then none
  let (v, u1, u0) :=
    if v ≤ 4294967295 then ((v <<< 32) % W2, (u.hi <<< 32) % W2 ||| u.lo, 0) else (v, u.hi, u.lo)
  let su := 63 - Nat.log 2 v
  let (v, u1, u0) :=
    if su ≠ 0 then ((v <<< su) % W2, (u1 <<< su) % W2 ||| (u0 >>> (32 - su)), (u0 <<< su) % W)
    else (v, u1, u0)
  let v1 := (v >>> 32) % W
  let v0 := v % W
  let q := u1 / v1
  let r := (u1 + W2 - (q * v1) % W2) % W2
  let q ← divLoop v1 v0 u0 4 q r
  return q % W

/-! ### Mixed numbers -/

/-- `cq_dimif_t` /repo/include/hob3lop/gon_tam.h:164-171: the number `i + n/d` -/
structure Dimif where
  i : Int
  n : Nat
  d : Nat
deriving DecidableEq, Repr

/-- `assert(c)` / `cq_assert(c)`: the process stops if `c` is false (def_tam.h:96-131) -/
def ass (c : Prop) [Decidable c] : Option Unit := if c then some () else none

/-- the last part of `cq_dimif_mul_div_nww`, matq.c:309-318: transfer of the sign -/
def mulDivSign (neg : Bool) (sq : Int) (r d : Nat) : Option (Int × Nat) :=
  if neg then do
    let sq ← chk32 (-sq)
    if r ≠ 0 then do
      let sq ← chk32 (sq - 1)
      some (sq, d - r)
    else some (sq, r)
  else some (sq, r)

/-- `cq_dimif_mul_div_nww` matq.c:279-323.  Every `assert` is a possible `none`. -/
def mulDivNww (sx sm sd : Int) : Option Dimif := do
  ass (sm ≠ sd)
  let neg := (decide (sx < 0) ^^ decide (sm < 0)) ^^ decide (sd < 0)
  let x ← udimAbs sx
  let m ← udimwAbs sm
  let d ← udimwAbs sd
  ass (m > 0)
  ass (m < d)
  let w := udimeMulWn m x
  ass (w.hi < d)
  let q ← divEw w d
  let re ← udimeSub w (udimeMulWn d q)
  ass (re.hi < W)
  let r := (re.lo + (re.hi * W) % W2) % W2
  ass (r < d)
  let sq := cast32 q
  ass (sq ≥ 0)
  let (sq, r) ← mulDivSign neg sq r d
  ass (r < d)
  return ⟨sq, r, d⟩

/-- `cq_round` matq.h:385-403 -/
def round (x : Dimif) : Option Int :=
  let d2 := x.d / 2 + x.d % 2
  if x.n ≥ d2 then dimAdd x.i 1 else some x.i

/-! ### 64x64 -> 128 bit: matq.c:334-361 -/

/-- `CQ_REDUCE(cq_udimw_add, a, s...)` def_tam.h:51-59 -/
def reduceAdd (a : Nat) (s : List Nat) : Option Nat := s.foldlM udimwAdd a

/-- `cq_udimw_mul_aux` matq.c:334-361 with `cq_udimq(h,l)` being the pair -/
def udimwMulAux (a b : Nat) : Option (Nat × Nat) := do
  let ah := hi a
  let al := lo a
  let bh := hi b
  let bl := lo b
  let rlh ← udimMul al bh
  let rhl ← udimMul ah bl
  let rll ← udimMul al bl
  let rhh ← udimMul ah bh
  let rm ← reduceAdd 0 [hi rll, lo rhl, lo rlh]
  let rh ← reduceAdd rhh [hi rhl, hi rlh, hi rm]
  let rl := udimw (lo rm) (lo rll)
  return (rh, rl)

/-- `cq_udimq_cmp` matq.h:252-263, variant without native 128-bit integers -/
def udimqCmp (a b : Nat × Nat) : Int :=
  let i := cpCmp a.1 b.1
  if i ≠ 0 then i else cpCmp a.2 b.2

/-- `cq_dimif_cmp_frac_aux` matq.c:363-386 (used when there is no native 128-bit integer) -/
def cmpFracAux (a b : Dimif) : Option Int := do
  if a.n ||| b.n = 0 then return 0
  if a.n = b.n ∧ a.d = b.d then return 0
  if a.n ≥ b.n ∧ a.d ≤ b.d then return 1
  if a.n ≤ b.n ∧ a.d ≥ b.d then return -1
  return udimqCmp (← udimwMulAux a.n b.d) (← udimwMulAux a.d b.n)

/-- `cq_dimif_cmp_frac` matq.h:405-412 with `CQ_HAVE_INTQ`: native `unsigned __int128` products -/
def cmpFracQ (a b : Dimif) : Int :=
  cpCmp ((a.n * b.d) % (W2 * W2)) ((a.d * b.n) % (W2 * W2))

/-- `cq_dimif_cmp` matq.h:414-421 (native variant) -/
def dimifCmp (a b : Dimif) : Int :=
  let i := cpCmp a.i b.i
  if i ≠ 0 then i else cmpFracQ a b

/-- `cq_dimif_cmp` matq.h:414-421 (variant without native 128-bit integers) -/
def dimifCmpAux (a b : Dimif) : Option Int :=
  let i := cpCmp a.i b.i
  if i ≠ 0 then some i else cmpFracAux a b

/-- `cq_vec2_t` gon_tam.h:17-29 -/
structure Vec2 where
  x : Int
  y : Int
deriving DecidableEq, Repr

/-- `cq_vec2if_t` gon_tam.h:181-190 -/
structure Vec2if where
  x : Dimif
  y : Dimif
deriving DecidableEq, Repr

/-- `CQ_VEC2IFI` gon_tam.h:192 -/
def vec2ifi (x y : Int) : Vec2if := ⟨⟨x, 0, 1⟩, ⟨y, 0, 1⟩⟩

/-- `cq_vec2if_cmp` matq.h:441-450 -/
def vec2ifCmp (a b : Vec2if) : Int :=
  let i := dimifCmp a.x b.x
  if i ≠ 0 then i else dimifCmp a.y b.y

/-- `cq_dim_dimif_cmp` matq.h:452-461 -/
def dimDimifCmp (a : Int) (b : Dimif) : Int :=
  if a < b.i then -1 else if a > b.i then 1 else if b.n > 0 then -1 else 0

/-- `cq_vec2_vec2if_cmp` matq.h:463-476 -/
def vec2Vec2ifCmp (a : Vec2) (b : Vec2if) : Int :=
  if a.x < b.x.i then -1 else if a.x > b.x.i then 1 else if b.x.n > 0 then -1 else
  if a.y < b.y.i then -1 else if a.y > b.y.i then 1 else if b.y.n > 0 then -1 else 0

/-! ### Intersection: matq.c:408-518 -/

/-- The sign handling done at matq.c:443-453 for `t` and :456-466 for `u` (same code twice).
`d` is already non-negative, `dneg` says whether it was negated.
Result: `none` = abort, `some none` = "return 0", `some (some v)` = continue with `v`. -/
def clipParam (dneg : Bool) (d t : Int) : Option (Option Int) :=
  if t ≠ 0 then
    if t < 0 then do
      let t ← dimwNeg t
      if !dneg ∨ t > d then some none else some (some t)
    else if dneg ∨ t > d then some none else some (some t)
  else some (some t)

/-- number of a C truth value times a constant, as in `((u == 0) * 8)` -/
def bit (b : Bool) (v : Int) : Int := if b then v else 0

/-- `d sign` handling, matq.c:441-444 -/
def dSign (d : Int) : Option Int := if d < 0 then dimwNeg d else some d

/-- The calculation of a non-trivial intersection at matq.c:487-514.
`debug` = compiled without `NDEBUG`: the block at :495-514 recomputes the point from `u` and
asserts equality. -/
def intersectPoint (debug : Bool) (p1 p3 : Vec2) (x2_1 y2_1 x4_3 y4_3 t u d : Int) :
    Option Vec2if := do
  let ix ← mulDivNww x2_1 t d
  let iy ← mulDivNww y2_1 t d
  let ixi ← dimAdd p1.x ix.i
  let iyi ← dimAdd p1.y iy.i
  let ix := { ix with i := ixi }
  let iy := { iy with i := iyi }
  if debug then do
    let jx ← mulDivNww x4_3 u d
    let jy ← mulDivNww y4_3 u d
    let jxi ← dimAdd p3.x jx.i
    let jyi ← dimAdd p3.y jy.i
    ass (ix = { jx with i := jxi })
    ass (iy = { jy with i := jyi })
    some ⟨ix, iy⟩
  else some ⟨ix, iy⟩

/-- The part of `cq_vec2if_intersect` after `t` and `u` were found to be in range: matq.c:468-517 -/
def intersectCode (debug : Bool) (p1 p2 p3 p4 : Vec2) (x2_1 y2_1 x4_3 y4_3 t u d : Int) :
    Option (Int × Option Vec2if) :=
  if t = 0 then
    some (1 + 2 + bit (decide (u = 0)) 8 + bit (decide (u = d)) 16, some (vec2ifi p1.x p1.y))
  else if t = d then
    some (1 + 4 + bit (decide (u = 0)) 8 + bit (decide (u = d)) 16, some (vec2ifi p2.x p2.y))
  else if u = 0 then some (1 + 8, some (vec2ifi p3.x p3.y))
  else if u = d then some (1 + 16, some (vec2ifi p4.x p4.y))
  else do
    let i ← intersectPoint debug p1 p3 x2_1 y2_1 x4_3 y4_3 t u d
    some (1, some i)

/-- `cq_vec2if_intersect` matq.c:408-518.  Result: return code, and the point if `*i` is written. -/
def intersect (debug : Bool) (p1 p2 p3 p4 : Vec2) : Option (Int × Option Vec2if) := do
  let x2_1 ← dimSub p2.x p1.x
  let y2_1 ← dimSub p2.y p1.y
  let x4_3 ← dimSub p4.x p3.x
  let y4_3 ← dimSub p4.y p3.y
  let d1 ← dimMul x2_1 y4_3
  let d2 ← dimMul y2_1 x4_3
  let d ← dimwSub d1 d2
  if d = 0 then some (-1, none) else do
  let x3_1 ← dimSub p3.x p1.x
  let y3_1 ← dimSub p3.y p1.y
  let t1 ← dimMul x3_1 y4_3
  let t2 ← dimMul y3_1 x4_3
  let t ← dimwSub t1 t2
  let u1 ← dimMul x3_1 y2_1
  let u2 ← dimMul y3_1 x2_1
  let u ← dimwSub u1 u2
  let dneg := decide (d < 0)
  let d ← dSign d
  let ct ← clipParam dneg d t
  match ct with
  | none => some (0, none)
  | some t => do
  let cu ← clipParam dneg d u
  match cu with
  | none => some (0, none)
  | some u => intersectCode debug p1 p2 p3 p4 x2_1 y2_1 x4_3 y4_3 t u d

end Hob3l.Matq
