import Mathlib.Data.Rat.Defs
import Mathlib.Algebra.Order.Ring.Unbundled.Rat
/-!
# Sine and cosine of angles in degrees: src/hob3lmat/algo.c

A double is the number made of its 64 bits.
-/
namespace Hob3l.Deg

/-- `cp_f_split_t` algo.c:1144-1149 -/
structure Split where
  mant : Nat
  exp : Int
  neg : Bool
  width : Int
  deriving DecidableEq, Repr

/-- `split_float` algo.c:1165-1192: `none` if it returns false; shifts of `unsigned long long` are modulo 2^64 -/
def splitFloat (u : Nat) : Option Split :=
  let expRaw := (u >>> 52) &&& 0x7ff
  let mant := ((u &&& 0x000fffffffffffff) <<< 12) % 2 ^ 64
  let neg := u >>> 63 != 0
  if expRaw = 0x7ff then none
  else if expRaw ≠ 0 then some ⟨(mant >>> 1) ||| 0x8000000000000000, (expRaw : Int) - 1023, neg, 53⟩
  else some ⟨mant, (expRaw : Int) - 1023, neg, 52⟩

/-- `cp_f_get_int` algo.c:1198-1226: `none` if it returns false.  When the shifts are done, the exponent is between 0 and 52, so
the counts are between 1 and 63, and `s.exp & 0xffffff` is `s.exp`. -/
def getInt (u : Nat) : Option Int :=
  match splitFloat u with
  | none => none
  | some s =>
    if s.exp < 0 then none
    else if s.exp ≥ s.width then none
    else if (s.mant <<< (s.exp.toNat + 1)) % 2 ^ 64 ≠ 0 then none
    else
      let i : Int := (s.mant >>> (64 - s.exp.toNat - 1) : Nat)
      some (if s.neg then -i else i)

/-- `exact_sin` algo.c:1228-1253: `none` for NULL; `%` truncates -/
def exactSin (ai : Int) : Option Rat :=
  let r := ai.tmod 360
  let r := if r < 0 then r + 360 else r
  if r = 0 ∨ r = 180 then some 0
  else if r = 90 then some 1
  else if r = 270 then some (-1)
  else if r = 30 ∨ r = 150 then some (1 / 2)
  else if r = 210 ∨ r = 330 then some (-1 / 2)
  else none

/-- `cp_sin_deg` algo.c:1260-1270: `none` if the result is that of `sin` of the C library -/
def sinDeg (u : Nat) : Option Rat := (getInt u).bind exactSin

/-- `cp_cos_deg` algo.c:1277-1287: `none` if the result is that of `cos` of the C library; `ai + 90` does not overflow, because
`ai` is less than 2^53 -/
def cosDeg (u : Nat) : Option Rat := (getInt u).bind fun ai => exactSin (ai + 90)

end Hob3l.Deg
