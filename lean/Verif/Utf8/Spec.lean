/-
UTF-8 (RFC 3629), with plain arithmetic.
-/

namespace Hob3l.Utf8

/-- code points that can be encoded (the code excludes zero, which ends a string) -/
def CodePoint (cp : Nat) : Prop := 0 < cp ∧ cp ≤ 0x10ffff ∧ ¬ (0xd800 ≤ cp ∧ cp ≤ 0xdfff)

/-- a byte sequence of the right shape, and the number made of its payload bits -/
inductive Shape : List Nat → Nat → Prop
  | one (a : Nat) : 0 < a → a < 0x80 → Shape [a] a
  | two (a b : Nat) : a < 32 → b < 64 → Shape [0xc0 + a, 0x80 + b] (a * 64 + b)
  | three (a b c : Nat) : a < 16 → b < 64 → c < 64 → Shape [0xe0 + a, 0x80 + b, 0x80 + c] (a * 4096 + b * 64 + c)
  | four (a b c d : Nat) : a < 8 → b < 64 → c < 64 → d < 64 →
      Shape [0xf0 + a, 0x80 + b, 0x80 + c, 0x80 + d] (a * 262144 + b * 4096 + c * 64 + d)

/-- the smallest code point that needs this number of bytes -/
def minimum : Nat → Nat
  | 1 => 0
  | 2 => 0x80
  | 3 => 0x800
  | _ => 0x10000

/-- `bs` is the UTF-8 encoding of `cp` -/
def Encodes (bs : List Nat) (cp : Nat) : Prop := Shape bs cp ∧ CodePoint cp ∧ minimum bs.length ≤ cp

/-- the tag bits of the continuation bytes, shifted to where the decoder puts them -/
def tagBits : Nat → Nat
  | 1 => 0
  | 2 => 0x80
  | 3 => 0x2080
  | _ => 0x82080

/-- the value of a hexadecimal digit -/
def hexValue (c : Nat) : Option Nat :=
  if 0x30 ≤ c ∧ c ≤ 0x39 then some (c - 0x30)
  else if 0x41 ≤ c ∧ c ≤ 0x46 then some (c - 0x41 + 10)
  else if 0x61 ≤ c ∧ c ≤ 0x66 then some (c - 0x61 + 10)
  else none

/-- the number denoted by hexadecimal digits -/
def hexNumber (ds : List Nat) : Nat := ds.foldl (fun n d => n * 16 + d) 0

end Hob3l.Utf8
