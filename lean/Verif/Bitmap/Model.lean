/-
Model of the truth tables of hob3l: /repo/src/hob3lbase/bool-bitmap.c and
/repo/include/hob3lbase/bool-bitmap.h, bool-bitmap_tam.h.

The union `cp_bool_bitmap_t` (bool-bitmap_tam.h:15-20, CP_BOOL_BITMAP_MAX_LAZY = 10: 1024 bits) is one
`BitVec 1024`; the member arrays `b`, `s`, `i`, `w` are its views as 8/16/32/64-bit units on a little-endian
machine (the only simplification: big-endian machines are not modelled).  Every access is bounds checked:
`none` = access outside of the union, failed `assert`, `CP_DIE`, or a shift by 32 or more.
-/

namespace Hob3l.Bitmap

/-- `cp_bool_bitmap_t` bool-bitmap_tam.h:15-20 -/
abbrev Mem := BitVec 1024

/-- read unit number `i` of the view with `w`-bit units -/
def rd (w : Nat) (m : Mem) (i : Nat) : Option (BitVec w) :=
  if w * (i + 1) ≤ 1024 then some (m.extractLsb' (w * i) w) else none

/-- write unit number `i` of the view with `w`-bit units -/
def wr (w : Nat) (m : Mem) (i : Nat) (v : BitVec w) : Option Mem :=
  if w * (i + 1) ≤ 1024 then
    some ((m &&& ~~~((BitVec.allOnes w).setWidth 1024 <<< (w * i))) ||| (v.setWidth 1024 <<< (w * i)))
  else none

/-- `*--p = v` for a pointer at unit `p`; gives the memory and the new pointer -/
def wrDec (w : Nat) (m : Mem) (p : Nat) (v : BitVec w) : Option (Mem × Nat) :=
  match p with
  | 0 => none
  | p + 1 => do let m ← wr w m p v; return (m, p)

/-- `assert` -/
def ass (c : Prop) [Decidable c] : Option Unit := if c then some () else none

/-- `spread1` bool-bitmap.c:8-10 -/
def spread1 (x : BitVec 8) : Option (BitVec 8) :=
  ([0x00,0x03,0x0c,0x0f,0x30,0x33,0x3c,0x3f,0xc0,0xc3,0xcc,0xcf,0xf0,0xf3,0xfc,0xff] : List (BitVec 8))[x.toNat]?

/-- `spread2.b` bool-bitmap.c:12-18 -/
def spread2b : List (BitVec 8) :=
  [0x00,0x00,0x0f,0x00,0xf0,0x00,0xff,0x00,0x00,0x0f,0x0f,0x0f,0xf0,0x0f,0xff,0x0f,
   0x00,0xf0,0x0f,0xf0,0xf0,0xf0,0xff,0xf0,0x00,0xff,0x0f,0xff,0xf0,0xff,0xff,0xff]

/-- `spread2.w[x]` (little-endian) -/
def spread2 (x : BitVec 8) : Option (BitVec 16) := do
  let l ← spread2b[2 * x.toNat]?
  let h ← spread2b[2 * x.toNat + 1]?
  return h ++ l

/-! ### `cp_bool_bitmap_spread` bool-bitmap.c:25-123 -/

/-- case 1, bool-bitmap.c:56-64 -/
def spreadCase1 : Nat → Mem → Nat → Nat → Option Mem
  | 0, m, _, _ => some m
  | cnt + 1, m, a, b =>
    match a with
    | 0 => none
    | a + 1 => do
      let x ← rd 8 m a
      let (m, b) ← wrDec 8 m b (← spread1 (x >>> 4))
      let (m, b) ← wrDec 8 m b (← spread1 (x &&& 0x0f))
      spreadCase1 cnt m a b

/-- case 2, bool-bitmap.c:66-74 -/
def spreadCase2 : Nat → Mem → Nat → Nat → Option Mem
  | 0, m, _, _ => some m
  | cnt + 1, m, a, b =>
    match a with
    | 0 => none
    | a + 1 => do
      let x ← rd 8 m a
      let (m, b) ← wrDec 16 m b (← spread2 (x >>> 4))
      let (m, b) ← wrDec 16 m b (← spread2 (x &&& 0x0f))
      spreadCase2 cnt m a b

/-- The innermost part of cases 3 (`w` = 8), 4 (16), 5 (32) and of the default case (64, with the
`kcnt` loop): `*--b = q` repeated `kcnt` times -/
def wrFill (w : Nat) (q : BitVec w) : Nat → Mem → Nat → Option (Mem × Nat)
  | 0, m, b => some (m, b)
  | k + 1, m, b => do
    let (m, b) ← wrDec w m b q
    wrFill w q k m b

/-- `for (unsigned char w = 0x80; w != 0; w >>= 1) *--b = (x & w) ? ~0 : 0`;
the bit masks are the list 0x80, 0x40, ..., 1. -/
def spreadBits (w : Nat) (kcnt : Nat) (x : BitVec 8) : List (BitVec 8) → Mem → Nat → Option (Mem × Nat)
  | [], m, b => some (m, b)
  | mask :: ms, m, b => do
    let q : BitVec w := if x &&& mask ≠ 0 then BitVec.allOnes w else 0
    let (m, b) ← wrFill w q kcnt m b
    spreadBits w kcnt x ms m b

/-- successive values of the loop variable `w` at bool-bitmap.c:81 (and :92, :103, :117) -/
def masks : List (BitVec 8) := [0x80, 0x40, 0x20, 0x10, 0x08, 0x04, 0x02, 0x01]

/-- the `while (cnt-- > 0)` loop of case 3 (bool-bitmap.c:76-85, `w`=8, `kcnt`=1), case 4 (:87-96, 16, 1),
case 5 (:98-107, 32, 1) and default (:109-122, 64, `1U << (add - 6)`) -/
def spreadCaseN (w kcnt : Nat) : Nat → Mem → Nat → Nat → Option Mem
  | 0, m, _, _ => some m
  | cnt + 1, m, a, b =>
    match a with
    | 0 => none
    | a + 1 => do
      let x ← rd 8 m a
      let (m, b) ← spreadBits w kcnt x masks m b
      spreadCaseN w kcnt cnt m a b

/-- the part after the first loop, bool-bitmap.c:45-122 -/
def spreadLarge (m : Mem) (have_ add : Nat) : Option Mem := do
  let cnt := 2 ^ (have_ - 3)
  ass (have_ < 32)
  ass (add < 32)
  ass (have_ + add < 32)
  ass (2 ^ (have_ + add) ≤ 1024)
  match add with
  | 0 => some m
  | 1 => spreadCase1 cnt m cnt (2 * cnt)
  | 2 => spreadCase2 cnt m cnt (2 * cnt)
  | 3 => spreadCaseN 8 1 cnt m cnt (8 * cnt)
  | 4 => spreadCaseN 16 1 cnt m cnt (8 * cnt)
  | 5 => spreadCaseN 32 1 cnt m cnt (8 * cnt)
  | add => spreadCaseN 64 (2 ^ (add - 6)) cnt m cnt (8 * cnt * 2 ^ (add - 6))

/-- `cp_bool_bitmap_spread` bool-bitmap.c:25-123; the recursion is the `while (have < 3)` loop :34-41 -/
def spread (m : Mem) (have_ add : Nat) : Option Mem :=
  if have_ < 3 then
    match add with
    | 0 => some m
    | add + 1 => do
      let x ← rd 8 m 0
      let m ← wr 8 m 0 (← spread1 (x &&& 0x0f))
      spread m (have_ + 1) add
  else spreadLarge m have_ add
termination_by add

/-! ### `cp_bool_bitmap_repeat` bool-bitmap.c:133-198 -/

/-- the loops at bool-bitmap.c:180-182 and :190-192: `for (i = i0; i < i0 + n; i++) w[i] = f(i)`;
`src` gives the index read -/
def copyLoop (src : Nat → Nat) : Nat → Nat → Mem → Option Mem
  | 0, _, m => some m
  | n + 1, i, m => do
    let v ← rd 64 m (src i)
    let m ← wr 64 m i v
    copyLoop src n (i + 1) m

/-- cases 0, 1, 2 of the switch: `b[0] &= mask; b[0] |= b[0] << sh` -/
def repeatSmall (m : Mem) (mask : BitVec 8) (sh : Nat) : Option Mem := do
  let x ← rd 8 m 0
  let x := x &&& mask
  wr 8 m 0 (x ||| (x <<< sh))

/-- cases 3, 4, 5: `b[1] = b[0]` etc. -/
def repeatUnit (w : Nat) (m : Mem) : Option Mem := do
  let v ← rd w m 0
  wr w m 1 v

/-- the `while (have < want)` loop; `n = want - have` -/
def repeatLoop : Nat → Mem → Nat → Option Mem
  | 0, m, _ => some m
  | n + 1, m, have_ =>
    let want := have_ + (n + 1)
    match have_ with
    | 0 => do repeatLoop n (← repeatSmall m 1 1) 1
    | 1 => do repeatLoop n (← repeatSmall m 3 2) 2
    | 2 => do repeatLoop n (← repeatSmall m 15 4) 3
    | 3 => do repeatLoop n (← repeatUnit 8 m) 4
    | 4 => do repeatLoop n (← repeatUnit 16 m) 5
    | 5 => do repeatLoop n (← repeatUnit 32 m) 6
    | 6 =>
      /- `w0` is read once before the loop (:177); index 0 is never written by the loop, so reading
      `w[0]` in each round is the same -/
      copyLoop (fun _ => 0) (2 ^ (want - 6) - 1) 1 m
    | have_ =>
      let skip := 2 ^ (have_ - 6)
      let cnt := 2 ^ (want - 6)
      copyLoop (fun i => i - skip) (cnt - skip) skip m

/-- `cp_bool_bitmap_repeat` bool-bitmap.c:133-198 -/
def «repeat» (m : Mem) (have_ add : Nat) : Option Mem := do
  ass (have_ < 32)
  ass (add < 32)
  ass (have_ + add < 32)
  ass (2 ^ (have_ + add) ≤ 1024)
  repeatLoop add m have_

/-! ### `cp_bool_bitmap_combine` bool-bitmap.c:205-242 -/

/-- `cp_bool_op_t` /repo/include/hob3lbase/base-def.h:41-46: CUT=0, XOR=1, SUB=2, ADD=3 -/
inductive Op | cut | xor | sub | add
deriving DecidableEq, Repr

/-- the word operation of each case -/
def wordOp (op : Op) (r b : BitVec 64) : BitVec 64 :=
  match op with
  | .add => r ||| b
  | .cut => r &&& b
  | .sub => r &&& ~~~b
  | .xor => r ^^^ b

/-- `for (cp_size_each(i, cnt))`, `n` rounds left, index `i` -/
def combineLoop (op : Op) (b : Mem) : Nat → Nat → Mem → Option Mem
  | 0, _, r => some r
  | n + 1, i, r => do
    let x ← rd 64 r i
    let y ← rd 64 b i
    let r ← wr 64 r i (wordOp op x y)
    combineLoop op b n (i + 1) r

/-- `cp_bool_bitmap_combine` bool-bitmap.c:205-242 -/
def combine (r b : Mem) (size : Nat) (op : Op) : Option Mem := do
  ass (size < 32)
  combineLoop op b ((2 ^ size + 63) / 64) 0 r

/-- `cp_bool_bitmap_get` bool-bitmap.h:54-62 -/
def get (m : Mem) (i : Nat) : Option Bool := do
  let x ← rd 8 m (i >>> 3)
  return (x &&& ((1#8) <<< (i &&& 7))) ≠ 0

/-- `cp_bool_bitmap_set` bool-bitmap.h:67-81 -/
def set (m : Mem) (i : Nat) (v : Bool) : Option Mem := do
  let x ← rd 8 m (i >>> 3)
  if v then wr 8 m (i >>> 3) (x ||| ((1#8) <<< (i &&& 7)))
  else wr 8 m (i >>> 3) (x &&& ~~~((1#8) <<< (i &&& 7)))

end Hob3l.Bitmap
