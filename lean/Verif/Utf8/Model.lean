import Verif.Matq.Model

/-
Model of /repo/src/hob3lbase/utf8.c and `cp_utf8_ok` in /repo/include/hob3lbase/utf8.h.

Bytes are numbers below 256.  The pointer into the text is the list of bytes from there to the end of the buffer.  `none` = failed
assertion or read behind the end of the buffer.
-/

namespace Hob3l.Utf8

open Hob3l.Matq

/-- error messages -/
inductive Msg where
  | cont
  | overlong
  | range
  | surrogate
  | start
  | unrecognised
  | premature
  | large
deriving DecidableEq, Repr

/-- `cp_utf8_iter_t` include/hob3lbase/utf8_tam.h:16-34 -/
structure Iter where
  data : List Nat
  size : Nat
  err : Option Msg
deriving DecidableEq, Repr

/-- `iter_get` utf8.c:9-15 -/
def iterGet (it : Iter) : Option Nat := if it.size = 0 then some 0 else it.data.head?

/-- `iter_advance` utf8.c:17-23 -/
def iterAdvance (it : Iter) : Option Iter :=
  match it.data with
  | [] => none
  | c :: cs => do
    ass (c ≠ 0)
    ass (it.size > 0)
    some { it with data := cs, size := it.size - 1 }

/-- `iter_error` utf8.c:25-32 (the size is not restored); the decoders then return 0 -/
def iterError (it : Iter) (back : List Nat) (msg : Msg) : Nat × Iter := (0, { it with data := back, err := some msg })

/-- `digit_value` utf8.c:34-46 -/
def digitValue (c : Nat) : Nat :=
  if 0x30 ≤ c ∧ c ≤ 0x39 then c - 0x30
  else if 0x61 ≤ c ∧ c ≤ 0x7a then c - 0x61 + 10
  else if 0x41 ≤ c ∧ c ≤ 0x5a then c - 0x41 + 10
  else 99

/-- `get_cont` utf8.c:48-58: the byte, or the result of the failure -/
def getCont (start : List Nat) (it : Iter) : Option (Except (Nat × Iter) (Nat × Iter)) := do
  let c ← iterGet it
  if ¬ (c ≥ 0x80 ∧ c ≤ 0xbf) then some (.error (iterError it start .cont))
  else do
    let it ← iterAdvance it
    some (.ok (c, it))

/-- `check_valid` utf8.c:60-83 -/
def checkValid (start : List Nat) (it : Iter) (minimum c1 c2 c3 c4 : Nat) : Nat × Iter :=
  let r := (c1 <<< 18) ||| (c2 <<< 12) ||| (c3 <<< 6) ||| c4
  if r < minimum then iterError it start .overlong
  else if r > 0x10ffff then iterError it start .range
  else if r ≥ 0xd800 ∧ r < 0xe000 then iterError it start .surrogate
  else (r, it)

/-- reading a continuation byte and going on -/
def withCont (start : List Nat) (it : Iter) (k : Nat → Iter → Option (Nat × Iter)) : Option (Nat × Iter) := do
  let r ← getCont start it
  match r with
  | .error e => some e
  | .ok (c, it) => k c it

/-- `cp_utf8_decode` utf8.c:92-133 -/
def decode (it : Iter) : Option (Nat × Iter) := do
  let start := it.data
  let c1 ← iterGet it
  if c1 = 0 then some (0, it)
  else do
    let it ← iterAdvance it
    if c1 < 0x80 then some (c1, it)
    else if c1 < 0xc2 then some (iterError it start .start)
    else withCont start it fun c2 it =>
      if c1 < 0xe0 then some (checkValid start it (1 <<< 7) 0 0 (c1 &&& 0x1f) c2)
      else withCont start it fun c3 it =>
        if c1 < 0xf0 then some (checkValid start it (1 <<< 11) 0 (c1 &&& 0xf) c2 c3)
        else withCont start it fun c4 it =>
          if c1 ≤ 0xf4 then some (checkValid start it (1 <<< 16) (c1 &&& 0x7) c2 c3 c4)
          else some (iterError it start .start)

/-- the escape characters of `cp_utf8_escaped_decode`, utf8.c:170-186: number of digits, maximum, code -/
def escape (c2 : Nat) : Option (Nat × Nat × Nat) :=
  if c2 = 0x5c ∨ c2 = 0x27 ∨ c2 = 0x22 then some (0, 0x10ffff, c2)
  else if c2 = 0x74 then some (0, 0x10ffff, 9)
  else if c2 = 0x6e then some (0, 0x10ffff, 10)
  else if c2 = 0x72 then some (0, 0x10ffff, 13)
  else if c2 = 0x78 then some (2, 0x7f, 0)
  else if c2 = 0x75 then some (4, 0x10ffff, 0)
  else if c2 = 0x55 then some (6, 0x10ffff, 0)
  else none

/-- the loop over the digits, utf8.c:189-201: the remaining length, the code, and the iterator -/
def digits : Nat → Nat → Iter → Option (Nat × Nat × Iter)
  | 0, code, it => some (0, code, it)
  | len + 1, code, it => do
    let cx ← iterGet it
    if cx = 0 then some (len, code, it)
    else if digitValue cx ≥ 16 then some (len, code, it)
    else do
      let it ← iterAdvance it
      digits len (code * 16 + digitValue cx) it

/-- the end of `cp_utf8_escaped_decode`, utf8.c:187-210 -/
def escapeTail (start : List Nat) (it : Iter) (e : Nat × Nat × Nat) : Option (Nat × Iter) := do
  let it ← iterAdvance it
  let r ← digits e.1 e.2.2 it
  if r.1 > 0 then some (iterError r.2.2 start .premature)
  else if r.2.1 > e.2.1 then some (iterError r.2.2 start .large)
  else some (r.2.1, r.2.2)

/-- the part of `cp_utf8_escaped_decode` behind the backslash, utf8.c:159-210 -/
def escapeRest (start : List Nat) (it : Iter) : Option (Nat × Iter) := do
  let c2 ← iterGet it
  ass (c2 ≠ 0)
  match escape c2 with
  | none => some (iterError it start .unrecognised)
  | some e => escapeTail start it e

/-- `cp_utf8_escaped_decode` utf8.c:142-211 -/
def escapedDecode (it : Iter) : Option (Nat × Iter) := do
  let start := it.data
  let c1 ← iterGet it
  if c1 = 0 then some (0, it)
  else if c1 ≥ 0x80 then decode it
  else do
    let it ← iterAdvance it
    if c1 ≠ 0x5c then some (c1, it) else escapeRest start it

/-- `cp_utf8_ok` utf8.h:65-68 -/
def utf8Ok (cp : Nat) : Bool := !(cp == 0 || decide (cp > 0x10ffff) || (decide (cp ≥ 0xd800) && decide (cp ≤ 0xdfff)))

/-- `cp_utf8_encode` utf8.c:220-258: the bytes written; empty if they do not fit -/
def encode (dstSize cp : Nat) : Option (List Nat) := do
  ass (utf8Ok cp = true)
  if cp ≤ 0x7f then
    if dstSize < 1 then some [] else some [cp &&& 0x7f]
  else if cp ≤ 0x7ff then
    if dstSize < 2 then some [] else some [0xc0 ||| ((cp >>> 6) &&& 0x1f), 0x80 ||| ((cp >>> 0) &&& 0x3f)]
  else if cp ≤ 0xffff then
    if dstSize < 3 then some []
    else some [0xe0 ||| ((cp >>> 12) &&& 0x0f), 0x80 ||| ((cp >>> 6) &&& 0x3f), 0x80 ||| ((cp >>> 0) &&& 0x3f)]
  else
    if dstSize < 4 then some []
    else some [0xf0 ||| ((cp >>> 18) &&& 0x07), 0x80 ||| ((cp >>> 12) &&& 0x3f), 0x80 ||| ((cp >>> 6) &&& 0x3f),
      0x80 ||| ((cp >>> 0) &&& 0x3f)]

end Hob3l.Utf8
