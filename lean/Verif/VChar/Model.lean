import Verif.Vec.Model

/-
Model of growing strings, /repo/src/hob3lbase/vchar.c and /repo/include/hob3lbase/vchar.h.

A character is a number; the allocated cells are a list (empty: `data` is a null pointer).  `none` = failed assertion or access
outside of the allocated cells or to freed memory.  Sizes do not wrap; `realloc` succeeds.  New cells contain `junk`.
-/

namespace Hob3l.VChar

open Hob3l.Matq Hob3l.Vec

/-- `cp_vchar_t` include/hob3lbase/vchar_tam.h -/
structure VChar where
  mem : List Nat
  size : Nat
deriving DecidableEq, Repr

/-- `cp_vchar_init` vchar.h:57-61; also the result of `cp_vchar_fini` vchar.c:10-19 -/
def init : VChar := ⟨[], 0⟩

/-- the loop of `v_grow` vchar.c:32-35; the first argument bounds the number of iterations -/
def growLoop : Nat → Nat → Nat → Option Nat
  | 0, a, n => if a < n then none else some a
  | k + 1, a, n => if a < n then growLoop k (a * 2) n else some a

/-- `v_grow` vchar.c:21-39 -/
def grow (junk : Nat → Nat) (v : VChar) (n : Nat) : Option VChar :=
  if v.mem.length ≥ n then some v
  else do
    let a ← growLoop n (if v.mem.length < 4 then 4 else v.mem.length) n
    some { v with mem := v.mem ++ (List.range (a - v.mem.length)).map junk }

/-- `cp_vchar_clear` vchar.c:43-51 -/
def clear (v : VChar) : Option VChar :=
  if v.size = 0 then some v
  else do
    let mem ← put v.mem 0 [0]
    some ⟨mem, 0⟩

/-- `cp_vchar_append_arr` vchar.c:55-64 of another array -/
def appendArr (junk : Nat → Nat) (v : VChar) (xs : List Nat) : Option VChar := do
  let w ← grow junk v (v.size + xs.length + 1)
  let mem ← put w.mem v.size xs
  let mem ← put mem (v.size + xs.length) [0]
  some ⟨mem, v.size + xs.length⟩

/-- `cp_vchar_append_arr` vchar.c:55-64 of a part of the string itself: the pointer is not adjusted, so it is dangling if the
memory was reallocated -/
def appendSelfArr (junk : Nat → Nat) (v : VChar) (pos n : Nat) : Option VChar := do
  let w ← grow junk v (v.size + n + 1)
  ass (w.mem.length = v.mem.length)
  let xs ← get w.mem pos n
  let mem ← put w.mem v.size xs
  let mem ← put mem (v.size + n) [0]
  some ⟨mem, v.size + n⟩

/-- `cp_vchar_push` vchar.h:65-70 -/
def push (junk : Nat → Nat) (v : VChar) (c : Nat) : Option VChar := appendArr junk v [c]

/-- `cp_vchar_append` vchar.h:74-80 of another string -/
def append (junk : Nat → Nat) (v w : VChar) : Option VChar := appendArr junk v (w.mem.take w.size)

/-- `cp_vchar_append` vchar.h:74-80 of the string itself -/
def appendSelf (junk : Nat → Nat) (v : VChar) : Option VChar := appendSelfArr junk v 0 v.size

/-- `strlen` of an array: reading up to the first zero -/
def cString : List Nat → Option (List Nat)
  | [] => none
  | c :: cs => if c = 0 then some [] else (cString cs).map (c :: ·)

/-- `cp_vchar_append_str` vchar.h:84-89 -/
def appendStr (junk : Nat → Nat) (v : VChar) (c : List Nat) : Option VChar := do
  let xs ← cString c
  appendArr junk v xs

/-- `cp_vchar_cstr` vchar.h:94-102: the state and the memory pointed to by the result -/
def cstr (junk : Nat → Nat) (v : VChar) : Option (VChar × List Nat) :=
  if v.size = 0 then do
    let w ← push junk v 0
    some (⟨w.mem, 0⟩, w.mem)
  else some (v, v.mem)

/-- `cp_vchar_pop` vchar.h:104-112 -/
def pop (v : VChar) : Option (Nat × VChar) := do
  ass (v.size > 0)
  let r ← v.mem[v.size - 1]?
  let mem ← put v.mem (v.size - 1) [0]
  some (r, ⟨mem, v.size - 1⟩)

/-- the loop of `cp_vchar_vprintf` vchar.c:87-107; `out` is the text produced by `vsnprintf`, which writes at most `have - 1`
characters of it and a zero, and returns its length -/
def printLoop (junk : Nat → Nat) (out : List Nat) : Nat → VChar → Option VChar
  | 0, _ => none
  | k + 1, v => do
    let have' := v.mem.length - v.size
    let mem ← put v.mem v.size (if have' = 0 then [] else out.take (have' - 1) ++ [0])
    if out.length < have' then do
      ass (v.size + out.length < v.mem.length)
      some ⟨mem, v.size + out.length⟩
    else do
      ass (out.length > 0)
      let w ← grow junk ⟨mem, v.size⟩ (v.size + out.length + 1)
      printLoop junk out k w

/-- `cp_vchar_vprintf` vchar.c:79-108; the loop runs at most twice -/
def print (junk : Nat → Nat) (v : VChar) (out : List Nat) : Option VChar := do
  let v ← grow junk v 1
  printLoop junk out 2 v

end Hob3l.VChar
