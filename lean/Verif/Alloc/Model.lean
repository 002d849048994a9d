import Mathlib.Order.Basic

/-!
The allocator of arrays: src/hob3lbase/alloc.c, include/hob3lbase/alloc.h.

A block is the list of its bytes; `none` is the null pointer.  Addresses are left out: `realloc` gives a block with the same bytes.
`size_t` has 64 bits.
-/

namespace Hob3l.Alloc

abbrev Block := List Nat

/-- `malloc` of the C library: `mem n` is a block with unknown contents, or `none` -/
structure Lib where
  mem : Nat → Option Block
  length_eq : ∀ n l, mem n = some l → l.length = n

/-- `~(size_t)0` -/
def sizeMax : Nat := 2 ^ 64 - 1

/-- multiplication of `size_t` -/
def mul (a b : Nat) : Nat := a * b % 2 ^ 64

/-- `realloc` of the C library for a size that is not 0 -/
def Lib.realloc (c : Lib) (p : Option Block) (n : Nat) : Option Block :=
  match p with
  | none => c.mem n
  | some l => (c.mem n).map fun m => l.take n ++ m.drop l.length

/-- `calloc` of the C library -/
def Lib.calloc (c : Lib) (a b : Nat) : Option Block :=
  if a * b < 2 ^ 64 then (c.mem (a * b)).map fun m => List.replicate m.length 0 else none

/-- result: undefined behaviour or a failed assertion; `cp_panic`; a pointer -/
inductive Res where
  | undef
  | panic
  | block (l : Block)
  deriving DecidableEq

/-- `cp_malloc_` … `cp_recalloc_` alloc.h:120-158: null pointers stop the program -/
def checked : Option Block → Res
  | none => .panic
  | some l => .block l

/-- `global_malloc` alloc.c:6-14 in `cp_malloc_` -/
def malloc (c : Lib) (a b : Nat) : Res :=
  if a = 0 then .undef
  else if b > sizeMax / a then checked none
  else checked (c.mem (mul a b))

/-- `global_calloc` alloc.c:16-21 in `cp_calloc_` -/
def calloc (c : Lib) (a b : Nat) : Res := checked (c.calloc a b)

/-- `global_remalloc` alloc.c:30-47 in `cp_remalloc_` -/
def remalloc (c : Lib) (p : Option Block) (ao an b : Nat) : Res :=
  if an ≤ ao then checked p
  else if b > sizeMax / an then checked none
  else if mul an b = 0 then checked none
  else checked (c.realloc p (mul an b))

/-- `memset((char*)q + o, 0, n)` -/
def memset0 (q : Block) (o n : Nat) : Block := q.take o ++ (List.replicate n 0 ++ q.drop (o + n))

/-- `global_recalloc` alloc.c:49-73 in `cp_recalloc_` -/
def recalloc (c : Lib) (p : Option Block) (ao an b : Nat) : Res :=
  if an ≤ ao then checked p
  else if b > sizeMax / an then checked none
  else if mul an b = 0 then checked none
  else match c.realloc p (mul an b) with
    | none => checked none
    | some q =>
      if mul ao b < mul an b then checked (some (memset0 q (mul ao b) (mul an b - mul ao b))) else .undef

end Hob3l.Alloc
