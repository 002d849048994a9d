import Verif.Align.Model

/-
Model of the arena allocator /repo/src/hob3lbase/pool.c.

Addresses are numbers; the memory maps addresses to bytes.  The header of a block (`next`, `heap_size`, `brk`: 24 bytes on
a 64-bit system) is a record of its own, the lists of blocks are lists.  `Pool.live` is a ghost field: the objects handed out
and not yet thrown away.

The system allocator is given by the address it returns.  It must own the memory: if the address overlaps a block of the pool
or exceeds the address space, the outcome is `env`; so is a write outside of the live objects.  `assert` is a failed assertion
or `CP_DIE` in the code.
-/

namespace Hob3l.Pool

open Hob3l.Align

inductive Err where
  | assert
  | env
deriving DecidableEq, Repr

abbrev M := Except Err

/-- an assertion -/
def chk (c : Prop) [Decidable c] : M Unit := if c then .ok () else .error .assert

/-- a condition on the environment -/
def req (c : Prop) [Decidable c] : M Unit := if c then .ok () else .error .env

/-- `struct cp_pool_block` pool.c:19-43; `base` is the address of `heap` -/
structure Block where
  base : Nat
  heapSize : Nat
  brk : Nat
deriving DecidableEq, Repr

def Block.fin (b : Block) : Nat := b.base + b.heapSize

/-- an object handed out -/
structure Obj where
  addr : Nat
  size : Nat
deriving DecidableEq, Repr

/-- `cp_pool_t` include/hob3lbase/pool_tam.h:16-21, with the memory -/
structure Pool where
  blockSize : Nat
  free : List Block
  used : List Block
  mem : Nat → Nat
  live : List Obj

/-- `sizeof(cp_pool_block_t)` -/
def hdr : Nat := 24

/-- 64-bit range -/
def W : Nat := 2 ^ 64

/-- `memset(a, 0, n)` -/
def zeroMem (mem : Nat → Nat) (a n : Nat) : Nat → Nat := fun x => if a ≤ x ∧ x < a + n then 0 else mem x

/-- `memcpy(q, p, n)` -/
def copyMem (mem : Nat → Nat) (q p n : Nat) : Nat → Nat := fun x => if q ≤ x ∧ x < q + n then mem (p + (x - q)) else mem x

/-- `block_clear` pool.c:65-73 -/
def blockClear (b : Block) (mem : Nat → Nat) : Block × (Nat → Nat) :=
  if b.brk ≠ b.fin then ({ b with brk := b.fin }, zeroMem mem b.base b.heapSize)
  else (b, mem)

/-- the loop of `cp_pool_clear` pool.c:88-95, with `block_push`, `block_pop` pool.c:45-63 -/
def clearLoop : List Block → List Block → (Nat → Nat) → List Block × (Nat → Nat)
  | [], free, mem => (free, mem)
  | b :: bs, free, mem =>
    let r := blockClear b mem
    clearLoop bs (r.1 :: free) r.2

/-- `cp_pool_clear` pool.c:85-96 -/
def clear (s : Pool) : Pool :=
  let r := clearLoop s.used s.free s.mem
  { s with free := r.1, used := [], mem := r.2, live := [] }

/-- `cp_pool_fini` pool.c:113-118 -/
def fini (s : Pool) : Pool := { s with free := [], used := [], live := [] }

/-- discarding the free blocks in `block_next` pool.c:126-132 -/
def discard (free : List Block) (need : Nat) : List Block :=
  match free with
  | [] => []
  | b :: rest => if b.heapSize < need then [] else b :: rest

/-- the two address ranges (including headers) do not overlap -/
def Apart (a b : Block) : Prop := a.fin + hdr ≤ b.base ∨ b.fin + hdr ≤ a.base

instance (a b : Block) : Decidable (Apart a b) := by unfold Apart; infer_instance

/-- the block allocated by `cp_calloc_` in `block_next` pool.c:141-146, at address `sys` -/
def newBlock (sys blockSize : Nat) : Block := ⟨sys + hdr, blockSize - hdr, sys + blockSize⟩

/-- `block_next` pool.c:120-149 and `block_push` on the used list, pool.c:239-240 -/
def blockNext (s : Pool) (sys : Nat) : M Pool :=
  match discard s.free ((s.blockSize + W - hdr) % W) with
  | b :: rest => .ok { s with free := rest, used := b :: s.used }
  | [] => do
    req (sys + s.blockSize < W)
    req (∀ c ∈ s.used, Apart (newBlock sys s.blockSize) c)
    chk (s.blockSize > hdr)
    .ok { s with free := [], used := newBlock sys s.blockSize :: s.used, mem := zeroMem s.mem sys s.blockSize }

/-- the end of `try_block_calloc` pool.c:173-181; `newBrk` = `brk - size` -/
def tryAlign (b : Block) (newBrk size align : Nat) (mem : Nat → Nat) : M (Option Nat) :=
  match alignDownDiff (BitVec.ofNat 64 newBrk) (BitVec.ofNat 64 align) with
  | none => .error .assert
  | some diff =>
    if newBrk - b.base < diff.toNat then .ok none
    else do
      chk (∀ i ∈ List.range size, mem (newBrk - diff.toNat + i) = 0)
      .ok (some (newBrk - diff.toNat))

/-- `try_block_calloc` pool.c:151-182: the new `brk`, which is also the result -/
def tryBlock (b : Block) (nmemb size1 align : Nat) (mem : Nat → Nat) : M (Option Nat) := do
  chk (size1 > 0)
  chk (nmemb > 0)
  if nmemb > b.heapSize / size1 then .ok none
  else if b.brk - b.base < nmemb * size1 then .ok none
  else tryAlign b (b.brk - nmemb * size1) (nmemb * size1) align mem

/-- `try_block_calloc` for the head of the used list -/
def tryUsed (s : Pool) (nmemb size1 align : Nat) : M (Option (Nat × Pool)) :=
  match s.used with
  | [] => do
    chk (size1 > 0)
    chk (nmemb > 0)
    .ok none
  | b :: rest => do
    let r ← tryBlock b nmemb size1 align s.mem
    .ok (r.map fun a => (a, { s with used := { b with brk := a } :: rest, live := ⟨a, nmemb * size1⟩ :: s.live }))

/-- increasing the block size, pool.c:226-232; the first argument bounds the number of iterations -/
def growSize (nmemb size1 : Nat) : Nat → Nat → M Nat
  | 0, _ => .error .assert
  | k + 1, bs =>
    if 10 * nmemb % W > bs / size1 then
      if bs * 2 % W < bs then .ok bs else growSize nmemb size1 k (bs * 2 % W)
    else .ok bs

/-- `cp_align_up(pool->block_size, BLOCK_ALIGN)` pool.c:235 -/
def alignSize (bs : Nat) : M Nat :=
  match alignUp (BitVec.ofNat 64 bs) 0x1000 with
  | none => .error .assert
  | some r => .ok r.toNat

/-- `BLOCK_SIZE_DEFAULT` pool.c:17 -/
def defaultSize : Nat := 1048576

/-- the part of the loop body of `cp_pool_calloc` that adds a block, pool.c:221-242 -/
def addBlock (s : Pool) (sys nmemb size1 : Nat) : M Pool := do
  let bs ← growSize nmemb size1 65 (if s.blockSize = 0 then defaultSize else s.blockSize)
  chk (bs > 0)
  let bs ← alignSize bs
  blockNext { s with blockSize := bs } sys

/-- the loop of `cp_pool_calloc` pool.c:215-246; `sys i` is the address of a new block in iteration `i` -/
def callocLoop (nmemb size1 align : Nat) (sys : Nat → Nat) : Nat → Pool → M (Nat × Pool)
  | 0, _ => .error .assert
  | k + 1, s => do
    let r ← tryUsed s nmemb size1 align
    match r with
    | some p => .ok p
    | none => do
      let s ← addBlock s (sys k) nmemb size1
      callocLoop nmemb size1 align sys k s

/-- `cp_pool_calloc` pool.c:203-247; the result is `none` for NULL -/
def calloc (s : Pool) (nmemb size1 align : Nat) (sys : Nat → Nat) : M (Option Nat × Pool) := do
  chk (size1 ≠ 0)
  if nmemb = 0 then .ok (none, s)
  else do
    let r ← callocLoop nmemb size1 align sys 3 s
    .ok (some r.1, r.2)

/-- `pool_calloc`, `pool_malloc` pool.c:249-261; `alignof(max_align_t)` is 16 -/
def poolCalloc (s : Pool) (a b : Nat) (sys : Nat → Nat) : M (Option Nat × Pool) :=
  calloc s a b (sizeAlign (BitVec.ofNat 64 b ||| 16)).toNat sys

/-- `pool_remalloc` pool.c:269-285 -/
def poolRemalloc (s : Pool) (p ao an b : Nat) (sys : Nat → Nat) : M (Option Nat × Pool) :=
  if an ≤ ao then .ok (some p, s)
  else do
    let r ← poolCalloc s an b sys
    match r.1 with
    | none => .ok r
    | some q => .ok (some q, { r.2 with mem := copyMem r.2.mem q p (ao * b) })

/-- `pool_recalloc` pool.c:287-305 -/
def poolRecalloc (s : Pool) (p ao an b : Nat) (sys : Nat → Nat) : M (Option Nat × Pool) :=
  if an ≤ ao then .ok (some p, s)
  else do
    let r ← poolCalloc s an b sys
    match r.1 with
    | none => .ok r
    | some q => .ok (some q, { r.2 with mem := zeroMem (copyMem r.2.mem q p (ao * b)) (q + ao * b) (an * b - ao * b) })

/-- a write by the user of the pool, into an object -/
def write (s : Pool) (x v : Nat) : M Pool := do
  req (∃ o ∈ s.live, o.addr ≤ x ∧ x < o.addr + o.size)
  .ok { s with mem := fun y => if y = x then v else s.mem y }

/-- a pool is initialised with zeros, except maybe for the block size -/
def init (blockSize : Nat) (mem : Nat → Nat) : Pool := ⟨blockSize, [], [], mem, []⟩

end Hob3l.Pool
