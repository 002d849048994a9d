import Verif.Matq.Model

/-
Model of /repo/src/hob3lbase/heap.c (priority queue of pointers to embedded indices) and of the heap part of
/repo/src/hob3lbase/vec.c:479-602 (priority queue of plain elements), with the macros in
/repo/include/hob3lbase/vec.h:900-1045.

An element is an abstract value (in heap.c: the pointer).  A vector is the list of its first `size` elements, where the code
accesses only those; where it accesses more (`make`), memory and `size` are separate.  `cmp a b` is `cmp(a, b, user)`.
Memory growth (`cp_v_push`) is not modelled.  `none` = failed assertion or access outside of the vector.
Loops have a bound on the number of iterations as first argument; running out of it is `none`.
-/

namespace Hob3l.Heap

open Hob3l.Matq

variable {α : Type}

/-- `HEAP_PARENT` heap.c:12, vec.c:482 -/
def parent (pos : Nat) : Nat := (pos - 1) / 2

/-- `HEAP_CHILD0` heap.c:13, vec.c:483 -/
def child0 (pos : Nat) : Nat := pos * 2 + 1

/-! ### vec.c -/

/-- `cp_memswap` of two elements -/
def vswap (L : List α) (p q : Nat) : Option (List α) := do
  let x ← L[p]?
  let y ← L[q]?
  some ((L.set p y).set q x)

/-- the loop of `cp_v_heap_up_` vec.c:495-504 -/
def vupLoop (cmp : α → α → Int) : Nat → List α → Nat → Option (List α)
  | 0, L, pos => if pos > 0 then none else some L
  | n + 1, L, pos =>
    if pos > 0 then do
      let p ← L[parent pos]?
      let q ← L[pos]?
      if cmp p q ≤ 0 then some L
      else do
        let L ← vswap L (parent pos) pos
        vupLoop cmp n L (parent pos)
    else some L

/-- `cp_v_heap_up_` vec.c:485-505 -/
def vup (cmp : α → α → Int) (L : List α) (pos : Nat) : Option (List α) := do
  ass (pos < L.length)
  vupLoop cmp pos L pos

/-- choice of the smaller child, vec.c:530-537 and heap.c:68-75; `c` is the first child, its position is `pos` -/
def smaller (cmp : α → α → Int) (L : List α) (pos : Nat) (c : α) : Option (Nat × α) :=
  if pos + 1 < L.length then do
    let d ← L[pos + 1]?
    if cmp d c < 0 then some (pos + 1, d) else some (pos, c)
  else some (pos, c)

/-- the loop of `cp_v_heap_down_` vec.c:518-547 -/
def vdownLoop (cmp : α → α → Int) : Nat → List α → Nat → Option (List α)
  | 0, _, _ => none
  | n + 1, L, pos =>
    if child0 pos ≥ L.length then some L
    else do
      let c ← L[child0 pos]?
      let d ← smaller cmp L (child0 pos) c
      let q ← L[pos]?
      if cmp q d.2 ≤ 0 then some L
      else do
        let L ← vswap L d.1 pos
        vdownLoop cmp n L d.1

/-- `cp_v_heap_down_` vec.c:507-548 -/
def vdown (cmp : α → α → Int) (L : List α) (pos : Nat) : Option (List α) := do
  ass (pos < L.length)
  vdownLoop cmp L.length L pos

/-- `cp_v_heap_update_` vec.c:553-562 -/
def vupdate (cmp : α → α → Int) (L : List α) (pos : Nat) : Option (List α) := do
  let L ← vup cmp L pos
  vdown cmp L pos

/-- `cp_v_heap_insert` vec.h:953-982 -/
def vinsert (cmp : α → α → Int) (L : List α) (x : α) : Option (List α) :=
  vupdate cmp (L ++ [x]) ((L ++ [x]).length - 1)

/-- `cp_v_heap_extract` vec.h:994-1029 with `cp_v_heap_extract_` vec.c:587-600: the element behind the end and the remaining
vector -/
def vextract (cmp : α → α → Int) (L : List α) : Option (α × List α) := do
  ass (L.length > 0)
  let p ← L[0]?
  let q ← L[L.length - 1]?
  if L.length - 1 > 0 then
    let L ← vupdate cmp ((L.set 0 q).dropLast) 0
    some (p, L)
  else some (q, L.dropLast)

/-- `cp_v_heap_min` vec.h:1034-1043 -/
def vmin (L : List α) : Option α := do
  ass (L.length > 0)
  L[0]?

/-- the loop of `cp_v_heap_make_` vec.c:577-579 on the memory `mem`; `size` is `vec->size` during the loop, `n` the original
size; result: memory and `vec->size` -/
def vmakeLoop (cmp : α → α → Int) (n : Nat) : Nat → List α → Nat → Option (List α × Nat)
  | 0, mem, size => if size ≤ n then none else some (mem, size)
  | k + 1, mem, size =>
    if size ≤ n then do
      let L ← vup cmp (mem.take size) (size - 1)
      vmakeLoop cmp n k (L ++ mem.drop size) (size + 1)
    else some (mem, size)

/-- `cp_v_heap_make_` vec.c:567-580: `mem` is the allocated memory, `n` the size; result: memory and `vec->size` -/
def vmake (cmp : α → α → Int) (mem : List α) (n : Nat) : Option (List α × Nat) :=
  if n < 2 then some (mem, n) else vmakeLoop cmp n n mem 2

/-! ### heap.c -/

/-- `CP_HEAP_NO_IDX` heap.h:18 -/
def noIdx : Nat := 2 ^ 64 - 1

/-- the vector, and the memory of the embedded indices -/
structure Heap (α : Type) where
  arr : List α
  ix : α → Nat

variable [DecidableEq α]

/-- `*x = v` -/
def setIx (ix : α → Nat) (x : α) (v : Nat) : α → Nat := fun y => if y = x then v else ix y

/-- `cp_heap_swap_` heap.c:15-23 -/
def swap (h : Heap α) (p q : Nat) : Option (Heap α) := do
  let x ← h.arr[p]?
  let y ← h.arr[q]?
  some ⟨(h.arr.set p y).set q x, setIx (setIx h.ix x q) y p⟩

/-- the loop of `cp_heap_up_` heap.c:34-43 -/
def upLoop (cmp : α → α → Int) : Nat → Heap α → Nat → Option (Heap α)
  | 0, h, pos => if pos > 0 then none else some h
  | n + 1, h, pos =>
    if pos > 0 then do
      let p ← h.arr[parent pos]?
      let q ← h.arr[pos]?
      if cmp p q ≤ 0 then some h
      else do
        let h ← swap h (parent pos) pos
        upLoop cmp n h (parent pos)
    else some h

/-- `cp_heap_up_` heap.c:25-44 -/
def up (cmp : α → α → Int) (h : Heap α) (pos : Nat) : Option (Heap α) := do
  ass (pos < h.arr.length)
  upLoop cmp pos h pos

/-- the loop of `cp_heap_down_` heap.c:56-85 -/
def downLoop (cmp : α → α → Int) : Nat → Heap α → Nat → Option (Heap α)
  | 0, _, _ => none
  | n + 1, h, pos =>
    if child0 pos ≥ h.arr.length then some h
    else do
      let c ← h.arr[child0 pos]?
      let d ← smaller cmp h.arr (child0 pos) c
      let q ← h.arr[pos]?
      if cmp q d.2 ≤ 0 then some h
      else do
        let h ← swap h d.1 pos
        downLoop cmp n h d.1

/-- `cp_heap_down_` heap.c:46-86 -/
def down (cmp : α → α → Int) (h : Heap α) (pos : Nat) : Option (Heap α) := do
  ass (pos < h.arr.length)
  downLoop cmp h.arr.length h pos

/-- `cp_heap_update` heap.c:117-125 -/
def update (cmp : α → α → Int) (h : Heap α) (pos : Nat) : Option (Heap α) := do
  let h ← up cmp h pos
  down cmp h pos

/-- `cp_heap_remove` heap.c:133-152: the removed element and the remaining heap -/
def remove (cmp : α → α → Int) (h : Heap α) (idx : Nat) : Option (α × Heap α) := do
  ass (idx < h.arr.length)
  let last := h.arr.length - 1
  let y ← h.arr[last]?
  if last ≠ idx then do
    ass (last > 0)
    let x ← h.arr[idx]?
    let h' ← update cmp ⟨(h.arr.set idx y).dropLast, setIx (setIx h.ix x last) y idx⟩ idx
    some (x, ⟨h'.arr, setIx h'.ix x noIdx⟩)
  else some (y, ⟨h.arr.dropLast, setIx h.ix y noIdx⟩)

/-- `cp_heap_insert` heap.c:228-238 -/
def insert (cmp : α → α → Int) (h : Heap α) (x : α) : Option (Heap α) :=
  update cmp ⟨h.arr ++ [x], setIx h.ix x h.arr.length⟩ h.arr.length

/-- `cp_heap_replace` heap.c:174-205; `x = none` is NULL; result: return value (`none` = NULL) and heap -/
def replace (cmp : α → α → Int) (h : Heap α) (idx : Nat) (x : Option α) : Option (Option α × Heap α) :=
  if idx = noIdx then do
    let x ← x
    let h ← insert cmp h x
    some (none, h)
  else do
    ass (idx < h.arr.length)
    match x with
    | none => do
      let r ← remove cmp h idx
      some (some r.1, r.2)
    | some x => do
      let r ← h.arr[idx]?
      if r = x then do
        let h ← update cmp h idx
        some (none, h)
      else do
        ass (h.ix r = idx)
        let h' ← update cmp ⟨h.arr.set idx x, setIx (setIx h.ix x idx) r noIdx⟩ idx
        ass (h'.ix r = noIdx)
        some (some r, h')

/-- `cp_heap_extract` heap.c:211-220; return value (`none` = NULL) and heap -/
def extract (cmp : α → α → Int) (h : Heap α) : Option (Option α × Heap α) :=
  if h.arr.length = 0 then some (none, h)
  else do
    let r ← remove cmp h 0
    some (some r.1, r.2)

/-- `cp_heap_min` heap.c:244-252 (the outer `Option`: assertion; the inner one: NULL) -/
def min (h : Heap α) : Option (Option α) :=
  if h.arr.length = 0 then some none
  else do
    let x ← h.arr[0]?
    some (some x)

/-- setting the initial indices, heap.c:97-99 -/
def initIx : List α → Nat → (α → Nat) → (α → Nat)
  | [], _, ix => ix
  | x :: L, i, ix => initIx L (i + 1) (setIx ix x i)

/-- the loop of `cp_heap_make_` heap.c:108-110; see `vmakeLoop` -/
def makeLoop (cmp : α → α → Int) (n : Nat) : Nat → Heap α → Nat → Option (Heap α × Nat)
  | 0, h, size => if size ≤ n then none else some (h, size)
  | k + 1, h, size =>
    if size ≤ n then do
      let h' ← up cmp ⟨h.arr.take size, h.ix⟩ (size - 1)
      makeLoop cmp n k ⟨h'.arr ++ h.arr.drop size, h'.ix⟩ (size + 1)
    else some (h, size)

/-- `cp_heap_make_` heap.c:91-111: `h.arr` is the allocated memory, `n` the size; result: memory and `vec->size` -/
def make (cmp : α → α → Int) (h : Heap α) (n : Nat) : Option (Heap α × Nat) :=
  let h := ⟨h.arr, initIx (h.arr.take n) 0 h.ix⟩
  if n < 2 then some (h, n) else makeLoop cmp n n h 2

end Hob3l.Heap
