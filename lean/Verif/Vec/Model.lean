import Verif.Matq.Model

/-
Model of /repo/src/hob3lbase/vec.c:14-477 (growing arrays and binary search) with the macros in
/repo/include/hob3lbase/vec.h.

A vector is the list of its allocated cells and `size`; `alloc` is the length of the list.  One cell is one element (the
code multiplies by the element size).  `none` = failed assertion, access outside of the allocated cells, or panic (out of
memory).  Addition of sizes does not wrap.
-/

namespace Hob3l.Vec

open Hob3l.Matq

variable {α : Type}

/-- `cp_v_t` include/hob3lbase/vec_tam.h -/
structure Vec (α : Type) where
  mem : List α
  size : Nat
deriving DecidableEq, Repr

/-- environment: the element consisting of zero bytes, the contents of newly allocated cells, and `cp_v_max_size_` -/
structure Env (α : Type) where
  zero : α
  junk : Nat → α
  max : Nat

/-- the loop of `v_grow` vec.c:29-35; the first argument bounds the number of iterations -/
def growLoop (max : Nat) : Nat → Nat → Nat → Option Nat
  | 0, a, n => if a < n then none else some a
  | k + 1, a, n =>
    if a < n then
      if a * 2 > max then none else growLoop max k (a * 2) n
    else some a

/-- `v_grow` vec.c:14-38; `cp_v_min_alloc_` vec.h:1303-1306; `cp_remalloc` keeps the old cells -/
def grow (env : Env α) (v : Vec α) (n : Nat) : Option (Vec α) :=
  if v.mem.length ≥ n then some v
  else do
    let a ← growLoop env.max n (if v.mem.length < 4 then 4 else v.mem.length) n
    some { v with mem := v.mem ++ (List.range (a - v.mem.length)).map env.junk }

/-- writing cells, with bounds check -/
def put (mem : List α) (d : Nat) (xs : List α) : Option (List α) := do
  ass (d + xs.length ≤ mem.length)
  some (mem.take d ++ xs ++ mem.drop (d + xs.length))

/-- reading cells, with bounds check -/
def get (mem : List α) (s n : Nat) : Option (List α) := do
  ass (s + n ≤ mem.length)
  some ((mem.drop s).take n)

/-- `memmove` of cells -/
def memmove (mem : List α) (d s n : Nat) : Option (List α) := do
  let xs ← get mem s n
  put mem d xs

/-- `cp_v_clear_` vec.c:81-92 -/
def clear (env : Env α) (v : Vec α) (preAlloc : Nat) : Option (Vec α) := do
  let v ← grow env v preAlloc
  some { v with size := 0 }

/-- the common part of `cp_v_ensure_size_` and `cp_v_set_size_`: growing with zeroed elements -/
def growZero (env : Env α) (v : Vec α) (n : Nat) : Option (Vec α) := do
  let v ← grow env v n
  let mem ← put v.mem v.size (List.replicate (n - v.size) env.zero)
  some ⟨mem, n⟩

/-- `cp_v_ensure_size_` vec.c:100-114 -/
def ensureSize (env : Env α) (v : Vec α) (n : Nat) : Option (Vec α) :=
  if v.size < n then growZero env v n else some v

/-- `cp_v_set_size_` vec.c:123-137 -/
def setSize (env : Env α) (v : Vec α) (n : Nat) : Option (Vec α) :=
  if v.size < n then growZero env v n else some { v with size := n }

/-- `cp_v_inflate_` vec.c:143-177 -/
def inflate (env : Env α) (v : Vec α) (pos n : Nat) : Option (Vec α) := do
  ass (pos ≤ v.size)
  if n = 0 then some v
  else
    let w ← grow env v (v.size + n)
    let mem ← memmove w.mem (pos + n) pos (v.size - pos)
    let mem ← put mem pos (List.replicate n env.zero)
    some ⟨mem, v.size + n⟩

/-- a pointer to elements that are copied into a vector: another array (`adjacent`: it starts at the address where the
used part of the vector ends), or a position of the vector itself -/
inductive Src (α : Type) where
  | ext (xs : List α) (adjacent : Bool)
  | self (pos : Nat)
deriving DecidableEq, Repr

/-- the pointer check `data != NULL && data >= vec->data && data <= &vec->data[vec->size]`, vec.c:213-215, 303-305; the
result is the position -/
def aliased (v : Vec α) : Src α → Option Nat
  | .ext _ adjacent => if v.mem.length > 0 ∧ adjacent then some v.size else none
  | .self pos => if v.mem.length > 0 ∧ pos ≤ v.size then some pos else none

/-- assertion on an aliased source, vec.c:217-219, 307 -/
def aliasAss (v : Vec α) (src : Src α) (n : Nat) : Option Unit :=
  match aliased v src with
  | none => some ()
  | some pos => ass (pos + n ≤ v.size)

/-- the elements read; `mem` is the current memory of the vector -/
def Src.read (src : Src α) (mem : List α) (n : Nat) : Option (List α) :=
  match src with
  | .ext xs _ => get xs 0 n
  | .self pos => get mem pos n

/-- growing in `cp_v_copy_arr_`, vec.c:206-222 -/
def copyGrow (env : Env α) (v : Vec α) (src : Src α) (n endPos : Nat) : Option (Vec α) :=
  if endPos > v.size then do
    let w ← grow env v endPos
    aliasAss v src n
    some { w with size := endPos }
  else some v

/-- `cp_v_copy_arr_` vec.c:185-225 -/
def copyArr (env : Env α) (v : Vec α) (dstPos : Nat) (src : Src α) (n : Nat) : Option (Vec α) := do
  ass (dstPos ≤ v.size)
  if n = 0 then some v
  else
    let w ← copyGrow env v src n (dstPos + n)
    let xs ← src.read w.mem n
    let mem ← put w.mem dstPos xs
    some { w with mem := mem }

/-- `cp_v_copy_` vec.c:243-275 with another vector as source -/
def copy (env : Env α) (v : Vec α) (dstPos : Nat) (src : Vec α) (srcPos n : Nat) : Option (Vec α) := do
  ass (srcPos ≤ src.size)
  copyArr env v dstPos (.ext (src.mem.drop srcPos) false) (min n (src.size - srcPos))

/-- `cp_v_copy_` vec.c:243-275 with the vector itself as source -/
def copySelf (env : Env α) (v : Vec α) (dstPos srcPos n : Nat) : Option (Vec α) := do
  ass (srcPos ≤ v.size)
  copyArr env v dstPos (.self srcPos) (min n (v.size - srcPos))

/-- the case distinction of `cp_v_insert_arr_` for elements of the vector itself, vec.c:312-335, after inflating -/
def insertSelf (env : Env α) (w : Vec α) (dstPos srcPos n : Nat) : Option (Vec α) :=
  if srcPos + n ≤ dstPos then copySelf env w dstPos srcPos n
  else if dstPos + n ≤ srcPos then copySelf env w dstPos (srcPos + n) n
  else do
    ass (srcPos < dstPos)
    ass (dstPos - srcPos < n)
    let w ← copySelf env w dstPos srcPos (dstPos - srcPos)
    ass (dstPos + n < srcPos + n)
    ass (dstPos + n + (n - (dstPos - srcPos)) = srcPos + n + n)
    copySelf env w (dstPos + (dstPos - srcPos)) (dstPos + n) (n - (dstPos - srcPos))

/-- the branches of `cp_v_insert_arr_`, vec.c:303-341 -/
def insertBranch (env : Env α) (v : Vec α) (dstPos : Nat) (src : Src α) (n : Nat) : Option (Vec α) :=
  match aliased v src with
  | some srcPos => do
    ass (srcPos + n ≤ v.size)
    let w ← inflate env v dstPos n
    insertSelf env w dstPos srcPos n
  | none => do
    let w ← inflate env v dstPos n
    copyArr env w dstPos src n

/-- `cp_v_insert_arr_` vec.c:281-344 -/
def insertArr (env : Env α) (v : Vec α) (dstPos : Nat) (src : Src α) (n : Nat) : Option (Vec α) :=
  if n = 0 then some v else insertBranch env v dstPos src n

/-- `cp_v_push` vec.h:717-741 -/
def push (env : Env α) (v : Vec α) (x : α) : Option (Vec α) := insertArr env v v.size (.ext [x] false) 1

/-- `cp_v_append` vec.h:745-767 of another vector -/
def append (env : Env α) (v w : Vec α) : Option (Vec α) := insertArr env v v.size (.ext w.mem false) w.size

/-- `cp_v_append` vec.h:745-767 of the vector itself -/
def appendSelf (env : Env α) (v : Vec α) : Option (Vec α) := insertArr env v v.size (.self 0) v.size

/-- `cp_v_remove_` vec.c:348-371 -/
def remove (v : Vec α) (pos n : Nat) : Option (Vec α) := do
  ass (pos ≤ v.size)
  let n := min n (v.size - pos)
  let mem ← memmove v.mem pos (pos + n) (v.size - pos - n)
  some ⟨mem, v.size - n⟩

/-- `cp_v_extract_` vec.c:402-415 -/
def extract (v : Vec α) (pos : Nat) : Option (α × Vec α) := do
  ass (pos < v.size)
  let x ← v.mem[pos]?
  let w ← remove v pos 1
  some (x, w)

/-- `cp_v_pop` vec.h:649-657 (`vec->size - 1` wraps for an empty vector, then the assertion in `extract` fails) -/
def pop (v : Vec α) : Option (α × Vec α) :=
  if v.size = 0 then none else extract v (v.size - 1)

/-- the loop of `cp_v_reverse_` vec.c:391-397; first argument: remaining iterations, `i`: counter -/
def reverseLoop (pos n : Nat) : Nat → List α → Nat → Option (List α)
  | 0, mem, _ => some mem
  | k + 1, mem, i => do
    let x ← mem[pos + i]?
    let y ← mem[pos + (n - i - 1)]?
    reverseLoop pos n k ((mem.set (pos + i) y).set (pos + (n - i - 1)) x) (i + 1)

/-- `cp_v_reverse_` vec.c:376-398 -/
def reverse (v : Vec α) (pos n : Nat) : Option (Vec α) := do
  ass (pos ≤ v.size)
  let n := min n (v.size - pos)
  let mem ← reverseLoop pos n (n / 2) v.mem 0
  some { v with mem := mem }

/-- the loop of `cp_bsearch` vec.c:459-474; `cmp x` is `cmp(key, x, user)`; the outer `Option`: access outside of the array or
too many iterations; the inner one: `CP_SIZE_MAX` -/
def bsearchLoop (cmp : α → Int) (L : List α) : Nat → Nat → Nat → Option (Option Nat)
  | 0, a, b => if a < b then none else some none
  | k + 1, a, b =>
    if a < b then do
      let idx := a + (b - a) / 2
      let p ← L[idx]?
      if cmp p < 0 then bsearchLoop cmp L k a idx
      else if cmp p > 0 then bsearchLoop cmp L k (idx + 1) b
      else some (some idx)
    else some none

/-- `cp_bsearch` vec.c:449-477 (the assertion on the size of the array is not modelled) -/
def bsearch (cmp : α → Int) (L : List α) : Option (Option Nat) := bsearchLoop cmp L L.length 0 L.length

end Hob3l.Vec
