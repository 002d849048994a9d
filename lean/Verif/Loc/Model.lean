import Verif.Matq.Model

/-!
Model of the lookup of source positions: `src/hob3l/syn.c` (the line table made when a file is read) and
`src/hob3l/syn-msg.c` (`cmp_line`, `cp_syn_get_loc`), together with `cp_bsearch` of `src/hob3lbase/vec.c` for this
comparison function.

Pointers into the contents of a file are numbers (addresses); bytes are natural numbers.  `none` is a failed assertion or
an access outside of an array.
-/

namespace Hob3l.Loc

open Hob3l.Matq

/-- a file in memory: `cp_syn_file_t` (include/hob3l/syn_tam.h); `base` is the address `content.data`, `text` the original
contents (`content_orig`), `line` the table of line starts (addresses).  The names, the handle and the include position are
not modelled; the parser overwrites bytes of `content`, but neither its address nor its size. -/
structure File where
  base : Nat
  text : List Nat
  line : List Nat
  deriving DecidableEq, Repr

/-- the loop syn.c:1034-1038 from position `i` on: the addresses pushed to the table -/
def lineLoop : List Nat → Nat → List Nat
  | [], _ => []
  | c :: cs, i => if c = 10 then (i + 1) :: lineLoop cs (i + 1) else lineLoop cs (i + 1)

/-- the table syn.c:1032-1041: the start, the position after each line feed, and the end if it is not the last entry -/
def lineTable (base : Nat) (text : List Nat) : List Nat :=
  let t := base :: lineLoop text base
  if t.getLast? = some (base + text.length) then t else t ++ [base + text.length]

/-- the result of reading a file: syn.c:1003-1043; reading itself is not modelled -/
def load (base : Nat) (text : List Nat) : File := ⟨base, text, lineTable base text⟩

/-- `cmp_line` syn-msg.c:7-24; `T[idx]` is `elem[0]`; the assertion and the access to `elem[1]` are the last `none` -/
def cmpLine (key : Nat) (T : List Nat) (idx : Nat) : Option Int := do
  let e0 ← T[idx]?
  if key < e0 then some (-1)
  else if key = e0 then some 0
  else do
    ass (idx + 1 < T.length)
    let e1 ← T[idx + 1]?
    if key > e1 then some 1 else some 0

/-- the loop of `cp_bsearch` vec.c:459-474 with a comparison that may fail; the inner `none` is `CP_SIZE_MAX` -/
def findLoop (cmp : Nat → Option Int) : Nat → Nat → Nat → Option (Option Nat)
  | 0, a, b => if a < b then none else some none
  | k + 1, a, b =>
    if a < b then do
      let idx := a + (b - a) / 2
      let r ← cmp idx
      if r < 0 then findLoop cmp k a idx
      else if r > 0 then findLoop cmp k (idx + 1) b
      else some (some idx)
    else some none

/-- `cp_v_bsearch(token, &f->line, cmp_line, …)` syn-msg.c:158-159 -/
def findLine (key : Nat) (T : List Nat) : Option (Option Nat) := findLoop (cmpLine key T) T.length 0 T.length

/-- `cp_syn_loc_t` include/hob3l/syn_tam.h: `file` is the index in the list of files; `copy`, `copyEnd` are addresses,
`orig`, `origEnd` offsets in the original text -/
structure Found where
  file : Nat
  line : Nat
  copy : Nat
  copyEnd : Nat
  orig : Nat
  origEnd : Nat
  deriving DecidableEq, Repr

/-- `copy_end` syn-msg.c:164-168 -/
def lineEnd (T : List Nat) (line copy : Nat) : Option Nat :=
  if line + 1 < T.length then T[line + 1]? else some copy

/-- the body of the loop of `cp_syn_get_loc` for the file that contains the token, syn-msg.c:157-176 -/
def inFile (n : Nat) (f : File) (token : Nat) : Option Found := do
  let r ← findLine token f.line
  let line ← r
  ass (line < f.line.length)
  let copy ← f.line[line]?
  let copyEnd ← lineEnd f.line line copy
  ass (f.base ≤ copy)
  ass (copy ≤ copyEnd)
  let orig := copy - f.base
  some ⟨n, line, copy, copyEnd, orig, orig + (copyEnd - copy)⟩

/-- the loop of `cp_syn_get_loc` syn-msg.c:152-178 from file number `n` on; the inner `none` is the result `false` -/
def getLocFrom : List File → Nat → Nat → Option (Option Found)
  | [], _, _ => some none
  | f :: fs, n, token =>
    if token ≥ f.base ∧ token ≤ f.base + f.text.length then (inFile n f token).map some
    else getLocFrom fs (n + 1) token

/-- `cp_syn_get_loc` syn-msg.c:138-180 -/
def getLoc (fs : List File) (token : Nat) : Option (Option Found) := getLocFrom fs 0 token

end Hob3l.Loc
