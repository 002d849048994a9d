import Verif.Loc.Model

/-!
The text of messages with a position in a file: src/hob3l/syn-msg.c; the position is looked up by the model of C47.

`none` is a failed assertion.  `CP_SIZE_MAX` for the column is `none`.  Names of files contain no NUL.  Building with 32-bit
`unsigned` and `int`.
-/

namespace Hob3l.Msg

open Hob3l.Matq (ass)
open Hob3l.Loc

abbrev Str := List Nat

/-- ASCII of a literal -/
def str (s : String) : Str := s.toList.map Char.toNat

/-- `is_printable` syn-msg.c:26-32 -/
def isPrintable (u : Nat) : Bool := u == 10 || u == 9 || u == 13 || (decide (32 ≤ u) && decide (u ≤ 126))

/-- `(x + 4) & -4U` syn-msg.c:50: the mask has 32 bits -/
def tabStop (x : Nat) : Nat := (x + 4) % 2 ^ 32 / 4 * 4

/-- the loop syn-msg.c:45-69; `loc` and `i` are offsets in the line; result: `out`, `*pos`, `need_cr` -/
def loop (loc old : Nat) : Str → Nat → Nat → Option Nat → Bool → Str → Str × Option Nat × Bool
  | [], _, _, pos, cr, out => (out, pos, cr)
  | c :: cs, i, x, pos, cr, out =>
    if c = 9 then
      loop loc old cs (i + 1) (x + (tabStop x - x)) (if i = loc then some x else pos) cr (out ++ List.replicate (tabStop x - x) 32)
    else if !isPrintable c then
      (if old ≠ out.length then out ++ str "[...binary...]" else out, if i = loc then some x else pos, cr)
    else
      loop loc old cs (i + 1) (x + 1) (if i = loc then some x else pos) (if c = 10 then false else cr) (out ++ [c])

/-- `format_source_line` syn-msg.c:34-80 -/
def formatLine (out : Str) (loc : Nat) (src : Str) : Str × Option Nat × Bool :=
  let out := out ++ [32]
  let r := loop loc out.length src 0 0 none true out
  if out.length = r.1.length then (r.1, r.2.1, false) else (if r.2.2 then r.1 ++ [10] else r.1, r.2.1, true)

/-- `%zu` -/
def dec (n : Nat) : Str := (Nat.toDigits 10 n).map Char.toNat

/-- the number of spaces made by `%*s` with `(int)pos` and an empty string -/
def pad (pos : Nat) : Nat := if pos % 2 ^ 32 < 2 ^ 31 then pos % 2 ^ 32 else 2 ^ 32 - pos % 2 ^ 32

/-- `cp_syn_get_loc_src_aux` syn-msg.c:82-113; `names` are the names of the files; result: `pre`, `post` -/
def srcAux (names : Nat → Str) (fs : List File) (token : Nat) (msg pre post : Str) : Option (Str × Str) := do
  let r ← getLoc fs token
  match r with
  | none => some (pre, post)
  | some l => do
    let f ← fs[l.file]?
    ass (l.copy ≤ token)
    ass (l.orig ≤ l.origEnd)
    let g := formatLine post (token - l.copy) ((f.text.drop l.orig).take (l.origEnd - l.orig))
    let pre := pre ++ (names l.file ++ (str ":" ++ (dec (l.line + 1) ++ str ":")))
    let pre := match g.2.1 with
      | none => pre
      | some p => pre ++ (dec (p + 1) ++ str ":")
    let pre := pre ++ (str " " ++ msg)
    let post := match g.2.1 with
      | none => g.1
      | some p => if g.2.2 then g.1 ++ (str " " ++ (List.replicate (pad p) 32 ++ str "^\n")) else g.1
    some (pre, post)

/-- `cp_syn_format_loc` syn-msg.c:187-208; `token2 = none` is NULL -/
def formatLoc (names : Nat → Str) (fs : List File) (token : Nat) (token2 : Option Nat) : Option (Str × Str) := do
  let r ← srcAux names fs token [] [] []
  match token2 with
  | none => some r
  | some t2 =>
    if t2 = token then some r
    else do
      let q ← srcAux names fs t2 (str "Info: See also here.\n") r.2 []
      some (r.1, q.1 ++ q.2)

end Hob3l.Msg
