import Verif.Matq.Model

/-!
Model of `script/mksieve`, which generates the keyword lookup functions from `gc-color.sieve`, `scad-cmd.sieve` and
`svg-elem.sieve`, and of the generated lookup function (`generate_body`).

A string is a list of bytes.  Simplifications: the generated tables `len2step`, `tok2step`, and `char2tok` number the
states, the values and the characters; here a state is the function from bytes to the next step that the tables encode
(`tok2step[state][char2tok[c]]`, where bytes that occur in no table have token 0, which fails).  This is faithful as long
as there are less than 256 different bytes in the tables, because `char2tok` has elements of 8 bits.  Parsing of the input
file is not modelled.
-/

namespace Hob3l.Sieve

open Hob3l.Matq

/-- the next step: mksieve:325-341; `final i` refers to entry `i` of the table of values -/
inductive Step where
  | fail
  | final (i : Nat)
  | state (next : Nat → Step)

/-- the entries whose key starts with byte `c`, with the rest of the key: mksieve:177-188 -/
def succ (set : List (List Nat × Nat)) (c : Nat) : List (List Nat × Nat) :=
  set.filterMap fun e => match e.1 with
    | [] => none
    | x :: rest => if x = c then some (rest, e.2) else none

/-- `make_tree_rec` mksieve:158-230 for a set of at least two keys of length `n`: no entry: failure; one entry: final;
otherwise a new state -/
def mkState : Nat → List (List Nat × Nat) → Step
  | 0, _ => .fail
  | n + 1, set => .state fun c =>
    match succ set c with
    | [] => .fail
    | [e] => .final e.2
    | es => mkState n es

/-- `make_tree_len` mksieve:233-292: what `len2step` contains for the keys of length `len` -/
def mkLen (keys : List (List Nat)) (len : Nat) : Step :=
  match keys.zipIdx.filter (fun e => e.1.length = len) with
  | [] => .fail
  | [e] => .final e.2
  | es => mkState len es

/-- the loop of the lookup function mksieve:401-403; `s` is the rest of the string including its NUL; `none`: read after
the NUL; the first result is the last step, the second one what is left of the string -/
def run : Step → List Nat → Option (Step × List Nat)
  | .state next, c :: s => run (next c) s
  | .state _, [] => none
  | st, s => some (st, s)

/-- the end of the lookup function mksieve:404-410; `st` is the last step, `o` the number of bytes read by the loop, `rest`
what is left of the string; `memcmp` must not read more than the key and its NUL -/
def check (keys : List (List Nat)) (len o : Nat) (rest : List Nat) : Step → Option (Option Nat)
  | .final i => do
    let k ← keys[i]?
    ass (o ≤ k.length)
    ass (len - o ≤ k.length - o + 1)
    if ((k ++ [0]).drop o).take (len - o) = rest.take (len - o) then some (some i) else some none
  | _ => some none

/-- the generated lookup function mksieve:396-411 for the keys (the table `value`), which returns the index of the entry
or the default `none`; the outer `none`: access outside of the string or a failed assertion.  `len2step` is not accessed
outside of its bounds, because of the checks against the minimal and maximal lengths; for these lengths `mkLen` fails. -/
def find (keys : List (List Nat)) (s : List Nat) : Option (Option Nat) := do
  let r ← run (mkLen keys s.length) (s ++ [0])
  check keys s.length (s.length + 1 - r.2.length) r.2 r.1

end Hob3l.Sieve
