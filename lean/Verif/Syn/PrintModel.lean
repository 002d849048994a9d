import Verif.Syn.Model
import Mathlib.Data.Nat.Digits.Defs
/-!
# Printing a syntax tree: src/hob3l/syn-2scad.c (option `--dump-syn`)

`ff` is what `printf` prints with `FF` (`%.16g`, include/hob3ldef/def-float.h:34) for the floating point number with a
given text: the C library is not modelled.
-/
namespace Hob3l.Syn

/-- `printf("%lld")` for a number that is not negative -/
def natText (n : Nat) : Text := if n = 0 then [48] else (Nat.digits 10 n).reverse.map (· + 48)

/-- `printf("%lld")`, syn-2scad.c:41 -/
def intText (v : Int) : Text := if v < 0 then 45 :: natText v.natAbs else natText v.natAbs

/-- `printf("%*s", d, "")` -/
def indent (d : Nat) : Text := List.replicate d 32

mutual

/-- `cp_syn_value_put_scad` syn-2scad.c:30-79 -/
def putValue (ff : Text → Text) : Value → Text
  | .id s => s
  | .int v => intText v
  | .float s => ff s
  | .str s => txt "\"" ++ s ++ txt "\""
  | .range a b => txt "[" ++ putValue ff a ++ txt ":" ++ putValue ff b ++ txt "]"
  | .range3 a i b => txt "[" ++ putValue ff a ++ txt ":" ++ putValue ff i ++ txt ":" ++ putValue ff b ++ txt "]"
  | .arr l => txt "[" ++ putElems ff true l ++ txt "]"

/-- the loop syn-2scad.c:68-73; `first` is `i == 0` -/
def putElems (ff : Text → Text) : Bool → List Value → Text
  | _, [] => []
  | first, v :: l => (if first then [] else txt ",") ++ putValue ff v ++ putElems ff false l

end

/-- one argument: syn-2scad.c:94-97 -/
def putArg (ff : Text → Text) (a : Arg) : Text :=
  (match a.key with
    | some k => k ++ txt "="
    | none => []) ++ putValue ff a.value

/-- the loop syn-2scad.c:89-98; `first` is `i == 0` -/
def putArgs (ff : Text → Text) : Bool → List Arg → Text
  | _, [] => []
  | first, a :: l => (if first then [] else txt ",") ++ putArg ff a ++ putArgs ff false l

mutual

/-- `cp_syn_stmt_item_put_scad` syn-2scad.c:81-110; `IND` is 2 (include/hob3lbase/base-def.h:9).  The parser never yields
`functor == NULL`. -/
def putItem (ff : Text → Text) (d : Nat) : Item → Text
  | .mk functor args body _ =>
    indent d ++ functor ++ txt "(" ++ putArgs ff true args ++ txt ")" ++
    (if body.isEmpty then txt ";\n" else txt " {\n" ++ putItems ff (d + 2) body ++ indent d ++ txt "}\n")

/-- the loop syn-2scad.c:106-108 -/
def putItems (ff : Text → Text) (d : Nat) : List Item → Text
  | [] => []
  | i :: l => putItem ff d i ++ putItems ff d l

end

/-- `cp_syn_stmt_put_scad` syn-2scad.c:112-135 -/
def putStmt (ff : Text → Text) (d : Nat) : Stmt → Text
  | .item i => putItem ff d i
  | .use p => indent d ++ txt "use <" ++ p ++ txt ">\n"

/-- `cp_syn_tree_put_scad` syn-2scad.c:20-28, 139-144 -/
def putTree (ff : Text → Text) : List Stmt → Text
  | [] => []
  | s :: l => putStmt ff 0 s ++ putTree ff l

end Hob3l.Syn
