import Verif.Syn.Model
import Mathlib.Data.Nat.Digits.Defs
/-!
# What a SCAD file is: tokens and grammar

Characters are given by their codes.  Of the model only the type of the syntax tree is used (`Value`, `Arg`, `Item`,
`Stmt`), the type of file systems and the code of characters (`ch`, `txt`).
-/
namespace Hob3l.Syn

/-! ## Tokens -/

/-- A token.  `text` of a symbol is what the program takes for its name if a file name is expected. -/
inductive Token where
  | int (s : Text)
  | float (s : Text)
  | id (s : Text)
  | str (s : Text)
  | path (s : Text)
  | sym (c : Nat) (text : Text)
  deriving Repr, DecidableEq

/-- blank, tab, CR, LF -/
def Space (c : Nat) : Prop := c = 32 ∨ c = 9 ∨ c = 13 ∨ c = 10

/-- `0`-`9` -/
def Digit (c : Nat) : Prop := 48 ≤ c ∧ c ≤ 57

/-- `a`-`z`, `A`-`Z` -/
def Letter (c : Nat) : Prop := (97 ≤ c ∧ c ≤ 122) ∨ (65 ≤ c ∧ c ≤ 90)

/-- A sequence of digits, possibly empty. -/
def Digits (s : Text) : Prop := ∀ c ∈ s, Digit c

/-- `+`, `-`, `.` or a digit -/
def BeginsNumber (c : Nat) : Prop := c = 43 ∨ c = 45 ∨ c = 46 ∨ Digit c

/-- `$`, `_` or a letter -/
def BeginsId (c : Nat) : Prop := c = 36 ∨ c = 95 ∨ Letter c

/-- Number, as the program reads it: sign, digits, point and digits, exponent, where each part may be missing, but
it does not start with the exponent.  (Digits may also be missing: see `C72_number_wrong`.) -/
def NumberText (s : Text) : Prop :=
  ∃ sign ip frac exp : Text,
    s = sign ++ ip ++ frac ++ exp ∧
    (sign = [] ∨ sign = [43] ∨ sign = [45]) ∧
    Digits ip ∧
    (frac = [] ∨ ∃ d, frac = 46 :: d ∧ Digits d) ∧
    (exp = [] ∨ ∃ e sg d, exp = e :: (sg ++ d) ∧ (e = 101 ∨ e = 69) ∧ (sg = [] ∨ sg = [43] ∨ sg = [45]) ∧ Digits d) ∧
    sign ++ ip ++ frac ≠ []

/-- Identifier. -/
def IdText (s : Text) : Prop :=
  ∃ c r, s = c :: r ∧ BeginsId c ∧ ∀ x ∈ r, Letter x ∨ Digit x ∨ x = 95

/-- `lexeme` is the longest beginning of `lexeme ++ rest` in the language `L`. -/
def Longest (L : Text → Prop) (lexeme rest : Text) : Prop :=
  L lexeme ∧ ∀ p, p <+: lexeme ++ rest → L p → p.length ≤ lexeme.length

/-- A number with point or exponent is a floating point number. -/
def IsFloat (s : Text) : Prop := 46 ∈ s ∨ 101 ∈ s ∨ 69 ∈ s

instance (s : Text) : Decidable (IsFloat s) := by unfold IsFloat; infer_instance

/-- The text of a number: without a plus sign. -/
def numberText (s : Text) : Text := if s.head? = some 43 then s.tail else s

/-- The characters between the quotes of a string: a quote and a backslash only behind a backslash; no 8-bit
characters behind a backslash; no NUL. -/
inductive StrBody : Text → Prop
  | nil : StrBody []
  | plain {c s} : c ≠ 34 → c ≠ 92 → c ≠ 0 → StrBody s → StrBody (c :: s)
  | escape {c s} : c < 128 → c ≠ 0 → StrBody s → StrBody (92 :: c :: s)

/-- `Lexes glued s ts`: the text `s` consists of the tokens `ts`, separated by blanks and comments.  `glued`: the
text stands directly behind a number or an identifier, so it must not start with a number or an identifier.  A NUL
ends the file (see `C72_nul_wrong`).  The characters `<`, ..., `>` may be read as a path or as symbols: the grammar
decides. -/
inductive Lexes : Bool → Text → List Token → Prop
  | eof {g} : Lexes g [] []
  | nul {g s} : Lexes g (0 :: s) []
  | space {g c s ts} : Space c → Lexes false s ts → Lexes g (c :: s) ts
  | lineComment {g body s ts} : (∀ c ∈ body, c ≠ 10 ∧ c ≠ 0) → (s = [] ∨ s.head? = some 10 ∨ s.head? = some 0) →
      Lexes false s ts → Lexes g (47 :: 47 :: (body ++ s)) ts
  | blockComment {g body s ts} : (∀ a b, body ≠ a ++ 42 :: 47 :: b) → 0 ∉ body →
      Lexes false s ts → Lexes g (47 :: 42 :: (body ++ 42 :: 47 :: s)) ts
  | number {lexeme s ts} : Longest NumberText lexeme s → Lexes true s ts →
      Lexes false (lexeme ++ s)
        ((if IsFloat lexeme then .float (numberText lexeme) else .int (numberText lexeme)) :: ts)
  | ident {lexeme s ts} : Longest IdText lexeme s → Lexes true s ts → Lexes false (lexeme ++ s) (.id lexeme :: ts)
  | str {g body s ts} : StrBody body → Lexes false s ts → Lexes g (34 :: (body ++ 34 :: s)) (.str body :: ts)
  | path {g body s ts} : 62 ∉ body → 0 ∉ body → Lexes false s ts →
      Lexes g (60 :: (body ++ 62 :: s)) (.path body :: ts)
  | sym {g c s ts} : c ≠ 0 → c < 128 → ¬ Space c → ¬ BeginsNumber c → ¬ BeginsId c → c ≠ 34 →
      (c = 47 → s.head? ≠ some 47 ∧ s.head? ≠ some 42) → Lexes false s ts →
      Lexes g (c :: s) (.sym c (if g then [] else (c :: s).takeWhile (· ≠ 0)) :: ts)

/-! ## Grammar

Each relation `IsX ts x ts'` says: the tokens `ts` begin with an `X`, whose syntax tree is `x`, and `ts'` are the
tokens behind it. -/

/-- Value of a sequence of decimal digits. -/
def decimal (s : Text) : Nat := Nat.ofDigits 10 (s.reverse.map (· - 48))

/-- Value of an integer number: clamped to 64 bits (see `C72_int_wrong`). -/
def intValue (s : Text) : Int :=
  max (-2 ^ 63) (min (2 ^ 63 - 1) (if s.head? = some 45 then - (decimal s.tail : Int) else (decimal s : Int)))

mutual

/-- Values: numbers, strings, identifiers, ranges `[a:b]`, `[a:step:b]`, arrays `[a, b, c]`. -/
inductive IsValue : List Token → Value → List Token → Prop
  | int {s ts} : IsValue (.int s :: ts) (.int (intValue s)) ts
  | float {s ts} : IsValue (.float s :: ts) (.float s) ts
  | str {s ts} : IsValue (.str s :: ts) (.str s) ts
  | id {s ts} : IsValue (.id s :: ts) (.id s) ts
  | empty {x y ts} : IsValue (.sym 91 x :: .sym 93 y :: ts) (.arr []) ts
  | range {x y z a b t1 t2 ts} :
      IsValue t1 a (.sym 58 y :: t2) → IsValue t2 b (.sym 93 z :: ts) → IsValue (.sym 91 x :: t1) (.range a b) ts
  | range3 {w x y z a b c t1 t2 t3 ts} :
      IsValue t1 a (.sym 58 x :: t2) → IsValue t2 b (.sym 58 y :: t3) → IsValue t3 c (.sym 93 z :: ts) →
      IsValue (.sym 91 w :: t1) (.range3 a b c) ts
  | arr {x y a l t1 t2 ts} :
      IsValue t1 a t2 → IsElems t2 l (.sym 93 y :: ts) → IsValue (.sym 91 x :: t1) (.arr (a :: l)) ts

/-- Further elements of an array; a comma may follow the last one. -/
inductive IsElems : List Token → List Value → List Token → Prop
  | nil {ts} : IsElems ts [] ts
  | comma {x ts} : IsElems (.sym 44 x :: ts) [] ts
  | cons {x v l t1 t2 ts} : IsValue t1 v t2 → IsElems t2 l ts → IsElems (.sym 44 x :: t1) (v :: l) ts

end

/-- Arguments: `key = value` or `value`. -/
inductive IsArg : List Token → Arg → List Token → Prop
  | key {k x v t ts} : IsValue t v ts → IsArg (.id k :: .sym 61 x :: t) ⟨some k, v⟩ ts
  | pos {v t ts} : IsValue t v ts → IsArg t ⟨none, v⟩ ts

/-- Argument lists with separating commas; a comma may follow the last argument. -/
inductive IsArgs : List Token → List Arg → List Token → Prop
  | nil {ts} : IsArgs ts [] ts
  | one {a t ts} : IsArg t a ts → IsArgs t [a] ts
  | cons {x a l t t1 ts} : IsArg t a (.sym 44 x :: t1) → IsArgs t1 l ts → IsArgs t (a :: l) ts

/-- Bits of the modifiers `!`, `*`, `%`, `#`. -/
def modifier : Nat → Option Nat
  | 33 => some 0x44
  | 42 => some 0x82
  | 37 => some 0x23
  | 35 => some 0x11
  | _ => none

/-- Modifiers and their bits. -/
inductive IsMods : List Token → Nat → List Token → Prop
  | nil {ts} : IsMods ts 0 ts
  | cons {c x b m t ts} : modifier c = some b → IsMods t m ts → IsMods (.sym c x :: t) (b ||| m) ts

/-- The words that do not begin a statement. -/
def Keyword (s : Text) : Prop := s = txt "include" ∨ s = txt "use" ∨ s = txt "module" ∨ s = txt "function"

/-- The file name that the program reads behind `include` if there is no `<path>`. -/
def bareName : List Token → Text
  | [] => []
  | .int s :: _ | .float s :: _ | .id s :: _ | .str s :: _ | .path s :: _ => s
  | .sym _ s :: _ => s

/-- An included file name: relative to the directory of the including file. -/
def Includes (file name target : Text) : Prop :=
  (∃ r, name = 47 :: r ∧ target = name) ∨
  (name.head? ≠ some 47 ∧ ∃ dir base, file = dir ++ base ∧ 47 ∉ base ∧ (dir = [] ∨ dir.getLast? = some 47) ∧
    target = dir ++ name)

mutual

/-- Item: a block in braces, or modifiers, name, arguments and body. -/
inductive IsItem (fs : FS) : Text → List Token → Item → List Token → Prop
  | block {file x y l t ts} : IsItems fs file t l (.sym 125 y :: ts) →
      IsItem fs file (.sym 123 x :: t) (.mk (txt "{") [] l 0) ts
  | call {file m f x y args body t t1 t2 t3 ts} : IsMods t m (.id f :: .sym 40 x :: t1) →
      (Keyword f → t ≠ .id f :: .sym 40 x :: t1) →
      IsArgs t1 args t2 → t2 = .sym 41 y :: t3 → IsBody fs file t3 body ts →
      IsItem fs file t (.mk f args body m) ts

/-- Body of an item: items in braces, or a single item or semicolon. -/
inductive IsBody (fs : FS) : Text → List Token → List Item → List Token → Prop
  | braces {file x y l t ts} : IsItems fs file t l (.sym 125 y :: ts) → IsBody fs file (.sym 123 x :: t) l ts
  | one {file l t ts} : IsPush fs file t l ts → (∀ x r, t ≠ .sym 123 x :: r) → IsBody fs file t l ts

/-- Item, empty item, or the items of an included file. -/
inductive IsPush (fs : FS) : Text → List Token → List Item → List Token → Prop
  | semicolon {file x ts} : IsPush fs file (.sym 59 x :: ts) [] ts
  | item {file i t ts} : IsItem fs file t i ts → IsPush fs file t [i] ts
  | incl {file target name content l us ts} : Includes file name target → fs target = some content →
      Lexes false content us → IsItems fs target us l [] →
      IsPush fs file (.id (txt "include") :: .path name :: ts) l ts
  | inclBare {file target content l us ts} : (∀ p r, ts ≠ .path p :: r) → (∀ x r, ts ≠ .sym 60 x :: r) →
      Includes file (bareName ts) target → fs target = some content →
      Lexes false content us → IsItems fs target us l [] →
      IsPush fs file (.id (txt "include") :: ts) l ts

/-- Sequences of items. -/
inductive IsItems (fs : FS) : Text → List Token → List Item → List Token → Prop
  | nil {file ts} : IsItems fs file ts [] ts
  | cons {file l l' t t1 ts} : IsPush fs file t l t1 → IsItems fs file t1 l' ts → IsItems fs file t (l ++ l') ts

end

/-- Statements of a file: items and `use` directives. -/
inductive IsStmts (fs : FS) (file : Text) : List Token → List Stmt → Prop
  | nil : IsStmts fs file [] []
  | use {p l ts} : IsStmts fs file ts l → IsStmts fs file (.id (txt "use") :: .path p :: ts) (.use p :: l)
  | push {l l' t ts} : IsPush fs file t l ts → t.head? ≠ some (.id (txt "include")) → IsStmts fs file ts l' →
      IsStmts fs file t (l.map .item ++ l')

/-- A file is a program with syntax tree `l`. -/
def Program (fs : FS) (file content : Text) (l : List Stmt) : Prop :=
  ∃ ts, Lexes false content ts ∧ IsStmts fs file ts l

end Hob3l.Syn
