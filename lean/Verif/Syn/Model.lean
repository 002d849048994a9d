/-!
# Model of the SCAD lexer and parser (`src/hob3l/syn.c`)

A character is its byte value (`Nat`; values from 128 on are the 8-bit characters).  The file content is a buffer
that ends in the NUL that `read_file` adds (syn.c:1020-1022); the lexer overwrites characters of this buffer with
NUL.  A pointer into the content is an offset.

Simplifications: error messages are not modelled (only that the parse fails), nor are the locations stored in
the syntax tree.  The strings of the syntax tree, which are pointers into the buffer in C, are read when the token
is consumed; `C46_strings` shows that they are not changed later.
-/
namespace Hob3l.Syn

/-- Outcome of a step of the parser.  `stuck`: a read outside of the buffer, or the fuel of the model is used up. -/
inductive Res (α : Type) where
  | ok (a : α)
  | fail
  | stuck
  deriving Repr, DecidableEq

/-- Sequencing. -/
def Res.bind {α β : Type} (x : Res α) (f : α → Res β) : Res β :=
  match x with
  | .ok a => f a
  | .fail => .fail
  | .stuck => .stuck

instance : Monad Res where
  pure := .ok
  bind := Res.bind

/-- A memory access, as a step. -/
def Res.ofOption {α : Type} : Option α → Res α
  | some a => .ok a
  | none => .stuck

/-- C strings in this file are lists of character codes. -/
abbrev Text := List Nat

/-- Code of an ASCII character. -/
abbrev ch (c : Char) : Nat := c.toNat

/-- Codes of an ASCII string. -/
def txt (s : String) : Text := s.toList.map Char.toNat

/-! ## Token types: syn.c:15-34 -/

/-- syn.c:17 -/ abbrev tEOF : Nat := 0
/-- syn.c:20 -/ abbrev tERROR : Nat := 257
/-- syn.c:21 -/ abbrev tID : Nat := 258
/-- syn.c:22 -/ abbrev tINT : Nat := 259
/-- syn.c:23 -/ abbrev tFLOAT : Nat := 260
/-- syn.c:24 -/ abbrev tSTRING : Nat := 261
/-- syn.c:25 -/ abbrev tPATH : Nat := 262
/-- syn.c:26 -/ abbrev tLCOM : Nat := 263
/-- syn.c:27 -/ abbrev tBCOM : Nat := 264
/-- syn.c:30 -/ abbrev kINCLUDE : Nat := 513
/-- syn.c:31 -/ abbrev kUSE : Nat := 514
/-- syn.c:32 -/ abbrev kMODULE : Nat := 515
/-- syn.c:33 -/ abbrev kFUNCTION : Nat := 516

/-- `type & _T_KEY` (syn.c:29): the types in use are below 257 + 8 or above 512. -/
def isKey (t : Nat) : Bool := t.testBit 9

/-! ## Lexer -/

/-- syn.c:35-40 `lex_t`: buffer with the terminating NUL, offset of `string`, `cur`; `fin` is the offset of
`end`. -/
structure Lex where
  buf : Text
  fin : Nat
  pos : Nat
  cur : Nat
  deriving Repr, DecidableEq

/-- syn.c:42-46 `tok_t`. -/
structure Tok where
  type : Nat
  string : Nat
  loc : Nat
  deriving Repr, DecidableEq

/-- syn.c:48-51 `parse_ctxt_t`. -/
structure P where
  lex : Lex
  tok : Tok
  deriving Repr, DecidableEq

/-- syn.c:91-94 `syn_is_space`. -/
def isSpace (c : Nat) : Bool := c == ch ' ' || c == ch '\t' || c == ch '\r' || c == ch '\n'

/-- syn.c:99-102 `syn_is_digit`. -/
def isDigit (c : Nat) : Bool := ch '0' ≤ c && c ≤ ch '9'

/-- syn.c:107-112 `syn_is_alpha`. -/
def isAlpha (c : Nat) : Bool := (ch 'a' ≤ c && c ≤ ch 'z') || (ch 'A' ≤ c && c ≤ ch 'Z')

/-- syn.c:118-129 `lex_next`. -/
def lexNext (l : Lex) : Option Lex :=
  if l.fin ≤ l.pos then some { l with cur := 0 }
  else do
    let c ← l.buf[l.pos + 1]?
    some { l with pos := l.pos + 1, cur := c }

/-- `*p->c.lex.string`. -/
def here (l : Lex) : Option Nat := l.buf[l.pos]?

/-- `*p->c.lex.string = '\0'`. -/
def terminate (l : Lex) : Option Lex :=
  if l.pos < l.buf.length then some { l with buf := l.buf.set l.pos 0 } else none

/-- `while (f(p->c.lex.cur)) { lex_next(p); }` -/
def skipWhile (f : Nat → Bool) : Nat → Lex → Option Lex
  | 0, _ => none
  | n + 1, l => if f l.cur then do skipWhile f n (← lexNext l) else some l

/-- Enough fuel for any loop over the buffer. -/
def Lex.fuel (l : Lex) : Nat := l.buf.length + 1

/-- Start of a number: syn.c:151-154. -/
def numStart (c : Nat) : Bool := c == ch '+' || c == ch '-' || c == ch '.' || isDigit c

/-- Start of an identifier: syn.c:205. -/
def idStart (c : Nat) : Bool := c == ch '$' || c == ch '_' || isAlpha c

/-- Further characters of an identifier: syn.c:218-221. -/
def idChar (c : Nat) : Bool := isAlpha c || isDigit c || c == ch '_'

/-- syn.c:170-177: the sign of a number; returns also the offset for `tok.string`. -/
def lexSign (l : Lex) : Option (Nat × Lex) :=
  if l.cur = ch '+' then do let l' ← lexNext l; some (l'.pos, l')
  else if l.cur = ch '-' then do let l' ← lexNext l; some (l.pos, l')
  else some (l.pos, l)

/-- syn.c:181-187: point and digits; returns also whether there is a point. -/
def lexFrac (l : Lex) : Option (Bool × Lex) :=
  if l.cur = ch '.' then do
    let l1 ← lexNext l
    let l2 ← skipWhile isDigit l1.fuel l1
    some (true, l2)
  else some (false, l)

/-- syn.c:191-193: sign of the exponent. -/
def lexExpSign (l : Lex) : Option Lex :=
  if l.cur = ch '-' ∨ l.cur = ch '+' then lexNext l else some l

/-- syn.c:188-197: the exponent; returns also whether there is an exponent. -/
def lexExp (l : Lex) : Option (Bool × Lex) :=
  if l.cur = ch 'e' ∨ l.cur = ch 'E' then do
    let l1 ← lexNext l
    let l2 ← lexExpSign l1
    let l3 ← skipWhile isDigit l2.fuel l2
    some (true, l3)
  else some (false, l)

/-- syn.c:169-199: the characters of a number.  Returns the offset for `tok.string`, whether it is a float, and
the lexer behind the number, which is NUL terminated. -/
def lexNumber (l : Lex) : Option (Nat × Bool × Lex) := do
  let (str, l1) ← lexSign l
  let l2 ← skipWhile isDigit l1.fuel l1
  let (fr, l3) ← lexFrac l2
  let (ex, l4) ← lexExp l3
  let l5 ← terminate l4
  some (str, fr || ex, l5)

/-- syn.c:213-215: the dollar sign of an identifier. -/
def lexDollar (l : Lex) : Option Lex := if l.cur = ch '$' then lexNext l else some l

/-- syn.c:213-225: the characters of an identifier. -/
def lexId (l : Lex) : Option Lex := do
  let l1 ← lexDollar l
  let l2 ← skipWhile idChar l1.fuel l1
  terminate l2

/-- How the loop over the characters of a string ends. -/
inductive StrEnd where
  | closed
  | eof
  | high
  deriving Repr, DecidableEq

/-- syn.c:233-255: loop over the characters of a string. -/
def lexString : Nat → Lex → Option (StrEnd × Lex)
  | 0, _ => none
  | n + 1, l => do
    let c ← here l
    if c = ch '"' then some (.closed, l)
    else if c = ch '\\' then do
      let l1 ← lexNext l
      let c1 ← here l1
      if 128 ≤ c1 then some (.high, l1)
      else if c1 = 0 then some (.eof, l1)
      else do lexString n (← lexNext l1)
    else if c = 0 then some (.eof, l)
    else do lexString n (← lexNext l)

/-- syn.c:281-291: loop over the characters of a block comment; `true` if the comment is closed. -/
def lexBlock : Nat → Nat → Lex → Option (Bool × Lex)
  | 0, _, _ => none
  | n + 1, prev, l =>
    if prev ≠ ch '*' ∨ l.cur ≠ ch '/' then
      if l.cur = 0 then some (false, l)
      else do lexBlock n l.cur (← lexNext l)
    else some (true, l)

/-- `p->c.lex.cur == a && p->c.lex.string[1] == b`. -/
def lookTwo (l : Lex) (a b : Nat) : Option Bool :=
  if l.cur = a then do some (decide ((← l.buf[l.pos + 1]?) = b)) else some false

/-- syn.c:149-201: a number. -/
def tokNumber (l : Lex) : Option P := do
  if (← here l) = 0 then some ⟨l, tERROR, l.pos, l.pos⟩
  else do
    let (str, fl, l') ← lexNumber l
    some ⟨l', if fl then tFLOAT else tINT, str, l.pos⟩

/-- syn.c:203-226: an identifier. -/
def tokId (l : Lex) : Option P := do
  if (← here l) = 0 then some ⟨l, tERROR, l.pos, l.pos⟩
  else do
    let l' ← lexId l
    some ⟨l', tID, l.pos, l.pos⟩

/-- syn.c:228-258: a string. -/
def tokString (l : Lex) : Option P := do
  let l1 ← lexNext l
  match ← lexString l1.fuel l1 with
  | (.closed, l2) => do
    let l3 ← terminate l2
    let l4 ← lexNext l3
    some ⟨l4, tSTRING, l1.pos, l.pos⟩
  | (.eof, l2) => some ⟨l2, tERROR, l1.pos, l.pos⟩
  | (.high, l2) => some ⟨l2, tERROR, l1.pos, l2.pos⟩

/-- syn.c:265-273: a line comment. -/
def tokLine (l : Lex) : Option P := do
  let l' ← skipWhile (fun c => c != ch '\n' && c != 0) l.fuel l
  some ⟨l', tLCOM, l.pos, l.pos⟩

/-- syn.c:275-296: a block comment. -/
def tokBlock (l : Lex) : Option P := do
  let l1 ← lexNext l
  let l2 ← lexNext l1
  let (closed, l3) ← lexBlock l2.fuel 0 l2
  let l4 ← lexNext l3
  some ⟨l4, if closed then tBCOM else tERROR, l.pos, l.pos⟩

/-- syn.c:298-307: a symbol. -/
def tokSym (l : Lex) : Option P :=
  if 128 ≤ l.cur then some ⟨l, tERROR, l.pos, l.pos⟩
  else do
    let l' ← lexNext l
    some ⟨l', l.cur, l.pos, l.pos⟩

/-- syn.c:265-307: comments and symbols. -/
def tokOther (l : Lex) : Option P := do
  let line ← lookTwo l (ch '/') (ch '/')
  let block ← lookTwo l (ch '/') (ch '*')
  if line then tokLine l else if block then tokBlock l else tokSym l

/-- syn.c:143-307: a token, comment or error, where no white space follows. -/
def tokMain (l : Lex) : Option P :=
  if numStart l.cur then tokNumber l
  else if idStart l.cur then tokId l
  else if l.cur = ch '"' then tokString l
  else tokOther l

/-- syn.c:131-308 `tok_next_aux2`. -/
def tokAux (p : P) : Option P :=
  if p.tok.type = tERROR then some p
  else do
    let l ← skipWhile isSpace p.lex.fuel p.lex
    tokMain l

/-- syn.c:315-320 `tok_next`: tokens are read until one is not a comment. -/
def tokLoop : Nat → P → Option P
  | 0, _ => none
  | n + 1, p => do
    let p' ← tokAux p
    if p'.tok.type = tLCOM ∨ p'.tok.type = tBCOM then tokLoop n p' else some p'

/-- syn.c:315-320 `tok_next`. -/
def tokNext (p : P) : Option P := tokLoop p.lex.fuel p

/-- syn.c:333-343: loop over the characters of a path; `true` if it is closed. -/
def lexPath : Nat → Lex → Option (Bool × Lex)
  | 0, _ => none
  | n + 1, l => do
    let c ← here l
    if c = ch '>' then some (true, l)
    else if c = 0 then some (false, l)
    else do lexPath n (← lexNext l)

/-- syn.c:323-346 `tok_path`. -/
def tokPath (p : P) : Option P :=
  if p.tok.type ≠ ch '<' then some p
  else do
    match ← lexPath p.lex.fuel p.lex with
    | (true, l) => do
      let l1 ← terminate l
      let l2 ← lexNext l1
      some ⟨l2, tPATH, p.lex.pos, p.tok.loc⟩
    | (false, l) => some ⟨l, tERROR, p.lex.pos, p.tok.loc⟩

/-- The C string that starts at an offset of the buffer. -/
def cstr (buf : Text) (i : Nat) : Option Text :=
  if i < buf.length ∧ 0 ∈ buf.drop i then some ((buf.drop i).takeWhile (· ≠ 0)) else none

/-- syn.c:347-364 `sieve_id`. -/
def sieveId (s : Text) : Nat :=
  if s = txt "include" then kINCLUDE
  else if s = txt "use" then kUSE
  else if s = txt "module" then kMODULE
  else if s = txt "function" then kFUNCTION
  else tID

/-- syn.c:366-372 `sieve`. -/
def sieve (p : P) : Option P :=
  if p.tok.type ≠ tID then some p
  else do
    let s ← cstr p.lex.buf p.tok.string
    some { p with tok := { p.tok with type := sieveId s } }

/-- syn.c:61-75 `begin_file`, with the content as `read_file` leaves it (syn.c:1020-1022). -/
def beginFile (content : Text) : Option P := do
  let buf := content ++ [0]
  let c ← buf[0]?
  tokNext ⟨⟨buf, content.length, 0, c⟩, ⟨0, 0, 0⟩⟩

/-! ## Syntax tree: include/hob3l/syn_tam.h -/

/-- syn_tam.h:107-170: values.  The value of a float is kept as text: `strtod` is not modelled. -/
inductive Value where
  | id (s : Text)
  | int (v : Int)
  | float (s : Text)
  | str (s : Text)
  | range (start fin : Value)
  | range3 (start inc fin : Value)
  | arr (l : List Value)
  deriving Repr

/-- syn_tam.h:92-101: argument; `key` is `none` if no name is given. -/
structure Arg where
  key : Option Text
  value : Value
  deriving Repr

/-- syn_tam.h:72-78: item statement. -/
inductive Item where
  | mk (functor : Text) (args : List Arg) (body : List Item) (modifier : Nat)
  deriving Repr

/-- Statement: syn_tam.h:45-56. -/
inductive Stmt where
  | item (i : Item)
  | use (path : Text)
  deriving Repr

/-! ## Parser -/

/-- `tok_next`, as a step. -/
def next (p : P) : Res P := .ofOption (tokNext p)

/-- `p->c.tok.string`, read as a C string. -/
def tokText (p : P) : Res Text := .ofOption (cstr p.lex.buf p.tok.string)

/-- syn.c:374-383 `expect`. -/
def expect (p : P) (type : Nat) : Res (Bool × P) :=
  if p.tok.type = type then do .ok (true, ← next p) else .ok (false, p)

/-- syn.c:445-471 `expect_err`. -/
def expectErr (p : P) (type : Nat) : Res P :=
  if p.tok.type = type then next p else .fail

/-- Value of a sequence of digits. -/
def digitsVal (s : Text) : Nat := s.foldl (fun a c => 10 * a + (c - ch '0')) 0

/-- C library `strtoll(s, NULL, 10)`, for texts that start with `-` or a digit as the tokens do (syn.c:508): the
longest prefix of digits, with clamping; 0 if there are no digits. -/
def strtoll (s : Text) : Int :=
  let v : Int := match s with
    | 45 :: r => - (digitsVal (r.takeWhile isDigit) : Int)
    | r => digitsVal (r.takeWhile isDigit)
  max (-2 ^ 63) (min (2 ^ 63 - 1) v)

/-- syn.c:637-651 `looking_at_value`. -/
def lookingAtValue (p : P) : Bool :=
  p.tok.type == tINT || p.tok.type == tFLOAT || p.tok.type == tSTRING || p.tok.type == tID || p.tok.type == ch '['

mutual

/-- syn.c:653-681 `parse_value`, with syn.c:493-570 `parse_new_int` etc. -/
def parseValue : Nat → P → Res (Value × P)
  | 0, _ => .stuck
  | n + 1, p =>
    if p.tok.type = tINT then do
      let s ← tokText p; .ok (.int (strtoll s), ← next p)
    else if p.tok.type = tFLOAT then do
      let s ← tokText p; .ok (.float s, ← next p)
    else if p.tok.type = tSTRING then do
      let s ← tokText p; .ok (.str s, ← next p)
    else if p.tok.type = tID then do
      let s ← tokText p; .ok (.id s, ← next p)
    else if p.tok.type = ch '[' then parseArray n p
    else .fail

/-- syn.c:573-635 `parse_new_range_or_array`. -/
def parseArray : Nat → P → Res (Value × P)
  | 0, _ => .stuck
  | n + 1, p => do
    let p ← expectErr p (ch '[')
    match ← expect p (ch ']') with
    | (true, p) => .ok (.arr [], p)
    | (false, p) =>
      let (start, p) ← parseValue n p
      match ← expect p (ch ':') with
      | (true, p) =>
        let (e, p) ← parseValue n p
        match ← expect p (ch ':') with
        | (true, p) =>
          let (e2, p) ← parseValue n p
          .ok (.range3 start e e2, ← expectErr p (ch ']'))
        | (false, p) => .ok (.range start e, ← expectErr p (ch ']'))
      | (false, p) =>
        let (l, p) ← parseElems n p
        .ok (.arr (start :: l), ← expectErr p (ch ']'))

/-- syn.c:625-633: loop over the elements of an array. -/
def parseElems : Nat → P → Res (List Value × P)
  | 0, _ => .stuck
  | n + 1, p => do
    match ← expect p (ch ',') with
    | (false, p) => .ok ([], p)
    | (true, p) =>
      if lookingAtValue p then do
        let (v, p) ← parseValue n p
        let (l, p) ← parseElems n p
        .ok (v :: l, p)
      else .ok ([], p)

end

/-- syn.c:688-705 `parse_arg`. -/
def parseArg (n : Nat) (p : P) : Res (Arg × P) :=
  if p.tok.type = tID then do
    let t1 ← tokText p
    let p ← expectErr p tID
    match ← expect p (ch '=') with
    | (false, p) => .ok (⟨none, .id t1⟩, p)
    | (true, p) =>
      let (v, p) ← parseValue n p
      .ok (⟨some t1, v⟩, p)
  else do
    let (v, p) ← parseValue n p
    .ok (⟨none, v⟩, p)

/-- syn.c:715-733 `parse_args`. -/
def parseArgs : Nat → P → Res (List Arg × P)
  | 0, _ => .stuck
  | n + 1, p =>
    if p.tok.type ≠ tID ∧ ¬ lookingAtValue p then .ok ([], p)
    else do
      let (a, p) ← parseArg n p
      if p.tok.type = ch ')' then .ok ([a], p)
      else do
        let p ← expectErr p (ch ',')
        let (l, p) ← parseArgs n p
        .ok (a :: l, p)

/-- gc_tam.h:10-33 `CP_GC_MOD_*` for the characters `!`, `*`, `%`, `#`; 0 for others. -/
def modBit (c : Nat) : Nat :=
  if c = ch '!' then 0x44 else if c = ch '*' then 0x82 else if c = ch '%' then 0x23 else if c = ch '#' then 0x11
  else 0

/-- syn.c:735-743 `looking_at_modifier`. -/
def lookingAtModifier (p : P) : Bool :=
  p.tok.type == ch '*' || p.tok.type == ch '%' || p.tok.type == ch '!' || p.tok.type == ch '#'

/-- syn.c:745-755 `looking_at_stmt_item`, behind `sieve`. -/
def lookingAtItem (p : P) : Bool :=
  p.tok.type == tID || p.tok.type == kINCLUDE || p.tok.type == ch ';' || p.tok.type == ch '{' || lookingAtModifier p

/-- syn.c:769-784 `parse_modifier`. -/
def parseModifier : Nat → Nat → P → Res (Nat × P)
  | 0, _, _ => .stuck
  | n + 1, m, p =>
    if lookingAtModifier p then do parseModifier n (m ||| modBit p.tok.type) (← next p) else .ok (m, p)

/-- syn.c:946-958, 970-986: name of an included file: relative to the directory of the including file. -/
def resolve (file fn : Text) : Text :=
  if fn.head? = some (ch '/') then fn
  else (file.reverse.dropWhile (· ≠ ch '/')).reverse ++ fn

/-- The file system: `fopen` and `fread` of a whole file (syn.c:987-1022); `none` if that fails. -/
abbrev FS := Text → Option Text

mutual

/-- syn.c:786-818 `parse_stmt_item`. -/
def parseItem (fs : FS) : Nat → Text → P → Res (Item × P)
  | 0, _, _ => .stuck
  | n + 1, file, p =>
    if p.tok.type = ch '{' then do
      let p ← expectErr p (ch '{')
      let (b, p) ← parseItems fs n file p
      .ok (.mk (txt "{") [] b 0, ← expectErr p (ch '}'))
    else do
      let (m, p) ← parseModifier (n + 1) 0 p
      let f ← tokText p
      let p ← expectErr p tID
      let p ← expectErr p (ch '(')
      let (a, p) ← parseArgs (n + 1) p
      let p ← expectErr p (ch ')')
      if p.tok.type = ch '{' then do
        let p ← expectErr p (ch '{')
        let (b, p) ← parseItems fs n file p
        .ok (.mk f a b m, ← expectErr p (ch '}'))
      else do
        let (b, p) ← pushItem fs n file p
        .ok (.mk f a b m, p)

/-- syn.c:865-881 `parse_item_push_stmt_item`, with syn.c:837-863 `parse_include_push_stmt_item`: returns the
items that are pushed. -/
def pushItem (fs : FS) : Nat → Text → P → Res (List Item × P)
  | 0, _, _ => .stuck
  | n + 1, file, p => do
    match ← expect p (ch ';') with
    | (true, p) => .ok ([], p)
    | (false, p) =>
      let p ← Res.ofOption (sieve p)
      match ← expect p kINCLUDE with
      | (true, p) =>
        let p ← Res.ofOption (tokPath p)
        let fn ← tokText p
        match fs (resolve file fn) with
        | none => .fail
        | some content =>
          let (_, p) ← expect p tPATH
          let q ← Res.ofOption (beginFile content)
          let (l, q) ← parseItems fs n (resolve file fn) q
          if q.tok.type = tEOF then .ok (l, p) else .fail
      | (false, p) =>
        let (i, p) ← parseItem fs n file p
        .ok ([i], p)

/-- syn.c:890-902 `parse_stmt_item_list`. -/
def parseItems (fs : FS) : Nat → Text → P → Res (List Item × P)
  | 0, _, _ => .stuck
  | n + 1, file, p => do
    let p ← Res.ofOption (sieve p)
    if lookingAtItem p then do
      let (l, p) ← pushItem fs n file p
      let (l', p) ← parseItems fs n file p
      .ok (l ++ l', p)
    else .ok ([], p)

end

/-- syn.c:904-932 `parse_stmt_list`, with syn.c:820-835 `parse_stmt_use`. -/
def parseStmts (fs : FS) : Nat → Text → P → Res (List Stmt × P)
  | 0, _, _ => .stuck
  | n + 1, file, p => do
    let p ← Res.ofOption (sieve p)
    if lookingAtItem p ∨ isKey p.tok.type then do
      if p.tok.type = kUSE then do
        let p ← next p
        let p ← Res.ofOption (tokPath p)
        let s ← tokText p
        let p ← expectErr p tPATH
        let (l, p) ← parseStmts fs n file p
        .ok (.use s :: l, p)
      else if isKey p.tok.type then .ok ([], p)
      else do
        let (i, p) ← pushItem fs n file p
        let (l, p) ← parseStmts fs n file p
        .ok (i.map .item ++ l, p)
    else .ok ([], p)

/-- syn.c:1074-1111 `cp_syn_parse`. -/
def parse (fs : FS) (n : Nat) (file content : Text) : Res (List Stmt) := do
  let p ← Res.ofOption (beginFile content)
  let (l, p) ← parseStmts fs n file p
  if p.tok.type = tEOF then .ok l else .fail

end Hob3l.Syn
