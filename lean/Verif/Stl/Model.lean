/-
Model of the STL reader, /repo/src/hob3l/stl-parse.c.

A file is a list of bytes (numbers below 256).  In memory it is followed by a NUL byte (syn.c:1021), at which `lex_end` points.
Error messages and locations are not modelled: a rejected file is `Fail.reject`.
The conversion of a text to a number (`strtod`) and of a 32-bit word to a floating point number are parameters.
-/

namespace Hob3l.Stl

/-- how reading can fail: read outside of the buffer, endless loop, or file rejected -/
inductive Fail where
  | oob
  | loop
  | reject
deriving DecidableEq, Repr

/-- what the parser builds: the table of points (`p->point`, in the order of their index) and the faces made of indices into it.
`make_solid` stl-parse.c:411-430 turns that into `poly->point` and the pointers of `poly->face`. -/
structure Poly (V : Type) where
  points : List V
  faces : List (List Nat)
deriving DecidableEq, Repr

/-- `cp_vec3_dict_insert` vec3-dict.c:24-42: the index of an equal point, or a new index.  `eq` = `cp_vec3_lex_cmp` gives zero.
The search tree is modelled in Verif/Dict; here: the first one found. -/
def insertPoint {V : Type} (eq : V → V → Bool) (ps : List V) (v : V) : List V × Nat :=
  match ps.findIdx? (fun p => eq v p) with
  | some i => (ps, i)
  | none => (ps ++ [v], ps.length)

/-- `make_facet` stl-parse.c:368-384: vertex i is stored at 2 - i -/
def makeFacet {V : Type} (poly : Poly V) (v0 v1 v2 : Nat) : Poly V := { poly with faces := poly.faces ++ [[v2, v1, v0]] }

/-! ### binary files -/

/-- the read position: the bytes from `lex_string` to the end of the buffer (with the NUL), and the number of bytes to `lex_end` -/
structure Bin where
  data : List Nat
  left : Nat
deriving DecidableEq, Repr

/-- `bin_skip` stl-parse.c:492-501 -/
def binSkip (p : Bin) (cnt : Nat) : Except Fail Bin :=
  if p.left < cnt then .error .reject else .ok ⟨p.data.drop cnt, p.left - cnt⟩

/-- `bin_u8` stl-parse.c:503-507; the byte is read before the check -/
def binU8 (p : Bin) : Except Fail (Nat × Bin) :=
  match p.data with
  | [] => .error .oob
  | x :: _ => do
    let p ← binSkip p 1
    .ok (x, p)

/-- `bin_u16` stl-parse.c:509-521 -/
def binU16 (p : Bin) : Except Fail (Nat × Bin) := do
  let l ← binU8 p
  let h ← binU8 l.2
  .ok ((l.1 + (h.1 <<< 8)) % 65536, h.2)

/-- `bin_u32` stl-parse.c:523-534 -/
def binU32 (p : Bin) : Except Fail (Nat × Bin) := do
  let l ← binU16 p
  let h ← binU16 l.2
  .ok ((l.1 + (h.1 <<< 16)) % 4294967296, h.2)

/-- three coordinates as 32-bit words -/
abbrev Words := Nat × Nat × Nat

/-- `bin_vec3` stl-parse.c:551-563, `bin_f` 541-549, `bin_f32` 536-539: the bit patterns -/
def binVec3 (p : Bin) : Except Fail (Words × Bin) := do
  let x ← binU32 p
  let y ← binU32 x.2
  let z ← binU32 y.2
  .ok ((x.1, y.1, z.1), z.2)

section
variable {V : Type} (eq : V → V → Bool) (conv : Words → V)

/-- `bin_vertex` stl-parse.c:565-576 -/
def binVertex (poly : Poly V) (p : Bin) : Except Fail (Nat × Poly V × Bin) := do
  let v ← binVec3 p
  let r := insertPoint eq poly.points (conv v.1)
  .ok (r.2, { poly with points := r.1 }, v.2)

/-- `bin_facet` stl-parse.c:578-602 -/
def binFacet (poly : Poly V) (p : Bin) : Except Fail (Poly V × Bin) := do
  let n ← binVec3 p
  let a ← binVertex eq conv poly n.2
  let b ← binVertex eq conv a.2.1 a.2.2
  let c ← binVertex eq conv b.2.1 b.2.2
  let w ← binU16 c.2.2
  .ok (makeFacet c.2.1 a.1 b.1 c.1, w.2)

/-- the loop of `parse_bin` stl-parse.c:615-619 -/
def binFacets : Nat → Poly V → Bin → Except Fail (Poly V × Bin)
  | 0, poly, p => .ok (poly, p)
  | n + 1, poly, p => do
    let r ← binFacet eq conv poly p
    binFacets n r.1 r.2

/-- `parse_bin` stl-parse.c:604-623 -/
def parseBin (p : Bin) : Except Fail (Poly V) := do
  let p ← binSkip p 80
  let n ← binU32 p
  let r ← binFacets eq conv n.1 ⟨[], []⟩ n.2
  .ok r.1

end

/-! ### text files -/

/-- keywords, stl-parse.c:26-34 -/
inductive Key where
  | solid | endsolid | facet | normal | endfacet | outer | loop | endloop | vertex
deriving DecidableEq, Repr

/-- token types, stl-parse.c:15-34 -/
inductive Tok where
  | eof
  | error
  | id
  | float
  | string
  | key (k : Key)
  | char (c : Nat)
deriving DecidableEq, Repr

/-- The lexer state `parse_t` stl-parse.c:36-51: `cur` = `lex_cur`; `here` = the byte at `lex_string`, which differs from `cur` if a
NUL was written there to terminate a token; `ahead` = the bytes behind it up to and including the final NUL; `tok`, `str` = type and
text of the current token.  `lex_string >= lex_end` = nothing is ahead. -/
structure Lex where
  cur : Nat
  here : Nat
  ahead : List Nat
  tok : Tok
  str : List Nat
deriving DecidableEq, Repr

/-- `lex_next` stl-parse.c:53-64 -/
def lexNext (s : Lex) : Lex :=
  match s.ahead with
  | [] => { s with cur := 0 }
  | c :: t => { s with cur := c, here := c, ahead := t }

/-- `is_space` stl-parse.c:66-69 -/
def isSpace (c : Nat) : Bool := c == 0x20 || c == 9 || c == 13 || c == 10
/-- `is_digit` stl-parse.c:71-74 -/
def isDigit (c : Nat) : Bool := decide (0x30 ≤ c) && decide (c ≤ 0x39)
/-- `is_alpha` stl-parse.c:76-81 -/
def isAlpha (c : Nat) : Bool := (decide (0x61 ≤ c) && decide (c ≤ 0x7a)) || (decide (0x41 ≤ c) && decide (c ≤ 0x5a))

/-- `while (pr(lex_cur)) lex_next` for a `pr` that is false for NUL: `lex_cur`, `lex_string`, and the characters skipped -/
def skipWhile (pr : Nat → Bool) : Nat → Nat → List Nat → (Nat × Nat × List Nat) × List Nat
  | cur, here, [] => if pr cur then ((0, here, []), [cur]) else ((cur, here, []), [])
  | cur, here, c :: t =>
    if pr cur then
      let r := skipWhile pr c c t
      (r.1, cur :: r.2)
    else ((cur, here, c :: t), [])

/-- such a loop, with the characters skipped added to the token -/
def eat (pr : Nat → Bool) (s : Lex) : Lex :=
  let r := skipWhile pr s.cur s.here s.ahead
  { s with cur := r.1.1, here := r.1.2.1, ahead := r.1.2.2, str := s.str ++ r.2 }

/-- one character added to the token -/
def eat1 (s : Lex) : Lex :=
  let n := lexNext s
  { n with str := s.str ++ [s.cur] }

/-- `*lex_string = '\0'` -/
def cut (s : Lex) : Lex := { s with here := 0 }

/-- sign, stl-parse.c:120-127: the text of the token begins behind a plus -/
def floatSign (s : Lex) : Lex :=
  if s.cur = 0x2b then { eat1 s with str := [] } else if s.cur = 0x2d then eat1 s else s

/-- fraction, stl-parse.c:131-136 -/
def floatFrac (s : Lex) : Lex := if s.cur = 0x2e then eat isDigit (eat1 s) else s

/-- exponent, stl-parse.c:137-145 -/
def floatExp (s : Lex) : Lex :=
  if s.cur = 0x65 ∨ s.cur = 0x45 then
    let s := eat1 s
    let s := if s.cur = 0x2d ∨ s.cur = 0x2b then eat1 s else s
    eat isDigit s
  else s

/-- `tok_next_aux` stl-parse.c:83-175 behind the white space -/
def tokBody (s : Lex) : Lex :=
  if s.cur = 0x2b ∨ s.cur = 0x2d ∨ s.cur = 0x2e ∨ isDigit s.cur = true then
    if s.here = 0 then { s with tok := .error }
    else cut (floatExp (floatFrac (eat isDigit (floatSign { s with tok := .float }))))
  else if isAlpha s.cur = true then
    if s.here = 0 then { s with tok := .error }
    else cut (eat isAlpha { s with tok := .id })
  else if ¬ s.cur < 128 then { s with tok := .error }
  else lexNext { s with tok := if s.cur = 0 then .eof else .char s.cur }

/-- `tok_next_aux` stl-parse.c:83-175 -/
def tokNextAux (s : Lex) : Lex :=
  if s.tok = .error then s
  else
    let s := eat isSpace s
    tokBody { s with str := [] }

/-- the text of a keyword -/
def Key.text : Key → List Nat
  | .solid => [0x73, 0x6f, 0x6c, 0x69, 0x64]
  | .endsolid => [0x65, 0x6e, 0x64, 0x73, 0x6f, 0x6c, 0x69, 0x64]
  | .facet => [0x66, 0x61, 0x63, 0x65, 0x74]
  | .normal => [0x6e, 0x6f, 0x72, 0x6d, 0x61, 0x6c]
  | .endfacet => [0x65, 0x6e, 0x64, 0x66, 0x61, 0x63, 0x65, 0x74]
  | .outer => [0x6f, 0x75, 0x74, 0x65, 0x72]
  | .loop => [0x6c, 0x6f, 0x6f, 0x70]
  | .endloop => [0x65, 0x6e, 0x64, 0x6c, 0x6f, 0x6f, 0x70]
  | .vertex => [0x76, 0x65, 0x72, 0x74, 0x65, 0x78]

/-- the keyword or `T_ID` -/
def ifKey (s : List Nat) (k : Key) : Tok := if s = k.text then .key k else .id

/-- `sieve_id` stl-parse.c:196-237 -/
def sieveId (s : List Nat) : Tok :=
  match s with
  | c0 :: _ :: _ :: c3 :: _ =>
    if c0 = 0x65 then
      if c3 = 0x66 then ifKey s .endfacet
      else if c3 = 0x6c then ifKey s .endloop
      else if c3 = 0x73 then ifKey s .endsolid
      else .id
    else if c0 = 0x66 then ifKey s .facet
    else if c0 = 0x6c then ifKey s .loop
    else if c0 = 0x6e then ifKey s .normal
    else if c0 = 0x6f then ifKey s .outer
    else if c0 = 0x73 then ifKey s .solid
    else if c0 = 0x76 then ifKey s .vertex
    else .id
  | _ => .id

/-- `tok_next` stl-parse.c:239-245 -/
def tokNext (s : Lex) : Lex :=
  let s := tokNextAux s
  if s.tok = .id then { s with tok := sieveId s.str } else s

/-- `while ((*lex_string != '\n') && (*lex_string != '\0')) lex_next` stl-parse.c:190-192: at the end of the file this loops
forever if the last byte is neither -/
def skipLine : Nat → Nat → List Nat → Except Fail (Nat × Nat × List Nat)
  | cur, here, [] => if here ≠ 10 ∧ here ≠ 0 then .error .loop else .ok (cur, here, [])
  | cur, here, c :: t => if here ≠ 10 ∧ here ≠ 0 then skipLine c c t else .ok (cur, here, c :: t)

/-- `tok_next_line` stl-parse.c:177-194 -/
def tokNextLine (s : Lex) : Except Fail Lex :=
  if s.tok = .error then .ok s
  else do
    let s := lexNext s
    let r ← skipLine s.cur s.here s.ahead
    .ok { s with cur := r.1, here := r.2.1, ahead := r.2.2, tok := .string, str := [] }

/-- `expect_err` stl-parse.c:308-330 and `_expect` 247-256 -/
def expect (t : Tok) (s : Lex) : Except Fail Lex := if s.tok = t then .ok (tokNext s) else .error .reject

section
variable {V F : Type} (eq : V → V → Bool) (strtod : List Nat → F) (vec : F → F → F → V)

/-- `parse_float` stl-parse.c:332-338 (the value is computed in any case, but used only if this is a number) -/
def parseFloat (s : Lex) : Except Fail (F × Lex) := do
  let v := strtod s.str
  let s ← expect .float s
  .ok (v, s)

/-- `parse_vec3` stl-parse.c:340-350 -/
def parseVec3 (s : Lex) : Except Fail (V × Lex) := do
  let x ← parseFloat strtod s
  let y ← parseFloat strtod x.2
  let z ← parseFloat strtod y.2
  .ok (vec x.1 y.1 z.1, z.2)

/-- `parse_vertex` stl-parse.c:352-366 -/
def parseVertex (poly : Poly V) (s : Lex) : Except Fail (Nat × Poly V × Lex) := do
  let s ← expect (.key .vertex) s
  let v ← parseVec3 strtod vec s
  let r := insertPoint eq poly.points v.1
  .ok (r.2, { poly with points := r.1 }, v.2)

/-- `parse_facet` stl-parse.c:386-409 -/
def parseFacet (poly : Poly V) (s : Lex) : Except Fail (Poly V × Lex) := do
  let s ← expect (.key .facet) s
  let s ← expect (.key .normal) s
  let n ← parseVec3 strtod vec s
  let s ← expect (.key .outer) n.2
  let s ← expect (.key .loop) s
  let a ← parseVertex eq strtod vec poly s
  let b ← parseVertex eq strtod vec a.2.1 a.2.2
  let c ← parseVertex eq strtod vec b.2.1 b.2.2
  let s ← expect (.key .endloop) c.2.2
  let s ← expect (.key .endfacet) s
  .ok (makeFacet c.2.1 a.1 b.1 c.1, s)

/-- the loop of `parse_solid` stl-parse.c:440-444.  Each round consumes input, so the number of bytes ahead bounds the number of
rounds: `fuel`. -/
def parseFacets : Nat → Poly V → Lex → Except Fail (Poly V × Lex)
  | 0, _, _ => .error .loop
  | fuel + 1, poly, s =>
    if s.tok = .key .facet then do
      let r ← parseFacet eq strtod vec poly s
      parseFacets fuel r.1 r.2
    else .ok (poly, s)

/-- `parse_solid` stl-parse.c:432-454 -/
def parseSolid (s : Lex) : Except Fail (Poly V × Lex) :=
  if s.tok ≠ .key .solid then .error .reject
  else do
    let s ← tokNextLine s
    let s := tokNext s
    let r ← parseFacets eq strtod vec (s.ahead.length + 2) ⟨[], []⟩ s
    if r.2.tok = .key .endsolid then do
      let s := tokNext r.2
      let s ← tokNextLine s
      .ok (r.1, tokNext s)
    else .error .reject

/-- `stl_start_file` stl-parse.c:456-463; `content` with the NUL behind it -/
def start (file : List Nat) : Lex :=
  match file with
  | [] => ⟨0, 0, [], .eof, []⟩
  | c :: t => ⟨c, c, t ++ [0], .eof, []⟩

/-- `parse_text` stl-parse.c:465-488 -/
def parseText (file : List Nat) : Except Fail (Poly V) := do
  let r ← parseSolid eq strtod vec (tokNext (start file))
  if r.2.tok = .eof then .ok r.1 else .error .reject

/-- `cp_stl_parse` stl-parse.c:630-663; sizes are 64 bits -/
def stlParse (conv : Words → V) (file : List Nat) : Except Fail (Poly V) :=
  if file.length ≥ 5 ∧ file.take 5 = Key.text .solid then parseText eq strtod vec file
  else if (file.length + 18446744073709551616 - 84) % 18446744073709551616 % 50 = 0 then
    parseBin eq conv ⟨file ++ [0], file.length⟩
  else .error .reject

end

end Hob3l.Stl
