import Verif.Syn.Spec
/-!
# Observing the lexer

`tok_next` (syn.c:315-320) is called again and again until the end of the file or an error; each time the type and
the C string of the token are looked at, as the parser does.
-/
namespace Hob3l.Syn

/-- The token that the parser sees: type and C string (syn.c:42-46; `_T_PATH` does not occur without
`tok_path`). -/
def tokenOf (p : P) : Option Token := do
  let s ← cstr p.lex.buf p.tok.string
  some (if p.tok.type = tINT then .int s
    else if p.tok.type = tFLOAT then .float s
    else if p.tok.type = tID then .id s
    else if p.tok.type = tSTRING then .str s
    else if p.tok.type = tPATH then .path s
    else .sym p.tok.type s)

/-- All tokens from a state on. -/
def lexAll : Nat → P → Res (List Token)
  | 0, _ => .stuck
  | n + 1, p =>
    if p.tok.type = tEOF then .ok []
    else if p.tok.type = tERROR then .fail
    else do
      let t ← Res.ofOption (tokenOf p)
      let p ← Res.ofOption (tokNext p)
      let ts ← lexAll n p
      .ok (t :: ts)

/-- All tokens of a file, with a bound for the number of calls. -/
def lexFile (n : Nat) (content : Text) : Res (List Token) := do
  let p ← Res.ofOption (beginFile content)
  lexAll n p

/-- The steps of the parser that change the buffer: `tok_next` and `tok_path`; the sieve for keywords changes only
the type. -/
inductive Steps : P → P → Prop
  | refl {p} : Steps p p
  | next {p q r} : Steps p q → tokNext q = some r → Steps p r
  | path {p q r} : Steps p q → tokPath q = some r → Steps p r
  | sieve {p q r} : Steps p q → sieve q = some r → Steps p r

end Hob3l.Syn
