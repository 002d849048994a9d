import Verif.Syn.LemmasFile
import Verif.Syn.LemmasEq
/-!
# SCAD files: properties
-/
namespace Hob3l.Syn

/-! ## C46: the lexer -/

/-- **C46**: the lexer terminates, after at most as many tokens as characters, without access outside of the file
content; it yields the tokens that the file consists of, or an error if the file does not consist of tokens. -/
theorem C46_tokens (content : Text) :
    (∃ ts, lexFile (content.length + 1) content = .ok ts ∧
      ∀ ts', (∀ b, Token.path b ∉ ts') → (Lexes false content ts' ↔ ts' = ts)) ∨
    (lexFile (content.length + 1) content = .fail ∧ ∀ ts', (∀ b, Token.path b ∉ ts') → ¬ Lexes false content ts') := by
  rcases lexFile_spec content with ⟨ts, h1, -, h2⟩ | h
  · exact Or.inl ⟨ts, h1, h2⟩
  · exact Or.inr h

/-- **C46**: any tokens that the file consists of are read; a path is read as its characters, unless the parser asks
for a path. -/
theorem C46_reads (content : Text) (ts : List Token) (h : Lexes false content ts) (hp : ∀ b, Token.path b ∉ ts) :
    lexFile (content.length + 1) content = .ok ts := by
  rcases lexFile_spec content with ⟨ts', h1, -, h2⟩ | ⟨-, h2⟩
  · rw [h1, (h2 ts hp).mp h]
  · exact absurd h (h2 ts hp)

/-- **C46**: the NUL characters that the lexer writes into the file content do not change the text of tokens that
were read before: from the state at the beginning of the file, by any sequence of steps, to a token with a text, and
by any further sequence of steps. -/
theorem C46_strings (content : Text) (p0 p q : P) (h0 : beginFile content = some p0) (h1 : Steps p0 p) (t : Token)
    (ht : tokenOf p = some t)
    (htype : p.tok.type = tINT ∨ p.tok.type = tFLOAT ∨ p.tok.type = tID ∨ p.tok.type = tSTRING ∨ p.tok.type = tPATH)
    (h2 : Steps p q) : cstr q.lex.buf p.tok.string = cstr p.lex.buf p.tok.string := by
  obtain ⟨p', e, g, -⟩ := beginFile_spec content
  rw [h0] at e; cases e
  obtain ⟨-, p', g', hl, h3 | h3⟩ := steps_later g h1
  · subst h3
    obtain ⟨t, ht⟩ := good_tok g' (by rcases htype with h | h | h | h | h <;> rw [h] <;> decide)
      (by rcases htype with h | h | h | h | h <;> rw [h] <;> decide)
    refine steps_string g' ht ?_ h2
    rintro c s rfl
    have h4 := ht.1
    have h5 := ht.2.2.1
    rcases htype with h | h | h | h | h <;> rw [h4] at h <;> rw [h] at h5 <;> exact absurd h5 (by decide)
  · obtain ⟨q2, e2, -, -, ⟨rfl, -⟩ | ⟨s, h4, h5, rfl, h6, -⟩⟩ := sieve_spec g'
    · rw [h3] at e2; cases e2
      obtain ⟨t, ht⟩ := good_tok g' (by rcases htype with h | h | h | h | h <;> rw [h] <;> decide)
        (by rcases htype with h | h | h | h | h <;> rw [h] <;> decide)
      refine steps_string g' ht ?_ h2
      rintro c s rfl
      have h4 := ht.1
      have h5 := ht.2.2.1
      rcases htype with h | h | h | h | h <;> rw [h4] at h <;> rw [h] at h5 <;> exact absurd h5 (by decide)
    · rw [h3] at e2; cases e2
      exfalso
      rcases htype with h | h | h | h | h <;> rw [h] at h6 <;> exact absurd h6 (by decide)

/-- Non-vacuity: a file with comments, symbols, numbers and strings. -/
example : lexFile 40 (txt "a/*x*/+.5[\"q\\\"\"]//e") =
    .ok [.id (txt "a"), .float (txt ".5"), .sym 91 [], .str (txt "q\\\""), .sym 93 (txt "]//e")] := by
  decide +kernel

/-- Errors: an identifier directly behind a number, a string that is not closed, an 8-bit character. -/
example : lexFile 40 (txt "5a") = .fail ∧ lexFile 40 (txt "\"a") = .fail ∧ lexFile 40 [200] = .fail := by
  decide +kernel

/-! ## C71: the parser -/

/-- **C71**: whatever the parser yields, it is the only syntax tree of the file; whatever it rejects has no syntax
tree. -/
theorem C71_sound (fs : FS) (n : Nat) (file content : Text) :
    (∀ l, parse fs n file content = .ok l → ∀ l', Program fs file content l' ↔ l' = l) ∧
    (parse fs n file content = .fail → ∀ l, ¬ Program fs file content l) := by
  rcases parse_spec fs n file content with ⟨l, e, h⟩ | ⟨e, h⟩ | ⟨e, -⟩
  · exact ⟨fun l' e' => by rw [e] at e'; cases e'; exact h, fun e' => by rw [e] at e'; cases e'⟩
  · exact ⟨fun l' e' => by (rw [e] at e'; cases e'), fun _ => h⟩
  · exact ⟨fun l' e' => by (rw [e] at e'; cases e'), fun e' => by (rw [e] at e'; cases e')⟩

/-- **C71**: every program is parsed, including the files that it includes. -/
theorem C71_complete (fs : FS) (file content : Text) (l : List Stmt) (h : Program fs file content l) :
    ∃ n, ∀ m, n ≤ m → parse fs m file content = .ok l :=
  parse_complete h

/-- **C71**: a file has at most one syntax tree. -/
theorem C71_unique (fs : FS) (file content : Text) (l l' : List Stmt) (h : Program fs file content l)
    (h' : Program fs file content l') : l = l' := by
  obtain ⟨n, hn⟩ := parse_complete h
  exact (((C71_sound fs n file content).1 l (hn n (Nat.le_refl _)) l').mp h').symm

/-- **C71**: the parser terminates if no file can be included: either with a syntax tree or with an error. -/
theorem C71_total (fs : FS) (hfs : ∀ f, fs f = none) (file content : Text) (n : Nat)
    (hn : 3 * content.length + 5 ≤ n) :
    (∃ l, parse fs n file content = .ok l ∧ Program fs file content l) ∨
    (parse fs n file content = .fail ∧ ∀ l, ¬ Program fs file content l) := by
  rcases parse_spec fs n file content with ⟨l, e, h⟩ | h | ⟨-, h | ⟨f, c, h⟩⟩
  · exact Or.inl ⟨l, e, (h l).mpr rfl⟩
  · exact Or.inr h
  · omega
  · rw [hfs f] at h; cases h

/-- Non-vacuity: modifiers, named arguments, ranges, a nested item, an included file in another directory. -/
example : parse (oneFile (txt "d/i") (txt "cube();")) 60 (txt "d/m")
    (txt "use <x>#translate([1,-2,0.5]){include <i>;}*f(a=[0:1:$t]);") =
    .ok [.use (txt "x"),
      .item (.mk (txt "translate") [⟨none, .arr [.int 1, .int (-2), .float (txt "0.5")]⟩]
        [.mk (txt "cube") [] [] 0] 0x11),
      .item (.mk (txt "f") [⟨some (txt "a"), .range3 (.int 0) (.int 1) (.id (txt "$t"))⟩] [] 0x82)] :=
  eq_of_sameRes (by decide +kernel)

/-- Errors: a missing bracket, a missing argument list, a keyword as a name. -/
example : parse (fun _ => none) 60 [] (txt "f(;") = .fail ∧ parse (fun _ => none) 60 [] (txt "f;") = .fail ∧
    parse (fun _ => none) 60 [] (txt "module m();") = .fail :=
  ⟨eq_of_sameRes (by decide +kernel), eq_of_sameRes (by decide +kernel), eq_of_sameRes (by decide +kernel)⟩

/-! ## C72: where the program does not accept what a user expects

C72 claims: malformed numbers, integers out of range, NUL characters and cyclic inclusion are reported, and
`include <file>` is replaced by the items of the file wherever an item may stand. -/

/-- **C72, the part that holds**: inside of braces, `include <file>` is replaced by the items of the file, with its
name taken relative to the including file.  Missing: at the top level it is rejected (`C72_include_wrong`). -/
theorem C72_include_partial (fs : FS) (file target name content : Text) (us t ts : List Token) (l k : List Item)
    (x y : Text) (hi : Includes file name target) (hf : fs target = some content) (hl : Lexes false content us)
    (hus : IsItems fs target us l []) (ht : IsItems fs file t k (.sym 125 y :: ts)) :
    IsItem fs file (.sym 123 x :: .id (txt "include") :: .path name :: t) (.mk (txt "{") [] (l ++ k) 0) ts :=
  .block (.cons (.incl hi hf hl hus) ht)

/-- **C72, the part that holds**: an integer in range is taken with its value. -/
theorem C72_int_partial (neg : Bool) (d : Text) (hd : ∀ c ∈ d, Digit c) (hr : decimal d < 2 ^ 63) :
    intValue (if neg then 45 :: d else d) = if neg then - (decimal d : Int) else (decimal d : Int) := by
  have hh : d.head? ≠ some 45 := by
    cases d with
    | nil => simp
    | cons c r =>
      have := hd c (by simp)
      simp only [Digit] at this
      simp only [List.head?_cons, ne_eq, Option.some.injEq]
      omega
  unfold intValue
  cases neg
  · simp only [Bool.false_eq_true, if_false]
    rw [if_neg hh]
    omega
  · simp only [if_true, List.head?_cons, List.tail_cons]
    omega

example : intValue (txt "-120") = -120 := by decide +kernel

/-- Signs and points without digits are numbers with value zero. -/
theorem C72_number_wrong :
    parse (fun _ => none) 60 [] (txt "f(-,.,+);") =
      .ok [.item (.mk (txt "f") [⟨none, .int 0⟩, ⟨none, .float (txt ".")⟩, ⟨none, .int 0⟩] [] 0)] :=
  eq_of_sameRes (by decide +kernel)

/-- Integers are clamped to 64 bits without an error. -/
theorem C72_int_wrong :
    parse (fun _ => none) 60 [] (txt "f(99999999999999999999);") =
      .ok [.item (.mk (txt "f") [⟨none, .int 9223372036854775807⟩] [] 0)] :=
  eq_of_sameRes (by decide +kernel)

/-- What follows a NUL character is ignored without an error. -/
theorem C72_nul_wrong :
    parse (fun _ => none) 60 [] (txt "f();" ++ [0] ++ txt "not a program") = .ok [.item (.mk (txt "f") [] [] 0)] :=
  eq_of_sameRes (by decide +kernel)

/-- `include <file>` is rejected if it is not inside of an item. -/
theorem C72_include_wrong :
    parse (oneFile (txt "a") []) 60 [] (txt "include <a>") = .fail ∧
    parse (oneFile (txt "a") []) 60 [] (txt "{include <a>}") = .ok [.item (.mk (txt "{") [] [] 0)] :=
  ⟨eq_of_sameRes (by decide +kernel), eq_of_sameRes (by decide +kernel)⟩

/-- A file that includes itself is not rejected: the parser does not terminate. -/
theorem C72_cycle_wrong (n : Nat) :
    parse (oneFile (txt "a") (txt "include<a>")) n [] (txt "{include<a>}") = .stuck :=
  parse_cycle n

/-- `include` without a path reads the file that is named by the next token, which is then parsed again. -/
theorem C72_bare_wrong :
    parse (oneFile (txt "g") (txt "cube();")) 60 [] (txt "{include g();}") =
      .ok [.item (.mk (txt "{") [] [.mk (txt "cube") [] [] 0, .mk (txt "g") [] [] 0] 0)] :=
  eq_of_sameRes (by decide +kernel)

end Hob3l.Syn
