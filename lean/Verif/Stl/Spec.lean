import Verif.Stl.Model

/-
What STL files mean, independent of the reader.
-/

namespace Hob3l.Stl

/-- all elements are bytes -/
def Bytes (l : List Nat) : Prop := ∀ b ∈ l, b < 256

/-- little endian number -/
def le : List Nat → Nat
  | [] => 0
  | b :: t => b + 256 * le t

/-- the 32-bit word at an offset -/
def word (file : List Nat) (off : Nat) : Nat := le ((file.drop off).take 4)

/-- vertex `k` of record `i` of a binary file: 80 bytes header, 4 bytes number of triangles, records of 50 bytes: normal, three vertices
of three words, attribute -/
def vertexAt (file : List Nat) (i k : Nat) : Words :=
  (word file (84 + 50 * i + 12 + 12 * k), word file (84 + 50 * i + 12 + 12 * k + 4), word file (84 + 50 * i + 12 + 12 * k + 8))

/-- the triangles of a binary file -/
def binTriangles {V : Type} (conv : Words → V) (file : List Nat) (n : Nat) : List (V × V × V) :=
  (List.range n).map fun i => (conv (vertexAt file i 0), conv (vertexAt file i 1), conv (vertexAt file i 2))

/-- a point of the table stands for a vertex -/
def StandsFor {V : Type} (eq : V → V → Bool) (points : List V) (r : Nat) (v : V) : Prop :=
  ∃ p, points[r]? = some p ∧ (p = v ∨ eq v p = true)

/-- a polyhedron made of the given triangles, each with its vertices in reverse order, without duplicate points -/
def MadeOf {V : Type} (eq : V → V → Bool) (poly : Poly V) (tris : List (V × V × V)) : Prop :=
  poly.faces.length = tris.length
  ∧ (∀ (i : Nat) (t : V × V × V), tris[i]? = some t → ∃ r0 r1 r2, poly.faces[i]? = some [r2, r1, r0]
      ∧ StandsFor eq poly.points r0 t.1 ∧ StandsFor eq poly.points r1 t.2.1 ∧ StandsFor eq poly.points r2 t.2.2)
  ∧ (∀ p ∈ poly.points, ∃ t ∈ tris, p = t.1 ∨ p = t.2.1 ∨ p = t.2.2)
  ∧ (∀ (i j : Nat) (p q : V), i < j → poly.points[i]? = some p → poly.points[j]? = some q → eq q p = false)

/-! ### text -/

/-- white space -/
def Space (l : List Nat) : Prop := ∀ c ∈ l, c = 0x20 ∨ c = 9 ∨ c = 10 ∨ c = 13

/-- decimal digits -/
def Digits (l : List Nat) : Prop := ∀ c ∈ l, 0x30 ≤ c ∧ c ≤ 0x39

/-- letters -/
def Letters (l : List Nat) : Prop := ∀ c ∈ l, (0x61 ≤ c ∧ c ≤ 0x7a) ∨ (0x41 ≤ c ∧ c ≤ 0x5a)

/-- sign of a number -/
def Sign (l : List Nat) : Prop := l = [] ∨ l = [0x2b] ∨ l = [0x2d]

/-- `Numeral w u`: `w` is written as a number, `u` is the same without a leading plus -/
inductive Numeral : List Nat → List Nat → Prop
  | mk (sg ds fr ex : List Nat) : Sign sg → Digits ds
      → (fr = [] ∨ ∃ d, Digits d ∧ fr = 0x2e :: d)
      → (ex = [] ∨ ∃ e s d, (e = 0x65 ∨ e = 0x45) ∧ Sign s ∧ Digits d ∧ ex = e :: (s ++ d))
      → sg ++ ds ++ fr ≠ []
      → Numeral (sg ++ ds ++ fr ++ ex) ((if sg = [0x2b] then [] else sg) ++ ds ++ fr ++ ex)

/-- a word of a text file, with its token type and the text handed to the number conversion -/
inductive Word : List Nat → Tok → List Nat → Prop
  | key (k : Key) : Word k.text (.key k) k.text
  | num (w u : List Nat) : Numeral w u → Word w .float u

/-- `Written ws text`: the words separated by white space, white space before each of them -/
inductive Written : List (Tok × List Nat) → List Nat → Prop
  | nil : Written [] []
  | cons (sep w : List Nat) (t : Tok) (u : List Nat) (ws : List (Tok × List Nat)) (text : List Nat) :
      sep ≠ [] → Space sep → Word w t u → Written ws text → Written ((t, u) :: ws) (sep ++ w ++ text)

/-- a facet as text: normal and vertices, each three numbers -/
structure Facet where
  normal : List Nat × List Nat × List Nat
  a : List Nat × List Nat × List Nat
  b : List Nat × List Nat × List Nat
  c : List Nat × List Nat × List Nat

/-- three numbers -/
def nums (v : List Nat × List Nat × List Nat) : List (Tok × List Nat) := [(.float, v.1), (.float, v.2.1), (.float, v.2.2)]

/-- a keyword -/
def kw (k : Key) : Tok × List Nat := (.key k, k.text)

/-- the words of a facet -/
def Facet.words (f : Facet) : List (Tok × List Nat) :=
  kw .facet :: kw .normal :: (nums f.normal ++ kw .outer :: kw .loop :: kw .vertex :: (nums f.a ++ kw .vertex :: (nums f.b
    ++ kw .vertex :: (nums f.c ++ [kw .endloop, kw .endfacet]))))

/-- the triangle of a facet -/
def Facet.triangle {V F : Type} (strtod : List Nat → F) (vec : F → F → F → V) (f : Facet) : V × V × V :=
  let g := fun v : List Nat × List Nat × List Nat => vec (strtod v.1) (strtod v.2.1) (strtod v.2.2)
  (g f.a, g f.b, g f.c)

/-- a text file: header line, facets, end.  `c` is the character behind `solid`. -/
def TextFile (file : List Nat) (facets : List Facet) : Prop :=
  ∃ c name body tail, file = Key.text .solid ++ c :: (name ++ 10 :: (body ++ tail))
    ∧ ¬ ((0x61 ≤ c ∧ c ≤ 0x7a) ∨ (0x41 ≤ c ∧ c ≤ 0x5a)) ∧ c ≠ 10
    ∧ (∀ x ∈ name, x ≠ 10 ∧ x ≠ 0)
    ∧ Written (facets.flatMap Facet.words ++ [kw .endsolid]) (10 :: body)
    ∧ (Space tail ∨ ∃ sp nm sep, Space sp ∧ sp ≠ [] ∧ Letters nm ∧ nm ≠ [] ∧ Space sep ∧ tail = sp ++ nm ++ sep)

end Hob3l.Stl
