import Verif.Xml.Model
import Verif.Utf8.Spec

/-!
XML documents in ASCII as concrete syntax trees: how they are written and what they mean.
Only the type of the results (`Nd`) is shared with the model.
-/

namespace Hob3l.Xml

/-! ## Characters -/

def IsBlank (c : Nat) : Prop := c = 0x20 ∨ c = 9 ∨ c = 10 ∨ c = 13

def IsNameStart (c : Nat) : Prop := (0x41 ≤ c ∧ c ≤ 0x5a) ∨ (0x61 ≤ c ∧ c ≤ 0x7a) ∨ c = 0x5f

def IsNameChar (c : Nat) : Prop := IsNameStart c ∨ (0x30 ≤ c ∧ c ≤ 0x39) ∨ c = 0x2d ∨ c = 0x2e

def IsName (s : Str) : Prop := (∃ c cs, s = c :: cs ∧ IsNameStart c) ∧ ∀ c ∈ s, IsNameChar c

/-- the bytes of a code point (RFC 3629) -/
def utf8 (c : Nat) : Str :=
  if c < 0x80 then [c]
  else if c < 0x800 then [0xc0 + c / 64, 0x80 + c % 64]
  else if c < 0x10000 then [0xe0 + c / 4096, 0x80 + c / 64 % 64, 0x80 + c % 64]
  else [0xf0 + c / 262144, 0x80 + c / 4096 % 64, 0x80 + c / 64 % 64, 0x80 + c % 64]

/-! ## Text -/

/-- a character of a text: itself, `&lt;`, `&gt;`, `&amp;`, `&quot;`, `&apos;`, `&#…;` with the digits, `&#x…;` with pairs of a
digit and whether it is a capital letter -/
inductive Piece where
  | raw (c : Nat)
  | lt | gt | amp | quot | apos
  | dec (ds : List Nat)
  | hex (ds : List (Nat × Bool))
  deriving Repr, DecidableEq

def ofDigits (base : Nat) (ds : List Nat) : Nat := ds.foldl (fun n d => n * base + d) 0

/-- the code point -/
def Piece.code : Piece → Nat
  | .raw c => c
  | .lt => 0x3c
  | .gt => 0x3e
  | .amp => 0x26
  | .quot => 0x22
  | .apos => 0x27
  | .dec ds => ofDigits 10 ds
  | .hex ds => ofDigits 16 (ds.map (·.1))

/-- a digit as it is written -/
def hexDigit (d : Nat × Bool) : Nat := if d.1 < 10 then 0x30 + d.1 else if d.2 then 0x41 + (d.1 - 10) else 0x61 + (d.1 - 10)

/-- as it is written -/
def Piece.text : Piece → Str
  | .raw c => [c]
  | .lt => [0x26, 0x6c, 0x74, 0x3b]
  | .gt => [0x26, 0x67, 0x74, 0x3b]
  | .amp => [0x26, 0x61, 0x6d, 0x70, 0x3b]
  | .quot => [0x26, 0x71, 0x75, 0x6f, 0x74, 0x3b]
  | .apos => [0x26, 0x61, 0x70, 0x6f, 0x73, 0x3b]
  | .dec ds => [0x26, 0x23] ++ ds.map (0x30 + ·) ++ [0x3b]
  | .hex ds => [0x26, 0x23, 0x78] ++ ds.map hexDigit ++ [0x3b]

/-- allowed in a text that ends at `delim` -/
def Piece.Fits (delim : Nat) : Piece → Prop
  | .raw c => 0 < c ∧ c < 0x80 ∧ c ≠ 0x3c ∧ c ≠ 0x26 ∧ c ≠ delim
  | .dec ds => ds ≠ [] ∧ (∀ d ∈ ds, d < 10) ∧ Utf8.CodePoint (ofDigits 10 ds)
  | .hex ds => ds ≠ [] ∧ (∀ d ∈ ds, d.1 < 16) ∧ Utf8.CodePoint (ofDigits 16 (ds.map (·.1)))
  | _ => True

def textOf (l : List Piece) : Str := l.flatMap Piece.text

def codesOf (l : List Piece) : List Nat := l.map Piece.code

/-! ## Elements -/

structure CAttr where
  ws : Str
  pfx : Option Str
  name : Str
  /-- `"` or `'` -/
  double : Bool
  val : List Piece
  deriving Repr, DecidableEq

def quoteOf (double : Bool) : Nat := if double then 0x22 else 0x27

def fullName (pfx : Option Str) (name : Str) : Str :=
  match pfx with
  | none => name
  | some p => p ++ 0x3a :: name

def CAttr.text (a : CAttr) : Str :=
  a.ws ++ fullName a.pfx a.name ++ [0x3d, quoteOf a.double] ++ textOf a.val ++ [quoteOf a.double]

def CAttr.value (a : CAttr) : Str := (codesOf a.val).flatMap utf8

/-- elements with blanks before the end of the tag (`ws`) and in the end tag (`we`); texts; comments -/
inductive CItem where
  | empty (pfx : Option Str) (name : Str) (attrs : List CAttr) (ws : Str)
  | elem (pfx : Option Str) (name : Str) (attrs : List CAttr) (ws : Str) (body : List CItem) (we : Str)
  | text (l : List Piece)
  | comment (s : Str)

mutual
def CItem.show : CItem → Str
  | .empty p n as ws => 0x3c :: (fullName p n ++ as.flatMap CAttr.text ++ ws ++ [0x2f, 0x3e])
  | .elem p n as ws b we =>
    0x3c :: (fullName p n ++ as.flatMap CAttr.text ++ ws ++ [0x3e]) ++ shows b ++ [0x3c, 0x2f] ++ fullName p n ++ we ++ [0x3e]
  | .text l => textOf l
  | .comment s => [0x3c, 0x21, 0x2d, 0x2d] ++ s ++ [0x2d, 0x2d, 0x3e]
def shows : List CItem → Str
  | [] => []
  | c :: l => c.show ++ shows l
end

/-! ## Meaning -/

/-- the namespaces in scope -/
structure Scope where
  pfxs : List (Str × Str)
  dflt : Option Str
  deriving Repr, DecidableEq

def CAttr.isDecl (a : CAttr) : Bool := a.pfx == some xmlns || (a.pfx == none && a.name == xmlns)

/-- the declarations of an element; later ones come first -/
def Scope.extend (s : Scope) : List CAttr → Scope
  | [] => s
  | a :: l =>
    if a.pfx = some xmlns then Scope.extend ⟨(a.name, a.value) :: s.pfxs, s.dflt⟩ l
    else if a.pfx = none ∧ a.name = xmlns then Scope.extend ⟨s.pfxs, some a.value⟩ l
    else Scope.extend s l

/-- the namespace of a prefix -/
def Scope.find (s : Scope) (p : Str) : Option Str := s.pfxs.lookup p

/-- namespace of an element; `none`: not declared -/
def elemNs (s : Scope) : Option Str → Option (Option Str)
  | none => some s.dflt
  | some p => (s.find p).map some

/-- namespace of an attribute -/
def attrNs (s : Scope) : Option Str → Option (Option Str)
  | none => some none
  | some p => (s.find p).map some

def meanAttrs (s : Scope) : List CAttr → Option (List Nd)
  | [] => some []
  | a :: l => do
    let ns ← attrNs s a.pfx
    let q ← meanAttrs s l
    some (.attr a.pfx a.name ns (some a.value) :: q)

/-- blanks that are removed around texts: also form feed and U+0085 -/
def trims (c : Nat) : Bool := c == 0x20 || c == 9 || c == 10 || c == 13 || c == 12 || c == 0x85

def trim (l : List Nat) : List Nat := ((l.dropWhile trims).reverse.dropWhile trims).reverse

/-- a text without the blanks around it; no node if nothing is left; `opt`: remove blanks -/
def meanText (opt : Bool) (l : List Nat) : List Nd :=
  if opt then (if trim l = [] then [] else [.cdata ((trim l).flatMap utf8)]) else [.cdata (l.flatMap utf8)]

mutual
/-- the nodes of an item; `none`: a prefix is not declared -/
def CItem.mean (opt : Bool) (s : Scope) : CItem → Option (List Nd)
  | .empty p n as _ => do
    let s := s.extend as
    let ns ← elemNs s p
    let q ← meanAttrs s (as.filter fun a => !a.isDecl)
    some [.elem p n ns q]
  | .elem p n as _ b _ => do
    let s := s.extend as
    let ns ← elemNs s p
    let q ← meanAttrs s (as.filter fun a => !a.isDecl)
    let c ← means opt s b
    some [.elem p n ns (q ++ c)]
  | .text l => some (meanText opt (codesOf l))
  | .comment _ => some []
def means (opt : Bool) (s : Scope) : List CItem → Option (List Nd)
  | [] => some []
  | c :: l => do
    let a ← c.mean opt s
    let b ← means opt s l
    some (a ++ b)
end

/-! ## Well-formed documents -/

def NameOk (pfx : Option Str) (name : Str) : Prop := IsName name ∧ ∀ p, pfx = some p → IsName p

def AttrOk (a : CAttr) : Prop :=
  a.ws ≠ [] ∧ (∀ c ∈ a.ws, IsBlank c) ∧ NameOk a.pfx a.name ∧ ∀ p ∈ a.val, p.Fits (quoteOf a.double)

/-- comments: no two dashes in sequence, no dash at the end, ASCII -/
def CommentOk (s : Str) : Prop :=
  (∀ c ∈ s, 0 < c ∧ c < 0x80) ∧ ¬ [0x2d, 0x2d] <:+: s ∧ s.getLast? ≠ some 0x2d

def CItem.isText : CItem → Bool
  | .text _ => true
  | _ => false

def CItem.isComment : CItem → Bool
  | .comment _ => true
  | _ => false

/-- texts are not next to each other -/
def Apart : List CItem → Prop
  | a :: b :: l => (a.isText = false ∨ b.isText = false) ∧ Apart (b :: l)
  | _ => True

mutual
def CItem.Ok : CItem → Prop
  | .empty p n as ws => NameOk p n ∧ (∀ a ∈ as, AttrOk a) ∧ ∀ c ∈ ws, IsBlank c
  | .elem p n as ws b we => NameOk p n ∧ (∀ a ∈ as, AttrOk a) ∧ (∀ c ∈ ws, IsBlank c) ∧ (∀ c ∈ we, IsBlank c)
      ∧ Apart b ∧ (∀ c, b.getLast? = some c → c.isComment = false) ∧ Oks b
  | .text l => l ≠ [] ∧ ∀ p ∈ l, p.Fits 0x3c ∧ p.code < 0x100000
  | .comment s => CommentOk s
def Oks : List CItem → Prop
  | [] => True
  | c :: l => c.Ok ∧ Oks l
end

/-- a document: declaration with its attributes, document type, comments and blanks before and behind the element -/
structure CDoc where
  decl : Option (List CAttr × Str)
  ws : Str
  doctype : Option (Str × Str)
  before : List CItem
  root : CItem
  after : List CItem

def CDoc.show (d : CDoc) : Str :=
  (match d.decl with
   | none => []
   | some (as, ws) => [0x3c, 0x3f, 0x78, 0x6d, 0x6c] ++ as.flatMap CAttr.text ++ ws ++ [0x3f, 0x3e]) ++ d.ws ++
  (match d.doctype with
   | none => []
   | some (s, ws) => [0x3c, 0x21, 0x44, 0x4f, 0x43, 0x54, 0x59, 0x50, 0x45] ++ s ++ [0x3e] ++ ws) ++
  shows d.before ++ d.root.show ++ shows d.after

/-- comments, and texts of blanks -/
def CItem.Aside : CItem → Prop
  | .comment _ => True
  | .text l => ∀ p ∈ l, ∃ c, p = .raw c ∧ IsBlank c
  | _ => False

def CItem.isElem : CItem → Bool
  | .empty .. => true
  | .elem .. => true
  | _ => false

structure CDoc.Ok (d : CDoc) : Prop where
  decl : ∀ as ws, d.decl = some (as, ws) → (∀ a ∈ as, AttrOk a ∧ a.isDecl = false) ∧ ∀ c ∈ ws, IsBlank c
  ws : ∀ c ∈ d.ws, IsBlank c
  doctype : ∀ s ws, d.doctype = some (s, ws) → (∀ c ∈ s, 0 < c ∧ c < 0x80 ∧ c ≠ 0x3e) ∧ ∀ c ∈ ws, IsBlank c
  /-- blanks directly behind the declaration and the document type are in `ws` -/
  first : ∀ c, d.before.head? = some c → c.isText = false
  items : Oks (d.before ++ d.root :: d.after)
  aside : ∀ c ∈ d.before ++ d.after, c.Aside
  apart : Apart (d.before ++ d.root :: d.after)
  root : d.root.isElem = true

/-- attributes of the declaration, and the element -/
def CDoc.mean (opt : Bool) (d : CDoc) : Option (List Nd) := do
  let c ← d.root.mean opt ⟨[], none⟩
  some ((match d.decl with
    | none => []
    | some (as, _) => as.map fun a => .attr a.pfx a.name none (some a.value)) ++ c)

end Hob3l.Xml
