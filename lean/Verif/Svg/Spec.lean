import Verif.Svg.Model
import Mathlib.Algebra.Order.Field.Rat

/-!
Specification of SVG path data: the concrete syntax with its meaning (SVG 2, 9.3.9), and the drawing (9.3.2 to 9.3.8).
The definitions of the model are not used, except for the type of points and the parameters of the drawing.
-/

namespace Hob3l.Svg

/-! ## Numbers -/

/-- the character of a digit -/
def dchar (d : Fin 10) : Char := Char.ofNat (48 + d.val)

/-- a number: sign (`true` is minus), digits before the dot, dot and digits after it, exponent (`true`: capital letter) -/
structure Num where
  sign : Option Bool
  int : List (Fin 10)
  frac : Option (List (Fin 10))
  exp : Option (Bool × List (Fin 10))

/-- a number has at least one digit, and its exponent, too -/
def Num.Ok (n : Num) : Prop := (n.int ≠ [] ∨ ∃ f, n.frac = some f ∧ f ≠ []) ∧ ∀ e, n.exp = some e → e.2 ≠ []

/-- the text of a number -/
def Num.show (n : Num) : List Char :=
  (match n.sign with | none => [] | some true => ['-'] | some false => ['+'])
  ++ n.int.map dchar
  ++ (match n.frac with | none => [] | some f => '.' :: f.map dchar)
  ++ (match n.exp with | none => [] | some (up, e) => (if up then 'E' else 'e') :: e.map dchar)

/-- the value of digits before the dot -/
def natVal : List (Fin 10) → Nat
  | [] => 0
  | d :: l => d.val * 10 ^ l.length + natVal l

/-- the value of digits after the dot -/
def fracVal : List (Fin 10) → ℚ
  | [] => 0
  | d :: l => ((d.val : ℚ) + fracVal l) / 10

/-- the value of a number -/
def Num.val (n : Num) : ℚ :=
  (if n.sign = some true then -1 else 1) * (natVal n.int + fracVal (n.frac.getD []))
    * 10 ^ (natVal ((n.exp.getD (false, [])).2))

/-! ## Path data -/

/-- white space -/
inductive Space where
  | sp | tab | cr | nl | ff

/-- the character -/
def Space.char : Space → Char
  | .sp => ' '
  | .tab => '\t'
  | .cr => '\r'
  | .nl => '\n'
  | .ff => '\x0c'

/-- the text of white space -/
def showWs (l : List Space) : List Char := l.map Space.char

/-- what is between two numbers: white space with at most one comma -/
structure Sep where
  pre : List Space
  comma : Bool
  post : List Space

/-- the text -/
def Sep.show (s : Sep) : List Char := showWs s.pre ++ (if s.comma then [','] else []) ++ showWs s.post

/-- a number or a flag -/
inductive Tok where
  | num (n : Num)
  | flag (b : Bool)

/-- the text -/
def Tok.show : Tok → List Char
  | .num n => n.show
  | .flag b => [if b then '1' else '0']

/-- a number is well-formed -/
def Tok.Ok : Tok → Prop
  | .num n => n.Ok
  | .flag _ => True

/-- `b` may directly follow `a`: it cannot be read as a continuation of it -/
def Glue : Tok → Tok → Prop
  | .flag _, _ => True
  | .num _, .flag _ => False
  | .num a, .num b => b.sign.isSome ∨ (b.int = [] ∧ (a.frac.isSome ∨ a.exp.isSome))

/-- the kinds of commands -/
inductive Kind where
  | m | l | h | v | q | c | t | s | a | z
  deriving DecidableEq

/-- the letter -/
def Kind.letter : Kind → Bool → Char
  | .m, false => 'M' | .m, true => 'm'
  | .l, false => 'L' | .l, true => 'l'
  | .h, false => 'H' | .h, true => 'h'
  | .v, false => 'V' | .v, true => 'v'
  | .q, false => 'Q' | .q, true => 'q'
  | .c, false => 'C' | .c, true => 'c'
  | .t, false => 'T' | .t, true => 't'
  | .s, false => 'S' | .s, true => 's'
  | .a, false => 'A' | .a, true => 'a'
  | .z, false => 'Z' | .z, true => 'z'

/-- the arguments of a kind: `true` is a flag -/
def Kind.shape : Kind → List Bool
  | .m | .l | .t => [false, false]
  | .h | .v => [false]
  | .q | .s => [false, false, false, false]
  | .c => [false, false, false, false, false, false]
  | .a => [false, false, false, true, true, false, false]
  | .z => []

/-- whether the token is a flag -/
def Tok.isFlag : Tok → Bool
  | .num _ => false
  | .flag _ => true

/-- the arguments of one command -/
abbrev Row := List (Sep × Tok)

/-- a command letter with its rows of arguments (one, or more: the command is repeated) -/
structure Group where
  lead : List Space
  kind : Kind
  rel : Bool
  rows : List Row

/-- the text of a row -/
def showRow (r : List (Sep × Tok)) : List Char := r.flatMap fun t => t.1.show ++ t.2.show

/-- the text of a group -/
def Group.show (g : Group) : List Char := showWs g.lead ++ g.kind.letter g.rel :: showRow g.rows.flatten

/-- adjacent tokens are separated if need be -/
def Spaced : List (Sep × Tok) → Prop
  | a :: b :: l => (b.1.show ≠ [] ∨ Glue a.2 b.2) ∧ Spaced (b :: l)
  | _ => True

/-- a well-formed group -/
def Group.Ok (g : Group) : Prop :=
  (g.kind = .z ↔ g.rows = [])
  ∧ (∀ r ∈ g.rows, r.map (fun t => t.2.isFlag) = g.kind.shape)
  ∧ (∀ t ∈ g.rows.flatten, t.2.Ok)
  ∧ Spaced g.rows.flatten
  ∧ (∀ t, g.rows.flatten.head? = some t → t.1.comma = false)

/-- path data -/
structure Doc where
  groups : List Group
  trail : List Space

/-- the text of path data -/
def Doc.show (d : Doc) : List Char := d.groups.flatMap Group.show ++ showWs d.trail

/-- well-formed path data -/
def Doc.Ok (d : Doc) : Prop := ∀ g ∈ d.groups, g.Ok

/-! ## Commands -/

/-- a single command; `rel`: relative coordinates -/
inductive Cmd (K : Type) where
  | move (rel : Bool) (p : P K)
  | line (rel : Bool) (p : P K)
  | horiz (rel : Bool) (x : K)
  | vert (rel : Bool) (y : K)
  | quad (rel : Bool) (p1 p2 : P K)
  | cub (rel : Bool) (p1 p2 p3 : P K)
  | squad (rel : Bool) (p2 : P K)
  | scub (rel : Bool) (p2 p3 : P K)
  | arc (rel : Bool) (rx ry ph : K) (fa fs : Bool) (p : P K)
  | close

section

variable {K : Type} [Field K]

/-- the value of an argument; a flag is 0 or 1 -/
def Tok.val : Tok → K
  | .num n => ((n.val : ℚ) : K)
  | .flag b => if b then 1 else 0

/-- a flag -/
def Tok.bool : Tok → Bool
  | .num _ => false
  | .flag b => b

/-- the meaning of a row; `first`: it is the first row of its group -/
def rowCmd (k : Kind) (rel first : Bool) (r : Row) : Option (Cmd K) :=
  match k, r.map (·.2) with
  | .m, [x, y] => some (if first then .move rel ⟨x.val, y.val⟩ else .line rel ⟨x.val, y.val⟩)
  | .l, [x, y] => some (.line rel ⟨x.val, y.val⟩)
  | .t, [x, y] => some (.squad rel ⟨x.val, y.val⟩)
  | .h, [x] => some (.horiz rel x.val)
  | .v, [y] => some (.vert rel y.val)
  | .q, [x1, y1, x2, y2] => some (.quad rel ⟨x1.val, y1.val⟩ ⟨x2.val, y2.val⟩)
  | .s, [x1, y1, x2, y2] => some (.scub rel ⟨x1.val, y1.val⟩ ⟨x2.val, y2.val⟩)
  | .c, [x1, y1, x2, y2, x3, y3] => some (.cub rel ⟨x1.val, y1.val⟩ ⟨x2.val, y2.val⟩ ⟨x3.val, y3.val⟩)
  | .a, [rx, ry, ph, fa, fs, x, y] => some (.arc rel rx.val ry.val ph.val fa.bool fs.bool ⟨x.val, y.val⟩)
  | _, _ => none

/-- the commands of a group -/
def Group.cmds (g : Group) : List (Cmd K) :=
  match g.rows with
  | [] => [.close]
  | r :: rs => (rowCmd g.kind g.rel true r).toList ++ rs.flatMap fun r => (rowCmd g.kind g.rel false r).toList

/-- the commands of path data -/
def Doc.cmds (d : Doc) : List (Cmd K) := d.groups.flatMap Group.cmds

end

/-! ## Drawing -/

section

variable {K : Type} [Field K]

/-- the control point of the previous command, if it was a curve -/
inductive Ctrl (K : Type) where
  | none
  | quad (p : P K)
  | cub (p : P K)

/-- the state of the drawing: current point, start of the subpath, vertices of the subpath (none before its first
segment), finished subpaths -/
structure Pen (K : Type) where
  cur : P K
  start : P K
  ctrl : Ctrl K
  opn : List (P K)
  done : List (List (P K))

/-- nothing is drawn yet -/
def Pen.new : Pen K := ⟨⟨0, 0⟩, ⟨0, 0⟩, .none, [], []⟩

/-- the subpaths -/
def Pen.paths (s : Pen K) : List (List (P K)) := if s.opn.isEmpty then s.done else s.done ++ [s.opn]

/-- the point between two points -/
def lerp (a b : P K) (t : K) : P K := ⟨a.x + t * (b.x - a.x), a.y + t * (b.y - a.y)⟩

/-- the point of a quadratic Bézier curve, by de Casteljau's construction -/
def bezier2 (a b c : P K) (t : K) : P K := lerp (lerp a b t) (lerp b c t) t

/-- the point of a cubic Bézier curve, by de Casteljau's construction -/
def bezier3 (a b c d : P K) (t : K) : P K := lerp (bezier2 a b c t) (bezier2 b c d t) t

/-- the points at the parameters `1/n`, …, `(n-1)/n` -/
def sampled (n : Nat) (f : K → P K) : List (P K) := (List.range (n - 1)).map fun i => f (((i + 1 : ℕ) : K) / (n : K))

/-- a segment with the interior points `l` and the end point `p` is drawn -/
def Pen.seg (s : Pen K) (l : List (P K)) (p : P K) (ctrl : Ctrl K) : Pen K :=
  { s with cur := p, ctrl := ctrl, opn := (if s.opn.isEmpty then [s.cur] else s.opn) ++ l ++ [p] }

/-- the absolute position -/
def Pen.abs (s : Pen K) (rel : Bool) (p : P K) : P K := if rel then ⟨s.cur.x + p.x, s.cur.y + p.y⟩ else p

/-- a line: nothing is drawn if its length is 0 -/
def Pen.line [DecidableEq K] (s : Pen K) (p : P K) : Pen K :=
  if p = s.cur then { s with ctrl := .none } else s.seg [] p .none

/-- the reflection of the control point -/
def reflect (o p : P K) : P K := ⟨o.x + (o.x - p.x), o.y + (o.y - p.y)⟩

/-- the control point of a smooth quadratic curve -/
def Pen.quadCtrl (s : Pen K) : P K := match s.ctrl with | .quad p => reflect s.cur p | _ => s.cur

/-- the control point of a smooth cubic curve -/
def Pen.cubCtrl (s : Pen K) : P K := match s.ctrl with | .cub p => reflect s.cur p | _ => s.cur

/-- a quadratic curve -/
def Pen.quad (c : Cfg K) (s : Pen K) (p1 p2 : P K) : Pen K :=
  s.seg (sampled (c.quadFn s.cur p1 p2) (bezier2 s.cur p1 p2)) p2 (.quad p1)

/-- a cubic curve -/
def Pen.cub (c : Cfg K) (s : Pen K) (p1 p2 p3 : P K) : Pen K :=
  s.seg (sampled (c.cubFn s.cur p1 p2 p3) (bezier3 s.cur p1 p2 p3)) p3 (.cub p2)

/-- an arc -/
def Pen.arc [DecidableEq K] (c : Cfg K) (s : Pen K) (rx ry ph : K) (fa fs : Bool) (p : P K) : Pen K :=
  if p = s.cur then { s with ctrl := .none }
  else if rx = 0 ∨ ry = 0 then s.line p
  else s.seg (c.arc s.cur rx ry ph fa fs p).2 p .none

/-- one command -/
def Pen.step [DecidableEq K] (c : Cfg K) (s : Pen K) : Cmd K → Pen K
  | .move rel p => ⟨s.abs rel p, s.abs rel p, .none, [], s.paths⟩
  | .line rel p => s.line (s.abs rel p)
  | .horiz rel x => s.line ⟨(s.abs rel ⟨x, 0⟩).x, s.cur.y⟩
  | .vert rel y => s.line ⟨s.cur.x, (s.abs rel ⟨0, y⟩).y⟩
  | .quad rel p1 p2 => s.quad c (s.abs rel p1) (s.abs rel p2)
  | .cub rel p1 p2 p3 => s.cub c (s.abs rel p1) (s.abs rel p2) (s.abs rel p3)
  | .squad rel p2 => s.quad c s.quadCtrl (s.abs rel p2)
  | .scub rel p2 p3 => s.cub c s.cubCtrl (s.abs rel p2) (s.abs rel p3)
  | .arc rel rx ry ph fa fs p => s.arc c rx ry ph fa fs (s.abs rel p)
  | .close => ⟨s.start, s.start, .none, [], s.paths⟩

/-- the subpaths that are drawn -/
def draw [DecidableEq K] (c : Cfg K) (l : List (Cmd K)) : List (List (P K)) := (l.foldl (Pen.step c) Pen.new).paths

/-! ## What the reader can cope with -/

/-- the points differ clearly -/
def Apart [LinearOrder K] (c : Cfg K) (p q : P K) : Prop := c.eps ≤ |p.x - q.x| ∨ c.eps ≤ |p.y - q.y|

/-- a line that is either clearly visible, or of length 0 and not after a curve -/
def FitLine [LinearOrder K] (c : Cfg K) (s : Pen K) (p : P K) : Prop := Apart c s.cur p ∨ (p = s.cur ∧ s.ctrl = .none)

/-- the start of the last subpath that has been drawn -/
def Pen.lastStart (s : Pen K) : P K := (s.done.getLast?.bind List.head?).getD ⟨0, 0⟩

/-- the condition on a command in a given state -/
def Fit [LinearOrder K] (c : Cfg K) (s : Pen K) : Cmd K → Prop
  | .line rel p => FitLine c s (s.abs rel p)
  | .horiz rel x => FitLine c s ⟨(s.abs rel ⟨x, 0⟩).x, s.cur.y⟩
  | .vert rel y => FitLine c s ⟨s.cur.x, (s.abs rel ⟨0, y⟩).y⟩
  | .arc rel rx ry ph fa fs p =>
    FitLine c s (s.abs rel p) ∧ (rx = 0 ∨ ry = 0 ∨ (c.eps ≤ |rx| ∧ c.eps ≤ |ry|)) ∧
      (s.abs rel p ≠ s.cur → rx ≠ 0 → ry ≠ 0 →
        (c.arc s.cur rx ry ph fa fs (s.abs rel p)).1 = true
        ∨ (s.opn ≠ [] ∧ (c.arc s.cur rx ry ph fa fs (s.abs rel p)).2 = []))
  | .close => s.opn ≠ [] ∨ s.start = s.lastStart
  | _ => True

/-- the condition on a sequence of commands -/
def Fits [LinearOrder K] (c : Cfg K) : Pen K → List (Cmd K) → Prop
  | _, [] => True
  | s, a :: l => Fit c s a ∧ Fits c (s.step c a) l

/-- the points of subpaths with their place: index in the subpath, index of the subpath -/
def tagged {A : Type} (l : List (List A)) : List (A × Nat × Nat) :=
  l.zipIdx.flatMap fun q => q.1.zipIdx.map fun p => (p.1, p.2, q.2)

end

end Hob3l.Svg
