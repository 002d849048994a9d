import Verif.Utf8.Model

/-!
Model of `src/hob3l/xml-parse.c`: the XML parser.

The lexer `lex_next` (xml-parse.c:114-131) decodes one character after the other; the model works on the list of decoded
characters up to the end of the file or the first NUL.  Simplification: a file with a sequence that `cp_utf8_decode` rejects
(C42) gives an error at once instead of when the parser gets there.  The parser writes into the buffer behind the current
position only (terminating NULs, decoded text; that the text fits is an assertion of the code and of the model), so that
strings are lists of bytes here.  Locations and texts of messages are left out.
-/

namespace Hob3l.Xml

/-- outcome: result, error message, failed assertion or access to NULL, endless loop; `stuck` is not an outcome of the code but
says that the bound on the number of steps was too small -/
inductive Res (α : Type) where
  | ok (a : α)
  | fail
  | crash
  | hang
  | stuck
  deriving Repr, DecidableEq

def Res.bind {α β : Type} : Res α → (α → Res β) → Res β
  | .ok a, f => f a
  | .fail, _ => .fail
  | .crash, _ => .crash
  | .hang, _ => .hang
  | .stuck, _ => .stuck

/-- `char const *` -/
abbrev Str := List Nat

/-- a decoded character and its bytes -/
structure Ch where
  cp : Nat
  bs : Str
  deriving Repr, DecidableEq

/-- the characters up to the end or the first NUL; `true` if there is a decoding error (`lex_next` xml-parse.c:114-131) -/
def chars : Nat → Str → List Ch × Bool
  | 0, _ => ([], false)
  | n + 1, bs =>
    match Utf8.decode ⟨bs, bs.length, none⟩ with
    | none => ([], false)
    | some (c, it) =>
      if it.err.isSome then ([], true)
      else if c = 0 then ([], false)
      else (⟨c, bs.take (bs.length - it.data.length)⟩ :: (chars n it.data).1, (chars n it.data).2)

/-- the characters of a string -/
def charsOf (bs : Str) : List Ch × Bool := chars bs.length bs

/-- `p->cur` -/
def cur : List Ch → Nat
  | [] => 0
  | c :: _ => c.cp

/-- `*p->str_next` -/
def peek (l : List Ch) : Nat :=
  match l.tail with
  | [] => 0
  | c :: _ => c.bs.headD 0

/-- `cp_xml_is_space` xml-parse.c:148-161 -/
def isSpace (c : Nat) : Bool := [0x20, 9, 13, 10, 0x0c, 0x85, 0x2028, 0x2029].contains c

/-- `maybe_tag_begin` xml-parse.c:163-174: not `-`, `.`, digits -/
def maybeTagBegin (c : Nat) : Bool := !(c == 0x2d || c == 0x2e || (0x30 ≤ c && c ≤ 0x39))

/-- the characters listed in `is_tag_char`, xml-parse.c:185-189 -/
def notTag : List Nat :=
  [0x21, 0x22, 0x23, 0x24, 0x25, 0x26, 0x27, 0x28, 0x29, 0x2a, 0x2b, 0x2c, 0x2f, 0x3b, 0x3c, 0x3d, 0x3e, 0x3f, 0x40, 0x5b, 0x5c,
   0x5d, 0x5e, 0x60, 0x7b, 0x7c, 0x7d, 0x7e, 0x3a]

/-- `is_tag_char` xml-parse.c:176-193 -/
def isTagChar (c : Nat) : Bool := if isSpace c then false else if c > 0x7f then true else !notTag.contains c

/-- the loop of `parse_tag`, xml-parse.c:201-203; at the end of the file, `p->cur` is 0, which is a tag character, and
`lex_next` stays there -/
def tagRun : List Ch → Res (Str × List Ch)
  | [] => .hang
  | c :: cs => if isTagChar c.cp then (tagRun cs).bind fun r => .ok (c.bs ++ r.1, r.2) else .ok ([], c :: cs)

/-- `parse_tag` xml-parse.c:195-212; `p->tok_start` is never set, it is NULL, so that 205-207 does nothing -/
def parseTag (l : List Ch) : Res (Str × List Ch) := if maybeTagBegin (cur l) then tagRun l else .ok ([], l)

/-- `skip_space` xml-parse.c:214-221 -/
def skipSpace (l : List Ch) : List Ch := l.dropWhile fun c => isSpace c.cp

/-- `expect` xml-parse.c:223-236: compares characters with bytes -/
def expect : Str → List Ch → Res (List Ch)
  | [], l => .ok l
  | b :: bs, l => if cur l ≠ b then .fail else expect bs l.tail

/-- `digit_val` xml-parse.c:238-244 -/
def digitVal (c : Nat) : Nat := Utf8.digitValue c

/-- `read_num` xml-parse.c:246-259, in `unsigned` -/
def readNum (base : Nat) : List Ch → Nat → Nat × List Ch
  | [], n => (n, [])
  | c :: cs, n => if digitVal c.cp ≥ base then (n, c :: cs) else readNum base cs ((n * base + digitVal c.cp) % 2 ^ 32)

/-- xml-parse.c:274-307: what follows `&`: the character, and where the `;` is -/
def entity (l : List Ch) : Res (Nat × List Ch) :=
  (if cur l = 0x71 then (expect [0x71, 0x75, 0x6f, 0x74] l).bind fun l => .ok (0x22, l)
   else if cur l = 0x6c then (expect [0x6c, 0x74] l).bind fun l => .ok (0x3c, l)
   else if cur l = 0x67 then (expect [0x67, 0x74] l).bind fun l => .ok (0x3e, l)
   else if cur l = 0x61 then
     if cur l.tail = 0x6d then (expect [0x6d, 0x70] l.tail).bind fun l => .ok (0x26, l)
     else (expect [0x70, 0x6f, 0x73] l.tail).bind fun l => .ok (0x27, l)
   else if cur l = 0x23 then
     if cur l.tail = 0x78 ∨ cur l.tail = 0x58 then .ok (readNum 16 l.tail.tail 0) else .ok (readNum 10 l.tail 0)
   else Res.fail).bind fun r => if cur r.2 ≠ 0x3b then .fail else .ok r

/-- number of bytes -/
def bytesOf (l : List Ch) : Nat := (l.map fun c => c.bs.length).sum

/-- `parse_text` xml-parse.c:261-325; `gap`: `p->loc - dst` -/
def textLoop (delim : Nat) : Nat → Nat → List Ch → Res (Str × List Ch)
  | 0, _, _ => .stuck
  | n + 1, gap, l =>
    if cur l = delim ∨ cur l = 0x3c ∨ cur l = 0 then .ok ([], l)
    else (if cur l = 0x26 then entity l.tail else .ok (cur l, l)).bind fun q =>
      if Utf8.utf8Ok q.1 = false then .fail
      else match Utf8.encode (gap + (bytesOf l - bytesOf q.2.tail)) q.1 with
        | none => .crash
        | some [] => .crash
        | some bs =>
          (textLoop delim n (gap + (bytesOf l - bytesOf q.2.tail) - bs.length) q.2.tail).bind fun r => .ok (bs ++ r.1, r.2)

def parseText (delim : Nat) (l : List Ch) : Res (Str × List Ch) := textLoop delim (l.length + 1) 0 l

/-- `parse_scoped_name` xml-parse.c:342-355: prefix, name, rest -/
def scopedName (l : List Ch) : Res (Option Str × Str × List Ch) :=
  (parseTag l).bind fun r =>
    if cur r.2 = 0x3a then (parseTag r.2.tail).bind fun q => .ok (some r.1, q.1, q.2) else .ok (none, r.1, r.2)

/-- `cp_xml_t` of type `CP_XML_ATTR` -/
structure Attr where
  pfx : Option Str
  name : Str
  val : Option Str
  deriving Repr, DecidableEq

/-- `parse_attr` xml-parse.c:357-409 -/
def parseAttr (l : List Ch) : Res (Option Attr × List Ch) :=
  let l := skipSpace l
  if cur l = 0 ∨ cur l = 0x2f ∨ cur l = 0x3e ∨ cur l = 0x3f then .ok (none, l)
  else (scopedName l).bind fun r =>
    if cur r.2.2 ≠ 0x3d then .ok (some ⟨r.1, r.2.1, none⟩, r.2.2)
    else
      let d := cur r.2.2.tail
      if d ≠ 0x22 ∧ d ≠ 0x27 then .fail
      else (parseText d r.2.2.tail.tail).bind fun t =>
        if cur t.2 ≠ d then .fail else .ok (some ⟨r.1, r.2.1, some t.1⟩, t.2.tail)

/-- `ns_map` and `ns_default` of `ctxt_t`, xml-parse.c:28-32; the value of an attribute may be missing -/
structure Env where
  map : List (Str × Option Str)
  dflt : Option Str
  deriving Repr, DecidableEq

/-- `"xmlns"` -/
def xmlns : Str := [0x78, 0x6d, 0x6c, 0x6e, 0x73]

/-- `parse_attr_list` xml-parse.c:411-436.  An attribute of which nothing was read is read again and again (until memory is
exhausted).  `attr->child->data` (430) is an access to NULL if there is no value. -/
def attrList : Nat → Env → List Ch → Res (Env × List Attr × List Ch)
  | 0, _, _ => .stuck
  | n + 1, env, l =>
    (parseAttr l).bind fun r =>
      match r.1 with
      | none => .ok (env, [], r.2)
      | some a =>
        if r.2.length = l.length then .hang
        else if a.pfx = some xmlns then attrList n ⟨(a.name, a.val) :: env.map, env.dflt⟩ r.2
        else if a.pfx = none ∧ a.name = xmlns then
          match a.val with
          | none => .crash
          | some v => attrList n ⟨env.map, some v⟩ r.2
        else (attrList n env r.2).bind fun q => .ok (q.1, a :: q.2.1, q.2.2)

/-- `skip_comment` xml-parse.c:438-448; it does not stop at the end of the file -/
def skipComment : List Ch → Res (List Ch)
  | [] => .hang
  | c :: cs => if c.cp = 0x2d ∧ peek (c :: cs) = 0x2d then expect [0x2d, 0x2d, 0x3e] (c :: cs) else skipComment cs

/-- `find_ns` xml-parse.c:520-542 -/
def findNs (env : Env) (pfx : Option Str) (isElem : Bool) : Res (Option Str) :=
  match pfx with
  | none => .ok (if isElem then env.dflt else none)
  | some p =>
    match env.map.find? (fun x => x.1 == p) with
    | none => .fail
    | some (_, none) => .crash
    | some (_, some v) => .ok (some v)

/-- `cp_xml_t`: prefix, name, namespace -/
inductive Nd where
  | attr (pfx : Option Str) (name : Str) (ns : Option Str) (val : Option Str)
  | elem (pfx : Option Str) (name : Str) (ns : Option Str) (child : List Nd)
  | cdata (text : Str)
  deriving Repr

/-- the loop of `resolve_ns` over the attributes, xml-parse.c:550-553 -/
def resolveAttrs (env : Env) : List Attr → Res (List Nd)
  | [] => .ok []
  | a :: l => (findNs env a.pfx false).bind fun ns => (resolveAttrs env l).bind fun q => .ok (.attr a.pfx a.name ns a.val :: q)

/-- `charpp_chomp` xml-parse.c:648-685 -/
def chompStr (s : Str) : Res Str :=
  if (charsOf s).2 then .crash
  else .ok (((skipSpace (charsOf s).1).reverse.dropWhile fun c => isSpace c.cp).reverse.flatMap (·.bs))

/-- `cp_xml_chomp` xml-parse.c:691-712 -/
def chomp : List Nd → Res (List Nd)
  | [] => .ok []
  | .cdata t :: l => (chompStr t).bind fun t => (chomp l).bind fun q => .ok (if t = [] then q else .cdata t :: q)
  | x :: l => (chomp l).bind fun q => .ok (x :: q)

/-- end tag, xml-parse.c:497-503; prefix and name of the element -/
def endTag (tag : Option Str × Str) (l : List Ch) : Res (List Ch) :=
  (match tag.1 with
   | none => Res.ok l
   | some p => (expect p l).bind (expect [0x3a])).bind fun l =>
  (expect tag.2 l).bind fun l => expect [0x3e] (skipSpace l)

mutual
/-- `parse_content` xml-parse.c:458-486 -/
def content (opt : Bool) : Nat → Env → List Ch → Res (Option Nd × List Ch)
  | 0, _, _ => .stuck
  | n + 1, env, l =>
    if cur l = 0 then .ok (none, l)
    else if cur l = 0x3c then
      if cur l.tail = 0x21 then ((expect [0x21, 0x2d, 0x2d] l.tail).bind skipComment).bind (content opt n env)
      else (elem opt n env l.tail).bind fun r => .ok (some r.1, r.2)
    else (parseText 0x3c l).bind fun r => .ok (some (.cdata r.1), r.2)
/-- `parse_elem` xml-parse.c:559-595; `opt`: `CP_XML_OPT_CHOMP` -/
def elem (opt : Bool) : Nat → Env → List Ch → Res (Nd × List Ch)
  | 0, _, _ => .stuck
  | n + 1, env, l =>
    (scopedName l).bind fun r =>
    (attrList (r.2.2.length + 1) env r.2.2).bind fun a =>
    (findNs a.1 r.1 true).bind fun ns =>
    (resolveAttrs a.1 a.2.1).bind fun as =>
    if cur a.2.2 = 0x2f then (expect [0x2f, 0x3e] a.2.2).bind fun l => .ok (.elem r.1 r.2.1 ns as, l)
    else (expect [0x3e] a.2.2).bind fun l =>
      (contentList opt n a.1 (some (r.1, r.2.1)) l).bind fun q =>
      (if opt then chomp (as ++ q.1) else .ok (as ++ q.1)).bind fun c => .ok (.elem r.1 r.2.1 ns c, q.2)
/-- `parse_content_list` xml-parse.c:488-518 -/
def contentList (opt : Bool) : Nat → Env → Option (Option Str × Str) → List Ch → Res (List Nd × List Ch)
  | 0, _, _, _ => .stuck
  | n + 1, env, tag, l =>
    match (if cur l = 0x3c ∧ peek l = 0x2f then tag else none) with
    | some t => (endTag t l.tail.tail).bind fun l => .ok ([], l)
    | none =>
      (content opt n env l).bind fun r =>
        match r.1 with
        | none => if tag.isSome then .fail else .ok ([], r.2)
        | some x => (contentList opt n env tag r.2).bind fun q => .ok (x :: q.1, q.2)
end

/-- `"xml"` -/
def xmlTag : Str := [0x78, 0x6d, 0x6c]

/-- `"!DOCTYPE"` -/
def doctype : Str := [0x21, 0x44, 0x4f, 0x43, 0x54, 0x59, 0x50, 0x45]

/-- xml-parse.c:608-619: the declaration -/
def declaration (l : List Ch) : Res (Env × List Attr × List Ch) :=
  if cur l = 0x3c ∧ peek l = 0x3f then
    (parseTag l.tail.tail).bind fun r =>
      if r.1 ≠ xmlTag then .fail
      else (attrList (r.2.length + 1) ⟨[], none⟩ r.2).bind fun a =>
        (expect [0x3f, 0x3e] a.2.2).bind fun l => .ok (a.1, a.2.1, l)
  else .ok (⟨[], none⟩, [], l)

/-- xml-parse.c:622-632: the document type -/
def skipDoctype (l : List Ch) : Res (List Ch) :=
  if cur l = 0x3c ∧ doctype <+: l.tail.flatMap (·.bs) then
    (expect (0x3c :: doctype) l).bind fun l =>
      let l := l.dropWhile fun c => c.cp != 0x3e
      if l = [] then .fail else .ok (skipSpace l.tail)
  else .ok l

/-- `parse_doc` xml-parse.c:597-646; the nodes below the document -/
def parseDoc (opt : Bool) (l : List Ch) : Res (List Nd) :=
  let l := if cur l = 0xfeff then l.tail else l
  (declaration l).bind fun d =>
  (skipDoctype (skipSpace d.2.2)).bind fun l =>
  (contentList opt (2 * l.length + 2) d.1 none l).bind fun q =>
  (chomp q.1).bind fun b =>
    match b with
    | [.elem p n ns c] => .ok (d.2.1.map (fun a => .attr a.pfx a.name none a.val) ++ [.elem p n ns c])
    | _ => .fail

/-- `cp_xml_parse` xml-parse.c:717-743 -/
def xmlParse (opt : Bool) (file : Str) : Res (List Nd) :=
  if (charsOf file).2 then .fail else parseDoc opt (charsOf file).1

end Hob3l.Xml
