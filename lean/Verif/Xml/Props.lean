import Verif.Xml.LemmasDoc
import Verif.Xml.LemmasSteps

/-!
C97, C98, C99.
-/

namespace Hob3l.Xml

/-! equality of trees can be computed -/

mutual
def Nd.decEq : (a b : Nd) → Decidable (a = b)
  | .attr p n s v, .attr p' n' s' v' =>
    if h : p = p' ∧ n = n' ∧ s = s' ∧ v = v' then .isTrue (by obtain ⟨rfl, rfl, rfl, rfl⟩ := h; rfl)
    else .isFalse (by intro e; cases e; exact h ⟨rfl, rfl, rfl, rfl⟩)
  | .elem p n s c, .elem p' n' s' c' =>
    match Nds.decEq c c' with
    | .isFalse hc => .isFalse (by intro e; cases e; exact hc rfl)
    | .isTrue hc =>
      if h : p = p' ∧ n = n' ∧ s = s' then .isTrue (by obtain ⟨rfl, rfl, rfl⟩ := h; rw [hc])
      else .isFalse (by intro e; cases e; exact h ⟨rfl, rfl, rfl⟩)
  | .cdata t, .cdata t' =>
    if h : t = t' then .isTrue (by rw [h]) else .isFalse (by intro e; cases e; exact h rfl)
  | .attr .., .elem .. => .isFalse (by intro e; cases e)
  | .attr .., .cdata .. => .isFalse (by intro e; cases e)
  | .elem .., .attr .. => .isFalse (by intro e; cases e)
  | .elem .., .cdata .. => .isFalse (by intro e; cases e)
  | .cdata .., .attr .. => .isFalse (by intro e; cases e)
  | .cdata .., .elem .. => .isFalse (by intro e; cases e)
def Nds.decEq : (a b : List Nd) → Decidable (a = b)
  | [], [] => .isTrue rfl
  | [], _ :: _ => .isFalse (by intro e; cases e)
  | _ :: _, [] => .isFalse (by intro e; cases e)
  | x :: a, y :: b =>
    match Nd.decEq x y, Nds.decEq a b with
    | .isTrue h, .isTrue h' => .isTrue (by rw [h, h'])
    | .isFalse h, _ => .isFalse (by intro e; cases e; exact h rfl)
    | _, .isFalse h => .isFalse (by intro e; cases e; exact h rfl)
end
instance : DecidableEq Nd := Nd.decEq

/-- bytes of a string, for examples -/
def bytes (s : String) : Str := s.toList.map Char.toNat

/-- C97: a well-formed ASCII document is read as the tree that it denotes, or rejected if a prefix is not declared.
Missing: characters outside of ASCII, comments directly before end tags, the prefix `xml`, which the code gets wrong (below);
processing instructions, CDATA sections and document types with an internal subset, which the code does not know. -/
theorem C97_documents_partial (opt : Bool) (d : CDoc) (h : d.Ok) :
    xmlParse opt d.show = match d.mean opt with
      | some t => .ok t
      | none => .fail := by
  have ha := charsOf_ascii _ (ascii_doc h)
  unfold xmlParse
  rw [ha]
  simp only [Bool.false_eq_true, if_false]
  rw [parseDoc_ok opt d h]
  cases d.mean opt <;> rfl

/-- `<?xml version="1.0"?> <!DOCTYPE svg><!--c--><s:svg xmlns:s='u&#65;' s:w="1&lt;2"> a <b/></s:svg >` -/
def sampleDoc : CDoc where
  decl := some ([⟨bytes " ", none, bytes "version", true, [.raw 0x31, .raw 0x2e, .raw 0x30]⟩], [])
  ws := bytes " "
  doctype := some (bytes " svg", [])
  before := [.comment (bytes "c")]
  root := .elem (some (bytes "s")) (bytes "svg")
    [⟨bytes " ", some xmlns, bytes "s", false, [.raw 0x75, .dec [6, 5]]⟩,
     ⟨bytes " ", some (bytes "s"), bytes "w", true, [.raw 0x31, .lt, .raw 0x32]⟩]
    [] [.text [.raw 0x20, .raw 0x61, .raw 0x20], .empty none (bytes "b") [] []] (bytes " ")
  after := []

example : sampleDoc.Ok := by
  constructor
  · intro as ws h
    cases h
    simp [AttrOk, NameOk, IsName, IsNameStart, IsNameChar, IsBlank, bytes, Piece.Fits, CAttr.isDecl, xmlns, quoteOf]
  · simp [sampleDoc, bytes, IsBlank]
  · intro s ws h
    cases h
    simp [bytes]
  · intro c h
    cases h
    rfl
  · simp [sampleDoc, Oks, CItem.Ok, CommentOk, bytes, AttrOk, NameOk, IsName, IsNameStart, IsNameChar, IsBlank, Piece.Fits, xmlns,
      quoteOf, Apart, CItem.isText, CItem.isComment, Utf8.CodePoint, ofDigits, Piece.code, List.infix_cons_iff, List.cons_prefix_cons]
  · simp [sampleDoc, CItem.Aside]
  · simp [sampleDoc, Apart, CItem.isText]
  · rfl

example : sampleDoc.mean true = some [.attr none (bytes "version") none (some (bytes "1.0")),
    .elem (some (bytes "s")) (bytes "svg") (some (bytes "uA")) [.attr (some (bytes "s")) (bytes "w") (some (bytes "uA")) (some (bytes "1<2")),
      .cdata (bytes "a"), .elem none (bytes "b") none []]] := by decide +kernel

/-- C97, the other direction for the top of a document: elements, comments and texts that are each well-formed, but among which
there is no element or more than one, are rejected -/
theorem C97_one_root (opt : Bool) (l : List CItem) (hl : l ≠ []) (h : Oks l) (ha : Apart l)
    (hf : ∀ c, l.head? = some c → c.isText = false) (hn : l.countP CItem.isElem ≠ 1) : xmlParse opt (shows l) = .fail := by
  unfold xmlParse
  rw [charsOf_ascii _ (ascii_items l h)]
  simp only [Bool.false_eq_true, if_false]
  exact parseDoc_items opt l hl h ha hf hn

/-- `<a/><b/>` -/
example : ([.empty none (bytes "a") [] [], .empty none (bytes "b") [] []] : List CItem).countP CItem.isElem ≠ 1
    ∧ shows [.empty none (bytes "a") [] [], .empty none (bytes "b") [] []] = bytes "<a/><b/>"
    ∧ Oks [.empty none (bytes "a") [] [], .empty none (bytes "b") [] []] :=
  ⟨by decide, by decide +kernel, by
    simp [Oks, CItem.Ok, NameOk, IsName, IsNameStart, IsNameChar, bytes]⟩

/-- C97 fails: a comment directly before the end tag is rejected -/
theorem C97_comment_wrong : xmlParse true (bytes "<a><!-- c --></a>") = .fail
    ∧ (CItem.elem none (bytes "a") [] [] [.comment (bytes " c ")] []).show = bytes "<a><!-- c --></a>"
    ∧ (CItem.elem none (bytes "a") [] [] [.comment (bytes " c ")] []).mean true ⟨[], none⟩ = some [.elem none (bytes "a") none []] :=
  ⟨by decide +kernel, by decide +kernel, by decide +kernel⟩

/-- C97 fails: the prefix `xml` need not be declared (Namespaces in XML, section 3), but is rejected -/
theorem C97_xml_prefix_wrong : xmlParse true (bytes "<a xml:space='p'/>") = .fail := by decide +kernel

/-- C97 fails outside of ASCII: an element named U+00E9 with an end tag is rejected, without one it is accepted; the text U+0101
is read as U+0181 -/
theorem C97_nonascii_wrong :
    xmlParse true ([0x3c, 0xc3, 0xa9, 0x3e] ++ [0x3c, 0x2f, 0xc3, 0xa9, 0x3e]) = .fail
    ∧ xmlParse true ([0x3c, 0xc3, 0xa9, 0x2f, 0x3e]) = .ok [.elem none [0xc3, 0xa9] none []]
    ∧ xmlParse true (bytes "<a>" ++ utf8 0x101 ++ bytes "</a>") = .ok [.elem none (bytes "a") none [.cdata (utf8 0x181)]] :=
  ⟨by decide +kernel, by decide +kernel, by decide +kernel⟩

/-- C97, the other direction, fails: documents that are not XML are accepted: elements without names, and a character number that
is too large -/
theorem C97_lenient_wrong : xmlParse true (bytes "<></>") = .ok [.elem none [] none []]
    ∧ xmlParse true (bytes "<a>&#4294967361;</a>") = .ok [.elem none (bytes "a") none [.cdata (bytes "A")]] := ⟨by decide +kernel, by decide +kernel⟩

/-- C98: wherever in a file a text is read, up to whatever delimiter, the decoded text fits into the bytes that have been read: the
assertion of the code does not fail and nothing that has not been read yet is overwritten -/
theorem C98_text_in_place (file : Str) (delim : Nat) (l : List Ch) (h : l <:+ (charsOf file).1) :
    parseText delim l ≠ .crash
    ∧ ∀ t r, parseText delim l = .ok (t, r) → r <:+ l ∧ t.length ≤ ((l.take (l.length - r.length)).flatMap (·.bs)).length := by
  have hr : Roomy l := roomy_suffix (chars_roomy _ file) h
  have hs := textLoop_safe delim (l.length + 1) 0 l hr
  refine ⟨fun e => ?_, fun t r e => ?_⟩
  · unfold parseText at e
    rw [e] at hs
    exact hs
  · unfold parseText at e
    rw [e] at hs
    obtain ⟨⟨u, rfl⟩, h2⟩ := hs
    refine ⟨⟨u, rfl⟩, ?_⟩
    have : (u ++ r).length - r.length = u.length := by simp
    rw [this, List.take_left]
    simp only [bytesOf, List.map_append, List.sum_append, Nat.zero_add] at h2
    rw [List.length_flatMap]
    omega

/-- the hypothesis is met by every position in a file; here behind `<a>` in `<a>&#x20ac;</a>`, where three bytes are written for
eight -/
example : (charsOf (bytes "<a>&#x20ac;</a>")).1.drop 3 <:+ (charsOf (bytes "<a>&#x20ac;</a>")).1
    ∧ parseText 0x3c ((charsOf (bytes "<a>&#x20ac;</a>")).1.drop 3)
      = .ok ([0xe2, 0x82, 0xac], (charsOf (bytes "<a>&#x20ac;</a>")).1.drop 11) :=
  ⟨List.drop_suffix _ _, by decide +kernel⟩

/-- C99 fails: the parser does not end on `<svg`, on an unfinished comment and on `<a "x">`; it accesses NULL on `<a xmlns>` and on
`<a xmlns:x x:y='1'>`; an assertion fails on `<a>&#x100000;</a>` -/
theorem C99_wrong : xmlParse true (bytes "<svg") = .hang
    ∧ xmlParse true (bytes "<a><!-- c ") = .hang
    ∧ xmlParse true (bytes "<a \"x\">") = .hang
    ∧ xmlParse true (bytes "<a xmlns>") = .crash
    ∧ xmlParse true (bytes "<a xmlns:x x:y='1'>") = .crash
    ∧ xmlParse true (bytes "<a>&#x100000;</a>") = .crash := ⟨by decide +kernel, by decide +kernel, by decide +kernel, by decide +kernel, by decide +kernel, by decide +kernel⟩

/-- C99, what holds for every file: apart from the three loops that do not stop at the end of the file (`hang`) and the accesses
and assertions of `C99_wrong` (`crash`), the parser ends with a tree or a message; none of the other loops and recursions goes on
for ever.  Missing: `hang` and `crash` do not happen, which is false. -/
theorem C99_ends_partial (opt : Bool) (file : Str) :
    (∃ t, xmlParse opt file = .ok t) ∨ xmlParse opt file = .fail ∨ xmlParse opt file = .hang ∨ xmlParse opt file = .crash := by
  unfold xmlParse
  split
  · exact Or.inr (Or.inl rfl)
  · have := parseDoc_fine opt (charsOf file).1
    revert this
    cases parseDoc opt (charsOf file).1 with
    | ok t => exact fun _ => Or.inl ⟨t, rfl⟩
    | fail => exact fun _ => Or.inr (Or.inl rfl)
    | hang => exact fun _ => Or.inr (Or.inr (Or.inl rfl))
    | crash => exact fun _ => Or.inr (Or.inr (Or.inr rfl))
    | stuck => exact fun h => h.elim

end Hob3l.Xml
