import Verif.Stl.LemmasText

namespace Hob3l.Stl

/-- at the first of the words `ws`, with `tail` behind the last of them -/
def Pos (tail : List Nat) (ws : List (Tok × List Nat)) (s : Lex) : Prop :=
  ∃ t u ws' text x r, ws = (t, u) :: ws' ∧ Written ws' text ∧ x :: r = text ++ tail ∧ s = ⟨x, 0, r, t, u⟩

theorem written_stop {ws : List (Tok × List Nat)} {text : List Nat} (h : Written ws text) {tail : List Nat} {x : Nat} {r : List Nat}
    (ht : ∃ y t, tail = y :: t ∧ Stop y) (hx : x :: r = text ++ tail) : Stop x := by
  cases h with
  | nil =>
    obtain ⟨y, t, rfl, hy⟩ := ht
    simp only [List.nil_append, List.cons.injEq] at hx
    rw [hx.1]; exact hy
  | cons sep w t u ws text hne hs _ _ =>
    cases sep with
    | nil => exact absurd rfl hne
    | cons c sep =>
      simp only [List.cons_append, List.append_assoc, List.cons.injEq] at hx
      rw [hx.1]
      have := hs c (by simp)
      unfold Stop; omega

theorem word_tok {w : List Nat} {t : Tok} {u : List Nat} (h : Word w t u) : t ≠ .error := by
  cases h <;> simp

/-- going from white space to the first word -/
theorem pos_first (tail : List Nat) (ht : ∃ y t, tail = y :: t ∧ Stop y) (ws : List (Tok × List Nat)) (text : List Nat)
    (hw : Written ws text) (hne : ws ≠ []) (cur here : Nat) (ahead : List Nat) (tok : Tok) (str : List Nat) (htok : tok ≠ .error)
    (h : cur :: ahead = text ++ tail) : Pos tail ws (tokNext ⟨cur, here, ahead, tok, str⟩) := by
  cases hw with
  | nil => exact absurd rfl hne
  | cons sep w t u ws' text' hsne hs hw hws =>
    obtain ⟨y, ty, hy⟩ : ∃ y ty, text' ++ tail = y :: ty := by
      obtain ⟨y, t', rfl, _⟩ := ht
      obtain ⟨a, b, e, _⟩ := head_app text' y t'
      exact ⟨a, b, e⟩
    have hst := written_stop hws ht hy.symm
    refine ⟨t, u, ws', text', y, ty, rfl, hws, hy.symm, ?_⟩
    exact tok_word sep w t u hs hsne hw cur here ahead y ty tok str htok
      (by rw [h, ← hy]; simp) hst

theorem pos_tok {tail : List Nat} {t : Tok} {u : List Nat} {ws : List (Tok × List Nat)} {s : Lex} (h : Pos tail ((t, u) :: ws) s) :
    s.tok = t ∧ s.str = u := by
  obtain ⟨t', u', ws', text, x, r, e, _, _, rfl⟩ := h
  simp only [List.cons.injEq, Prod.mk.injEq] at e
  exact ⟨e.1.1.symm, e.1.2.symm⟩

/-- the next word -/
theorem pos_next {tail : List Nat} (ht : ∃ y t, tail = y :: t ∧ Stop y) {t : Tok} {u : List Nat} {ws : List (Tok × List Nat)}
    {s : Lex} (hne : ws ≠ []) (htok : t ≠ .error) (h : Pos tail ((t, u) :: ws) s) :
    expect t s = .ok (tokNext s) ∧ Pos tail ws (tokNext s) := by
  obtain ⟨t', u', ws', text, x, r, e, hw, hx, rfl⟩ := h
  simp only [List.cons.injEq, Prod.mk.injEq] at e
  obtain ⟨⟨rfl, rfl⟩, rfl⟩ := e
  constructor
  · unfold expect; rw [if_pos rfl]
  · exact pos_first tail ht _ text hw hne x 0 r _ _ htok hx

section
variable {V F : Type} (eq : V → V → Bool) (strtod : List Nat → F) (vec : F → F → F → V)

/-- the point of three texts -/
def vecOf (v : List Nat × List Nat × List Nat) : V := vec (strtod v.1) (strtod v.2.1) (strtod v.2.2)

theorem vec3_pos {tail : List Nat} (ht : ∃ y t, tail = y :: t ∧ Stop y) (v : List Nat × List Nat × List Nat)
    {ws : List (Tok × List Nat)} (hne : ws ≠ []) {s : Lex} (h : Pos tail (nums v ++ ws) s) :
    ∃ s', parseVec3 strtod vec s = .ok (vecOf strtod vec v, s') ∧ Pos tail ws s' := by
  unfold nums at h
  simp only [List.cons_append, List.nil_append] at h
  obtain ⟨a1, b1⟩ := pos_next ht (by simp) (by simp) h
  obtain ⟨a2, b2⟩ := pos_next ht (by simp) (by simp) b1
  obtain ⟨a3, b3⟩ := pos_next ht hne (by simp) b2
  refine ⟨_, ?_, b3⟩
  unfold parseVec3 parseFloat
  simp only [a1, a2, a3, bind_ok, (pos_tok h).2, (pos_tok b1).2, (pos_tok b2).2]
  rfl

theorem vertex_pos {tail : List Nat} (ht : ∃ y t, tail = y :: t ∧ Stop y) (v : List Nat × List Nat × List Nat)
    {ws : List (Tok × List Nat)} (hne : ws ≠ []) {s : Lex} (poly : Poly V) (h : Pos tail (kw .vertex :: (nums v ++ ws)) s) :
    ∃ s', parseVertex eq strtod vec poly s = .ok ((insertPoint eq poly.points (vecOf strtod vec v)).2,
      { poly with points := (insertPoint eq poly.points (vecOf strtod vec v)).1 }, s') ∧ Pos tail ws s' := by
  obtain ⟨a1, b1⟩ := pos_next ht (by simp [nums]) (by simp) h
  obtain ⟨s', a2, b2⟩ := vec3_pos strtod vec ht v hne b1
  refine ⟨s', ?_, b2⟩
  unfold parseVertex
  simp only [a1, a2, bind_ok]

theorem facet_pos {tail : List Nat} (ht : ∃ y t, tail = y :: t ∧ Stop y) (f : Facet)
    {ws : List (Tok × List Nat)} (hne : ws ≠ []) {s : Lex} (poly : Poly V) (h : Pos tail (f.words ++ ws) s) :
    ∃ s', parseFacet eq strtod vec poly s = .ok (addTri eq poly (f.triangle strtod vec), s') ∧ Pos tail ws s' := by
  unfold Facet.words at h
  simp only [List.cons_append, List.append_assoc, List.nil_append] at h
  obtain ⟨a1, b1⟩ := pos_next ht (by simp) (by simp) h
  obtain ⟨a2, b2⟩ := pos_next ht (by simp [nums]) (by simp) b1
  obtain ⟨s3, a3, b3⟩ := vec3_pos strtod vec ht _ (by simp) b2
  obtain ⟨a4, b4⟩ := pos_next ht (by simp) (by simp) b3
  obtain ⟨a5, b5⟩ := pos_next ht (by simp) (by simp) b4
  obtain ⟨s6, a6, b6⟩ := vertex_pos eq strtod vec ht _ (by simp) poly b5
  obtain ⟨s7, a7, b7⟩ := vertex_pos eq strtod vec ht _ (by simp)
    { poly with points := (insertPoint eq poly.points (vecOf strtod vec f.a)).1 } b6
  obtain ⟨s8, a8, b8⟩ := vertex_pos eq strtod vec ht _ (by simp)
    { poly with points := (insertPoint eq (insertPoint eq poly.points (vecOf strtod vec f.a)).1 (vecOf strtod vec f.b)).1 } b7
  obtain ⟨a9, b9⟩ := pos_next ht (by simp) (by simp) b8
  obtain ⟨a10, b10⟩ := pos_next ht hne (by simp) b9
  refine ⟨_, ?_, b10⟩
  unfold parseFacet
  simp only [a1, a2, a3, a4, a5, a6, a7, a8, a9, a10, bind_ok]
  rfl

theorem facets_pos {tail : List Nat} (ht : ∃ y t, tail = y :: t ∧ Stop y) (facets : List Facet) :
    ∀ (fuel : Nat) (s : Lex) (poly : Poly V), facets.length < fuel → Pos tail (facets.flatMap Facet.words ++ [kw .endsolid]) s →
    ∃ s', parseFacets eq strtod vec fuel poly s = .ok ((facets.map (Facet.triangle strtod vec)).foldl (addTri eq) poly, s')
      ∧ Pos tail [kw .endsolid] s' := by
  induction facets with
  | nil =>
    intro fuel s poly hf h
    obtain ⟨fuel, rfl⟩ : ∃ k, fuel = k + 1 := ⟨fuel - 1, by simp at hf; omega⟩
    refine ⟨s, ?_, h⟩
    have : s.tok = .key .endsolid := (pos_tok h).1
    simp [parseFacets, this]
  | cons f fs ih =>
    intro fuel s poly hf h
    obtain ⟨fuel, rfl⟩ : ∃ k, fuel = k + 1 := ⟨fuel - 1, by simp at hf; omega⟩
    simp only [List.flatMap_cons, List.append_assoc] at h
    have htok : s.tok = .key .facet := by
      have h' := h
      unfold Facet.words at h'
      exact (pos_tok h').1
    obtain ⟨s1, a1, b1⟩ := facet_pos eq strtod vec ht f (by simp) poly h
    obtain ⟨s2, a2, b2⟩ := ih fuel s1 (addTri eq poly (f.triangle strtod vec)) (by simp at hf; omega) b1
    refine ⟨s2, ?_, b2⟩
    simp only [parseFacets]
    rw [if_pos htok, a1, bind_ok, a2]
    rfl

end

theorem written_len {ws : List (Tok × List Nat)} {text : List Nat} (h : Written ws text) : ws.length ≤ text.length := by
  induction h with
  | nil => simp
  | cons sep w t u ws text hne _ _ _ ih =>
    have : 0 < sep.length := List.length_pos_iff.2 hne
    simp; omega

theorem words_len (facets : List Facet) : facets.length ≤ (facets.flatMap Facet.words).length := by
  induction facets with
  | nil => simp
  | cons f fs ih =>
    rw [List.flatMap_cons, List.length_append, List.length_cons]
    have : 0 < f.words.length := by simp [Facet.words]
    omega

/-- nothing but white space is left -/
def Blank (s : Lex) : Prop := ∃ sp, Space sp ∧ s.cur :: s.ahead = sp ++ [0] ∧ (s.here = s.cur ∨ s.here = 0)

theorem blank_next {s : Lex} (h : Blank s) : Blank (lexNext s) := by
  obtain ⟨sp, hs, e, hh⟩ := h
  obtain ⟨cur, here, ahead, tok, str⟩ := s
  simp only at e hh
  cases sp with
  | nil =>
    simp only [List.nil_append, List.cons.injEq] at e
    obtain ⟨rfl, rfl⟩ := e
    exact ⟨[], by simp [Space], rfl, Or.inr (by simp only [lexNext]; omega)⟩
  | cons c sp =>
    simp only [List.cons_append, List.cons.injEq] at e
    obtain ⟨rfl, rfl⟩ := e
    obtain ⟨y, t, hy, _⟩ := head_app sp 0 []
    refine ⟨sp, fun c hc => hs c (by simp [hc]), ?_, ?_⟩
    · simp only [lexNext, hy]
    · simp only [lexNext, hy]; exact Or.inl trivial

theorem blank_line : ∀ (ahead : List Nat) (cur here : Nat) (tok : Tok) (str : List Nat), Blank ⟨cur, here, ahead, tok, str⟩ →
    ∃ r, skipLine cur here ahead = .ok r ∧ Blank ⟨r.1, r.2.1, r.2.2, .string, []⟩
  | [], cur, here, tok, str, h => by
    obtain ⟨sp, hs, e, hh⟩ := h
    simp only at e hh
    have e' : cur = 0 := by
      cases sp with
      | nil => simpa using e
      | cons c sp =>
        have := congrArg List.length e
        simp at this
    refine ⟨(cur, here, []), ?_, ⟨sp, hs, e, hh⟩⟩
    simp only [skipLine]
    rw [if_neg (by omega)]
  | c :: t, cur, here, tok, str, h => by
    simp only [skipLine]
    by_cases hc : here ≠ 10 ∧ here ≠ 0
    · rw [if_pos hc]
      have := blank_next h
      simp only [lexNext] at this
      exact blank_line t c c tok str this
    · rw [if_neg hc]
      obtain ⟨sp, hs, e, hh⟩ := h
      exact ⟨_, rfl, sp, hs, e, hh⟩

theorem blank_eof {s : Lex} (h : Blank s) (ht : s.tok ≠ .error) : (tokNext s).tok = .eof ∧ Blank (tokNext s) := by
  obtain ⟨sp, hs, e, hh⟩ := h
  obtain ⟨cur, here, ahead, tok, str⟩ := s
  simp only at e hh ht
  have he : ∃ here', eat isSpace ⟨cur, here, ahead, tok, str⟩ = ⟨0, here', [], tok, str ++ sp⟩ ∧ here' = 0 := by
    unfold eat
    simp only
    rw [skipWhile_pre isSpace sp cur here ahead 0 [] e (fun c hc => (space_iff c).2 (hs c hc)) (by decide)]
    refine ⟨_, rfl, ?_⟩
    split
    · rename_i h0
      subst h0
      simp only [List.nil_append, List.cons.injEq] at e
      show here = 0
      omega
    · rfl
  obtain ⟨here', he, rfl⟩ := he
  have : tokNext ⟨cur, here, ahead, tok, str⟩ = ⟨0, 0, [], .eof, []⟩ := by
    unfold tokNext tokNextAux
    rw [if_neg ht, he]
    rfl
  rw [this]
  exact ⟨rfl, [], by simp [Space], rfl, Or.inl rfl⟩

theorem blank_tokline {s : Lex} (h : Blank s) (ht : s.tok ≠ .error) : ∃ s', tokNextLine s = .ok s' ∧ s'.tok = .string ∧ Blank s' := by
  unfold tokNextLine
  rw [if_neg ht]
  have h1 := blank_next h
  obtain ⟨r, hr, hb⟩ := blank_line (lexNext s).ahead (lexNext s).cur (lexNext s).here (lexNext s).tok (lexNext s).str h1
  simp only [hr, bind_ok]
  exact ⟨_, rfl, rfl, hb⟩

theorem sieve_not_error (w : List Nat) : sieveId w ≠ .error := by
  have h : ∀ s k, ifKey s k ≠ .error := by
    intro s k; unfold ifKey; split <;> simp
  unfold sieveId
  split
  · repeat' split
    all_goals first | exact h _ _ | simp
  · simp

/-- the end of the file -/
theorem end_ok (tail : List Nat) (ht : Space tail ∨ ∃ sp nm sep, Space sp ∧ sp ≠ [] ∧ Letters nm ∧ nm ≠ [] ∧ Space sep
      ∧ tail = sp ++ nm ++ sep) (s : Lex) (h : Pos (tail ++ [0]) [kw .endsolid] s) :
    ∃ s', tokNextLine (tokNext s) = .ok s' ∧ (tokNext s').tok = .eof := by
  obtain ⟨t, u, ws', text, x, r, e, hw, hx, rfl⟩ := h
  simp only [kw, List.cons.injEq, Prod.mk.injEq] at e
  obtain ⟨⟨rfl, rfl⟩, rfl⟩ := e
  cases hw
  simp only [List.nil_append] at hx
  rcases ht with ht | ⟨sp, nm, sep, hsp, hspne, hnm, hnmne, hsep, rfl⟩
  · obtain ⟨e1, b1⟩ := blank_eof (s := ⟨x, 0, r, .key .endsolid, Key.text .endsolid⟩) ⟨tail, ht, hx, Or.inr rfl⟩ (by simp)
    obtain ⟨s', a, b, c⟩ := blank_tokline b1 (by rw [e1]; simp)
    exact ⟨s', a, (blank_eof c (by rw [b]; simp)).1⟩
  · obtain ⟨y, ty, hy, hy'⟩ := head_app sep 0 []
    obtain ⟨z, tz, hz, hz'⟩ := head_app nm y ty
    have hzl : z ∈ nm := by
      rcases hz' with ⟨e, _⟩ | h
      · exact absurd e hnmne
      · exact h
    have hzs : isSpace z = false := by
      have := hnm z hzl
      rw [← Bool.not_eq_true, space_iff]; omega
    have hya : isAlpha y = false := by
      rw [← Bool.not_eq_true, alpha_iff]
      rcases hy' with ⟨_, rfl⟩ | h
      · omega
      · have := hsep y h; omega
    have hx' : x :: r = sp ++ z :: tz := by
      rw [hx, ← hz, ← hy]; simp
    have e1 : tokNext ⟨x, 0, r, .key .endsolid, Key.text .endsolid⟩ = ⟨y, 0, ty, sieveId nm, nm⟩ := by
      unfold tokNext tokNextAux
      simp only
      rw [if_neg (c := Tok.key Key.endsolid = Tok.error) (by simp), eat_space sp hsp hspne x 0 r z tz _ _ hx' hzs]
      simp only
      rw [word_alpha nm hnm hnmne z tz y ty _ hz.symm hya]
      simp
    rw [e1]
    obtain ⟨s', a, b, c⟩ := blank_tokline (s := ⟨y, 0, ty, sieveId nm, nm⟩) ⟨sep, hsep, hy.symm, Or.inr rfl⟩ (sieve_not_error nm)
    exact ⟨s', a, (blank_eof c (by rw [b]; simp)).1⟩

/-- the header keyword -/
theorem start_solid (c : Nat) (rest : List Nat) (hc : isAlpha c = false) :
    tokNext (start (Key.text .solid ++ c :: rest)) = ⟨c, 0, rest ++ [0], .key .solid, Key.text .solid⟩ := by
  unfold tokNext tokNextAux
  have e : start (Key.text .solid ++ c :: rest) = ⟨0x73, 0x73, [0x6f, 0x6c, 0x69, 0x64] ++ c :: (rest ++ [0]), .eof, []⟩ := by
    simp [start, Key.text]
  rw [e]
  have e2 : eat isSpace ⟨0x73, 0x73, [0x6f, 0x6c, 0x69, 0x64] ++ c :: (rest ++ [0]), .eof, []⟩
      = ⟨0x73, 0x73, [0x6f, 0x6c, 0x69, 0x64] ++ c :: (rest ++ [0]), .eof, []⟩ := by
    unfold eat
    simp only
    rw [skipWhile_pre isSpace [] 0x73 0x73 _ 0x73 ([0x6f, 0x6c, 0x69, 0x64] ++ c :: (rest ++ [0])) rfl (by simp) (by decide)]
    rfl
  simp only
  rw [if_neg (c := Tok.eof = Tok.error) (by simp), e2]
  simp only
  rw [word_alpha (Key.text .solid) (key_letters _).1 (key_letters _).2 0x73 ([0x6f, 0x6c, 0x69, 0x64] ++ c :: (rest ++ [0]))
    c (rest ++ [0]) _ rfl hc]
  simp [sieve_key]

/-- skipping to the end of the line -/
theorem skipLine_to (name : List Nat) (hn : ∀ x ∈ name, x ≠ 10 ∧ x ≠ 0) : ∀ (cur : Nat) (ahead rest : List Nat),
    cur :: ahead = name ++ 10 :: rest → skipLine cur cur ahead = .ok (10, 10, rest) := by
  induction name with
  | nil =>
    intro cur ahead rest h
    simp only [List.nil_append, List.cons.injEq] at h
    obtain ⟨rfl, rfl⟩ := h
    cases ahead <;> simp [skipLine]
  | cons x name ih =>
    intro cur ahead rest h
    simp only [List.cons_append, List.cons.injEq] at h
    obtain ⟨rfl, h⟩ := h
    cases ahead with
    | nil => simp at h
    | cons c t =>
      simp only [skipLine]
      rw [if_pos (hn cur (by simp))]
      exact ih (fun x hx => hn x (by simp [hx])) c t rest h

theorem line_from (c : Nat) (name rest : List Nat) (hn : ∀ x ∈ name, x ≠ 10 ∧ x ≠ 0) (tok : Tok) (str : List Nat) (here : Nat)
    (ht : tok ≠ .error) :
    tokNextLine ⟨c, here, name ++ 10 :: rest, tok, str⟩ = .ok ⟨10, 10, rest, .string, []⟩ := by
  unfold tokNextLine
  rw [if_neg ht]
  obtain ⟨y, t, hy, _⟩ := head_app name 10 rest
  simp only [lexNext, hy]
  rw [skipLine_to name hn y t rest hy.symm, bind_ok]

end Hob3l.Stl
