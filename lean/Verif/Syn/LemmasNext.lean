import Verif.Syn.LemmasLexes
/-! # Lexer: the tokens that remain -/
namespace Hob3l.Syn

/-- The text of the token; it ends in front of the lexer. -/
def TextAt (p : P) (t : Text) : Prop :=
  cstr p.lex.buf p.tok.string = some t ∧ p.tok.string + t.length ≤ p.lex.pos

/-- The tokens behind the current one. -/
def Rest (p : P) (ts : List Token) : Prop := ∃ s g, Inv p.lex s g ∧ Lexes g s ts

/-- The text of an integer token. -/
def IntText (t : Text) : Prop := ∃ d, Digits d ∧ (t = d ∨ t = 45 :: d)

theorem intText_numLex {s : Text} (h : ¬ IsFloat (numLex s)) : IntText (numberText (numLex s)) := by
  rw [isFloat_iff] at h
  have h1 : fracPart (afterInt s) = [] := by
    by_contra h2; exact h (Or.inl h2)
  have h2 : expPart (afterFrac (afterInt s)) = [] := by
    by_contra h2; exact h (Or.inr h2)
  have hd : Digits ((s.drop (sgn s).length).takeWhile isDigit) := digits_takeWhile _
  rw [numberText_eq, numLex, h1, h2, List.append_nil, List.append_nil, intPart]
  refine ⟨_, hd, ?_⟩
  rcases sgn_or s with h3 | h3 | h3 <;> rw [h3] <;> simp

/-- The current token. -/
def TokIs (p : P) : Token → Prop
  | .int t => p.tok.type = tINT ∧ cstr p.lex.buf p.tok.string = some t ∧ p.tok.string + t.length ≤ p.lex.pos ∧ IntText t
  | .float t => p.tok.type = tFLOAT ∧ TextAt p t
  | .id t => p.tok.type = tID ∧ TextAt p t
  | .str t => p.tok.type = tSTRING ∧ TextAt p t
  | .path t => p.tok.type = tPATH ∧ TextAt p t
  | .sym c t => p.tok.type = c ∧ c ≠ 0 ∧ c < 128 ∧ cstr p.lex.buf p.tok.string = some t

/-- The tokens that remain, including the current one; a path is read only when it is needed. -/
def Rem (p : P) : List Token → Prop
  | [] => p.tok.type = tEOF ∧ cstr p.lex.buf p.tok.string = some []
  | t :: ts => (TokIs p t ∧ Rest p ts) ∨
    (∃ b, t = .path b ∧ p.tok.type = ch '<' ∧ ∃ s, Inv p.lex (b ++ 62 :: s) false ∧ 62 ∉ b ∧ 0 ∉ b ∧ Lexes false s ts)

theorem rest_iff {p : P} {s : Text} {g : Bool} (h : Inv p.lex s g) (ts : List Token) : Rest p ts ↔ Lexes g s ts := by
  constructor
  · rintro ⟨s', g', h', hl⟩
    exact (inv_lexes h h').mpr hl
  · intro hl
    exact ⟨s, g, h, hl⟩

theorem tokIs_type {p : P} {t : Token} (h : TokIs p t) :
    p.tok.type ≠ tEOF ∧ p.tok.type ≠ tERROR ∧ p.tok.type ≠ tLCOM ∧ p.tok.type ≠ tBCOM := by
  cases t with
  | sym c t => have h1 := h.1; have h2 := h.2.1; have h3 := h.2.2.1; rw [h1]; simp only [tEOF, tERROR, tLCOM, tBCOM]; omega
  | _ => have h1 := h.1; rw [h1]; decide

theorem tokIs_unique {p : P} {t t' : Token} (h : TokIs p t) (h' : TokIs p t') : t = t' := by
  cases t <;> cases t' <;>
    first
    | (exact absurd (h.1.symm.trans h'.1) (by decide))
    | (have h1 := h.2.1.symm.trans h'.2.1; simp only [Option.some.injEq] at h1; rw [h1]; done)
    | (have h1 : _ = _ := h.1.symm.trans h'.1
       have h2 := h.2.2.2.symm.trans h'.2.2.2
       simp only [Option.some.injEq] at h2; rw [h1, h2]; done)
    | (have h1 : _ = _ := h.1.symm.trans h'.1
       have h2 := h.2.2.1; rw [h1] at h2; exact absurd h2 (by decide))
    | (have h1 : _ = _ := h'.1.symm.trans h.1
       have h2 := h'.2.2.1; rw [h1] at h2; exact absurd h2 (by decide))

theorem rem_error {p : P} (h : p.tok.type = tERROR) (ts : List Token) : ¬ Rem p ts := by
  cases ts with
  | nil => intro h'; exact absurd (h.symm.trans h'.1) (by decide)
  | cons t ts =>
    rintro (⟨h1, -⟩ | ⟨b, -, h1, -⟩)
    · exact (tokIs_type h1).2.1 h
    · exact absurd (h.symm.trans h1) (by decide)

theorem rem_eof {p : P} (h : p.tok.type = tEOF ∧ cstr p.lex.buf p.tok.string = some []) (ts : List Token) : Rem p ts ↔ ts = [] := by
  cases ts with
  | nil => exact ⟨fun _ => rfl, fun _ => h⟩
  | cons t ts =>
    constructor
    · rintro (⟨h1, -⟩ | ⟨b, -, h1, -⟩)
      · exact absurd h.1 (tokIs_type h1).1
      · exact absurd (h.1.symm.trans h1) (by decide)
    · rintro h; cases h

/-- What remains if the current token is known and not the beginning of a path. -/
theorem rem_tok {p : P} {t : Token} (h : TokIs p t) (h60 : p.tok.type ≠ 60) (ts : List Token) :
    Rem p ts ↔ ∃ ts', ts = t :: ts' ∧ Rest p ts' := by
  cases ts with
  | nil =>
    constructor
    · intro h'; exact absurd h'.1 (tokIs_type h).1
    · rintro ⟨ts', h', -⟩; cases h'
  | cons t' ts =>
    constructor
    · rintro (⟨h1, h2⟩ | ⟨b, -, h1, -⟩)
      · exact ⟨ts, by rw [tokIs_unique h h1], h2⟩
      · exact absurd h1 h60
    · rintro ⟨ts', h', h2⟩
      cases h'
      exact Or.inl ⟨h, h2⟩

/-- What `tok_next_aux2` does: a token or the end (`Rem`), or a comment is skipped. -/
structure AuxSpec (l : Lex) (s : Text) (g : Bool) (p' : P) : Prop where
  later : Later l p'.lex
  str : p'.tok.string ≤ p'.lex.pos
  kind : (p'.tok.type = tLCOM ∨ p'.tok.type = tBCOM) ∨ p'.tok.type = tERROR ∨
    (p'.tok.type = tEOF ∧ cstr p'.lex.buf p'.tok.string = some []) ∨
    (∃ t, TokIs p' t ∧ (p'.tok.type = 60 → ∃ s, Inv p'.lex s false))
  inv : ∃ s' g', Inv p'.lex s' g' ∧
    (s'.length < s.length ∨ p'.tok.type = tEOF ∨ p'.tok.type = tERROR) ∧ s'.length ≤ s.length ∧
    (((p'.tok.type = tLCOM ∨ p'.tok.type = tBCOM) ∧ ∀ ts, Lexes g s ts ↔ Lexes g' s' ts) ∨
     ((p'.tok.type ≠ tLCOM ∧ p'.tok.type ≠ tBCOM) ∧ ∀ ts, Rem p' ts ↔ Lexes g s ts))

theorem dropWhile_le (f : Nat → Bool) (s : Text) : (s.dropWhile f).length ≤ s.length := by
  have := congrArg List.length (List.takeWhile_append_dropWhile (p := f) (l := s))
  rw [List.length_append] at this
  omega

theorem aux_error {l l' : Lex} {s s' : Text} {g g' : Bool} {p' : P} (hp : p'.lex = l') (ht : p'.tok.type = tERROR)
    (hl : Later l l') (hstr : p'.tok.string ≤ l'.pos) (hi : Inv l' s' g') (hle : s'.length ≤ s.length) (hn : ∀ ts, ¬ Lexes g s ts) :
    AuxSpec l s g p' := by
  subst hp
  refine ⟨hl, hstr, Or.inr (Or.inl ht), s', g', hi, Or.inr (Or.inr ht), hle, Or.inr ⟨by rw [ht]; decide, ?_⟩⟩
  intro ts
  exact ⟨fun h => absurd h (rem_error ht ts), fun h => absurd h (hn ts)⟩

theorem adv_length {l l' : Lex} {s s' : Text} {g g' : Bool} {k : Nat} (h : Inv l s g) (h' : Inv l' s' g')
    (ha : Adv l l' k) : s'.length + k = s.length := by
  have := h.pos; have := h'.pos; have := ha.pos; have := ha.fin
  omega

theorem later_length {l l' : Lex} {s s' : Text} {g g' : Bool} (h : Inv l s g) (h' : Inv l' s' g')
    (ha : Later l l') : s'.length ≤ s.length := by
  have := h.pos; have := h'.pos; have := ha.pos; have := ha.fin
  omega

theorem tokNumber_spec {l : Lex} {a : Nat} {r : Text} {g : Bool} (h : Inv l (a :: r) g) (ha : BeginsNumber a) :
    ∃ p', tokNumber l = some p' ∧ AuxSpec l (a :: r) g p' := by
  have hh := here_eq h
  have ha0 : a ≠ 0 := by clash
  cases g with
  | true =>
    refine ⟨⟨l, tERROR, l.pos, l.pos⟩, ?_, aux_error rfl rfl (Later.refl l) (Nat.le_refl _) h (Nat.le_refl _) ?_⟩
    · unfold tokNumber
      rw [hh]; rfl
    · intro ts hl
      rw [lexes_number ha] at hl
      exact absurd hl.1 (by simp)
  | false =>
    obtain ⟨l', e1, i1, t1, p1, b1⟩ := lexNumber_spec h
    have hsplit := num_split (a :: r)
    obtain ⟨q, hq⟩ := numLex_cons (s := r) ha
    have hlen : (afterNum (a :: r)).length < (a :: r).length := by
      have := congrArg List.length hsplit
      rw [List.length_append, hq] at this
      simp only [List.length_cons] at this ⊢
      omega
    have htext : TextAt ⟨l', if decide (IsFloat (numLex (a :: r))) then tFLOAT else tINT,
          l.pos + (if sgn (a :: r) = [43] then 1 else 0), l.pos⟩ (numberText (numLex (a :: r))) := by
        have hz := numLex_zero (a :: r)
        have hb : l.buf.drop l.pos = numLex (a :: r) ++ (afterNum (a :: r) ++ [0]) := by
          rw [← List.append_assoc, ← hsplit]; exact h.buf
        unfold TextAt
        dsimp only
        rw [numberText_eq, b1, p1]
        by_cases hs : sgn (a :: r) = [43]
        · rw [if_pos hs, if_pos hs]
          have hl1 : 1 + ((numLex (a :: r)).drop 1).length = (numLex (a :: r)).length := by
            rw [hq]; simp; omega
          have := cstr_set (buf := l.buf) (i := l.pos + 1) (a := (numLex (a :: r)).drop 1)
            (b := afterNum (a :: r) ++ [0]) (by
              rw [← List.drop_drop, hb, List.drop_append_of_le_length (by rw [hq]; simp)]) (by simp)
            (fun h0 => hz (List.mem_of_mem_drop h0))
          rw [Nat.add_assoc, hl1] at this
          exact ⟨this, by omega⟩
        · rw [if_neg hs, if_neg hs]
          exact ⟨cstr_set hb (by simp) hz, by omega⟩
    have htok : TokIs ⟨l', if decide (IsFloat (numLex (a :: r))) then tFLOAT else tINT,
          l.pos + (if sgn (a :: r) = [43] then 1 else 0), l.pos⟩ (numToken (numLex (a :: r))) := by
        unfold numToken
        by_cases hf : IsFloat (numLex (a :: r))
        · rw [if_pos hf]; exact ⟨by simp [hf], htext⟩
        · rw [if_neg hf]; exact ⟨by simp [hf], htext.1, htext.2, intText_numLex hf⟩
    have h60 : (if decide (IsFloat (numLex (a :: r))) then tFLOAT else tINT) ≠ 60 := by split_ifs <;> decide
    refine ⟨⟨l', if decide (IsFloat (numLex (a :: r))) then tFLOAT else tINT,
      l.pos + (if sgn (a :: r) = [43] then 1 else 0), l.pos⟩, ?_, t1, Nat.le_trans (Nat.le_add_right _ _) htext.2,
      Or.inr (Or.inr (Or.inr ⟨_, htok, fun h => absurd h h60⟩)), _, _, i1, Or.inl hlen, Nat.le_of_lt hlen, Or.inr ⟨?_, ?_⟩⟩
    · unfold tokNumber
      simp only [hh, e1, Bool.false_eq_true, if_false, List.headD_cons, Option.bind_eq_bind, Option.bind_some, if_neg ha0]
    · dsimp only
      split_ifs <;> decide
    · intro ts
      rw [rem_tok htok h60, lexes_number ha]
      simp only [true_and]
      exact exists_congr fun ts' => and_congr_right fun _ => rest_iff i1 ts'

theorem tokId_spec {l : Lex} {a : Nat} {r : Text} {g : Bool} (h : Inv l (a :: r) g) (ha : BeginsId a) :
    ∃ p', tokId l = some p' ∧ AuxSpec l (a :: r) g p' := by
  have hh := here_eq h
  have ha0 : a ≠ 0 := by clash
  cases g with
  | true =>
    refine ⟨⟨l, tERROR, l.pos, l.pos⟩, ?_, aux_error rfl rfl (Later.refl l) (Nat.le_refl _) h (Nat.le_refl _) ?_⟩
    · unfold tokId
      rw [hh]; rfl
    · intro ts hl
      rw [lexes_id ha] at hl
      exact absurd hl.1 (by simp)
  | false =>
    obtain ⟨l', e1, i1, t1, p1, b1⟩ := lexId_spec h ha
    have hlen : (r.dropWhile idChar).length < (a :: r).length := by
      have := dropWhile_le idChar r
      rw [List.length_cons]; omega
    have htok : TokIs ⟨l', tID, l.pos, l.pos⟩ (.id (a :: r.takeWhile idChar)) := by
      refine ⟨rfl, ?_, by dsimp only; rw [p1]⟩
      dsimp only
      rw [b1]
      refine cstr_set (b := r.dropWhile idChar ++ [0]) ?_ (by simp) (idLex_zero ha)
      rw [← List.append_assoc, List.cons_append, List.takeWhile_append_dropWhile]
      exact h.buf
    refine ⟨⟨l', tID, l.pos, l.pos⟩, ?_, t1, t1.pos, Or.inr (Or.inr (Or.inr ⟨_, htok, fun h => absurd h (by dsimp only; decide)⟩)), _, _, i1, Or.inl hlen, Nat.le_of_lt hlen, Or.inr ⟨by dsimp only; decide, ?_⟩⟩
    · unfold tokId
      simp only [hh, e1, Bool.false_eq_true, if_false, List.headD_cons, Option.bind_eq_bind, Option.bind_some, if_neg ha0]
    · intro ts
      rw [rem_tok htok (by dsimp only; decide), lexes_id ha]
      simp only [true_and]
      exact exists_congr fun ts' => and_congr_right fun _ => rest_iff i1 ts'

theorem tokString_spec {l : Lex} {r : Text} {g : Bool} (h : Inv l (34 :: r) g) :
    ∃ p', tokString l = some p' ∧ AuxSpec l (34 :: r) g p' := by
  obtain ⟨l1, e1, i1, a1⟩ := lexNext_cons h
  rcases lexString_spec l1.fuel i1 i1.fuel with
    ⟨l2, body, r', e2, rfl, hb, i2, a2⟩ | ⟨⟨e, l2, k, e2, he, a2, s', i2⟩, hn⟩
  · obtain ⟨l3, e3, i3, b3, p3, f3, t3⟩ := terminate_spec i2
    obtain ⟨l4, e4, i4, a4⟩ := lexNext_cons i3
    have hlater : Later l l4 := ((a1.trans a2).later.trans t3).trans a4.later
    have hlen : r'.length < (34 :: (body ++ 34 :: r')).length := by simp; omega
    have htok : TokIs ⟨l4, tSTRING, l1.pos, l.pos⟩ (.str body) := by
      refine ⟨rfl, ?_, ?_⟩
      · dsimp only
        rw [a4.buf, b3, a2.buf, a2.pos]
        refine cstr_set (b := 34 :: r' ++ [0]) ?_ (by simp) (strBody_zero hb)
        have := i1.buf
        rw [this]
        simp [mark]
      · dsimp only
        rw [a4.pos, p3, a2.pos]; omega
    refine ⟨⟨l4, tSTRING, l1.pos, l.pos⟩, ?_, hlater, Nat.le_trans (Nat.le_add_right _ _) htok.2.2, Or.inr (Or.inr (Or.inr ⟨_, htok, fun h => absurd h (by dsimp only; decide)⟩)), _, _, i4, Or.inl hlen, Nat.le_of_lt hlen, Or.inr ⟨by dsimp only; decide, ?_⟩⟩
    · unfold tokString
      simp only [e1, e2, e3, e4, Option.bind_eq_bind, Option.bind_some]
    · intro ts
      rw [rem_tok htok (by dsimp only; decide), lexes_str]
      constructor
      · rintro ⟨ts', rfl, hr⟩
        exact ⟨body, r', ts', rfl, hb, rfl, (rest_iff i4 ts').mp hr⟩
      · rintro ⟨body', r'', ts', hr, hb', rfl, hl⟩
        obtain ⟨rfl, rfl⟩ := strBody_unique hb hb' hr
        exact ⟨ts', rfl, (rest_iff i4 ts').mpr hl⟩
  · have hlater : Later l l2 := (a1.trans a2).later
    have hle := later_length h i2 hlater
    have hno : ∀ ts, ¬ Lexes g (34 :: r) ts := by
      intro ts hl
      rw [lexes_str] at hl
      obtain ⟨body, r', ts', hr, hb, -⟩ := hl
      exact hn body r' hb hr
    cases e with
    | closed => exact absurd rfl he
    | eof =>
      refine ⟨⟨l2, tERROR, l1.pos, l.pos⟩, ?_, aux_error rfl rfl hlater a2.later.pos i2 hle hno⟩
      unfold tokString
      simp only [e1, e2, Option.bind_eq_bind, Option.bind_some]
    | high =>
      refine ⟨⟨l2, tERROR, l1.pos, l2.pos⟩, ?_, aux_error rfl rfl hlater a2.later.pos i2 hle hno⟩
      unfold tokString
      simp only [e1, e2, Option.bind_eq_bind, Option.bind_some]

theorem tokLine_spec {l : Lex} {r : Text} {g : Bool} (h : Inv l (47 :: 47 :: r) g) :
    ∃ p', tokLine l = some p' ∧ AuxSpec l (47 :: 47 :: r) g p' := by
  obtain ⟨l1, e1, i1, a1⟩ := skipWhile_spec (fun c => c != ch '\n' && c != 0) (by decide) l.fuel h h.fuel
  have e : (fun c => c != ch '\n' && c != 0) = inLine := rfl
  rw [e] at i1 a1
  have hd : (47 :: 47 :: r).dropWhile inLine = r.dropWhile inLine := rfl
  have ht : (47 :: 47 :: r).takeWhile inLine = 47 :: 47 :: r.takeWhile inLine := rfl
  rw [hd, ht, if_neg (List.cons_ne_nil _ _)] at i1
  have hlen : (r.dropWhile inLine).length < (47 :: 47 :: r).length := by
    have := dropWhile_le inLine r
    simp only [List.length_cons]; omega
  refine ⟨⟨l1, tLCOM, l.pos, l.pos⟩, ?_, a1.later, a1.later.pos, Or.inl (Or.inl rfl), _, _, i1, Or.inl hlen, Nat.le_of_lt hlen, Or.inl ⟨Or.inl rfl, ?_⟩⟩
  · unfold tokLine
    rw [e1]; rfl
  · intro ts
    exact lexes_line

theorem tokBlock_spec {l : Lex} {r : Text} {g : Bool} (h : Inv l (47 :: 42 :: r) g) :
    ∃ p', tokBlock l = some p' ∧ AuxSpec l (47 :: 42 :: r) g p' := by
  obtain ⟨l1, e1, i1, a1⟩ := lexNext_cons h
  obtain ⟨l2, e2, i2, a2⟩ := lexNext_cons i1
  rcases lexBlock_spec l2.fuel [] 0 i2 i2.fuel rfl (by intro x y hx; cases x <;> cases hx) (by simp) with
    ⟨l3, body, r', e3, hr, hb, hb0, i3, k, a3⟩ | ⟨⟨l3, k, e3, a3, s', i3⟩, hn⟩
  · rw [List.nil_append] at hr
    subst hr
    obtain ⟨l4, e4, i4, a4⟩ := lexNext_cons i3
    have hlater : Later l l4 := (((a1.trans a2).trans a3).trans a4).later
    have hlen : r'.length < (47 :: 42 :: (body ++ 42 :: 47 :: r')).length := by simp; omega
    refine ⟨⟨l4, tBCOM, l.pos, l.pos⟩, ?_, hlater, hlater.pos, Or.inl (Or.inr rfl), _, _, i4, Or.inl hlen, Nat.le_of_lt hlen, Or.inl ⟨Or.inr rfl, ?_⟩⟩
    · unfold tokBlock
      simp only [e1, e2, e3, e4, Option.bind_eq_bind, Option.bind_some, if_true]
    · intro ts
      rw [lexes_block]
      constructor
      · rintro ⟨body', r'', hr, hb', -, hl⟩
        obtain ⟨rfl, rfl⟩ := close_unique hb hb' hr
        exact hl
      · intro hl
        exact ⟨body, r', rfl, hb, hb0, hl⟩
  · obtain ⟨l4, e4, i4, a4⟩ : ∃ l4, lexNext l3 = some l4 ∧ (∃ s' , Inv l4 s' false) ∧ Later l3 l4 := by
      cases s' with
      | nil => exact ⟨l3, lexNext_nil i3, ⟨_, i3⟩, Later.refl _⟩
      | cons x s' =>
        obtain ⟨l4, e4, i4, a4⟩ := lexNext_cons i3
        exact ⟨l4, e4, ⟨_, i4⟩, a4.later⟩
    obtain ⟨s'', i4⟩ := i4
    have hlater : Later l l4 := ((a1.trans a2).trans a3).later.trans a4
    refine ⟨⟨l4, tERROR, l.pos, l.pos⟩, ?_, aux_error rfl rfl hlater hlater.pos i4 (later_length h i4 hlater) ?_⟩
    · unfold tokBlock
      simp only [e1, e2, e3, e4, Option.bind_eq_bind, Option.bind_some]
      rfl
    · intro ts hl
      rw [lexes_block] at hl
      obtain ⟨body, r', hr, -, h0, -⟩ := hl
      exact hn body r' h0 hr

theorem symText_cstr {buf : Text} {i : Nat} {g : Bool} {s : Text} (h : buf.drop i = mark g (s ++ [0])) :
    cstr buf i = some (symText g s) := by
  cases g with
  | true =>
    refine cstr_eq (b := (s ++ [0]).tail) ?_ (by simp [symText])
    simpa [mark, symText] using h
  | false =>
    have hi : i < buf.length := by
      rcases Nat.lt_or_ge i buf.length with h1 | h1
      · exact h1
      · rw [List.drop_eq_nil_of_le h1] at h
        cases s <;> cases h
    have h' : buf.drop i = s ++ [0] := h
    unfold cstr
    rw [if_pos ⟨hi, by rw [h']; simp⟩, h']
    congr 1
    show (s ++ [0]).takeWhile (· ≠ 0) = s.takeWhile (· ≠ 0)
    clear h h' hi
    induction s with
    | nil => rfl
    | cons a s ih =>
      rw [List.cons_append, List.takeWhile_cons, List.takeWhile_cons, ih]

theorem tokSym_spec {l : Lex} {s : Text} {g : Bool} (h : Inv l s g) (hs : ¬ Space (s.headD 0))
    (hn : ¬ BeginsNumber (s.headD 0)) (hi : ¬ BeginsId (s.headD 0)) (h34 : s.headD 0 ≠ 34)
    (h47 : s.headD 0 = 47 → s.tail.head? ≠ some 47 ∧ s.tail.head? ≠ some 42) :
    ∃ p', tokSym l = some p' ∧ AuxSpec l s g p' := by
  have hc := h.cur
  cases s with
  | nil =>
    have hz : cstr l.buf l.pos = some [] := by rw [symText_cstr h.buf]; cases g <;> rfl
    refine ⟨⟨l, tEOF, l.pos, l.pos⟩, ?_, Later.refl l, Nat.le_refl _, Or.inr (Or.inr (Or.inl ⟨rfl, hz⟩)), _, _, h, Or.inr (Or.inl rfl), Nat.le_refl _,
      Or.inr ⟨by dsimp only; decide, ?_⟩⟩
    · unfold tokSym
      simp only [List.headD_nil] at hc
      rw [hc, lexNext_nil h]
      rfl
    · intro ts
      rw [rem_eof ⟨rfl, hz⟩, lexes_nil]
  | cons a r =>
    simp only [List.headD_cons, List.tail_cons] at *
    by_cases h128 : 128 ≤ a
    · refine ⟨⟨l, tERROR, l.pos, l.pos⟩, ?_, aux_error rfl rfl (Later.refl l) (Nat.le_refl _) h (Nat.le_refl _) (fun ts => lexes_high h128)⟩
      unfold tokSym
      rw [if_pos (by rw [hc]; exact h128)]
    obtain ⟨l', e1, i1, a1⟩ := lexNext_cons h
    have hcs : cstr l'.buf l.pos = some (symText g (a :: r)) := by
      rw [a1.buf]
      exact symText_cstr h.buf
    have htok : a ≠ 0 → TokIs ⟨l', a, l.pos, l.pos⟩ (.sym a (symText g (a :: r))) :=
      fun h0 => ⟨rfl, h0, by omega, hcs⟩
    have hz : a = 0 → symText g (a :: r) = [] := by
      intro h0; subst h0; cases g <;> rfl
    have hk : (a = tEOF ∧ cstr l'.buf l.pos = some []) ∨
        (∃ t, TokIs ⟨l', a, l.pos, l.pos⟩ t ∧ (a = 60 → ∃ s, Inv l' s false)) := by
      by_cases h0 : a = 0
      · exact Or.inl ⟨h0, by rw [hcs, hz h0]⟩
      · exact Or.inr ⟨_, htok h0, fun _ => ⟨_, i1⟩⟩
    refine ⟨⟨l', a, l.pos, l.pos⟩, ?_, a1.later, a1.later.pos, Or.inr (Or.inr hk), _, _, i1, Or.inl (by simp), by simp, Or.inr ⟨?_, ?_⟩⟩
    · unfold tokSym
      rw [if_neg (by rw [hc]; exact h128), e1, hc]
      rfl
    · dsimp only [tLCOM, tBCOM]; omega
    · intro ts
      by_cases h0 : a = 0
      · subst h0
        rw [rem_eof ⟨rfl, by rw [← hz rfl]; exact hcs⟩, lexes_nul]
      have htok := htok h0
      rw [lexes_sym h0 (by omega) hs hn hi h34 h47]
      cases ts with
      | nil =>
        constructor
        · intro h1; exact absurd h1.1 (tokIs_type htok).1
        · rintro (⟨ts', h1, -⟩ | ⟨-, b, r', ts', -, -, -, h1, -⟩) <;> cases h1
      | cons t ts =>
        constructor
        · rintro (⟨h1, h2⟩ | ⟨b, rfl, h1, s', h2, h3, h4, h5⟩)
          · left
            exact ⟨ts, by rw [tokIs_unique htok h1], (rest_iff i1 ts).mp h2⟩
          · right
            have := (inv_text i1 h2).1
            exact ⟨h1, b, s', ts, this, h3, h4, rfl, h5⟩
        · rintro (⟨ts', h1, h2⟩ | ⟨h60, b, r', ts', rfl, h2, h3, h1, h4⟩)
          · cases h1
            exact Or.inl ⟨htok, (rest_iff i1 ts).mpr h2⟩
          · cases h1
            exact Or.inr ⟨b, rfl, h60, r', i1, h2, h3, h4⟩

theorem lookTwo_spec {l : Lex} {s : Text} {g : Bool} (h : Inv l s g) (b : Nat) (hb : b ≠ 0) :
    lookTwo l 47 b = some (decide (s.head? = some 47 ∧ s.tail.head? = some b)) := by
  have hc := h.cur
  cases s with
  | nil =>
    simp only [List.headD_nil] at hc
    unfold lookTwo
    rw [hc]; rfl
  | cons a r =>
    simp only [List.headD_cons] at hc
    have hd : l.buf[l.pos + 1]? = some (r.headD 0) := by
      have hd : l.buf.drop (l.pos + 1) = r ++ [0] := by
        rw [drop_succ_tail, h.buf, tail_mark]; rfl
      have := congrArg (fun x => x[0]?) hd
      simp only [List.getElem?_drop, Nat.add_zero] at this
      rw [this]
      cases r <;> rfl
    unfold lookTwo
    rw [hc, hd]
    by_cases ha : a = 47
    · rw [if_pos ha]
      simp [ha, headD_eq hb, -List.headD_eq_head?_getD]
    · rw [if_neg ha]
      simp [ha]

theorem tokOther_spec {l : Lex} {s : Text} {g : Bool} (h : Inv l s g) (hs : ¬ Space (s.headD 0))
    (hn : ¬ BeginsNumber (s.headD 0)) (hi : ¬ BeginsId (s.headD 0)) (h34 : s.headD 0 ≠ 34) :
    ∃ p', tokOther l = some p' ∧ AuxSpec l s g p' := by
  unfold tokOther
  have h1 := lookTwo_spec h 47 (by decide)
  have h2 := lookTwo_spec h 42 (by decide)
  have h1' : lookTwo l (ch '/') (ch '/') = _ := h1
  have h2' : lookTwo l (ch '/') (ch '*') = _ := h2
  simp only [h1', h2', Option.bind_eq_bind, Option.bind_some]
  by_cases hl : s.head? = some 47 ∧ s.tail.head? = some 47
  · rw [if_pos (by simpa using hl)]
    match s, hl, h with
    | a :: b :: r, hl, h =>
      simp only [List.head?_cons, List.tail_cons, Option.some.injEq] at hl
      obtain ⟨rfl, rfl⟩ := hl
      exact tokLine_spec h
    | [_], hl, _ => simp at hl
    | [], hl, _ => simp at hl
  · rw [if_neg (by simpa using hl)]
    by_cases hb : s.head? = some 47 ∧ s.tail.head? = some 42
    · rw [if_pos (by simpa using hb)]
      match s, hb, h with
      | a :: b :: r, hb, h =>
        simp only [List.head?_cons, List.tail_cons, Option.some.injEq] at hb
        obtain ⟨rfl, rfl⟩ := hb
        exact tokBlock_spec h
      | [_], hb, _ => simp at hb
      | [], hb, _ => simp at hb
    · rw [if_neg (by simpa using hb)]
      refine tokSym_spec h hs hn hi h34 ?_
      intro h47
      rw [headD_eq (by decide)] at h47
      exact ⟨fun h3 => hl ⟨h47, h3⟩, fun h3 => hb ⟨h47, h3⟩⟩

theorem tokMain_spec {l : Lex} {s : Text} {g : Bool} (h : Inv l s g) (hs : ¬ Space (s.headD 0)) :
    ∃ p', tokMain l = some p' ∧ AuxSpec l s g p' := by
  unfold tokMain
  rw [h.cur]
  by_cases hn : BeginsNumber (s.headD 0)
  · rw [if_pos ((numStart_iff _).mpr hn)]
    cases s with
    | nil => exfalso; simp [BeginsNumber, Digit] at hn
    | cons a r => exact tokNumber_spec h hn
  rw [if_neg (fun h1 => hn ((numStart_iff _).mp h1))]
  by_cases hi : BeginsId (s.headD 0)
  · rw [if_pos ((idStart_iff _).mpr hi)]
    cases s with
    | nil => exfalso; simp [BeginsId, Letter] at hi
    | cons a r => exact tokId_spec h hi
  rw [if_neg (fun h1 => hi ((idStart_iff _).mp h1))]
  by_cases h34 : s.headD 0 = ch '"'
  · rw [if_pos h34]
    cases s with
    | nil => exact absurd h34 (by decide)
    | cons a r =>
      have h34 : a = 34 := h34
      subst h34
      exact tokString_spec h
  rw [if_neg h34]
  exact tokOther_spec h hs hn hi h34

theorem tokAux_spec {p : P} {s : Text} {g : Bool} (h : Inv p.lex s g) (ht : p.tok.type ≠ tERROR) :
    ∃ p', tokAux p = some p' ∧ AuxSpec p.lex s g p' := by
  obtain ⟨l, e1, i1, a1⟩ := skipWhile_spec isSpace (by decide) p.lex.fuel h h.fuel
  have hs : ¬ Space ((s.dropWhile isSpace).headD 0) := by
    rw [← isSpace_iff]
    cases hd : s.dropWhile isSpace with
    | nil => decide
    | cons c t =>
      have := List.head_dropWhile_not (p := isSpace) (l := s) (by rw [hd]; simp)
      simp only [hd, List.head_cons] at this
      rw [List.headD_cons, this]
      simp
  obtain ⟨p', e2, ha⟩ := tokMain_spec i1 hs
  refine ⟨p', ?_, a1.later.trans ha.later, ha.str, ha.kind, ?_⟩
  · unfold tokAux
    rw [if_neg ht, e1]
    exact e2
  · obtain ⟨s', g', h1, h2, h3, h4⟩ := ha.inv
    have hle := dropWhile_le isSpace s
    refine ⟨s', g', h1, ?_, Nat.le_trans h3 hle, ?_⟩
    · rcases h2 with h2 | h2
      · left; omega
      · right; exact h2
    · simp only [lexes_spaces g s]
      exact h4

/-- A state of the parser between two steps. -/
structure Good (p : P) : Prop where
  inv : ∃ s g, Inv p.lex s g
  str : p.tok.string ≤ p.lex.pos
  kind : p.tok.type = tERROR ∨ (p.tok.type = tEOF ∧ cstr p.lex.buf p.tok.string = some []) ∨ ∃ t, TokIs p t
  path : p.tok.type = 60 → ∃ s, Inv p.lex s false

/-- Upper bound of the number of tokens that remain. -/
def left (p : P) : Nat :=
  p.lex.fin - p.lex.pos + (if p.tok.type = tEOF ∨ p.tok.type = tERROR then 0 else 1)

theorem left_inv {p : P} {s : Text} {g : Bool} (h : Inv p.lex s g) :
    left p = s.length + (if p.tok.type = tEOF ∨ p.tok.type = tERROR then 0 else 1) := by
  have := h.pos
  unfold left
  congr 1
  omega

/-- `tok_next` reads exactly one token of the text that remains. -/
theorem tokLoop_spec (n : Nat) {p : P} {s : Text} {g : Bool} (h : Inv p.lex s g) (ht : p.tok.type ≠ tERROR)
    (hn : s.length < n) :
    ∃ p', tokLoop n p = some p' ∧ Good p' ∧ Later p.lex p'.lex ∧ (∀ ts, Rem p' ts ↔ Lexes g s ts) ∧
      left p' ≤ s.length := by
  induction n generalizing p s g with
  | zero => omega
  | succ n ih =>
    obtain ⟨p1, e1, ha⟩ := tokAux_spec h ht
    obtain ⟨s1, g1, h1, h2, h3, h4⟩ := ha.inv
    rcases h4 with ⟨hc, hl⟩ | ⟨hc, hl⟩
    · have hlt : s1.length < s.length := by
        rcases h2 with h2 | h2 | h2
        · exact h2
        · rcases hc with hc | hc <;> rw [hc] at h2 <;> simp at h2
        · rcases hc with hc | hc <;> rw [hc] at h2 <;> simp at h2
      have ht1 : p1.tok.type ≠ tERROR := by
        rcases hc with hc | hc <;> rw [hc] <;> decide
      obtain ⟨p2, f1, f2, f3, f4, f5⟩ := ih h1 ht1 (by omega)
      refine ⟨p2, ?_, f2, ha.later.trans f3, ?_, by omega⟩
      · rw [tokLoop, e1]
        show (if _ then _ else _) = _
        rw [if_pos hc]
        exact f1
      · intro ts
        rw [hl ts, f4 ts]
    · have hk := ha.kind
      refine ⟨p1, ?_, ⟨⟨s1, g1, h1⟩, ha.str, ?_, ?_⟩, ha.later, hl, ?_⟩
      · rw [tokLoop, e1]
        show (if _ then _ else _) = _
        rw [if_neg (by tauto)]
      · rcases hk with hk | hk | hk | ⟨t, hk, -⟩
        · exact absurd hk (by tauto)
        · exact Or.inl hk
        · exact Or.inr (Or.inl hk)
        · exact Or.inr (Or.inr ⟨t, hk⟩)
      · intro h60
        rcases hk with hk | hk | hk | ⟨t, -, hk⟩
        · exact absurd hk (by tauto)
        · exact absurd (h60.symm.trans hk) (by decide)
        · exact absurd (h60.symm.trans hk.1) (by decide)
        · exact hk h60
      · rw [left_inv h1]
        split_ifs with h5
        · omega
        · rcases h2 with h2 | h2
          · omega
          · exact absurd h2 h5

theorem tokNext_spec {p : P} (h : Good p) :
    ∃ p', tokNext p = some p' ∧ Good p' ∧ Later p.lex p'.lex ∧ left p' ≤ left p ∧
      (p.tok.type ≠ tERROR → ∀ ts, Rem p' ts ↔ Rest p ts) ∧
      (∀ t, TokIs p t → left p' < left p) := by
  obtain ⟨s, g, hi⟩ := h.inv
  by_cases ht : p.tok.type = tERROR
  · refine ⟨p, ?_, h, Later.refl _, Nat.le_refl _, fun h' => absurd ht h', fun t h1 => absurd ht (tokIs_type h1).2.1⟩
    unfold tokNext Lex.fuel
    rw [tokLoop, tokAux, if_pos ht]
    show (if _ then _ else _) = _
    rw [if_neg (by rw [ht]; decide)]
  · obtain ⟨p', e1, e2, e3, e4, e5⟩ := tokLoop_spec p.lex.fuel hi ht hi.fuel
    have hl := left_inv hi
    refine ⟨p', e1, e2, e3, by omega, fun _ ts => by rw [e4 ts, rest_iff hi], ?_⟩
    intro t h1
    have := tokIs_type h1
    rw [if_neg (by tauto)] at hl
    omega

theorem beginFile_left (content : Text) :
    ∃ p, beginFile content = some p ∧ Good p ∧ (∀ ts, Rem p ts ↔ Lexes false content ts) ∧
      left p ≤ content.length := by
  have hi : Inv ⟨content ++ [0], content.length, 0, content.headD 0⟩ content false :=
    ⟨by simp, by simp, rfl, rfl⟩
  have hc : (content ++ [0])[0]? = some (content.headD 0) := by cases content <;> rfl
  obtain ⟨p', e1, e2, e3, e4, e5⟩ := tokLoop_spec (p := ⟨⟨content ++ [0], content.length, 0, content.headD 0⟩, ⟨0, 0, 0⟩⟩)
    (content ++ [0, 0]).length hi (by dsimp only; decide) (by simp)
  refine ⟨p', ?_, e2, e4, e5⟩
  unfold beginFile
  dsimp only
  rw [hc]
  simp only [List.length_append, List.length_cons, List.length_nil] at e1
  simpa [tokNext, Lex.fuel, Nat.add_assoc] using e1

theorem beginFile_spec (content : Text) :
    ∃ p, beginFile content = some p ∧ Good p ∧ ∀ ts, Rem p ts ↔ Lexes false content ts := by
  obtain ⟨p, h1, h2, h3, -⟩ := beginFile_left content
  exact ⟨p, h1, h2, h3⟩

theorem tokPath_spec {p : P} (h : Good p) :
    ∃ p', tokPath p = some p' ∧ Good p' ∧ Later p.lex p'.lex ∧ left p' ≤ left p ∧
      (∀ b ts, Rem p' (.path b :: ts) ↔ Rem p (.path b :: ts)) ∧
      (p.tok.type ≠ 60 → p' = p) ∧ (p.tok.type = 60 → p'.tok.type = tPATH ∨ p'.tok.type = tERROR) := by
  by_cases ht : p.tok.type = 60
  · obtain ⟨s, hi⟩ := h.path ht
    have hl := left_inv hi
    rw [if_neg (by rw [ht]; decide)] at hl
    have hsplit : ¬ p.tok.type ≠ ch '<' := fun h => h ht
    have hq : ∀ b, ¬ TokIs p (.path b) := fun b h1 => absurd (ht.symm.trans h1.1) (by decide)
    rcases lexPath_spec p.lex.fuel hi hi.fuel with
      ⟨l', body, r, e1, rfl, hb, hb0, i1, a1⟩ | ⟨⟨l', k, e1, a1, s', i1⟩, hn⟩
    · obtain ⟨l1, e2, i2, b2, p2, f2, t2⟩ := terminate_spec i1
      obtain ⟨l2, e3, i3, a3⟩ := lexNext_cons i2
      have hlater : Later p.lex l2 := (a1.later.trans t2).trans a3.later
      have htok : TokIs ⟨l2, tPATH, p.lex.pos, p.tok.loc⟩ (.path body) := by
        refine ⟨rfl, ?_, ?_⟩
        · dsimp only
          rw [a3.buf, b2, a1.buf, a1.pos]
          refine cstr_set (b := 62 :: r ++ [0]) ?_ (by simp) hb0
          have := hi.buf
          rw [this]
          simp [mark]
        · dsimp only
          rw [a3.pos, p2, a1.pos]; omega
      refine ⟨⟨l2, tPATH, p.lex.pos, p.tok.loc⟩, ?_, ⟨⟨_, _, i3⟩, hlater.pos, Or.inr (Or.inr ⟨_, htok⟩), ?_⟩, hlater, ?_, ?_,
        fun h1 => absurd ht h1, fun _ => Or.inl rfl⟩
      · unfold tokPath
        rw [if_neg hsplit, e1]
        simp only [Option.bind_eq_bind, Option.bind_some, e2, e3]
      · intro h1; exact absurd h1 (by dsimp only; decide)
      · rw [left_inv i3, hl, if_neg (by dsimp only; decide)]
        simp
        omega
      · intro b ts
        rw [rem_tok htok (by dsimp only; decide)]
        constructor
        · rintro ⟨ts', h1, h2⟩
          cases h1
          exact Or.inr ⟨body, rfl, ht, r, hi, hb, hb0, (rest_iff i3 ts).mp h2⟩
        · rintro (⟨h1, -⟩ | ⟨b', h1, -, s', h2, h3, h4, h5⟩)
          · exact absurd h1 (hq b)
          · cases h1
            obtain ⟨rfl, rfl⟩ := first_unique hb h3 (inv_text hi h2).1
            exact ⟨ts, rfl, (rest_iff i3 ts).mpr h5⟩
    · refine ⟨⟨l', tERROR, p.lex.pos, p.tok.loc⟩, ?_, ⟨⟨_, _, i1⟩, a1.later.pos, Or.inl rfl, ?_⟩, a1.later, ?_, ?_,
        fun h1 => absurd ht h1, fun _ => Or.inr rfl⟩
      · unfold tokPath
        rw [if_neg hsplit, e1]
        rfl
      · intro h1; exact absurd h1 (by dsimp only; decide)
      · have := later_length hi i1 a1.later
        rw [left_inv i1, hl, if_pos (Or.inr rfl)]
        omega
      · intro b ts
        constructor
        · intro h1
          exact absurd h1 (rem_error rfl _)
        · rintro (⟨h1, -⟩ | ⟨b', h1, -, s', h2, h3, h4, h5⟩)
          · exact absurd h1 (hq b)
          · exact absurd (inv_text hi h2).1 (hn b' s' h4)
  · refine ⟨p, ?_, h, Later.refl _, Nat.le_refl _, fun _ _ => Iff.rfl, fun _ => rfl, fun h1 => absurd h1 ht⟩
    unfold tokPath
    rw [if_pos (show p.tok.type ≠ ch '<' from ht)]

end Hob3l.Syn
