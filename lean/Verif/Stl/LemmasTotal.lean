import Verif.Stl.LemmasText2
import Mathlib.Tactic.SplitIfs

namespace Hob3l.Stl

/-- the text ahead ends with the NUL -/
def Inv (s : Lex) : Prop := (∃ pre, s.cur :: s.ahead = pre ++ [0]) ∧ (s.here = s.cur ∨ s.here = 0)

theorem inv_end {s : Lex} (h : Inv s) (ha : s.ahead = []) : s.cur = 0 ∧ s.here = 0 := by
  obtain ⟨⟨pre, e⟩, hh⟩ := h
  rw [ha] at e
  have e' : s.cur = 0 := by
    cases pre with
    | nil => simpa using e
    | cons c pre =>
      have := congrArg List.length e
      simp at this
  exact ⟨e', by omega⟩

/-- what a step of the lexer keeps -/
def Step (s s' : Lex) : Prop := Inv s' ∧ s'.ahead.length ≤ s.ahead.length

theorem inv_next {s : Lex} (h : Inv s) : Step s (lexNext s) := by
  obtain ⟨cur, here, ahead, tok, str⟩ := s
  cases ahead with
  | nil =>
    obtain ⟨e1, e2⟩ := inv_end h rfl
    simp only at e1 e2
    subst e1 e2
    exact ⟨⟨⟨[], rfl⟩, Or.inl rfl⟩, Nat.le_refl _⟩
  | cons c t =>
    obtain ⟨⟨pre, e⟩, hh⟩ := h
    refine ⟨⟨?_, Or.inl rfl⟩, by simp [lexNext]⟩
    cases pre with
    | nil => simp at e
    | cons p pre =>
      simp only [List.cons_append, List.cons.injEq] at e
      exact ⟨pre, e.2⟩

theorem inv_skip (pr : Nat → Bool) (h0 : pr 0 = false) : ∀ (ahead : List Nat) (cur here : Nat) (tok : Tok) (str : List Nat),
    Inv ⟨cur, here, ahead, tok, str⟩ →
    (∀ tok' str', Inv ⟨(skipWhile pr cur here ahead).1.1, (skipWhile pr cur here ahead).1.2.1,
      (skipWhile pr cur here ahead).1.2.2, tok', str'⟩)
    ∧ (skipWhile pr cur here ahead).1.2.2.length ≤ ahead.length
    ∧ (pr cur = true → (skipWhile pr cur here ahead).1.2.2.length < ahead.length)
  | [], cur, here, tok, str, h => by
    obtain ⟨e1, e2⟩ := inv_end h rfl
    simp only at e1 e2
    subst e1 e2
    simp only [skipWhile, h0]
    refine ⟨fun _ _ => ⟨⟨[], rfl⟩, Or.inl rfl⟩, Nat.le_refl _, ?_⟩
    intro hx; simp at hx
  | c :: t, cur, here, tok, str, h => by
    by_cases hc : pr cur = true
    · have h1 := (inv_next h).1
      simp only [lexNext] at h1
      obtain ⟨i1, i2, _⟩ := inv_skip pr h0 t c c tok str h1
      simp only [skipWhile, hc, if_true]
      exact ⟨i1, by simp; omega, by intro _; simp; omega⟩
    · simp only [skipWhile, hc]
      obtain ⟨h1, h2⟩ := h
      exact ⟨fun _ _ => ⟨h1, h2⟩, Nat.le_refl _, fun hx => by simp at hx⟩

theorem inv_eat (pr : Nat → Bool) (h0 : pr 0 = false) {s : Lex} (h : Inv s) :
    Step s (eat pr s) ∧ (pr s.cur = true → (eat pr s).ahead.length < s.ahead.length) := by
  obtain ⟨cur, here, ahead, tok, str⟩ := s
  obtain ⟨i1, i2, i3⟩ := inv_skip pr h0 ahead cur here tok str h
  exact ⟨⟨i1 _ _, i2⟩, i3⟩

theorem step_trans {a b c : Lex} (h : Step a b) (h' : Step b c) : Step a c := ⟨h'.1, Nat.le_trans h'.2 h.2⟩

theorem step_refl {a : Lex} (h : Inv a) : Step a a := ⟨h, Nat.le_refl _⟩

theorem inv_eat1 {s : Lex} (h : Inv s) : Step s (eat1 s) := by
  obtain ⟨a, b⟩ := inv_next h
  exact ⟨a, b⟩

theorem inv_cut {s : Lex} (h : Inv s) : Step s (cut s) := ⟨⟨h.1, Or.inr rfl⟩, Nat.le_refl _⟩

theorem inv_frac {s : Lex} (h : Inv s) : Step s (floatFrac s) := by
  unfold floatFrac
  split
  · exact step_trans (inv_eat1 h) (inv_eat isDigit (by decide) (inv_eat1 h).1).1
  · exact step_refl h

theorem inv_exp {s : Lex} (h : Inv s) : Step s (floatExp s) := by
  unfold floatExp
  split
  · have h1 := inv_eat1 h
    simp only
    split
    · have h2 := inv_eat1 h1.1
      exact step_trans h1 (step_trans h2 (inv_eat isDigit (by decide) h2.1).1)
    · exact step_trans h1 (inv_eat isDigit (by decide) h1.1).1
  · exact step_refl h

theorem inv_sign {s : Lex} (h : Inv s) : Step s (floatSign s) := by
  unfold floatSign
  split
  · obtain ⟨a, b⟩ := inv_eat1 h; exact ⟨a, b⟩
  · split
    · exact inv_eat1 h
    · exact step_refl h

theorem eat_tok (pr : Nat → Bool) (s : Lex) : (eat pr s).tok = s.tok := rfl
theorem eat1_tok (s : Lex) : (eat1 s).tok = s.tok := by
  obtain ⟨cur, here, ahead, tok, str⟩ := s; cases ahead <;> rfl
theorem sign_tok (s : Lex) : (floatSign s).tok = s.tok := by
  unfold floatSign; split_ifs <;> simp [eat1_tok]
theorem frac_tok (s : Lex) : (floatFrac s).tok = s.tok := by
  unfold floatFrac; split_ifs <;> simp [eat1_tok, eat_tok]
theorem exp_tok (s : Lex) : (floatExp s).tok = s.tok := by
  unfold floatExp; simp only; split_ifs <;> simp [eat1_tok, eat_tok]

theorem inv_body {s : Lex} (h : Inv s) :
    Step s (tokBody s) ∧ ((tokBody s).tok = .id → (tokBody s).ahead.length < s.ahead.length) := by
  unfold tokBody
  by_cases c1 : s.cur = 0x2b ∨ s.cur = 0x2d ∨ s.cur = 0x2e ∨ isDigit s.cur = true
  · rw [if_pos c1]
    by_cases c2 : s.here = 0
    · rw [if_pos c2]
      exact ⟨⟨h, Nat.le_refl _⟩, by simp⟩
    · rw [if_neg c2]
      have h1 : Step s { s with tok := .float } := ⟨h, Nat.le_refl _⟩
      have h2 := inv_sign h1.1
      have h3 := (inv_eat isDigit (by decide) h2.1).1
      have h4 := inv_frac h3.1
      have h5 := inv_exp h4.1
      refine ⟨step_trans h1 (step_trans h2 (step_trans h3 (step_trans h4 (step_trans h5 (inv_cut h5.1))))), ?_⟩
      intro ht
      have : (floatExp (floatFrac (eat isDigit (floatSign { s with tok := Tok.float })))).tok = .id := ht
      rw [exp_tok, frac_tok, eat_tok, sign_tok] at this
      simp at this
  · rw [if_neg c1]
    by_cases c2 : isAlpha s.cur = true
    · rw [if_pos c2]
      by_cases c3 : s.here = 0
      · rw [if_pos c3]
        exact ⟨⟨h, Nat.le_refl _⟩, by simp⟩
      · rw [if_neg c3]
        have h1 : Step s { s with tok := .id } := ⟨h, Nat.le_refl _⟩
        obtain ⟨h2, h3⟩ := inv_eat isAlpha (by decide) h1.1
        exact ⟨step_trans h1 (step_trans h2 (inv_cut h2.1)), fun _ => h3 c2⟩
    · rw [if_neg c2]
      by_cases c3 : s.cur < 128
      · rw [if_neg (by omega)]
        have h1 : Step s { s with tok := if s.cur = 0 then Tok.eof else Tok.char s.cur } := ⟨h, Nat.le_refl _⟩
        refine ⟨step_trans h1 (inv_next h1.1), ?_⟩
        intro ht
        exfalso
        have e : (lexNext { s with tok := if s.cur = 0 then Tok.eof else Tok.char s.cur }).tok
            = if s.cur = 0 then Tok.eof else Tok.char s.cur := by
          unfold lexNext; split <;> rfl
        rw [e] at ht
        split at ht <;> simp at ht
      · rw [if_pos c3]
        exact ⟨⟨h, Nat.le_refl _⟩, by simp⟩

theorem body_not_key (s : Lex) (k : Key) : (tokBody s).tok ≠ .key k := by
  unfold tokBody
  split_ifs
  · simp
  · unfold cut; simp only; rw [exp_tok, frac_tok, eat_tok, sign_tok]; simp
  · simp
  · unfold cut; simp only; rw [eat_tok]; simp
  all_goals first | (unfold lexNext; split <;> simp; done) | simp

theorem inv_tok {s : Lex} (h : Inv s) (ht : s.tok ≠ .error) :
    Step s (tokNext s) ∧ (∀ k, (tokNext s).tok = .key k → (tokNext s).ahead.length < s.ahead.length) := by
  have h1 := (inv_eat isSpace (by decide) h).1
  have h1' : Step s { eat isSpace s with str := [] } := ⟨h1.1, h1.2⟩
  obtain ⟨h2, h3⟩ := inv_body h1'.1
  have e : tokNext s = if (tokBody { eat isSpace s with str := [] }).tok = .id
      then { tokBody { eat isSpace s with str := [] } with tok := sieveId (tokBody { eat isSpace s with str := [] }).str }
      else tokBody { eat isSpace s with str := [] } := by
    unfold tokNext tokNextAux
    rw [if_neg ht]
  rw [e]
  split
  · rename_i hid
    have := h3 hid
    have hl := h1'.2
    refine ⟨⟨h2.1, ?_⟩, fun _ _ => ?_⟩
    · show (tokBody { eat isSpace s with str := [] }).ahead.length ≤ _; omega
    · show (tokBody { eat isSpace s with str := [] }).ahead.length < _; omega
  · rename_i hid
    refine ⟨step_trans h1' h2, ?_⟩
    intro k hk
    exact absurd hk (body_not_key _ k)

/-- only rejected, nothing worse -/
def Safe {α : Type} (r : Except Fail α) : Prop := ∀ e, r = .error e → e = .reject

theorem safe_ok {α : Type} (a : α) : Safe (Except.ok a : Except Fail α) := by intro e h; simp at h

theorem safe_bind {α β : Type} {r : Except Fail α} {f : α → Except Fail β} (h : Safe r) (hf : ∀ a, r = .ok a → Safe (f a)) :
    Safe (r >>= f) := by
  cases r with
  | error e => intro e' he; rw [bind_err] at he; simp at he; exact h e' (by rw [he])
  | ok a => rw [bind_ok]; exact hf a rfl

theorem bind_inv {α β : Type} {r : Except Fail α} {f : α → Except Fail β} {b : β} (h : (r >>= f) = .ok b) :
    ∃ a, r = .ok a ∧ f a = .ok b := by
  cases r with
  | error e => rw [bind_err] at h; simp at h
  | ok a => exact ⟨a, rfl, h⟩

theorem expect_safe (t : Tok) (s : Lex) : Safe (expect t s) := by
  unfold expect; split
  · exact safe_ok _
  · intro e h; simp at h; exact h.symm

theorem expect_inv {t : Tok} {s s' : Lex} (h : expect t s = .ok s') (hi : Inv s) (ht : t ≠ .error) :
    Step s s' ∧ s.tok = t ∧ ∀ k, s'.tok = .key k → s'.ahead.length < s.ahead.length := by
  unfold expect at h
  split at h
  · rename_i e
    simp only [Except.ok.injEq] at h
    subst h
    obtain ⟨a, b⟩ := inv_tok hi (by rw [e]; exact ht)
    exact ⟨a, e, b⟩
  · simp at h

section
variable {V F : Type} (eq : V → V → Bool) (strtod : List Nat → F) (vec : F → F → F → V)

theorem float_safe (s : Lex) : Safe (parseFloat strtod s) :=
  safe_bind (expect_safe _ _) fun _ _ => safe_ok _

theorem float_inv {s : Lex} {r : F × Lex} (h : parseFloat strtod s = .ok r) (hi : Inv s) : Step s r.2 := by
  obtain ⟨s', h1, h2⟩ := bind_inv h
  simp only [Except.ok.injEq] at h2
  subst h2
  exact (expect_inv h1 hi (by simp)).1

theorem vec3_safe (s : Lex) : Safe (parseVec3 strtod vec s) :=
  safe_bind (float_safe strtod _) fun _ _ => safe_bind (float_safe strtod _) fun _ _ =>
    safe_bind (float_safe strtod _) fun _ _ => safe_ok _

theorem vec3_inv {s : Lex} {r : V × Lex} (h : parseVec3 strtod vec s = .ok r) (hi : Inv s) : Step s r.2 := by
  obtain ⟨x, h1, h⟩ := bind_inv h
  obtain ⟨y, h2, h⟩ := bind_inv h
  obtain ⟨z, h3, h⟩ := bind_inv h
  simp only [Except.ok.injEq] at h
  subst h
  have a := float_inv strtod h1 hi
  have b := float_inv strtod h2 a.1
  exact step_trans a (step_trans b (float_inv strtod h3 b.1))

theorem vertex_safe (poly : Poly V) (s : Lex) : Safe (parseVertex eq strtod vec poly s) :=
  safe_bind (expect_safe _ _) fun _ _ => safe_bind (vec3_safe strtod vec _) fun _ _ => safe_ok _

theorem vertex_inv {poly : Poly V} {s : Lex} {r : Nat × Poly V × Lex} (h : parseVertex eq strtod vec poly s = .ok r) (hi : Inv s) :
    Step s r.2.2 := by
  obtain ⟨x, h1, h⟩ := bind_inv h
  obtain ⟨y, h2, h⟩ := bind_inv h
  simp only [Except.ok.injEq] at h
  subst h
  have a := (expect_inv h1 hi (by simp)).1
  exact step_trans a (vec3_inv strtod vec h2 a.1)

theorem facet_safe (poly : Poly V) (s : Lex) : Safe (parseFacet eq strtod vec poly s) :=
  safe_bind (expect_safe _ _) fun _ _ => safe_bind (expect_safe _ _) fun _ _ => safe_bind (vec3_safe strtod vec _) fun _ _ =>
    safe_bind (expect_safe _ _) fun _ _ => safe_bind (expect_safe _ _) fun _ _ =>
    safe_bind (vertex_safe eq strtod vec _ _) fun _ _ => safe_bind (vertex_safe eq strtod vec _ _) fun _ _ =>
    safe_bind (vertex_safe eq strtod vec _ _) fun _ _ => safe_bind (expect_safe _ _) fun _ _ =>
    safe_bind (expect_safe _ _) fun _ _ => safe_ok _

theorem facet_inv {poly : Poly V} {s : Lex} {r : Poly V × Lex} (h : parseFacet eq strtod vec poly s = .ok r) (hi : Inv s) :
    Step s r.2 ∧ r.2.ahead.length < s.ahead.length := by
  obtain ⟨s1, h1, h⟩ := bind_inv h
  obtain ⟨s2, h2, h⟩ := bind_inv h
  obtain ⟨s3, h3, h⟩ := bind_inv h
  obtain ⟨s4, h4, h⟩ := bind_inv h
  obtain ⟨s5, h5, h⟩ := bind_inv h
  obtain ⟨s6, h6, h⟩ := bind_inv h
  obtain ⟨s7, h7, h⟩ := bind_inv h
  obtain ⟨s8, h8, h⟩ := bind_inv h
  obtain ⟨s9, h9, h⟩ := bind_inv h
  obtain ⟨s10, h10, h⟩ := bind_inv h
  simp only [Except.ok.injEq] at h
  subst h
  obtain ⟨a1, _, l1⟩ := expect_inv h1 hi (by simp)
  obtain ⟨a2, t2, _⟩ := expect_inv h2 a1.1 (by simp)
  have lt := l1 _ t2
  have a3 := vec3_inv strtod vec h3 a2.1
  have a4 := (expect_inv h4 a3.1 (by simp)).1
  have a5 := (expect_inv h5 a4.1 (by simp)).1
  have a6 := vertex_inv eq strtod vec h6 a5.1
  have a7 := vertex_inv eq strtod vec h7 a6.1
  have a8 := vertex_inv eq strtod vec h8 a7.1
  have a9 := (expect_inv h9 a8.1 (by simp)).1
  have a10 := (expect_inv h10 a9.1 (by simp)).1
  have st := step_trans a2 (step_trans a3 (step_trans a4 (step_trans a5 (step_trans a6 (step_trans a7 (step_trans a8
    (step_trans a9 a10)))))))
  exact ⟨step_trans a1 st, Nat.lt_of_le_of_lt st.2 lt⟩

theorem facets_safe : ∀ (fuel : Nat) (poly : Poly V) (s : Lex), Inv s → s.ahead.length < fuel →
    Safe (parseFacets eq strtod vec fuel poly s) ∧ ∀ r, parseFacets eq strtod vec fuel poly s = .ok r → Inv r.2
  | 0, _, _, _, h => by omega
  | fuel + 1, poly, s, hi, hf => by
    simp only [parseFacets]
    split
    · constructor
      · refine safe_bind (facet_safe eq strtod vec poly s) fun r hr => ?_
        obtain ⟨st, hl⟩ := facet_inv eq strtod vec hr hi
        exact (facets_safe fuel r.1 r.2 st.1 (by omega)).1
      · intro r hr
        obtain ⟨r1, h1, h2⟩ := bind_inv hr
        obtain ⟨st, hl⟩ := facet_inv eq strtod vec h1 hi
        exact (facets_safe fuel r1.1 r1.2 st.1 (by omega)).2 r h2
    · refine ⟨safe_ok _, ?_⟩
      intro r hr
      simp only [Except.ok.injEq] at hr
      subst hr
      exact hi

end

theorem inv_skipLine : ∀ (ahead : List Nat) (cur here : Nat) (tok : Tok) (str : List Nat), Inv ⟨cur, here, ahead, tok, str⟩ →
    ∃ r, skipLine cur here ahead = .ok r ∧ ∀ tok' str', Inv ⟨r.1, r.2.1, r.2.2, tok', str'⟩
  | [], cur, here, tok, str, h => by
    obtain ⟨e1, e2⟩ := inv_end h rfl
    simp only at e1 e2
    subst e1 e2
    exact ⟨(0, 0, []), rfl, fun _ _ => ⟨⟨[], rfl⟩, Or.inl rfl⟩⟩
  | c :: t, cur, here, tok, str, h => by
    simp only [skipLine]
    by_cases hc : here ≠ 10 ∧ here ≠ 0
    · rw [if_pos hc]
      have := (inv_next h).1
      simp only [lexNext] at this
      exact inv_skipLine t c c tok str this
    · rw [if_neg hc]
      obtain ⟨h1, h2⟩ := h
      exact ⟨_, rfl, fun _ _ => ⟨h1, h2⟩⟩

theorem line_safe {s : Lex} (h : Inv s) : ∃ s', tokNextLine s = .ok s' ∧ Inv s' := by
  unfold tokNextLine
  split
  · exact ⟨s, rfl, h⟩
  · have h1 := (inv_next h).1
    obtain ⟨r, hr, hb⟩ := inv_skipLine (lexNext s).ahead (lexNext s).cur (lexNext s).here (lexNext s).tok (lexNext s).str h1
    simp only [hr, bind_ok]
    exact ⟨_, rfl, hb _ _⟩

theorem inv_tok' {s : Lex} (h : Inv s) : Inv (tokNext s) := by
  by_cases ht : s.tok = .error
  · unfold tokNext tokNextAux
    rw [if_pos ht]
    simp only [ht]
    exact h
  · exact (inv_tok h ht).1.1

theorem inv_start (file : List Nat) : Inv (start file) := by
  cases file with
  | nil => exact ⟨⟨[], rfl⟩, Or.inl rfl⟩
  | cons c t => exact ⟨⟨c :: t, rfl⟩, Or.inl rfl⟩

end Hob3l.Stl
