import Verif.Syn.LemmasToken
/-! # The token relation, by the first character -/
namespace Hob3l.Syn

theorem number_head {s : Text} (h : NumberText s) : ∃ c r, s = c :: r ∧ BeginsNumber c := by
  obtain ⟨sg, ip, f, e, rfl, hsg, hip, hf, -, hne⟩ := h
  rcases hsg with rfl | rfl | rfl
  · cases ip with
    | nil =>
      rcases hf with rfl | ⟨d, rfl, -⟩
      · simp at hne
      · exact ⟨46, d ++ e, rfl, Or.inr (Or.inr (Or.inl rfl))⟩
    | cons c ip => exact ⟨c, ip ++ f ++ e, rfl, Or.inr (Or.inr (Or.inr (hip c (by simp))))⟩
  · exact ⟨43, ip ++ f ++ e, rfl, Or.inl rfl⟩
  · exact ⟨45, ip ++ f ++ e, rfl, Or.inr (Or.inl rfl)⟩

/-- The token of a number. -/
def numToken (lexeme : Text) : Token :=
  if IsFloat lexeme then .float (numberText lexeme) else .int (numberText lexeme)

theorem lexes_inv {g : Bool} {s : Text} {ts : List Token} (h : Lexes g s ts) :
    (s = [] ∧ ts = []) ∨ (∃ r, s = 0 :: r ∧ ts = []) ∨ (∃ c r, s = c :: r ∧ Space c ∧ Lexes false r ts) ∨
    (∃ body r, s = 47 :: 47 :: (body ++ r) ∧ (∀ c ∈ body, c ≠ 10 ∧ c ≠ 0) ∧
      (r = [] ∨ r.head? = some 10 ∨ r.head? = some 0) ∧ Lexes false r ts) ∨
    (∃ body r, s = 47 :: 42 :: (body ++ 42 :: 47 :: r) ∧ NoClose body ∧ 0 ∉ body ∧ Lexes false r ts) ∨
    (g = false ∧ ∃ c l r ts', s = c :: (l ++ r) ∧ BeginsNumber c ∧ Longest NumberText (c :: l) r ∧
      Lexes true r ts' ∧ ts = numToken (c :: l) :: ts') ∨
    (g = false ∧ ∃ c l r ts', s = c :: (l ++ r) ∧ BeginsId c ∧ Longest IdText (c :: l) r ∧
      Lexes true r ts' ∧ ts = .id (c :: l) :: ts') ∨
    (∃ body r ts', s = 34 :: (body ++ 34 :: r) ∧ StrBody body ∧ Lexes false r ts' ∧ ts = .str body :: ts') ∨
    (∃ body r ts', s = 60 :: (body ++ 62 :: r) ∧ 62 ∉ body ∧ 0 ∉ body ∧ Lexes false r ts' ∧ ts = .path body :: ts') ∨
    (∃ c r ts', s = c :: r ∧ c ≠ 0 ∧ c < 128 ∧ ¬ Space c ∧ ¬ BeginsNumber c ∧ ¬ BeginsId c ∧ c ≠ 34 ∧
      (c = 47 → r.head? ≠ some 47 ∧ r.head? ≠ some 42) ∧ Lexes false r ts' ∧
      ts = .sym c (if g then [] else (c :: r).takeWhile (· ≠ 0)) :: ts') := by
  cases h with
  | eof => left; exact ⟨rfl, rfl⟩
  | nul => right; left; exact ⟨_, rfl, rfl⟩
  | space h1 h2 => right; right; left; exact ⟨_, _, rfl, h1, h2⟩
  | lineComment h1 h2 h3 => right; right; right; left; exact ⟨_, _, rfl, h1, h2, h3⟩
  | blockComment h1 h2 h3 => right; right; right; right; left; exact ⟨_, _, rfl, h1, h2, h3⟩
  | number h1 h2 =>
    right; right; right; right; right; left
    obtain ⟨c, r, rfl, hc⟩ := number_head h1.1
    exact ⟨rfl, c, r, _, _, rfl, hc, h1, h2, rfl⟩
  | ident h1 h2 =>
    right; right; right; right; right; right; left
    obtain ⟨c, r, rfl, hc, -⟩ := h1.1
    exact ⟨rfl, c, r, _, _, rfl, hc, h1, h2, rfl⟩
  | str h1 h2 => right; right; right; right; right; right; right; left; exact ⟨_, _, _, rfl, h1, h2, rfl⟩
  | path h1 h2 h3 =>
    right; right; right; right; right; right; right; right; left; exact ⟨_, _, _, rfl, h1, h2, h3, rfl⟩
  | sym h1 h2 h3 h4 h5 h6 h7 h8 =>
    right; right; right; right; right; right; right; right; right
    exact ⟨_, _, _, rfl, h1, h2, h3, h4, h5, h6, h7, h8, rfl⟩

/-- Contradictory classes of the first character. -/
macro "clash" : tactic => `(tactic| (
  (try simp only [List.cons.injEq, reduceCtorEq] at *)
  <;> (try simp only [Space, BeginsNumber, BeginsId, Digit, Letter] at *)
  <;> (first | contradiction | omega | simp_all)))

theorem lexes_nil {g : Bool} {ts : List Token} : Lexes g [] ts ↔ ts = [] := by
  constructor
  · intro h
    rcases lexes_inv h with ⟨-, h⟩ | ⟨r, h1, h⟩ | ⟨c, r, h1, -⟩ | ⟨b, r, h1, -⟩ | ⟨b, r, h1, -⟩ | ⟨-, c, l, r, t, h1, -⟩ |
      ⟨-, c, l, r, t, h1, -⟩ | ⟨b, r, t, h1, -⟩ | ⟨b, r, t, h1, -⟩ | ⟨c, r, t, h1, -⟩
    · exact h
    all_goals cases h1
  · rintro rfl; exact Lexes.eof

theorem lexes_nul {g : Bool} {r : Text} {ts : List Token} : Lexes g (0 :: r) ts ↔ ts = [] := by
  constructor
  · intro h
    rcases lexes_inv h with ⟨-, h⟩ | ⟨r, h1, h⟩ | ⟨c, r, h1, h2, -⟩ | ⟨b, r, h1, -⟩ | ⟨b, r, h1, -⟩ |
      ⟨-, c, l, r, t, h1, h2, -⟩ | ⟨-, c, l, r, t, h1, h2, -⟩ | ⟨b, r, t, h1, -⟩ | ⟨b, r, t, h1, -⟩ | ⟨c, r, t, h1, h2, -⟩
    · exact h
    · exact h
    all_goals (exfalso; clash)
  · rintro rfl; exact Lexes.nul

theorem lexes_space {g : Bool} {a : Nat} {r : Text} {ts : List Token} (ha : Space a) :
    Lexes g (a :: r) ts ↔ Lexes false r ts := by
  constructor
  · intro h
    rcases lexes_inv h with ⟨h1, -⟩ | ⟨r, h1, h⟩ | ⟨c, r, h1, h2, h⟩ | ⟨b, r, h1, -⟩ | ⟨b, r, h1, -⟩ |
      ⟨-, c, l, r, t, h1, h2, -⟩ | ⟨-, c, l, r, t, h1, h2, -⟩ | ⟨b, r, t, h1, -⟩ | ⟨b, r, t, h1, -⟩ |
      ⟨c, r, t, h1, h2, h3, h4, -⟩
    · cases h1
    · exfalso; clash
    · cases h1; exact h
    · exfalso; clash
    · exfalso; clash
    · exfalso; clash
    · exfalso; clash
    · exfalso; clash
    · exfalso; clash
    · cases h1; exact absurd ha h4
  · exact Lexes.space ha

theorem lexes_number {g : Bool} {a : Nat} {r : Text} {ts : List Token} (ha : BeginsNumber a) :
    Lexes g (a :: r) ts ↔
      g = false ∧ ∃ ts', ts = numToken (numLex (a :: r)) :: ts' ∧ Lexes true (afterNum (a :: r)) ts' := by
  constructor
  · intro h
    rcases lexes_inv h with ⟨h1, -⟩ | ⟨r, h1, h⟩ | ⟨c, r, h1, h2, h⟩ | ⟨b, r, h1, -⟩ | ⟨b, r, h1, -⟩ |
      ⟨hg, c, l, r', t, h1, h2, h3, h4, h5⟩ | ⟨-, c, l, r, t, h1, h2, -⟩ | ⟨b, r, t, h1, -⟩ | ⟨b, r, t, h1, -⟩ |
      ⟨c, r, t, h1, h2, h3, h4, h5, -⟩
    · cases h1
    · exfalso; clash
    · exfalso; clash
    · exfalso; clash
    · exfalso; clash
    · have := longest_unique (longest_number (s := r) ha) h3 (by rw [← num_split, h1]; rfl)
      rw [this.1, this.2]
      exact ⟨hg, t, h5, h4⟩
    · exfalso; clash
    · exfalso; clash
    · exfalso; clash
    · cases h1; exact absurd ha h5
  · rintro ⟨rfl, ts', rfl, h⟩
    have := Lexes.number (longest_number (s := r) ha) h
    rw [← num_split] at this
    exact this

theorem lexes_id {g : Bool} {a : Nat} {r : Text} {ts : List Token} (ha : BeginsId a) :
    Lexes g (a :: r) ts ↔
      g = false ∧ ∃ ts', ts = .id (a :: r.takeWhile idChar) :: ts' ∧ Lexes true (r.dropWhile idChar) ts' := by
  constructor
  · intro h
    rcases lexes_inv h with ⟨h1, -⟩ | ⟨r, h1, h⟩ | ⟨c, r, h1, h2, h⟩ | ⟨b, r, h1, -⟩ | ⟨b, r, h1, -⟩ |
      ⟨-, c, l, r, t, h1, h2, -⟩ | ⟨hg, c, l, r', t, h1, h2, h3, h4, h5⟩ | ⟨b, r, t, h1, -⟩ | ⟨b, r, t, h1, -⟩ |
      ⟨c, r, t, h1, h2, h3, h4, h5, h6, -⟩
    · cases h1
    · exfalso; clash
    · exfalso; clash
    · exfalso; clash
    · exfalso; clash
    · exfalso; clash
    · have := longest_unique (longest_id (s := r) ha) h3
        (by rw [List.cons_append, List.takeWhile_append_dropWhile, h1]; rfl)
      rw [this.1, this.2]
      exact ⟨hg, t, h5, h4⟩
    · exfalso; clash
    · exfalso; clash
    · cases h1; exact absurd ha h6
  · rintro ⟨rfl, ts', rfl, h⟩
    have := Lexes.ident (longest_id (s := r) ha) h
    rw [List.cons_append, List.takeWhile_append_dropWhile] at this
    exact this

theorem lexes_str {g : Bool} {r : Text} {ts : List Token} :
    Lexes g (34 :: r) ts ↔
      ∃ body r' ts', r = body ++ 34 :: r' ∧ StrBody body ∧ ts = .str body :: ts' ∧ Lexes false r' ts' := by
  constructor
  · intro h
    rcases lexes_inv h with ⟨h1, -⟩ | ⟨r, h1, h⟩ | ⟨c, r, h1, h2, h⟩ | ⟨b, r, h1, -⟩ | ⟨b, r, h1, -⟩ |
      ⟨-, c, l, r, t, h1, h2, -⟩ | ⟨-, c, l, r', t, h1, h2, h3, h4, h5⟩ | ⟨b, r', t, h1, h2, h3, h4⟩ | ⟨b, r, t, h1, -⟩ |
      ⟨c, r, t, h1, h2, h3, h4, h5, h6, h7, -⟩
    · cases h1
    · exfalso; clash
    · exfalso; clash
    · exfalso; clash
    · exfalso; clash
    · exfalso; clash
    · exfalso; clash
    · cases h1
      exact ⟨b, r', t, rfl, h2, h4, h3⟩
    · exfalso; clash
    · cases h1; exact absurd rfl h7
  · rintro ⟨body, r', ts', rfl, h1, rfl, h2⟩
    exact Lexes.str h1 h2

/-- The end of a line comment. -/
def inLine (c : Nat) : Bool := c != 10 && c != 0

theorem inLine_iff (c : Nat) : inLine c = true ↔ c ≠ 10 ∧ c ≠ 0 := by simp [inLine]

theorem lexes_line {g : Bool} {r : Text} {ts : List Token} :
    Lexes g (47 :: 47 :: r) ts ↔ Lexes false (r.dropWhile inLine) ts := by
  constructor
  · intro h
    rcases lexes_inv h with ⟨h1, -⟩ | ⟨r, h1, h⟩ | ⟨c, r, h1, h2, h⟩ | ⟨b, r', h1, h2, h3, h4⟩ | ⟨b, r, h1, -⟩ |
      ⟨-, c, l, r, t, h1, h2, -⟩ | ⟨-, c, l, r', t, h1, h2, h3, h4, h5⟩ | ⟨b, r', t, h1, -⟩ | ⟨b, r, t, h1, -⟩ |
      ⟨c, r, t, h1, h2, h3, h4, h5, h6, h7, h8, -⟩
    · cases h1
    · exfalso; clash
    · exfalso; clash
    · cases h1
      rw [List.dropWhile_append_of_pos (fun c hc => (inLine_iff c).mpr (h2 c hc))]
      have : r'.dropWhile inLine = r' := by
        cases r' with
        | nil => rfl
        | cons c r' =>
          rw [List.dropWhile_cons, if_neg]
          rw [inLine_iff]
          simp at h3
          omega
      rw [this]
      exact h4
    · simp at h1
    · exfalso; clash
    · exfalso; clash
    · exfalso; clash
    · exfalso; clash
    · cases h1
      exact absurd rfl (h8 rfl).1
  · intro h
    have := Lexes.lineComment (g := g) (body := r.takeWhile inLine) (s := r.dropWhile inLine)
      (fun c hc => (inLine_iff c).mp (of_mem_takeWhile hc)) (by
        cases hd : r.dropWhile inLine with
        | nil => left; rfl
        | cons c t =>
          right
          have := List.head_dropWhile_not (p := inLine) (l := r) (by rw [hd]; simp)
          simp only [hd, List.head_cons] at this
          rw [← Bool.not_eq_true, inLine_iff] at this
          simp; omega) h
    rw [List.takeWhile_append_dropWhile] at this
    exact this

theorem lexes_block {g : Bool} {r : Text} {ts : List Token} :
    Lexes g (47 :: 42 :: r) ts ↔
      ∃ body r', r = body ++ 42 :: 47 :: r' ∧ NoClose body ∧ 0 ∉ body ∧ Lexes false r' ts := by
  constructor
  · intro h
    rcases lexes_inv h with ⟨h1, -⟩ | ⟨r, h1, h⟩ | ⟨c, r, h1, h2, h⟩ | ⟨b, r', h1, -⟩ | ⟨b, r', h1, h2, h3, h4⟩ |
      ⟨-, c, l, r, t, h1, h2, -⟩ | ⟨-, c, l, r', t, h1, h2, h3, h4, h5⟩ | ⟨b, r', t, h1, -⟩ | ⟨b, r, t, h1, -⟩ |
      ⟨c, r, t, h1, h2, h3, h4, h5, h6, h7, h8, -⟩
    · cases h1
    · exfalso; clash
    · exfalso; clash
    · simp at h1
    · cases h1
      exact ⟨b, r', rfl, h2, h3, h4⟩
    · exfalso; clash
    · exfalso; clash
    · exfalso; clash
    · exfalso; clash
    · cases h1
      exact absurd rfl (h8 rfl).2
  · rintro ⟨body, r', rfl, h1, h2, h3⟩
    exact Lexes.blockComment h1 h2 h3

theorem lexes_high {g : Bool} {a : Nat} {r : Text} {ts : List Token} (ha : 128 ≤ a) : ¬ Lexes g (a :: r) ts := by
  intro h
  rcases lexes_inv h with ⟨h1, -⟩ | ⟨r, h1, h⟩ | ⟨c, r, h1, h2, h⟩ | ⟨b, r', h1, -⟩ | ⟨b, r', h1, h2, h3, h4⟩ |
    ⟨-, c, l, r, t, h1, h2, -⟩ | ⟨-, c, l, r', t, h1, h2, h3, h4, h5⟩ | ⟨b, r', t, h1, -⟩ | ⟨b, r, t, h1, -⟩ |
    ⟨c, r, t, h1, h2, h3, h4, h5, h6, h7, h8, -⟩
  · cases h1
  all_goals clash

/-- The text of a symbol in front of a text. -/
def symText (g : Bool) (s : Text) : Text := if g then [] else s.takeWhile (· ≠ 0)

theorem lexes_sym {g : Bool} {a : Nat} {r : Text} {ts : List Token} (h0 : a ≠ 0) (h128 : a < 128) (hs : ¬ Space a)
    (hn : ¬ BeginsNumber a) (hi : ¬ BeginsId a) (h34 : a ≠ 34)
    (h47 : a = 47 → r.head? ≠ some 47 ∧ r.head? ≠ some 42) :
    Lexes g (a :: r) ts ↔
      (∃ ts', ts = .sym a (symText g (a :: r)) :: ts' ∧ Lexes false r ts') ∨
      (a = 60 ∧ ∃ body r' ts', r = body ++ 62 :: r' ∧ 62 ∉ body ∧ 0 ∉ body ∧ ts = .path body :: ts' ∧
        Lexes false r' ts') := by
  constructor
  · intro h
    rcases lexes_inv h with ⟨h1, -⟩ | ⟨r, h1, h⟩ | ⟨c, r, h1, h2, h⟩ | ⟨b, r', h1, -⟩ | ⟨b, r', h1, h2, h3, h4⟩ |
      ⟨-, c, l, r, t, h1, h2, -⟩ | ⟨-, c, l, r', t, h1, h2, h3, h4, h5⟩ | ⟨b, r', t, h1, -⟩ | ⟨b, r', t, h1, h2, h3, h4, h5⟩ |
      ⟨c, r, t, h1, h2, h3, h4, h5, h6, h7, h8, h9, h10⟩
    · cases h1
    · cases h1; exact absurd rfl h0
    · cases h1; exact absurd h2 hs
    · cases h1; simp at h47
    · cases h1; simp at h47
    · cases h1; exact absurd h2 hn
    · cases h1; exact absurd h2 hi
    · cases h1; exact absurd rfl h34
    · cases h1
      exact Or.inr ⟨rfl, b, r', t, rfl, h2, h3, h5, h4⟩
    · cases h1
      exact Or.inl ⟨t, h10, h9⟩
  · rintro (⟨ts', rfl, h⟩ | ⟨rfl, body, r', ts', rfl, h1, h2, rfl, h3⟩)
    · exact Lexes.sym h0 h128 hs hn hi h34 h47 h
    · exact Lexes.path h1 h2 h3

/-- Whether a text begins behind a number does not matter if it is empty. -/
theorem lexes_glue {g g' : Bool} {s : Text} {ts : List Token} (h : s.headD 0 = 0) : Lexes g s ts ↔ Lexes g' s ts := by
  cases s with
  | nil => rw [lexes_nil, lexes_nil]
  | cons a r =>
    simp at h
    subst h
    rw [lexes_nul, lexes_nul]

theorem inv_text {l : Lex} {s s' : Text} {g g' : Bool} (h : Inv l s g) (h' : Inv l s' g') :
    s = s' ∧ (g = g' ∨ s.headD 0 = 0) := by
  have hl : s.length = s'.length := by have := h.pos; have := h'.pos; omega
  have hc := h.cur.symm.trans h'.cur
  have hb := h.buf.symm.trans h'.buf
  have ht := congrArg List.tail hb
  rw [tail_mark, tail_mark] at ht
  cases s with
  | nil =>
    cases s' with
    | nil => exact ⟨rfl, Or.inr rfl⟩
    | cons a' r' => simp at hl
  | cons a r =>
    cases s' with
    | nil => simp at hl
    | cons a' r' =>
      simp only [List.headD_cons] at hc
      simp only [List.cons_append, List.tail_cons] at ht
      have hr := List.append_cancel_right ht
      refine ⟨by rw [hc, hr], ?_⟩
      subst hc hr
      by_cases ha : a = 0
      · right; simp [ha]
      · left
        cases g <;> cases g' <;> simp [mark] at hb ⊢ <;> omega

theorem inv_lexes {l : Lex} {s s' : Text} {g g' : Bool} {ts : List Token} (h : Inv l s g) (h' : Inv l s' g') :
    Lexes g s ts ↔ Lexes g' s' ts := by
  obtain ⟨rfl, hg | hg⟩ := inv_text h h'
  · rw [hg]
  · exact lexes_glue hg

theorem lexes_spaces (g : Bool) (s : Text) (ts : List Token) :
    Lexes g s ts ↔ Lexes (if s.takeWhile isSpace = [] then g else false) (s.dropWhile isSpace) ts := by
  induction s generalizing g with
  | nil => simp
  | cons a s ih =>
    cases ha : isSpace a with
    | true =>
      rw [lexes_space ((isSpace_iff a).mp ha), ih false, List.takeWhile_cons, List.dropWhile_cons, if_pos ha, if_pos ha,
        if_neg (List.cons_ne_nil _ _)]
      split_ifs <;> exact Iff.rfl
    | false => simp [List.takeWhile_cons, List.dropWhile_cons, ha]

end Hob3l.Syn
