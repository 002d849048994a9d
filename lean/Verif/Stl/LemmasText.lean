import Verif.Stl.LemmasBin

namespace Hob3l.Stl

theorem space_iff (c : Nat) : isSpace c = true ↔ c = 0x20 ∨ c = 9 ∨ c = 10 ∨ c = 13 := by
  unfold isSpace; simp; omega
theorem digit_iff (c : Nat) : isDigit c = true ↔ 0x30 ≤ c ∧ c ≤ 0x39 := by
  unfold isDigit; simp
theorem alpha_iff (c : Nat) : isAlpha c = true ↔ (0x61 ≤ c ∧ c ≤ 0x7a) ∨ (0x41 ≤ c ∧ c ≤ 0x5a) := by
  unfold isAlpha; simp

/-- the loop over a prefix -/
theorem skipWhile_pre (pr : Nat → Bool) (pre : List Nat) : ∀ (cur here : Nat) (ahead : List Nat) (x : Nat) (rest : List Nat),
    cur :: ahead = pre ++ x :: rest → (∀ c ∈ pre, pr c = true) → pr x = false →
    skipWhile pr cur here ahead = ((x, if pre = [] then here else x, rest), pre) := by
  induction pre with
  | nil =>
    intro cur here ahead x rest h _ hx
    simp only [List.nil_append, List.cons.injEq] at h
    obtain ⟨rfl, rfl⟩ := h
    cases ahead with
    | nil => simp [skipWhile, hx]
    | cons c t => simp [skipWhile, hx]
  | cons p pre ih =>
    intro cur here ahead x rest h hp hx
    simp only [List.cons_append, List.cons.injEq] at h
    obtain ⟨rfl, h⟩ := h
    have hc := hp cur (by simp)
    cases ahead with
    | nil => simp at h
    | cons c t =>
      have := ih c c t x rest h (fun c hc => hp c (by simp [hc])) hx
      simp only [skipWhile, hc, if_true, this]
      split <;> rename_i e
      · subst e
        simp only [List.nil_append, List.cons.injEq] at h
        simp [h.1]
      · simp

/-- a state in the middle of a token -/
theorem eat_mid (pr : Nat → Bool) (pre : List Nat) (cur : Nat) (ahead : List Nat) (x : Nat) (rest : List Nat) (tok : Tok)
    (str : List Nat) (h : cur :: ahead = pre ++ x :: rest) (hp : ∀ c ∈ pre, pr c = true) (hx : pr x = false) :
    eat pr ⟨cur, cur, ahead, tok, str⟩ = ⟨x, x, rest, tok, str ++ pre⟩ := by
  unfold eat
  simp only
  rw [skipWhile_pre pr pre cur cur ahead x rest h hp hx]
  by_cases e : pre = []
  · subst e
    simp only [List.nil_append, List.cons.injEq] at h
    simp [h.1]
  · simp [e]

theorem eat1_mid (cur x : Nat) (rest : List Nat) (here : Nat) (tok : Tok) (str : List Nat) :
    eat1 ⟨cur, here, x :: rest, tok, str⟩ = ⟨x, x, rest, tok, str ++ [cur]⟩ := rfl

/-- a character that ends a word: white space or the end -/
def Stop (x : Nat) : Prop := x = 0x20 ∨ x = 9 ∨ x = 10 ∨ x = 13 ∨ x = 0

theorem stop_alpha {x : Nat} (h : Stop x) : isAlpha x = false := by
  rcases h with rfl | rfl | rfl | rfl | rfl <;> rfl
theorem stop_digit {x : Nat} (h : Stop x) : isDigit x = false := by
  rcases h with rfl | rfl | rfl | rfl | rfl <;> rfl

/-- letters -/
theorem word_alpha (w : List Nat) (hw : Letters w) (hne : w ≠ []) (cur : Nat) (ahead : List Nat) (x : Nat) (rest : List Nat)
    (tok : Tok) (h : cur :: ahead = w ++ x :: rest) (hx : isAlpha x = false) :
    tokBody ⟨cur, cur, ahead, tok, []⟩ = ⟨x, 0, rest, .id, w⟩ := by
  obtain ⟨c, w', rfl⟩ : ∃ c w', w = c :: w' := by
    cases w with
    | nil => exact absurd rfl hne
    | cons c w' => exact ⟨c, w', rfl⟩
  have hc : cur = c := by simpa using (List.cons.inj h).1
  have ha : isAlpha cur = true := by rw [hc, alpha_iff]; exact hw c (by simp)
  have hr := (alpha_iff cur).1 ha
  unfold tokBody
  simp only
  rw [if_neg, if_pos ha, if_neg (by omega)]
  · rw [eat_mid isAlpha (c :: w') cur ahead x rest .id [] h (fun c hc => (alpha_iff c).2 (hw c hc)) hx]
    rfl
  · rw [digit_iff]; omega

/-- the fraction -/
theorem frac_mid (fr : List Nat) (hf : fr = [] ∨ ∃ d, Digits d ∧ fr = 0x2e :: d) (cur : Nat) (ahead : List Nat) (x : Nat)
    (rest : List Nat) (tok : Tok) (str : List Nat) (h : cur :: ahead = fr ++ x :: rest) (hx : isDigit x = false) (hp : x ≠ 0x2e) :
    floatFrac ⟨cur, cur, ahead, tok, str⟩ = ⟨x, x, rest, tok, str ++ fr⟩ := by
  unfold floatFrac
  rcases hf with rfl | ⟨d, hd, rfl⟩
  · simp only [List.nil_append, List.cons.injEq] at h
    obtain ⟨rfl, rfl⟩ := h
    rw [if_neg hp]
    simp
  · simp only [List.cons_append, List.cons.injEq] at h
    obtain ⟨rfl, rfl⟩ := h
    rw [if_pos rfl]
    obtain ⟨y, t, hy⟩ : ∃ y t, d ++ x :: rest = y :: t := by
      cases d with
      | nil => exact ⟨x, rest, rfl⟩
      | cons y t => exact ⟨y, t ++ x :: rest, rfl⟩
    rw [hy, eat1_mid, eat_mid isDigit d y t x rest tok _ hy.symm (fun c hc => (digit_iff c).2 (hd c hc)) hx]
    simp

/-- the exponent -/
theorem exp_mid (ex : List Nat) (he : ex = [] ∨ ∃ e s d, (e = 0x65 ∨ e = 0x45) ∧ Sign s ∧ Digits d ∧ ex = e :: (s ++ d))
    (cur : Nat) (ahead : List Nat) (x : Nat) (rest : List Nat) (tok : Tok) (str : List Nat)
    (h : cur :: ahead = ex ++ x :: rest) (hx : Stop x) :
    floatExp ⟨cur, cur, ahead, tok, str⟩ = ⟨x, x, rest, tok, str ++ ex⟩ := by
  have hxd := stop_digit hx
  have hx1 : x ≠ 0x65 ∧ x ≠ 0x45 ∧ x ≠ 0x2d ∧ x ≠ 0x2b := by unfold Stop at hx; omega
  unfold floatExp
  rcases he with rfl | ⟨e, s, d, he, hs, hd, rfl⟩
  · simp only [List.nil_append, List.cons.injEq] at h
    obtain ⟨rfl, rfl⟩ := h
    rw [if_neg (by simp only; omega)]
    simp
  · simp only [List.cons_append, List.cons.injEq] at h
    obtain ⟨rfl, rfl⟩ := h
    rw [if_pos he]
    have hdig : ∀ c ∈ d, isDigit c = true := fun c hc => (digit_iff c).2 (hd c hc)
    have hy : ∃ y t, d ++ x :: rest = y :: t ∧ y ≠ 0x2d ∧ y ≠ 0x2b := by
      cases d with
      | nil => exact ⟨x, rest, rfl, hx1.2.2.1, hx1.2.2.2⟩
      | cons y t =>
        have := hd y (by simp)
        exact ⟨y, t ++ x :: rest, rfl, by omega, by omega⟩
    obtain ⟨y, t, hy, hy1, hy2⟩ := hy
    rcases hs with rfl | rfl | rfl
    · simp only [List.nil_append]
      rw [hy, eat1_mid]
      simp only
      rw [if_neg (by omega), eat_mid isDigit d y t x rest tok _ hy.symm hdig hxd]
      simp
    · simp only [List.cons_append, List.nil_append]
      rw [hy, eat1_mid]
      simp only
      rw [if_pos (by simp), eat1_mid, eat_mid isDigit d y t x rest tok _ hy.symm hdig hxd]
      simp
    · simp only [List.cons_append, List.nil_append]
      rw [hy, eat1_mid]
      simp only
      rw [if_pos (by simp), eat1_mid, eat_mid isDigit d y t x rest tok _ hy.symm hdig hxd]
      simp

/-- the first character of a list followed by another -/
theorem head_app (l : List Nat) (x : Nat) (rest : List Nat) : ∃ y t, l ++ x :: rest = y :: t ∧ ((l = [] ∧ y = x) ∨ y ∈ l) := by
  cases l with
  | nil => exact ⟨x, rest, rfl, Or.inl ⟨rfl, rfl⟩⟩
  | cons y t => exact ⟨y, t ++ x :: rest, rfl, Or.inr (by simp)⟩

/-- numbers -/
theorem word_num (w u : List Nat) (hw : Numeral w u) (cur : Nat) (ahead : List Nat) (x : Nat) (rest : List Nat)
    (tok : Tok) (h : cur :: ahead = w ++ x :: rest) (hx : Stop x) :
    tokBody ⟨cur, cur, ahead, tok, []⟩ = ⟨x, 0, rest, .float, u⟩ := by
  obtain ⟨sg, ds, fr, ex, hsg, hds, hfr, hex, hne⟩ := hw
  have hxd := stop_digit hx
  have hx1 : x ≠ 0x65 ∧ x ≠ 0x45 ∧ x ≠ 0x2d ∧ x ≠ 0x2b ∧ x ≠ 0x2e := by unfold Stop at hx; omega
  have hdig : ∀ c ∈ ds, isDigit c = true := fun c hc => (digit_iff c).2 (hds c hc)
  -- what comes behind the integer digits
  obtain ⟨z, tz, hz, hz'⟩ := head_app ex x rest
  have hze : isDigit z = false ∧ z ≠ 0x2e ∧ z ≠ 0x2b ∧ z ≠ 0x2d := by
    rcases hex with rfl | ⟨e, s, d, he, hs, hd, rfl⟩
    · rcases hz' with ⟨_, rfl⟩ | hz'
      · exact ⟨hxd, hx1.2.2.2.2, hx1.2.2.2.1, hx1.2.2.1⟩
      · simp at hz'
    · simp only [List.cons_append, List.cons.injEq] at hz
      rw [← hz.1]
      rcases he with rfl | rfl <;> decide
  obtain ⟨y, ty, hy, hy'⟩ := head_app fr z tz
  have hye : isDigit y = false ∧ y ≠ 0x2b ∧ y ≠ 0x2d := by
    rcases hfr with rfl | ⟨d, hd, rfl⟩
    · rcases hy' with ⟨_, rfl⟩ | hy'
      · exact ⟨hze.1, hze.2.2⟩
      · simp at hy'
    · simp only [List.cons_append, List.cons.injEq] at hy
      rw [← hy.1]; decide
  obtain ⟨v, tv, hv, hv'⟩ := head_app ds y ty
  have hve : v ≠ 0x2b ∧ v ≠ 0x2d := by
    rcases hv' with ⟨_, rfl⟩ | hv'
    · exact hye.2
    · have := hds v hv'; omega
  have hst : cur :: ahead = sg ++ v :: tv := by
    rw [h, ← hv, ← hy, ← hz]; simp
  have htail : ∀ str, cut (floatExp (floatFrac (eat isDigit ⟨v, v, tv, .float, str⟩)))
      = ⟨x, 0, rest, .float, str ++ ds ++ fr ++ ex⟩ := by
    intro str
    rw [eat_mid isDigit ds v tv y ty .float str hv.symm hdig hye.1,
      frac_mid fr hfr y ty z tz .float _ hy.symm hze.1 hze.2.1,
      exp_mid ex hex z tz x rest .float _ hz.symm hx]
    rfl
  have hfirst : cur = 0x2b ∨ cur = 0x2d ∨ cur = 0x2e ∨ isDigit cur = true := by
    rcases hsg with rfl | rfl | rfl
    · simp only [List.nil_append, List.cons.injEq] at hst
      rcases hv' with ⟨rfl, rfl⟩ | hv'
      · rcases hy' with ⟨rfl, rfl⟩ | hy'
        · simp at hne
        · rcases hfr with rfl | ⟨d, hd, rfl⟩
          · simp at hy'
          · simp only [List.cons_append, List.cons.injEq] at hy
            rw [hst.1, ← hy.1]; simp
      · right; right; right; rw [hst.1]; exact hdig v hv'
    · simp at hst; exact Or.inl hst.1
    · simp at hst; exact Or.inr (Or.inl hst.1)
  have hcur0 : cur ≠ 0 := by
    rcases hfirst with rfl | rfl | rfl | hf
    · omega
    · omega
    · omega
    · have := (digit_iff cur).1 hf; omega
  unfold tokBody
  simp only
  rw [if_pos hfirst, if_neg hcur0]
  unfold floatSign
  rcases hsg with rfl | rfl | rfl
  · simp only [List.nil_append, List.cons.injEq] at hst
    obtain ⟨rfl, rfl⟩ := hst
    rw [if_neg (by simp only; omega), if_neg (by simp only; omega), htail]
    simp
  · simp only [List.cons_append, List.nil_append, List.cons.injEq] at hst
    obtain ⟨rfl, rfl⟩ := hst
    rw [if_pos rfl, eat1_mid]
    simp only
    rw [htail]
    simp
  · simp only [List.cons_append, List.nil_append, List.cons.injEq] at hst
    obtain ⟨rfl, rfl⟩ := hst
    rw [if_neg (by simp), if_pos rfl, eat1_mid, htail]
    simp

theorem key_letters (k : Key) : Letters k.text ∧ k.text ≠ [] := by
  unfold Letters; cases k <;> decide

theorem sieve_key (k : Key) : sieveId k.text = .key k := by cases k <;> decide

/-- white space before a token -/
theorem eat_space (sep : List Nat) (hs : Space sep) (hne : sep ≠ []) (cur here : Nat) (ahead : List Nat) (x : Nat)
    (rest : List Nat) (tok : Tok) (str : List Nat) (h : cur :: ahead = sep ++ x :: rest) (hx : isSpace x = false) :
    eat isSpace ⟨cur, here, ahead, tok, str⟩ = ⟨x, x, rest, tok, str ++ sep⟩ := by
  unfold eat
  simp only
  rw [skipWhile_pre isSpace sep cur here ahead x rest h (fun c hc => (space_iff c).2 (hs c hc)) hx]
  simp [hne]

/-- a word behind white space -/
theorem tok_word (sep w : List Nat) (t : Tok) (u : List Nat) (hs : Space sep) (hne : sep ≠ []) (hw : Word w t u)
    (cur here : Nat) (ahead : List Nat) (x : Nat) (rest : List Nat) (tok : Tok) (str : List Nat) (htok : tok ≠ .error)
    (h : cur :: ahead = sep ++ (w ++ x :: rest)) (hx : Stop x) :
    tokNext ⟨cur, here, ahead, tok, str⟩ = ⟨x, 0, rest, t, u⟩ := by
  unfold tokNext tokNextAux
  simp only
  rw [if_neg htok]
  cases hw with
  | key k =>
    obtain ⟨hl, hn⟩ := key_letters k
    obtain ⟨y, ty, hy, hy'⟩ := head_app k.text x rest
    have hys : isSpace y = false := by
      rcases hy' with ⟨e, _⟩ | hy'
      · exact absurd e hn
      · have := hl y hy'
        rw [← Bool.not_eq_true, space_iff]; omega
    rw [hy] at h
    rw [eat_space sep hs hne cur here ahead y ty tok str h hys]
    simp only
    rw [word_alpha k.text hl hn y ty x rest tok hy.symm (stop_alpha hx)]
    simp [sieve_key]
  | num _ _ hw =>
    obtain ⟨y, ty, hy, hy'⟩ := head_app w x rest
    have hys : isSpace y = false := by
      obtain ⟨sg, ds, fr, ex, hsg, hds, hfr, hex, hne'⟩ := hw
      have : y = 0x2b ∨ y = 0x2d ∨ y = 0x2e ∨ (0x30 ≤ y ∧ y ≤ 0x39) := by
        rcases hsg with rfl | rfl | rfl
        · cases ds with
          | nil =>
            rcases hfr with rfl | ⟨d, hd, rfl⟩
            · simp at hne'
            · simp at hy; omega
          | cons d ds =>
            simp at hy
            have := hds d (by simp)
            omega
        · simp at hy; omega
        · simp at hy; omega
      rw [← Bool.not_eq_true, space_iff]; omega
    rw [hy] at h
    rw [eat_space sep hs hne cur here ahead y ty tok str h hys]
    simp only
    rw [word_num w u hw y ty x rest tok hy.symm hx]
    simp

end Hob3l.Stl
