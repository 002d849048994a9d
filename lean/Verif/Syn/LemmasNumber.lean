import Verif.Syn.LemmasLex
/-! # Lexer: numbers -/
namespace Hob3l.Syn

theorem isDigit_iff (c : Nat) : isDigit c = true ↔ Digit c := by
  simp [isDigit, Digit, ch]

theorem isAlpha_iff (c : Nat) : isAlpha c = true ↔ Letter c := by
  simp [isAlpha, Letter, ch]

theorem isSpace_iff (c : Nat) : isSpace c = true ↔ Space c := by
  simp [isSpace, Space, ch, or_assoc]

theorem numStart_iff (c : Nat) : numStart c = true ↔ BeginsNumber c := by
  simp [numStart, BeginsNumber, ch, isDigit_iff, or_assoc]

theorem idStart_iff (c : Nat) : idStart c = true ↔ BeginsId c := by
  simp [idStart, BeginsId, ch, isAlpha_iff, or_assoc]

theorem idChar_iff (c : Nat) : idChar c = true ↔ Letter c ∨ Digit c ∨ c = 95 := by
  simp [idChar, ch, isAlpha_iff, isDigit_iff, or_assoc]

/-- A text in a class of characters, followed by something else, at the beginning of a text. -/
theorem stage (d : Nat → Bool) {x y s : Text} (h : x ++ y <+: s) (hx : ∀ c ∈ x, d c = true)
    (hy : ∀ c r, y = c :: r → d c = false) :
    (x = s.takeWhile d ∧ y <+: s.dropWhile d) ∨ (y = [] ∧ x.length ≤ (s.takeWhile d).length) := by
  induction x generalizing s with
  | nil =>
    cases y with
    | nil => right; simp
    | cons c r =>
      left
      obtain ⟨t, rfl⟩ := h
      simp [List.takeWhile_cons, List.dropWhile_cons, hy c r rfl]
  | cons a x ih =>
    obtain ⟨t, rfl⟩ := h
    have ha : d a = true := hx a (by simp)
    rcases ih (s := x ++ y ++ t) (List.prefix_append _ _) (fun c hc => hx c (by simp [hc])) with ⟨h1, h2⟩ | ⟨h1, h2⟩
    · left
      refine ⟨?_, ?_⟩
      · rw [List.cons_append, List.cons_append, List.takeWhile_cons, if_pos ha, ← h1]
      · rw [List.cons_append, List.cons_append, List.dropWhile_cons, if_pos ha]; exact h2
    · right
      refine ⟨h1, ?_⟩
      rw [List.cons_append, List.cons_append, List.takeWhile_cons, if_pos ha]
      simpa using h2

/-- The sign at the beginning of a text. -/
def sgn : Text → Text
  | 43 :: _ => [43]
  | 45 :: _ => [45]
  | _ => []

theorem sgn_cases (s : Text) :
    (∃ r, s = 43 :: r ∧ sgn s = [43]) ∨ (∃ r, s = 45 :: r ∧ sgn s = [45]) ∨
    (s.head? ≠ some 43 ∧ s.head? ≠ some 45 ∧ sgn s = []) := by
  unfold sgn
  split
  · left; exact ⟨_, rfl, rfl⟩
  · right; left; exact ⟨_, rfl, rfl⟩
  · rename_i h1 h2
    right; right
    refine ⟨?_, ?_, rfl⟩
    · cases s with
      | nil => simp
      | cons a r => intro h; simp at h; exact h1 r (by rw [h])
    · cases s with
      | nil => simp
      | cons a r => intro h; simp at h; exact h2 r (by rw [h])

theorem sgn_prefix (s : Text) : s = sgn s ++ s.drop (sgn s).length := by
  rcases sgn_cases s with ⟨r, rfl, h⟩ | ⟨r, rfl, h⟩ | ⟨-, -, h⟩ <;> rw [h] <;> simp

/-- The digits behind a point at the beginning of a text. -/
def fracPart : Text → Text
  | 46 :: r => 46 :: r.takeWhile isDigit
  | _ => []

theorem frac_cases (s : Text) :
    (∃ r, s = 46 :: r ∧ fracPart s = 46 :: r.takeWhile isDigit) ∨ (s.head? ≠ some 46 ∧ fracPart s = []) := by
  unfold fracPart
  split
  · left; exact ⟨_, rfl, rfl⟩
  · rename_i h1
    right
    refine ⟨?_, rfl⟩
    cases s with
    | nil => simp
    | cons a r => intro h; simp at h; exact h1 r (by rw [h])

/-- The exponent at the beginning of a text. -/
def expPart : Text → Text
  | c :: r => if c = 101 ∨ c = 69 then c :: (sgn r ++ (r.drop (sgn r).length).takeWhile isDigit) else []
  | _ => []

theorem exp_cases (s : Text) :
    (∃ c r, s = c :: r ∧ (c = 101 ∨ c = 69) ∧
      expPart s = c :: (sgn r ++ (r.drop (sgn r).length).takeWhile isDigit)) ∨
    (s.head? ≠ some 101 ∧ s.head? ≠ some 69 ∧ expPart s = []) := by
  cases s with
  | nil => right; simp [expPart]
  | cons c r =>
    by_cases h : c = 101 ∨ c = 69
    · left; exact ⟨c, r, rfl, h, by rw [expPart, if_pos h]⟩
    · right
      refine ⟨?_, ?_, by rw [expPart, if_neg h]⟩
      · simp; tauto
      · simp; tauto

/-- What remains behind a fractional part. -/
def afterFrac (s : Text) : Text := s.drop (fracPart s).length

/-- What remains behind an exponent. -/
def afterExp (s : Text) : Text := s.drop (expPart s).length

/-- Sign and digits at the beginning of a text, and what remains. -/
def intPart (s : Text) : Text := sgn s ++ (s.drop (sgn s).length).takeWhile isDigit
def afterInt (s : Text) : Text := (s.drop (sgn s).length).dropWhile isDigit

/-- The number at the beginning of a text. -/
def numLex (s : Text) : Text :=
  intPart s ++ fracPart (afterInt s) ++ expPart (afterFrac (afterInt s))
def afterNum (s : Text) : Text := afterExp (afterFrac (afterInt s))

theorem drop_takeWhile {α : Type} (p : α → Bool) (l : List α) : l.drop (l.takeWhile p).length = l.dropWhile p := by
  induction l with
  | nil => rfl
  | cons a l ih =>
    rw [List.takeWhile_cons, List.dropWhile_cons]
    cases p a with
    | true => simpa using ih
    | false => rfl

theorem afterFrac_cons (r : Text) : afterFrac (46 :: r) = r.dropWhile isDigit := by
  rw [← drop_takeWhile]; rfl

theorem int_split (s : Text) : s = intPart s ++ afterInt s := by
  conv_lhs => rw [sgn_prefix s]
  rw [intPart, afterInt, List.append_assoc, List.takeWhile_append_dropWhile]

theorem frac_split (s : Text) : s = fracPart s ++ afterFrac s := by
  rcases frac_cases s with ⟨r, rfl, h⟩ | ⟨-, h⟩
  · rw [afterFrac_cons, h, List.cons_append, List.takeWhile_append_dropWhile]
  · rw [afterFrac, h]; rfl

theorem exp_split (s : Text) : s = expPart s ++ afterExp s := by
  rcases exp_cases s with ⟨c, r, rfl, -, h⟩ | ⟨-, -, h⟩
  · rw [afterExp, h, List.length_cons, List.drop_succ_cons, List.length_append, ← List.drop_drop, drop_takeWhile,
      List.cons_append, List.append_assoc, List.takeWhile_append_dropWhile, ← sgn_prefix]
  · rw [afterExp, h]; rfl

theorem num_split (s : Text) : s = numLex s ++ afterNum s := by
  rw [numLex, afterNum, List.append_assoc, List.append_assoc, ← exp_split, ← frac_split, ← int_split]

theorem digits_takeWhile (s : Text) : Digits (s.takeWhile isDigit) := by
  intro c hc
  exact (isDigit_iff c).mp (of_mem_takeWhile hc)

theorem sgn_or (s : Text) : sgn s = [] ∨ sgn s = [43] ∨ sgn s = [45] := by
  rcases sgn_cases s with ⟨r, -, h⟩ | ⟨r, -, h⟩ | ⟨-, -, h⟩ <;> simp [h]

theorem numLex_number {a : Nat} {s : Text} (ha : BeginsNumber a) : NumberText (numLex (a :: s)) := by
  refine ⟨sgn (a :: s), _, _, _, rfl, sgn_or _, digits_takeWhile _, ?_, ?_, ?_⟩
  · rcases frac_cases (afterInt (a :: s)) with ⟨r, -, h⟩ | ⟨-, h⟩
    · right; exact ⟨_, h, digits_takeWhile _⟩
    · left; exact h
  · rcases exp_cases (afterFrac (afterInt (a :: s))) with ⟨c, r, -, hc, h⟩ | ⟨-, -, h⟩
    · right; exact ⟨c, sgn r, _, h, hc, sgn_or _, digits_takeWhile _⟩
    · left; exact h
  · intro h
    rw [List.append_eq_nil_iff, List.append_eq_nil_iff] at h
    obtain ⟨⟨h1, h2⟩, h3⟩ := h
    have hd : ¬ Digit a := by
      intro hd
      rw [h1, List.length_nil, List.drop_zero, List.takeWhile_cons, if_pos ((isDigit_iff a).mpr hd)] at h2
      simp at h2
    have hs : afterInt (a :: s) = a :: s := by
      have := int_split (a :: s)
      rw [intPart, h1, List.length_nil, List.drop_zero] at this
      rw [h1, List.length_nil, List.drop_zero] at h2
      rw [h2] at this
      exact this.symm
    rw [hs] at h3
    rcases ha with rfl | rfl | rfl | ha
    · simp [sgn] at h1
    · simp [sgn] at h1
    · simp [fracPart] at h3
    · exact hd ha

theorem exp_longest {e s : Text} (h : e <+: s)
    (he : e = [] ∨ ∃ c sg d, e = c :: (sg ++ d) ∧ (c = 101 ∨ c = 69) ∧ (sg = [] ∨ sg = [43] ∨ sg = [45]) ∧ Digits d) :
    e.length ≤ (expPart s).length := by
  rcases he with rfl | ⟨c, sg, d, rfl, hc, hsg, hd⟩
  · simp
  obtain ⟨t, rfl⟩ := h
  rw [List.cons_append, expPart, if_pos hc]
  simp only [List.length_cons, List.length_append, Nat.add_le_add_iff_right]
  have hd' : ∀ c ∈ d, isDigit c = true := fun c hc => (isDigit_iff c).mpr (hd c hc)
  have key : ∀ u : Text, d.length ≤ ((d ++ u).takeWhile isDigit).length := by
    intro u
    rw [List.takeWhile_append_of_pos hd']
    simp
  rcases hsg with rfl | rfl | rfl
  · rw [List.nil_append]
    cases d with
    | nil => simp
    | cons x d =>
      have hx := hd x (by simp)
      have : sgn (x :: d ++ t) = [] := by
        rcases sgn_cases (x :: d ++ t) with ⟨r, h, -⟩ | ⟨r, h, -⟩ | ⟨-, -, h⟩
        · simp at h; unfold Digit at hx; omega
        · simp at h; unfold Digit at hx; omega
        · exact h
      rw [this]
      simpa using key t
  · have : sgn ([43] ++ d ++ t) = [43] := rfl
    rw [this]
    simpa using key t
  · have : sgn ([45] ++ d ++ t) = [45] := rfl
    rw [this]
    simpa using key t

theorem frac_longest {f e s : Text} (h : f ++ e <+: s) (hf : f = [] ∨ ∃ d, f = 46 :: d ∧ Digits d)
    (he : e = [] ∨ ∃ c sg d, e = c :: (sg ++ d) ∧ (c = 101 ∨ c = 69) ∧ (sg = [] ∨ sg = [43] ∨ sg = [45]) ∧ Digits d) :
    (f ++ e).length ≤ (fracPart s ++ expPart (afterFrac s)).length := by
  rcases hf with rfl | ⟨d, rfl, hd⟩
  · rw [List.nil_append] at h ⊢
    rcases frac_cases s with ⟨r, rfl, h1⟩ | ⟨h0, h1⟩
    · rcases he with rfl | ⟨c, sg, d, rfl, hc, -, -⟩
      · simp
      · obtain ⟨t, ht⟩ := h
        simp at ht
        omega
    · have : afterFrac s = s := by rw [afterFrac, h1]; rfl
      rw [h1, this, List.nil_append]
      exact exp_longest h he
  · obtain ⟨t, rfl⟩ := h
    have e1 : (46 :: d ++ e) ++ t = 46 :: (d ++ e ++ t) := rfl
    rw [e1, afterFrac_cons, fracPart]
    simp only [List.cons_append, List.length_cons, List.length_append, Nat.add_le_add_iff_right]
    have hd' : ∀ c ∈ d, isDigit c = true := fun c hc => (isDigit_iff c).mpr (hd c hc)
    rcases stage isDigit (x := d) (y := e) (s := d ++ e ++ t) (List.prefix_append _ _) hd' (by
        intro c r hr
        rcases he with rfl | ⟨c', sg, d', rfl, hc, -, -⟩
        · cases hr
        · simp only [List.cons.injEq] at hr
          rw [Bool.eq_false_iff, Ne, isDigit_iff, Digit]
          omega) with ⟨h1, h2⟩ | ⟨h1, h2⟩
    · have := exp_longest h2 he
      rw [← h1]
      omega
    · subst h1
      simp only [List.length_nil]
      omega

theorem numLex_longest {p s : Text} (h : p <+: s) (hp : NumberText p) : p.length ≤ (numLex s).length := by
  obtain ⟨sg, ip, f, e, rfl, hsg, hip, hf, he, hne⟩ := hp
  have hi' : ∀ c ∈ ip, isDigit c = true := fun c hc => (isDigit_iff c).mpr (hip c hc)
  have hfe : ∀ c r, f ++ e = c :: r → c = 46 ∨ c = 101 ∨ c = 69 := by
    intro c r hr
    rcases hf with rfl | ⟨d, rfl, -⟩
    · rcases he with rfl | ⟨c', sg, d', rfl, hc, -, -⟩
      · cases hr
      · simp at hr; omega
    · simp at hr; omega
  -- the sign is the sign
  have hs : sgn s = sg := by
    obtain ⟨t, rfl⟩ := h
    rcases hsg with rfl | rfl | rfl
    · cases ip with
      | nil =>
        cases f with
        | nil => simp at hne
        | cons c f =>
          have := hfe c (f ++ e) rfl
          rcases sgn_cases ([] ++ [] ++ (c :: f) ++ e ++ t) with ⟨r, h, -⟩ | ⟨r, h, -⟩ | ⟨-, -, h⟩
          · simp at h; omega
          · simp at h; omega
          · exact h
      | cons c ip =>
        have hx := hip c (by simp)
        unfold Digit at hx
        rcases sgn_cases ([] ++ (c :: ip) ++ f ++ e ++ t) with ⟨r, h, -⟩ | ⟨r, h, -⟩ | ⟨-, -, h⟩
        · simp at h; omega
        · simp at h; omega
        · exact h
    · rfl
    · rfl
  have h1 : ip ++ (f ++ e) <+: s.drop sg.length := by
    obtain ⟨t, rfl⟩ := h
    refine ⟨t, ?_⟩
    simp [List.append_assoc]
  rw [numLex, intPart, afterInt, hs]
  simp only [List.length_append]
  rcases stage isDigit h1 hi' (by
      intro c r hr
      have := hfe c r hr
      rw [Bool.eq_false_iff, Ne, isDigit_iff, Digit]
      omega) with ⟨h2, h3⟩ | ⟨h2, h3⟩
  · have := frac_longest h3 hf he
    simp only [List.length_append] at this
    rw [← h2]
    omega
  · have h4 := congrArg List.length h2
    simp only [List.length_append, List.length_nil] at h4
    omega

theorem longest_number {a : Nat} {s : Text} (ha : BeginsNumber a) :
    Longest NumberText (numLex (a :: s)) (afterNum (a :: s)) := by
  refine ⟨numLex_number ha, ?_⟩
  intro p hp hn
  rw [← num_split] at hp
  exact numLex_longest hp hn

/-- Longest lexemes are unique. -/
theorem longest_unique {L : Text → Prop} {x y x' y' : Text} (h : Longest L x y) (h' : Longest L x' y')
    (e : x ++ y = x' ++ y') : x = x' ∧ y = y' := by
  have h1 : x'.length ≤ x.length := h.2 x' (by rw [e]; exact List.prefix_append _ _) h'.1
  have h2 : x.length ≤ x'.length := h'.2 x (by rw [← e]; exact List.prefix_append _ _) h.1
  exact List.append_inj e (by omega)

theorem numLex_cons {a : Nat} {s : Text} (ha : BeginsNumber a) : ∃ r, numLex (a :: s) = a :: r := by
  obtain ⟨sg, ip, f, e, h, -, -, -, -, hne⟩ := numLex_number (s := s) ha
  have hs := num_split (a :: s)
  have : numLex (a :: s) ≠ [] := by
    rw [h]
    intro h0
    exact hne (List.append_eq_nil_iff.mp h0).1
  obtain ⟨b, r, hb⟩ := List.exists_cons_of_ne_nil this
  refine ⟨r, ?_⟩
  rw [hb] at hs ⊢
  simp at hs
  rw [hs.1]

theorem numLex_zero (s : Text) : 0 ∉ numLex s := by
  have hd : ∀ t : Text, 0 ∉ t.takeWhile isDigit := by
    intro t h
    have := digits_takeWhile t 0 h
    unfold Digit at this; omega
  have hsg : ∀ t : Text, 0 ∉ sgn t := by
    intro t
    rcases sgn_or t with h | h | h <;> simp [h]
  intro h
  rw [numLex, intPart, List.mem_append, List.mem_append, List.mem_append] at h
  rcases h with ((h | h) | h) | h
  · exact hsg _ h
  · exact hd _ h
  · rcases frac_cases (afterInt s) with ⟨r, -, h1⟩ | ⟨-, h1⟩
    · rw [h1] at h
      simp at h
      exact hd _ h
    · rw [h1] at h; cases h
  · rcases exp_cases (afterFrac (afterInt s)) with ⟨c, r, -, hc, h1⟩ | ⟨-, -, h1⟩
    · rw [h1] at h
      rw [List.mem_cons, List.mem_append] at h
      rcases h with h | h | h
      · omega
      · exact hsg _ h
      · exact hd _ h
    · rw [h1] at h; cases h

theorem isFloat_iff (s : Text) :
    IsFloat (numLex s) ↔ fracPart (afterInt s) ≠ [] ∨ expPart (afterFrac (afterInt s)) ≠ [] := by
  have hi : ∀ c, c = 46 ∨ c = 101 ∨ c = 69 → c ∉ intPart s := by
    intro c hc h
    rw [intPart, List.mem_append] at h
    rcases h with h | h
    · rcases sgn_or s with h1 | h1 | h1 <;> rw [h1] at h <;> simp at h <;> omega
    · have := digits_takeWhile _ c h
      unfold Digit at this; omega
  constructor
  · intro h
    by_contra hn
    simp only [ne_eq, not_or, not_not] at hn
    rw [numLex, hn.1, hn.2, List.append_nil, List.append_nil] at h
    rcases h with h | h | h
    · exact hi _ (by simp) h
    · exact hi _ (by simp) h
    · exact hi _ (by simp) h
  · rintro (h | h)
    · rcases frac_cases (afterInt s) with ⟨r, -, h1⟩ | ⟨-, h1⟩
      · left
        rw [numLex, h1]
        simp
      · exact absurd h1 h
    · rcases exp_cases (afterFrac (afterInt s)) with ⟨c, r, -, hc, h1⟩ | ⟨-, -, h1⟩
      · right
        rw [numLex, h1]
        rcases hc with rfl | rfl <;> simp
      · exact absurd h1 h

theorem numberText_eq (s : Text) :
    numberText (numLex s) = if sgn s = [43] then (numLex s).drop 1 else numLex s := by
  unfold numberText
  have : (numLex s).head? = some 43 ↔ sgn s = [43] := by
    constructor
    · intro h
      have hs : s.head? = some 43 := by
        have := num_split s
        cases hn : numLex s with
        | nil => rw [hn] at h; cases h
        | cons a r =>
          rw [hn] at h this
          simp at h
          rw [this, h]; rfl
      rcases sgn_cases s with ⟨r, rfl, h⟩ | ⟨r, rfl, h⟩ | ⟨h1, -, h⟩
      · exact h
      · simp at hs
      · exact absurd hs h1
    · intro h
      rw [numLex, intPart, h]
      rfl
  by_cases h : sgn s = [43]
  · rw [if_pos (this.mpr h), if_pos h, List.drop_one]
  · rw [if_neg (fun h' => h (this.mp h')), if_neg h]

end Hob3l.Syn
