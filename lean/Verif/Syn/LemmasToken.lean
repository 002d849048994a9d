import Verif.Syn.LemmasNumber
/-! # Lexer: the single kinds of tokens -/
namespace Hob3l.Syn

theorem skip_false (f : Nat → Bool) (hf : f 0 = false) {l : Lex} {s : Text} (h : Inv l s false) :
    ∃ l', skipWhile f l.fuel l = some l' ∧ Inv l' (s.dropWhile f) false ∧ Adv l l' (s.takeWhile f).length := by
  obtain ⟨l', h1, h2, h3⟩ := skipWhile_spec f hf l.fuel h h.fuel
  refine ⟨l', h1, ?_, h3⟩
  simpa using h2

theorem isDigit_zero : isDigit 0 = false := by decide

theorem headD_eq {s : Text} {c : Nat} (hc : c ≠ 0) : s.headD 0 = c ↔ s.head? = some c := by
  cases s with
  | nil => simp; omega
  | cons a s => simp

theorem lexSign_spec {l : Lex} {s : Text} (h : Inv l s false) :
    ∃ l1, lexSign l = some (l.pos + (if sgn s = [43] then 1 else 0), l1) ∧
      Inv l1 (s.drop (sgn s).length) false ∧ Adv l l1 (sgn s).length := by
  have hc := h.cur
  unfold lexSign
  rcases sgn_cases s with ⟨r, rfl, hs⟩ | ⟨r, rfl, hs⟩ | ⟨h1, h2, hs⟩
  · obtain ⟨l1, e1, i1, a1⟩ := lexNext_cons h
    refine ⟨l1, ?_, by rw [hs]; exact i1, by rw [hs]; exact a1⟩
    rw [hc, hs]
    simp [ch, e1, a1.pos]
  · obtain ⟨l1, e1, i1, a1⟩ := lexNext_cons h
    refine ⟨l1, ?_, by rw [hs]; exact i1, by rw [hs]; exact a1⟩
    rw [hc, hs]
    simp [ch, e1]
  · refine ⟨l, ?_, by rw [hs]; exact h, by rw [hs]; exact Adv.refl l⟩
    have h3 : l.cur ≠ ch '+' := by
      rw [hc]; intro h4; exact h1 ((headD_eq (by decide)).mp h4)
    have h4 : l.cur ≠ ch '-' := by
      rw [hc]; intro h4; exact h2 ((headD_eq (by decide)).mp h4)
    rw [if_neg h3, if_neg h4, hs]
    simp

theorem lexFrac_spec {l : Lex} {s : Text} (h : Inv l s false) :
    ∃ l1, lexFrac l = some (decide (fracPart s ≠ []), l1) ∧ Inv l1 (afterFrac s) false ∧
      Adv l l1 (fracPart s).length := by
  have hc := h.cur
  unfold lexFrac
  rcases frac_cases s with ⟨r, rfl, hs⟩ | ⟨h1, hs⟩
  · obtain ⟨l3, e3, i3, a3⟩ := lexNext_cons h
    obtain ⟨l4, e4, i4, a4⟩ := skip_false isDigit isDigit_zero i3
    refine ⟨l4, ?_, ?_, ?_⟩
    · rw [hs, hc]
      simp [ch, e3, e4]
    · rw [afterFrac_cons]; exact i4
    · rw [hs, List.length_cons, Nat.add_comm]
      exact a3.trans a4
  · refine ⟨l, ?_, ?_, ?_⟩
    · have h3 : l.cur ≠ ch '.' := by
        rw [hc]; intro h4; exact h1 ((headD_eq (by decide)).mp h4)
      rw [if_neg h3, hs]
      simp
    · rw [afterFrac, hs]; exact h
    · rw [hs]; exact Adv.refl l

theorem lexExpSign_spec {l : Lex} {s : Text} (h : Inv l s false) :
    ∃ l1, lexExpSign l = some l1 ∧ Inv l1 (s.drop (sgn s).length) false ∧ Adv l l1 (sgn s).length := by
  have hc := h.cur
  unfold lexExpSign
  rcases sgn_cases s with ⟨r, rfl, hs⟩ | ⟨r, rfl, hs⟩ | ⟨h1, h2, hs⟩
  · obtain ⟨l1, e1, i1, a1⟩ := lexNext_cons h
    refine ⟨l1, ?_, by rw [hs]; exact i1, by rw [hs]; exact a1⟩
    rw [hc, e1]
    simp [ch]
  · obtain ⟨l1, e1, i1, a1⟩ := lexNext_cons h
    refine ⟨l1, ?_, by rw [hs]; exact i1, by rw [hs]; exact a1⟩
    rw [hc, e1]
    simp [ch]
  · refine ⟨l, ?_, by rw [hs]; exact h, by rw [hs]; exact Adv.refl l⟩
    have h3 : l.cur ≠ ch '+' := by
      rw [hc]; intro h4; exact h1 ((headD_eq (by decide)).mp h4)
    have h4 : l.cur ≠ ch '-' := by
      rw [hc]; intro h4; exact h2 ((headD_eq (by decide)).mp h4)
    rw [if_neg (by tauto)]

theorem lexExp_spec {l : Lex} {s : Text} (h : Inv l s false) :
    ∃ l1, lexExp l = some (decide (expPart s ≠ []), l1) ∧ Inv l1 (afterExp s) false ∧
      Adv l l1 (expPart s).length := by
  have hc := h.cur
  unfold lexExp
  rcases exp_cases s with ⟨c, r, rfl, hce, hs⟩ | ⟨h1, h2, hs⟩
  · obtain ⟨l4, e4, i4, a4⟩ := lexNext_cons h
    obtain ⟨l5, e5, i5, a5⟩ := lexExpSign_spec i4
    obtain ⟨l6, e6, i6, a6⟩ := skip_false isDigit isDigit_zero i5
    refine ⟨l6, ?_, ?_, ?_⟩
    · have hcur : l.cur = ch 'e' ∨ l.cur = ch 'E' := by rw [hc]; exact hce
      rw [if_pos hcur, hs]
      simp [e4, e5, e6]
    · have : afterExp (c :: r) = (r.drop (sgn r).length).dropWhile isDigit := by
        rw [afterExp, hs, List.length_cons, List.drop_succ_cons, List.length_append, ← List.drop_drop, drop_takeWhile]
      rw [this]; exact i6
    · rw [hs, List.length_cons, List.length_append, Nat.add_comm]
      exact a4.trans (a5.trans a6)
  · refine ⟨l, ?_, ?_, ?_⟩
    · have h3 : l.cur ≠ ch 'e' := by
        rw [hc]; intro h4; exact h1 ((headD_eq (by decide)).mp h4)
      have h4 : l.cur ≠ ch 'E' := by
        rw [hc]; intro h4; exact h2 ((headD_eq (by decide)).mp h4)
      rw [if_neg (by tauto), hs]
      simp
    · rw [afterExp, hs]; exact h
    · rw [hs]; exact Adv.refl l

/-- syn.c:169-199 -/
theorem lexNumber_spec {l : Lex} {s : Text} (h : Inv l s false) :
    ∃ l', lexNumber l = some (l.pos + (if sgn s = [43] then 1 else 0), decide (IsFloat (numLex s)), l') ∧
      Inv l' (afterNum s) true ∧ Later l l' ∧ l'.pos = l.pos + (numLex s).length ∧
      l'.buf = l.buf.set (l.pos + (numLex s).length) 0 := by
  obtain ⟨l1, e1, i1, a1⟩ := lexSign_spec h
  obtain ⟨l2, e2, i2, a2⟩ := skip_false isDigit isDigit_zero i1
  obtain ⟨l3, e3, i3, a3⟩ := lexFrac_spec (s := afterInt s) i2
  obtain ⟨l4, e4, i4, a4⟩ := lexExp_spec i3
  obtain ⟨l5, e5, i5, b5, p5, f5, t5⟩ := terminate_spec i4
  have a : Adv l l4 (numLex s).length := by
    have := ((a1.trans a2).trans a3).trans a4
    rw [numLex, intPart]
    simp only [List.length_append]
    exact this
  refine ⟨l5, ?_, i5, a.later.trans t5, ?_, ?_⟩
  · unfold lexNumber
    simp only [Option.bind_eq_bind, Option.bind_some, e1, e2, e3, e4, e5]
    congr 3
    rw [← Bool.decide_or, decide_eq_decide, isFloat_iff]
  · rw [p5, a.pos]
  · rw [b5, a.buf, a.pos]

theorem idChar_start {a : Nat} (h : BeginsId a) (h36 : a ≠ 36) : idChar a = true := by
  rw [idChar_iff]
  rcases h with h | h | h
  · exact absurd h h36
  · exact Or.inr (Or.inr h)
  · exact Or.inl h

theorem longest_id {a : Nat} {s : Text} (h : BeginsId a) : Longest IdText (a :: s.takeWhile idChar) (s.dropWhile idChar) := by
  refine ⟨⟨a, _, rfl, h, fun x hx => (idChar_iff x).mp (of_mem_takeWhile hx)⟩, ?_⟩
  rintro p hp ⟨c, r, rfl, -, hr⟩
  rw [List.cons_append, List.takeWhile_append_dropWhile, List.cons_prefix_cons] at hp
  have hr' : ∀ c ∈ r, idChar c = true := fun c hc => (idChar_iff c).mpr (hr c hc)
  rcases stage idChar (x := r) (y := []) (by rw [List.append_nil]; exact hp.2) hr' (by rintro c r h; cases h) with
    ⟨h1, -⟩ | ⟨-, h1⟩
  · rw [h1]; simp
  · simpa using h1

theorem idLex_zero {a : Nat} {s : Text} (h : BeginsId a) : 0 ∉ a :: s.takeWhile idChar := by
  intro h0
  rw [List.mem_cons] at h0
  rcases h0 with h0 | h0
  · subst h0
    unfold BeginsId Letter at h; omega
  · have := (idChar_iff 0).mp (of_mem_takeWhile h0)
    unfold Letter Digit at this; omega

/-- syn.c:213-225 -/
theorem lexId_spec {l : Lex} {a : Nat} {s : Text} (h : Inv l (a :: s) false) (ha : BeginsId a) :
    ∃ l', lexId l = some l' ∧ Inv l' (s.dropWhile idChar) true ∧ Later l l' ∧
      l'.pos = l.pos + (a :: s.takeWhile idChar).length ∧
      l'.buf = l.buf.set (l.pos + (a :: s.takeWhile idChar).length) 0 := by
  have hc : l.cur = a := h.cur
  by_cases h1 : a = 36
  · obtain ⟨l1, e1, i1, a1⟩ := lexNext_cons h
    obtain ⟨l2, e2, i2, a2⟩ := skip_false idChar (by decide) i1
    obtain ⟨l3, e3, i3, b3, p3, -, t3⟩ := terminate_spec i2
    have aa := a1.trans a2
    refine ⟨l3, ?_, i3, aa.later.trans t3, ?_, ?_⟩
    · unfold lexId lexDollar
      rw [if_pos (show l.cur = ch '$' from hc.trans h1), e1]
      simp only [Option.bind_eq_bind, Option.bind_some, e2, e3]
    · rw [p3, aa.pos, List.length_cons, Nat.add_comm 1]
    · rw [b3, aa.buf, aa.pos, List.length_cons, Nat.add_comm 1]
  · obtain ⟨l2, e2, i2, a2⟩ := skip_false idChar (by decide) h
    obtain ⟨l3, e3, i3, b3, p3, -, t3⟩ := terminate_spec i2
    have ht : (a :: s).takeWhile idChar = a :: s.takeWhile idChar := by
      rw [List.takeWhile_cons, if_pos (idChar_start ha h1)]
    have hd : (a :: s).dropWhile idChar = s.dropWhile idChar := by
      rw [List.dropWhile_cons, if_pos (idChar_start ha h1)]
    rw [ht] at a2
    rw [hd] at i3
    refine ⟨l3, ?_, i3, a2.later.trans t3, ?_, ?_⟩
    · unfold lexId lexDollar
      rw [if_neg (by rw [hc]; exact h1)]
      simp only [Option.bind_eq_bind, Option.bind_some, e2, e3]
    · rw [p3, a2.pos]
    · rw [b3, a2.buf, a2.pos]

/-- syn.c:233-255: either the string is closed, or there is no closed string. -/
theorem lexString_spec (n : Nat) {l : Lex} {s : Text} (h : Inv l s false) (hn : s.length < n) :
    (∃ l' body r, lexString n l = some (.closed, l') ∧ s = body ++ 34 :: r ∧ StrBody body ∧
      Inv l' (34 :: r) false ∧ Adv l l' body.length) ∨
    ((∃ e l' k, lexString n l = some (e, l') ∧ e ≠ .closed ∧ Adv l l' k ∧ ∃ s', Inv l' s' false) ∧
      ∀ body r, StrBody body → s ≠ body ++ 34 :: r) := by
  induction n using Nat.strong_induction_on generalizing l s with
  | _ n ih =>
  cases n with
  | zero => omega
  | succ n =>
  have hh := here_eq h
  simp only [Bool.false_eq_true, if_false] at hh
  cases s with
  | nil =>
    right
    refine ⟨⟨.eof, l, 0, ?_, by simp, Adv.refl l, [], h⟩, ?_⟩
    · rw [lexString, hh]; simp [ch]
    · intro body r _ he
      cases body <;> cases he
  | cons a s =>
    simp only [List.headD_cons] at hh
    simp only [List.length_cons] at hn
    by_cases h34 : a = 34
    · left
      subst h34
      refine ⟨l, [], s, ?_, rfl, StrBody.nil, h, Adv.refl l⟩
      rw [lexString, hh]; simp [ch]
    by_cases h92 : a = 92
    · subst h92
      obtain ⟨l1, e1, i1, a1⟩ := lexNext_cons h
      have hh1 := here_eq i1
      simp only [Bool.false_eq_true, if_false] at hh1
      have step : lexString (n + 1) l = (if 128 ≤ s.headD 0 then some (.high, l1)
          else if s.headD 0 = 0 then some (.eof, l1)
          else do lexString n (← lexNext l1)) := by
        rw [lexString, hh]
        simp [ch, e1, hh1]
      rw [step]
      split_ifs with h3 h4
      · right
        refine ⟨⟨.high, l1, 1, rfl, by simp, a1, s, i1⟩, ?_⟩
        intro body r hb he
        cases hb with
        | nil => simp at he
        | plain _ hc _ _ => simp only [List.cons_append, List.cons.injEq] at he; exact hc he.1.symm
        | escape hc _ _ =>
          simp only [List.cons_append, List.cons.injEq] at he
          rw [he.2] at h3
          simp at h3
          omega
      · right
        refine ⟨⟨.eof, l1, 1, rfl, by simp, a1, s, i1⟩, ?_⟩
        intro body r hb he
        cases hb with
        | nil => simp at he
        | plain _ hc _ _ => simp only [List.cons_append, List.cons.injEq] at he; exact hc he.1.symm
        | escape _ hc _ =>
          simp only [List.cons_append, List.cons.injEq] at he
          rw [he.2] at h4
          simp at h4
          exact hc h4
      · cases s with
        | nil => simp at h4
        | cons b s =>
          simp only [List.headD_cons, Nat.not_le] at h3 h4
          simp only [List.length_cons] at hn
          obtain ⟨l2, e2, i2, a2⟩ := lexNext_cons i1
          rw [e2]
          simp only [Option.bind_eq_bind, Option.bind_some]
          rcases ih n (by omega) i2 (by omega) with
            ⟨l', body, r, f1, rfl, f3, f4, f5⟩ | ⟨⟨e, l', k, f1, f2, f3, s', f4⟩, f5⟩
          · left
            refine ⟨l', 92 :: b :: body, r, f1, rfl, StrBody.escape h3 h4 f3, f4, ?_⟩
            rw [List.length_cons, List.length_cons]
            have := (a1.trans a2).trans f5
            rw [show body.length + 1 + 1 = 1 + 1 + body.length by omega]
            exact this
          · right
            refine ⟨⟨e, l', _, f1, f2, (a1.trans a2).trans f3, s', f4⟩, ?_⟩
            intro body r hb he
            cases hb with
            | nil => simp at he
            | plain _ hc _ _ => simp only [List.cons_append, List.cons.injEq] at he; exact hc he.1.symm
            | escape _ _ hb' =>
              simp only [List.cons_append, List.cons.injEq] at he
              exact f5 _ r hb' he.2.2
    by_cases h0 : a = 0
    · right
      subst h0
      refine ⟨⟨.eof, l, 0, ?_, by simp, Adv.refl l, _, h⟩, ?_⟩
      · rw [lexString, hh]; simp [ch]
      · intro body r hb he
        cases hb with
        | nil => simp at he
        | plain _ _ hc _ => simp only [List.cons_append, List.cons.injEq] at he; exact hc he.1.symm
        | escape _ _ _ => simp at he
    · obtain ⟨l1, e1, i1, a1⟩ := lexNext_cons h
      have step : lexString (n + 1) l = lexString n l1 := by
        rw [lexString, hh]
        simp [ch, e1, h34, h92, h0]
      rw [step]
      rcases ih n (by omega) i1 (by omega) with
        ⟨l', body, r, f1, rfl, f3, f4, f5⟩ | ⟨⟨e, l', k, f1, f2, f3, s', f4⟩, f5⟩
      · left
        refine ⟨l', a :: body, r, f1, rfl, StrBody.plain h34 h92 h0 f3, f4, ?_⟩
        rw [List.length_cons, Nat.add_comm]
        exact a1.trans f5
      · right
        refine ⟨⟨e, l', _, f1, f2, a1.trans f3, s', f4⟩, ?_⟩
        intro body r hb he
        cases hb with
        | nil => simp only [List.nil_append, List.cons.injEq] at he; exact h34 he.1
        | plain _ _ _ hb' =>
          simp only [List.cons_append, List.cons.injEq] at he
          exact f5 _ r hb' he.2
        | escape _ _ hb' => simp only [List.cons_append, List.cons.injEq] at he; exact h92 he.1

/-- Closed strings are read uniquely. -/
theorem strBody_unique {b r b' r' : Text} (h : StrBody b) (h' : StrBody b') (e : b ++ 34 :: r = b' ++ 34 :: r') :
    b = b' ∧ r = r' := by
  induction h generalizing b' with
  | nil =>
    cases h' with
    | nil => simpa using e
    | plain hc _ _ _ => simp only [List.nil_append, List.cons_append, List.cons.injEq] at e; exact absurd e.1.symm hc
    | escape _ _ _ => simp at e
  | plain h1 h2 h3 _ ih =>
    cases h' with
    | nil => simp only [List.nil_append, List.cons_append, List.cons.injEq] at e; exact absurd e.1 h1
    | plain _ _ _ hb' =>
      simp only [List.cons_append, List.cons.injEq] at e
      obtain ⟨h4, h5⟩ := ih hb' e.2
      exact ⟨by rw [e.1, h4], h5⟩
    | escape _ _ _ => simp only [List.cons_append, List.cons.injEq] at e; exact absurd e.1 h2
  | escape h1 h2 _ ih =>
    cases h' with
    | nil => simp at e
    | plain _ hc _ _ => simp only [List.cons_append, List.cons.injEq] at e; exact absurd e.1.symm hc
    | escape _ _ hb' =>
      simp only [List.cons_append, List.cons.injEq] at e
      obtain ⟨h4, h5⟩ := ih hb' e.2.2
      exact ⟨by rw [e.2.1, h4], h5⟩

theorem strBody_zero {b : Text} (h : StrBody b) : 0 ∉ b := by
  induction h with
  | nil => simp
  | plain _ _ h3 _ ih => rw [List.mem_cons, not_or]; exact ⟨fun h => h3 h.symm, ih⟩
  | escape _ h2 _ ih => simp only [List.mem_cons, not_or]; exact ⟨by decide, fun h => h2 h.symm, ih⟩

/-- syn.c:333-343 -/
theorem lexPath_spec (n : Nat) {l : Lex} {s : Text} (h : Inv l s false) (hn : s.length < n) :
    (∃ l' body r, lexPath n l = some (true, l') ∧ s = body ++ 62 :: r ∧ 62 ∉ body ∧ 0 ∉ body ∧
      Inv l' (62 :: r) false ∧ Adv l l' body.length) ∨
    ((∃ l' k, lexPath n l = some (false, l') ∧ Adv l l' k ∧ ∃ s', Inv l' s' false) ∧
      ∀ body r, 0 ∉ body → s ≠ body ++ 62 :: r) := by
  induction n generalizing l s with
  | zero => omega
  | succ n ih =>
  have hh := here_eq h
  simp only [Bool.false_eq_true, if_false] at hh
  cases s with
  | nil =>
    right
    refine ⟨⟨l, 0, ?_, Adv.refl l, [], h⟩, ?_⟩
    · rw [lexPath, hh]; simp [ch]
    · intro body r _ he
      cases body <;> cases he
  | cons a s =>
    simp only [List.headD_cons] at hh
    simp only [List.length_cons] at hn
    by_cases h62 : a = 62
    · left
      subst h62
      refine ⟨l, [], s, ?_, rfl, by simp, by simp, h, Adv.refl l⟩
      rw [lexPath, hh]; simp [ch]
    by_cases h0 : a = 0
    · right
      subst h0
      refine ⟨⟨l, 0, ?_, Adv.refl l, _, h⟩, ?_⟩
      · rw [lexPath, hh]; simp [ch]
      · intro body r hb he
        cases body with
        | nil => simp at he
        | cons b body =>
          simp only [List.cons_append, List.cons.injEq] at he
          exact hb (by rw [← he.1]; simp)
    · obtain ⟨l1, e1, i1, a1⟩ := lexNext_cons h
      have step : lexPath (n + 1) l = lexPath n l1 := by
        rw [lexPath, hh]
        simp [ch, e1, h62, h0]
      rw [step]
      rcases ih i1 (by omega) with
        ⟨l', body, r, f1, rfl, f3, f3', f4, f5⟩ | ⟨⟨l', k, f1, f3, s', f4⟩, f5⟩
      · left
        refine ⟨l', a :: body, r, f1, rfl, ?_, ?_, f4, ?_⟩
        · rw [List.mem_cons, not_or]; exact ⟨fun h => h62 h.symm, f3⟩
        · rw [List.mem_cons, not_or]; exact ⟨fun h => h0 h.symm, f3'⟩
        · rw [List.length_cons, Nat.add_comm]
          exact a1.trans f5
      · right
        refine ⟨⟨l', _, f1, a1.trans f3, s', f4⟩, ?_⟩
        intro body r hb he
        cases body with
        | nil => simp only [List.nil_append, List.cons.injEq] at he; exact h62 he.1
        | cons b body =>
          simp only [List.cons_append, List.cons.injEq] at he
          exact f5 body r (fun h => hb (by simp [h])) he.2

/-- Bodies that end at the first occurrence of a character. -/
theorem first_unique {x : Nat} {b r b' r' : Text} (h : x ∉ b) (h' : x ∉ b') (e : b ++ x :: r = b' ++ x :: r') :
    b = b' ∧ r = r' := by
  induction b generalizing b' with
  | nil =>
    cases b' with
    | nil => simpa using e
    | cons c b' => simp only [List.nil_append, List.cons_append, List.cons.injEq] at e; exact absurd (by simp [e.1]) h'
  | cons a b ih =>
    cases b' with
    | nil => simp only [List.nil_append, List.cons_append, List.cons.injEq] at e; exact absurd (by simp [e.1]) h
    | cons c b' =>
      simp only [List.cons_append, List.cons.injEq] at e
      obtain ⟨h4, h5⟩ := ih (fun h1 => h (by simp [h1])) (fun h1 => h' (by simp [h1])) e.2
      exact ⟨by rw [e.1, h4], h5⟩

/-- No end of a comment in a text. -/
def NoClose (b : Text) : Prop := ∀ x y, b ≠ x ++ 42 :: 47 :: y

/-- syn.c:281-291, where `done` has been read already. -/
theorem lexBlock_spec (n : Nat) {l : Lex} {s : Text} (done : Text) (prev : Nat) (h : Inv l s false) (hn : s.length < n)
    (hprev : prev = done.getLastD 0) (hdone : NoClose done) (h0 : 0 ∉ done) :
    (∃ l' body r, lexBlock n prev l = some (true, l') ∧ done ++ s = body ++ 42 :: 47 :: r ∧ NoClose body ∧ 0 ∉ body ∧
      Inv l' (47 :: r) false ∧ ∃ k, Adv l l' k) ∨
    ((∃ l' k, lexBlock n prev l = some (false, l') ∧ Adv l l' k ∧ ∃ s', Inv l' s' false) ∧
      ∀ body r, 0 ∉ body → done ++ s ≠ body ++ 42 :: 47 :: r) := by
  induction n generalizing l s done prev with
  | zero => omega
  | succ n ih =>
  have hc := h.cur
  cases s with
  | nil =>
    right
    simp only [List.headD_nil] at hc
    refine ⟨⟨l, 0, ?_, Adv.refl l, [], h⟩, ?_⟩
    · rw [lexBlock, hc]; simp [ch]
    · intro body r _ he
      rw [List.append_nil] at he
      exact hdone _ _ he
  | cons a s =>
    simp only [List.headD_cons] at hc
    simp only [List.length_cons] at hn
    by_cases hcl : prev = 42 ∧ a = 47
    · left
      obtain ⟨hp, rfl⟩ := hcl
      rw [hp] at hprev
      have hne : done ≠ [] := by rintro rfl; simp at hprev
      have hd : done = done.dropLast ++ [42] := by
        have := List.dropLast_concat_getLast hne
        rw [List.getLastD_eq_getLast?, List.getLast?_eq_some_getLast hne] at hprev
        simp only [Option.getD_some] at hprev
        rw [← hprev] at this
        exact this.symm
      refine ⟨l, done.dropLast, s, ?_, ?_, ?_, ?_, h, 0, Adv.refl l⟩
      · rw [lexBlock, hc, hp]; simp [ch]
      · conv_lhs => rw [hd]
        simp
      · intro x y he
        apply hdone x (y ++ [42])
        rw [hd, he]; simp
      · exact fun h1 => h0 (List.dropLast_subset _ h1)
    by_cases ha : a = 0
    · right
      subst ha
      refine ⟨⟨l, 0, ?_, Adv.refl l, _, h⟩, ?_⟩
      · rw [lexBlock, hc]; simp [ch]
      · intro body r hb he
        rcases List.append_eq_append_iff.mp he with ⟨c, h1, h2⟩ | ⟨c, h1, h2⟩
        · cases c with
          | nil => simp at h2
          | cons c0 c =>
            simp only [List.cons_append, List.cons.injEq] at h2
            exact hb (by rw [h1, ← h2.1]; simp)
        · cases c with
          | nil => simp at h2
          | cons c0 c =>
            simp only [List.cons_append, List.cons.injEq] at h2
            cases c with
            | nil => simp at h2
            | cons c1 c =>
              simp only [List.cons_append, List.cons.injEq] at h2
              apply hdone body c
              rw [h1, ← h2.1, ← h2.2.1]
    · obtain ⟨l1, e1, i1, a1⟩ := lexNext_cons h
      have step : lexBlock (n + 1) prev l = lexBlock n a l1 := by
        rw [lexBlock, hc, if_pos, if_neg ha, e1]
        · rfl
        · simp only [ch]
          by_cases h1 : prev = 42
          · right; intro h2; exact hcl ⟨h1, h2⟩
          · left; exact h1
      rw [step]
      have hcl' : NoClose (done ++ [a]) := by
        intro x y he
        rcases List.eq_nil_or_concat y with rfl | ⟨y', z, rfl⟩
        · have h1 : done ++ [a] = (x ++ [42]) ++ [47] := by rw [he]; simp
          have := List.append_inj' h1 rfl
          apply hcl
          refine ⟨?_, by simpa using this.2⟩
          rw [hprev, this.1]
          simp [List.getLastD_eq_getLast?]
        · have h1 : done ++ [a] = (x ++ 42 :: 47 :: y') ++ [z] := by rw [he]; simp
          have := List.append_inj' h1 rfl
          exact hdone _ _ this.1
      have happ : done ++ a :: s = (done ++ [a]) ++ s := by simp
      rw [happ]
      rcases ih (done ++ [a]) a i1 (by omega) (by simp [List.getLastD_eq_getLast?]) hcl'
        (by rw [List.mem_append, not_or]; exact ⟨h0, by simpa using fun h => ha h.symm⟩) with
        ⟨l', body, r, f1, f2, f3, f3', f4, k, f5⟩ | ⟨⟨l', k, f1, f3, s', f4⟩, f5⟩
      · left
        exact ⟨l', body, r, f1, f2, f3, f3', f4, _, a1.trans f5⟩
      · right
        exact ⟨⟨l', _, f1, a1.trans f3, s', f4⟩, f5⟩

/-- Comments are read uniquely. -/
theorem close_unique {b r b' r' : Text} (h : NoClose b) (h' : NoClose b')
    (e : b ++ 42 :: 47 :: r = b' ++ 42 :: 47 :: r') : b = b' ∧ r = r' := by
  rcases List.append_eq_append_iff.mp e with ⟨c, h1, h2⟩ | ⟨c, h1, h2⟩
  · cases c with
    | nil => simp at h1 h2; exact ⟨h1.symm, h2⟩
    | cons c0 c =>
      simp only [List.cons_append, List.cons.injEq] at h2
      cases c with
      | nil => simp at h2
      | cons c1 c =>
        simp only [List.cons_append, List.cons.injEq] at h2
        exact absurd (by rw [h1, ← h2.1, ← h2.2.1]) (h' b c)
  · cases c with
    | nil => simp at h1 h2; exact ⟨h1, h2.symm⟩
    | cons c0 c =>
      simp only [List.cons_append, List.cons.injEq] at h2
      cases c with
      | nil => simp at h2
      | cons c1 c =>
        simp only [List.cons_append, List.cons.injEq] at h2
        exact absurd (by rw [h1, ← h2.1, ← h2.2.1]) (h b' c)

end Hob3l.Syn
