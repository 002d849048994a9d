import Verif.Svg.Spec
import Mathlib.Tactic.Ring
import Mathlib.Tactic.FieldSimp
import Mathlib.Tactic.Linarith

/-! Lemmas about the reading of numbers, separators and flags. -/

namespace Hob3l.Svg

/-! ## Characters -/

theorem isDigit_dchar (d : Fin 10) : isDigit (dchar d) = true := by revert d; decide

theorem digitVal_dchar (d : Fin 10) : digitVal (dchar d) = d.val := by revert d; decide

theorem isSpace_char (c : Space) : isSpace c.char = true := by cases c <;> decide

/-- the text does not begin with white space -/
def NoWs (r : List Char) : Prop := ∀ c t, r = c :: t → isSpace c = false

/-- the text begins neither with white space nor with a comma -/
def NoSep (r : List Char) : Prop := ∀ c t, r = c :: t → isSpace c = false ∧ c ≠ ','

theorem sSep_ws (b : Bool) (w : List Space) (r : List Char) : sSep b (showWs w ++ r) = sSep b r := by
  induction w with
  | nil => rfl
  | cons a w ih =>
    have h : a.char ≠ ',' := by cases a <;> decide
    show sSep b (a.char :: (showWs w ++ r)) = _
    rw [sSep, if_neg (by simp [h]), if_pos (isSpace_char a), ih]

theorem sSep_noWs {r : List Char} (h : NoWs r) : sSep false r = r := by
  cases r with
  | nil => rfl
  | cons c r =>
    have := h c r rfl
    rw [sSep, if_neg (by simp), if_neg (by simp [this])]

theorem sSep_noSep {r : List Char} (h : NoSep r) (b : Bool) : sSep b r = r := by
  cases r with
  | nil => rfl
  | cons c r =>
    obtain ⟨h1, h2⟩ := h c r rfl
    rw [sSep, if_neg (by simp [h2]), if_neg (by simp [h1])]

theorem NoSep.noWs {r : List Char} (h : NoSep r) : NoWs r := fun c t e => (h c t e).1

theorem sSep_sep (s : Sep) {r : List Char} (h : NoSep r) : sSep true (s.show ++ r) = r := by
  unfold Sep.show
  rw [List.append_assoc, List.append_assoc, sSep_ws]
  cases s.comma with
  | false =>
    simp only [Bool.false_eq_true, if_false, List.nil_append]
    rw [sSep_ws, sSep_noSep h]
  | true =>
    simp only [if_true]
    show sSep true (',' :: (showWs s.post ++ r)) = _
    rw [sSep, if_pos (by simp), sSep_ws, sSep_noSep h]

theorem sSep_sep_false (s : Sep) (hs : s.comma = false) {r : List Char} (h : NoWs r) : sSep false (s.show ++ r) = r := by
  unfold Sep.show
  rw [hs]
  simp only [Bool.false_eq_true, if_false, List.append_nil]
  rw [List.append_assoc, sSep_ws, sSep_ws, sSep_noWs h]

/-- the separator of the model is idempotent -/
theorem sSep_false_comma (s : Sep) (r : List Char) (h : NoSep r) : sSep true (sSep false (s.show ++ r)) = r := by
  unfold Sep.show
  rw [List.append_assoc, List.append_assoc, sSep_ws]
  cases s.comma with
  | false =>
    simp only [Bool.false_eq_true, if_false, List.nil_append]
    rw [sSep_ws, sSep_noSep h, sSep_noSep h]
  | true =>
    simp only [if_true]
    show sSep true (sSep false (',' :: (showWs s.post ++ r))) = _
    rw [show sSep false (',' :: (showWs s.post ++ r)) = ',' :: (showWs s.post ++ r) from sSep_noWs (by
      intro c t e; injection e with e1 e2; subst e1; decide)]
    rw [sSep, if_pos (by simp), sSep_ws, sSep_noSep h]

/-! ## Digits -/

theorem digitsVal_aux (l : List (Fin 10)) (n : Nat) :
    (l.map dchar).foldl (fun n c => 10 * n + digitVal c) n = n * 10 ^ l.length + natVal l := by
  induction l generalizing n with
  | nil => simp [natVal]
  | cons d l ih =>
    simp only [List.map_cons, List.foldl_cons]
    rw [ih, digitVal_dchar, natVal, List.length_cons, Nat.pow_succ]
    ring

theorem digitsVal_map (l : List (Fin 10)) : digitsVal (l.map dchar) = natVal l := by
  unfold digitsVal
  rw [digitsVal_aux]; simp

theorem natVal_append (a b : List (Fin 10)) : natVal (a ++ b) = natVal a * 10 ^ b.length + natVal b := by
  induction a with
  | nil => simp [natVal]
  | cons d a ih =>
    rw [List.cons_append, natVal, natVal, ih, List.length_append, Nat.pow_add]
    ring

theorem fracVal_eq (l : List (Fin 10)) : fracVal l = (natVal l : ℚ) / 10 ^ l.length := by
  induction l with
  | nil => simp [fracVal, natVal]
  | cons d l ih =>
    rw [fracVal, ih, natVal, List.length_cons, pow_succ]
    push_cast
    have : (10 : ℚ) ^ l.length ≠ 0 := by positivity
    field_simp

/-- the text does not begin with a digit -/
def NoDigit (r : List Char) : Prop := ∀ c t, r = c :: t → isDigit c = false

theorem takeWhile_digits (l : List (Fin 10)) {r : List Char} (h : NoDigit r) :
    (l.map dchar ++ r).takeWhile isDigit = l.map dchar := by
  induction l with
  | nil =>
    cases r with
    | nil => rfl
    | cons c r => simp [List.takeWhile, h c r rfl]
  | cons d l ih =>
    simp only [List.map_cons, List.cons_append, List.takeWhile, isDigit_dchar]
    rw [ih]

theorem dropWhile_digits (l : List (Fin 10)) {r : List Char} (h : NoDigit r) :
    (l.map dchar ++ r).dropWhile isDigit = r := by
  induction l with
  | nil =>
    cases r with
    | nil => rfl
    | cons c r => simp [List.dropWhile, h c r rfl]
  | cons d l ih =>
    simp only [List.map_cons, List.cons_append, List.dropWhile, isDigit_dchar]
    exact ih

theorem floatBody_digits (dot dig : Bool) (l : List (Fin 10)) (r : List Char) :
    floatBody dot dig (l.map dchar ++ r) = floatBody dot (dig || !l.isEmpty) r := by
  induction l generalizing dig with
  | nil => simp
  | cons d l ih =>
    simp only [List.map_cons, List.cons_append]
    rw [floatBody, if_pos (isDigit_dchar d), ih]
    simp

theorem floatBody_stop (dot dig : Bool) {r : List Char} (h : NoDigit r) (hd : ∀ t, r = '.' :: t → dot = true) :
    floatBody dot dig r = (dig, r) := by
  cases r with
  | nil => rfl
  | cons c r =>
    rw [floatBody, if_neg (by simp [h c r rfl]), if_neg ?_]
    intro hc
    simp only [Bool.and_eq_true, Bool.not_eq_true', decide_eq_true_eq] at hc
    obtain ⟨h1, rfl⟩ := hc
    rw [hd r rfl] at h1; cases h1

/-! ## Numbers -/

/-- the text `r` cannot be read as a continuation of the number -/
def Stop (n : Num) (r : List Char) : Prop :=
  ∀ c t, r = c :: t → isDigit c = false ∧ c ≠ 'e' ∧ c ≠ 'E' ∧ c ≠ 'x' ∧ c ≠ 'X' ∧
    (c = '.' → n.frac.isSome = true ∨ n.exp.isSome = true)

/-- the text of the exponent -/
def expShow (e : Option (Bool × List (Fin 10))) : List Char :=
  match e with | none => [] | some (up, e) => (if up then 'E' else 'e') :: e.map dchar

/-- the text of the fraction -/
def fracShow (f : Option (List (Fin 10))) : List Char := match f with | none => [] | some f => '.' :: f.map dchar

/-- the text of the sign -/
def signShow (s : Option Bool) : List Char := match s with | none => [] | some true => ['-'] | some false => ['+']

theorem Num.show_eq (n : Num) (r : List Char) :
    n.show ++ r = signShow n.sign ++ (n.int.map dchar ++ (fracShow n.frac ++ (expShow n.exp ++ r))) := by
  unfold Num.show
  simp only [List.append_assoc]
  rfl

theorem dchar_ne (d : Fin 10) : dchar d ≠ '-' ∧ dchar d ≠ '+' ∧ dchar d ≠ '.' ∧ dchar d ≠ ',' ∧ dchar d ≠ 'e' ∧ dchar d ≠ 'E' := by
  revert d; decide

/-- a number without its sign begins with a digit or a dot -/
theorem body_head (n : Num) (h : n.Ok) (r : List Char) :
    ∃ c t, n.int.map dchar ++ (fracShow n.frac ++ r) = c :: t ∧ (isDigit c = true ∨ c = '.') := by
  obtain ⟨h1, -⟩ := h
  cases hi : n.int with
  | cons d l => exact ⟨dchar d, _, rfl, .inl (isDigit_dchar d)⟩
  | nil =>
    rw [hi] at h1
    obtain h1 | ⟨f, hf, -⟩ := h1
    · exact absurd rfl h1
    · rw [hf]; exact ⟨'.', _, rfl, .inr rfl⟩

theorem skipSign_body (n : Num) (h : n.Ok) (r : List Char) :
    skipSign (n.int.map dchar ++ (fracShow n.frac ++ r)) = n.int.map dchar ++ (fracShow n.frac ++ r) := by
  obtain ⟨c, t, e, hc⟩ := body_head n h r
  rw [e, skipSign, if_neg, if_neg]
  · rintro rfl; rcases hc with h | h <;> revert h <;> decide
  · rintro rfl; rcases hc with h | h <;> revert h <;> decide

theorem skipSign_sign (n : Num) (h : n.Ok) (r : List Char) :
    skipSign (signShow n.sign ++ (n.int.map dchar ++ (fracShow n.frac ++ r))) = n.int.map dchar ++ (fracShow n.frac ++ r) := by
  cases hs : n.sign with
  | none => exact skipSign_body n h r
  | some b =>
    cases b
    · show skipSign ('+' :: _) = _
      rw [skipSign, if_neg (by decide), if_pos rfl]; rfl
    · show skipSign ('-' :: _) = _
      rw [skipSign, if_pos rfl]; rfl

theorem head_sign (n : Num) (h : n.Ok) (r : List Char) :
    (signShow n.sign ++ (n.int.map dchar ++ (fracShow n.frac ++ r))).head? = some '-' ↔ n.sign = some true := by
  cases hs : n.sign with
  | none =>
    obtain ⟨c, t, e, hc⟩ := body_head n h r
    show (n.int.map dchar ++ (fracShow n.frac ++ r)).head? = _ ↔ _
    rw [e]
    simp only [List.head?_cons, Option.some.injEq, reduceCtorEq, iff_false]
    rintro rfl; rcases hc with h | h <;> revert h <;> decide
  | some b => cases b <;> simp [signShow]

theorem exp_noDigit (n : Num) {r : List Char} (hr : Stop n r) : NoDigit (expShow n.exp ++ r) := by
  intro c t e
  cases he : n.exp with
  | none => rw [he] at e; exact (hr c t e).1
  | some x =>
    obtain ⟨up, ds⟩ := x
    rw [he] at e
    simp only [expShow, List.cons_append, List.cons.injEq] at e
    rw [← e.1]; cases up <;> decide

theorem exp_noDot (n : Num) {r : List Char} (hr : Stop n r) (t : List Char) (e : expShow n.exp ++ r = '.' :: t) :
    n.frac.isSome = true := by
  cases he : n.exp with
  | none =>
    rw [he] at e
    have := (hr '.' t e).2.2.2.2.2 rfl
    rw [he] at this
    simpa using this
  | some x =>
    obtain ⟨up, ds⟩ := x
    rw [he] at e
    simp only [expShow, List.cons_append, List.cons.injEq] at e
    exact absurd e.1 (by cases up <;> decide)

theorem frac_noDigit (n : Num) {r : List Char} (hr : Stop n r) : NoDigit (fracShow n.frac ++ (expShow n.exp ++ r)) := by
  intro c t e
  cases hf : n.frac with
  | none => rw [hf] at e; exact exp_noDigit n hr c t e
  | some f =>
    rw [hf] at e
    simp only [fracShow, List.cons_append, List.cons.injEq] at e
    rw [← e.1]; decide

theorem exp_stop_noDigit (n : Num) {r : List Char} (hr : Stop n r) : NoDigit r := fun c t e => (hr c t e).1

theorem floatExp_ok (n : Num) (h : n.Ok) {r : List Char} (hr : Stop n r) : floatExp (expShow n.exp ++ r) = r := by
  cases he : n.exp with
  | none =>
    cases r with
    | nil => rfl
    | cons c r =>
      obtain ⟨-, h2, h3, -⟩ := hr c r rfl
      show floatExp (c :: r) = _
      rw [floatExp, if_neg (by simp [h2, h3])]
  | some x =>
    obtain ⟨up, ds⟩ := x
    have hne := h.2 _ he
    simp only at hne
    show floatExp ((if up then 'E' else 'e') :: (ds.map dchar ++ r)) = r
    rw [floatExp, if_pos (by cases up <;> simp)]
    simp only
    rw [dropWhile_digits ds (exp_stop_noDigit n hr), if_pos]
    have : 0 < ds.length := List.length_pos_iff.2 hne
    simp; omega

theorem strtodExp_ok (n : Num) (h : n.Ok) {r : List Char} (hr : Stop n r) :
    strtodExp (expShow n.exp ++ r) = ((natVal ((n.exp.getD (false, [])).2) : Int), r) := by
  cases he : n.exp with
  | none =>
    cases r with
    | nil => rfl
    | cons c r =>
      obtain ⟨-, h2, h3, -⟩ := hr c r rfl
      show strtodExp (c :: r) = _
      rw [strtodExp, if_neg (by simp [h2, h3])]
      simp [natVal]
  | some x =>
    obtain ⟨up, ds⟩ := x
    have hne := h.2 _ he
    simp only at hne
    have hs : skipSign (ds.map dchar ++ r) = ds.map dchar ++ r := by
      cases ds with
      | nil => exact absurd rfl hne
      | cons d ds =>
        show skipSign (dchar d :: _) = _
        rw [skipSign, if_neg (dchar_ne d).1, if_neg (dchar_ne d).2.1]
        rfl
    have hh : (ds.map dchar ++ r).head? ≠ some '-' := by
      cases ds with
      | nil => exact absurd rfl hne
      | cons d ds => simpa using (dchar_ne d).1
    show strtodExp ((if up then 'E' else 'e') :: (ds.map dchar ++ r)) = _
    rw [strtodExp, if_pos (by cases up <;> simp)]
    simp only
    rw [hs, takeWhile_digits ds (exp_stop_noDigit n hr), dropWhile_digits ds (exp_stop_noDigit n hr), digitsVal_map,
      if_neg (by simp [hne]), if_neg hh]
    simp

theorem strFloat_ok (n : Num) (h : n.Ok) {r : List Char} (hr : Stop n r) : strFloat (n.show ++ r) = some r := by
  unfold strFloat
  rw [Num.show_eq, skipSign_sign n h, floatBody_digits]
  have key : floatBody false (false || !n.int.isEmpty) (fracShow n.frac ++ (expShow n.exp ++ r))
      = (true, expShow n.exp ++ r) := by
    cases hf : n.frac with
    | none =>
      have hi : n.int ≠ [] := by
        rcases h.1 with h1 | ⟨f, h1, -⟩
        · exact h1
        · rw [hf] at h1; cases h1
      show floatBody _ _ (expShow n.exp ++ r) = _
      rw [floatBody_stop]
      · simp [hi]
      · exact exp_noDigit n hr
      · intro t e; have := exp_noDot n hr t e; rw [hf] at this; cases this
    | some f =>
      show floatBody _ _ ('.' :: (f.map dchar ++ (expShow n.exp ++ r))) = _
      rw [floatBody, if_neg (by decide), if_pos (by decide), floatBody_digits, floatBody_stop]
      · have : n.int ≠ [] ∨ f ≠ [] := by
          rcases h.1 with h1 | ⟨f', h1, h2⟩
          · exact .inl h1
          · rw [hf] at h1; cases h1; exact .inr h2
        rcases this with h | h <;> simp [h]
      · exact exp_noDigit n hr
      · intro _ _; rfl
  rw [key]
  simp only [if_true]
  rw [floatExp_ok n h hr]

theorem strtod_ok (n : Num) (h : n.Ok) {r : List Char} (hr : Stop n r) : strtod (n.show ++ r) = (n.val, r) := by
  have hx : ∀ x t, fracShow n.frac ++ (expShow n.exp ++ r) = x :: t → x ≠ 'x' ∧ x ≠ 'X' := by
    intro x t e
    cases hf : n.frac with
    | some f =>
      rw [hf] at e; simp only [fracShow, List.cons_append, List.cons.injEq] at e
      rw [← e.1]; decide
    | none =>
      rw [hf] at e
      cases he : n.exp with
      | some y =>
        obtain ⟨up, ds⟩ := y
        rw [he] at e; simp only [fracShow, expShow, List.nil_append, List.cons_append, List.cons.injEq] at e
        rw [← e.1]; cases up <;> decide
      | none =>
        rw [he] at e
        have := hr x t e
        exact ⟨this.2.2.2.1, this.2.2.2.2.1⟩
  have hd1 := takeWhile_digits n.int (frac_noDigit n hr)
  have hr1 := dropWhile_digits n.int (frac_noDigit n hr)
  have hd2 : strtodFrac (fracShow n.frac ++ (expShow n.exp ++ r)) = ((n.frac.getD []).map dchar, expShow n.exp ++ r) := by
    cases hf : n.frac with
    | some f =>
      show strtodFrac ('.' :: (f.map dchar ++ (expShow n.exp ++ r))) = _
      rw [strtodFrac, if_pos rfl, takeWhile_digits f (exp_noDigit n hr), dropWhile_digits f (exp_noDigit n hr)]
      rfl
    | none =>
      simp only [fracShow, List.nil_append, Option.getD_none, List.map_nil]
      cases e : expShow n.exp ++ r with
      | nil => rfl
      | cons c t =>
        rw [strtodFrac, if_neg]
        rintro rfl
        have := exp_noDot n hr t e; rw [hf] at this; cases this
  have hv : (if (signShow n.sign ++ (n.int.map dchar ++ (fracShow n.frac ++ (expShow n.exp ++ r)))).head? = some '-' then
        -((digitsVal (n.int.map dchar ++ (n.frac.getD []).map dchar) : ℚ) / 10 ^ ((n.frac.getD []).map dchar).length
          * (10 : ℚ) ^ ((natVal ((n.exp.getD (false, [])).2) : Int)))
      else (digitsVal (n.int.map dchar ++ (n.frac.getD []).map dchar) : ℚ) / 10 ^ ((n.frac.getD []).map dchar).length
          * (10 : ℚ) ^ ((natVal ((n.exp.getD (false, [])).2) : Int))) = n.val := by
    rw [← List.map_append, digitsVal_map, natVal_append, List.length_map]
    unfold Num.val
    rw [fracVal_eq, zpow_natCast]
    have h10 : (10 : ℚ) ^ (n.frac.getD []).length ≠ 0 := by positivity
    by_cases hs : n.sign = some true
    · rw [if_pos ((head_sign n h _).2 hs), if_pos hs]
      push_cast
      field_simp
    · rw [if_neg (fun hc => hs ((head_sign n h _).1 hc)), if_neg hs]
      push_cast
      field_simp
  unfold strtod
  rw [Num.show_eq]
  simp only [skipSign_sign n h]
  rw [hd1, hr1, hd2]
  simp only [strtodExp_ok n h hr]
  split
  · rename_i x y t e1 e2
    have := hx _ _ e2
    rw [if_neg (by simp [this.1, this.2]), hv]
  · rw [hv]

/-- how a number begins -/
theorem num_head (n : Num) (h : n.Ok) (r : List Char) :
    ∃ c t, n.show ++ r = c :: t ∧ (c = '-' ∨ c = '+' ∨ c = '.' ∨ isDigit c = true) := by
  rw [Num.show_eq]
  obtain ⟨c, t, e, hc⟩ := body_head n h (expShow n.exp ++ r)
  cases hs : n.sign with
  | none => exact ⟨c, t, e, hc.elim (fun h => .inr (.inr (.inr h))) (fun h => .inr (.inr (.inl h)))⟩
  | some b => cases b
              · exact ⟨'+', _, rfl, .inr (.inl rfl)⟩
              · exact ⟨'-', _, rfl, .inl rfl⟩

theorem num_noSep (n : Num) (h : n.Ok) (r : List Char) : NoSep (n.show ++ r) := by
  intro c t e
  obtain ⟨c', t', e', hc⟩ := num_head n h r
  rw [e'] at e; injection e with e1 e2; subst e1
  have digit : isDigit c' = true → isSpace c' = false ∧ c' ≠ ',' := by
    intro hd
    constructor
    · by_contra hs
      simp only [isSpace, Bool.or_eq_true, decide_eq_true_eq, Bool.not_eq_false] at hs
      rcases hs with (((rfl | rfl) | rfl) | rfl) | rfl <;> revert hd <;> decide
    · rintro rfl; revert hd; decide
  rcases hc with rfl | rfl | rfl | hd
  · decide
  · decide
  · decide
  · exact digit hd

theorem num_looks (n : Num) (h : n.Ok) (r : List Char) : looksFloat (n.show ++ r) = true := by
  obtain ⟨c', t', e', hc⟩ := num_head n h r
  rw [e', looksFloat]
  rcases hc with rfl | rfl | rfl | hd
  · decide
  · decide
  · decide
  · simp [hd]

/-- a number after a separator is read -/
theorem sDouble_ok (b : Bool) (s : List Char) (n : Num) (h : n.Ok) {r : List Char} (hr : Stop n r)
    (hs : sSep b s = n.show ++ r) : sDouble b s = (some n.val, r) := by
  unfold sDouble
  simp only [hs, strFloat_ok n h hr, strtod_ok n h hr, if_true]

end Hob3l.Svg
