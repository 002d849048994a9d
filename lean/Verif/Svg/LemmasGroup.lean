import Verif.Svg.LemmasText

/-! Lemmas about the reading of commands. -/

namespace Hob3l.Svg

theorem showRow_cons (t : Sep × Tok) (l : List (Sep × Tok)) : showRow (t :: l) = t.1.show ++ (t.2.show ++ showRow l) := by
  simp [showRow, List.append_assoc]

theorem showRow_append (a b : List (Sep × Tok)) : showRow (a ++ b) = showRow a ++ showRow b := by
  simp [showRow]

/-- the text that follows a group: nothing, white space or a command letter -/
def Follow (r : List Char) : Prop :=
  (∀ c t, r = c :: t → isDigit c = false ∧ c ≠ 'e' ∧ c ≠ 'E' ∧ c ≠ 'x' ∧ c ≠ 'X' ∧ c ≠ '.')
  ∧ looksFloat (sSep false r) = false

theorem sep_head (s : Sep) (r : List Char) (h : s.show ≠ []) :
    ∃ c t, s.show ++ r = c :: t ∧ isDigit c = false ∧ c ≠ 'e' ∧ c ≠ 'E' ∧ c ≠ 'x' ∧ c ≠ 'X' ∧ c ≠ '.' := by
  obtain ⟨pre, comma, post⟩ := s
  unfold Sep.show at h ⊢
  cases pre with
  | cons a pre => refine ⟨a.char, _, rfl, ?_⟩; cases a <;> decide
  | nil =>
    cases comma with
    | true => exact ⟨',', _, rfl, by decide⟩
    | false =>
      cases post with
      | cons a post => refine ⟨a.char, _, rfl, ?_⟩; cases a <;> decide
      | nil => exact absurd rfl h

/-- what follows a number in well-formed data is not a continuation of it -/
theorem stop_of (s : Sep) (n : Num) (l : List (Sep × Tok)) {r : List Char} (hsp : Spaced ((s, .num n) :: l))
    (hok : ∀ t ∈ l, t.2.Ok) (hr : Follow r) : Stop n (showRow l ++ r) := by
  intro c t e
  cases l with
  | nil =>
    obtain ⟨h1, h2, h3, h4, h5, h6⟩ := hr.1 c t e
    exact ⟨h1, h2, h3, h4, h5, fun h => absurd h h6⟩
  | cons b l =>
    rw [showRow_cons, List.append_assoc, List.append_assoc] at e
    have hg := hsp.1
    by_cases hb : b.1.show = []
    · rw [hb, List.nil_append] at e
      have hg : Glue (.num n) b.2 := hg.resolve_left (fun h => h hb)
      obtain ⟨s', b⟩ := b
      cases b with
      | flag f => exact hg.elim
      | num m =>
        simp only at e hg
        change m.show ++ _ = _ at e
        rw [Num.show_eq] at e
        rcases hg with h | ⟨h1, h2⟩
        · cases hm : m.sign with
          | none => rw [hm] at h; cases h
          | some x =>
            rw [hm] at e
            cases x <;> simp only [signShow, List.cons_append, List.cons.injEq] at e <;> rw [← e.1] <;>
              exact ⟨by decide, by decide, by decide, by decide, by decide, fun h => absurd h (by decide)⟩
        · cases hm : m.sign with
          | some x =>
            rw [hm] at e
            cases x <;> simp only [signShow, List.cons_append, List.cons.injEq] at e <;> rw [← e.1] <;>
              exact ⟨by decide, by decide, by decide, by decide, by decide, fun h => absurd h (by decide)⟩
          | none =>
            rw [hm, h1] at e
            cases hf : m.frac with
            | some f =>
              rw [hf] at e
              simp only [signShow, fracShow, List.map_nil, List.nil_append, List.cons_append, List.cons.injEq] at e
              rw [← e.1]
              exact ⟨by decide, by decide, by decide, by decide, by decide, fun _ => h2⟩
            | none =>
              have hm : m.Ok := hok _ (List.mem_cons_self ..)
              rcases hm.1 with h | ⟨f, h, -⟩
              · exact absurd h1 h
              · rw [hf] at h; cases h
    · obtain ⟨c', t', e', h1, h2, h3, h4, h5, h6⟩ := sep_head b.1 (b.2.show ++ (showRow l ++ r)) hb
      rw [e'] at e; injection e with e1 e2; subst e1
      exact ⟨h1, h2, h3, h4, h5, fun h => absurd h h6⟩

/-- the value of a number as a rational -/
def tokQ : Tok → ℚ
  | .num n => n.val
  | .flag _ => 0

theorem spaced_tail {a : Sep × Tok} {l : List (Sep × Tok)} (h : Spaced (a :: l)) : Spaced l := by
  cases l with
  | nil => trivial
  | cons b l => exact h.2

theorem spaced_drop (k : List (Sep × Tok)) {l : List (Sep × Tok)} (h : Spaced (k ++ l)) : Spaced l := by
  induction k with
  | nil => exact h
  | cons a k ih => exact ih (spaced_tail h)

/-- the numbers of a row are read; `more` follows in the same group -/
theorem sNums_row (row more : List (Sep × Tok)) {r : List Char} (hn : ∀ t ∈ row, t.2.isFlag = false)
    (hok : ∀ t ∈ row ++ more, t.2.Ok) (hsp : Spaced (row ++ more)) (hr : Follow r) :
    sNums row.length true (showRow row ++ (showRow more ++ r)) = some (row.map fun t => tokQ t.2, showRow more ++ r) := by
  induction row with
  | nil => rfl
  | cons t row ih =>
    obtain ⟨s, t⟩ := t
    cases t with
    | flag b => exact absurd (hn _ (List.mem_cons_self ..)) (by simp [Tok.isFlag])
    | num n =>
      have hnok : n.Ok := hok (s, .num n) (by simp)
      have hst : Stop n (showRow row ++ (showRow more ++ r)) := by
        have := stop_of s n (row ++ more) (r := r) hsp (fun t ht => hok t (List.mem_cons_of_mem _ ht)) hr
        rwa [showRow_append, List.append_assoc] at this
      have hd := sDouble_ok true (showRow ((s, .num n) :: row) ++ (showRow more ++ r)) n hnok hst (by
        rw [showRow_cons, List.append_assoc, List.append_assoc]
        exact sSep_sep s (num_noSep n hnok _))
      rw [List.length_cons, sNums, hd]
      simp only
      rw [ih (fun t ht => hn t (List.mem_cons_of_mem _ ht)) (fun t ht => hok t (List.mem_cons_of_mem _ ht)) (spaced_tail hsp)]
      rfl

/-- the same, if the first separator has been dealt with in some other way -/
theorem sNums_row' (s : Sep) (n : Num) (row more : List (Sep × Tok)) {r : List Char} (b : Bool) (x : List Char)
    (hn : ∀ t ∈ row, t.2.isFlag = false)
    (hok : ∀ t ∈ (s, .num n) :: (row ++ more), t.2.Ok) (hsp : Spaced ((s, .num n) :: (row ++ more))) (hr : Follow r)
    (hx : sSep b x = n.show ++ (showRow row ++ (showRow more ++ r))) :
    sNums (row.length + 1) b x
      = some (((s, Tok.num n) :: row).map fun t => tokQ t.2, showRow more ++ r) := by
  have hnok : n.Ok := hok (s, .num n) (by simp)
  have hst : Stop n (showRow row ++ (showRow more ++ r)) := by
    have := stop_of s n (row ++ more) (r := r) hsp (fun t ht => hok t (List.mem_cons_of_mem _ ht)) hr
    rwa [showRow_append, List.append_assoc] at this
  rw [sNums, sDouble_ok b x n hnok hst hx]
  simp only
  rw [sNums_row row more hn (fun t ht => hok t (List.mem_cons_of_mem _ ht)) (spaced_tail hsp) hr]
  rfl

theorem sBool_ok (old : Bool) (s : Sep) (b : Bool) (r : List Char) :
    sBool old true (s.show ++ ((Tok.flag b).show ++ r)) = (b, r) := by
  unfold sBool
  have hns : NoSep ((Tok.flag b).show ++ r) := by
    intro c t e
    cases b <;> simp only [Tok.show, Bool.false_eq_true, if_false, if_true, List.cons_append, List.cons.injEq] at e <;>
      rw [← e.1] <;> decide
  rw [sSep_sep s hns]
  cases b <;> simp [Tok.show]

/-! ## Rows -/

theorem looks_sep (s : Sep) (n : Num) (h : n.Ok) (r : List Char) : looksFloat (sSep false (s.show ++ (n.show ++ r))) = true := by
  unfold Sep.show
  rw [List.append_assoc, List.append_assoc, sSep_ws]
  cases s.comma with
  | false =>
    simp only [Bool.false_eq_true, if_false, List.nil_append]
    rw [sSep_ws, sSep_noSep (num_noSep n h _)]
    exact num_looks n h r
  | true =>
    simp only [if_true]
    rw [sSep_noWs (by
      intro c t e
      simp only [List.cons_append, List.cons.injEq] at e
      rw [← e.1]; decide)]
    rfl

/-- a row of numbers -/
def NumRow (k : Nat) (row : Row) : Prop := row.length = k + 1 ∧ ∀ t ∈ row, t.2.isFlag = false

theorem NumRow.cases {k : Nat} {row : Row} (h : NumRow k row) :
    ∃ s n row', row = (s, .num n) :: row' ∧ row'.length = k ∧ ∀ t ∈ row', t.2.isFlag = false := by
  obtain ⟨h1, h2⟩ := h
  cases row with
  | nil => cases h1
  | cons t row =>
    obtain ⟨s, t⟩ := t
    cases t with
    | flag b => exact absurd (h2 _ (List.mem_cons_self ..)) (by simp [Tok.isFlag])
    | num n => exact ⟨s, n, row, rfl, by simpa using h1, fun t ht => h2 t (List.mem_cons_of_mem _ ht)⟩

theorem strRows_ok {S : Type} (k : Nat) (other : S → List ℚ → S) (rows : List Row) {r : List Char}
    (hn : ∀ row ∈ rows, NumRow k row) (hok : ∀ t ∈ rows.flatten, t.2.Ok) (hsp : Spaced rows.flatten) (hr : Follow r)
    (fuel : Nat) (hf : rows.length < fuel) (st : S) :
    strRows (k + 1) other fuel st (showRow rows.flatten ++ r)
      = (rows.foldl (fun st row => other st (row.map fun t => tokQ t.2)) st, some (sSep false r)) := by
  induction rows generalizing fuel st with
  | nil =>
    cases fuel with
    | zero => cases hf
    | succ fuel =>
      show strRows _ _ _ _ r = _
      rw [strRows, if_neg (by simp [hr.2])]
      rfl
  | cons row rows ih =>
    cases fuel with
    | zero => cases hf
    | succ fuel =>
      obtain ⟨s, n, row', rfl, hl, hn'⟩ := (hn row (List.mem_cons_self ..)).cases
      rw [List.flatten_cons] at hok hsp
      rw [List.cons_append] at hok hsp
      have hnok : n.Ok := hok (s, .num n) (List.mem_cons_self ..)
      have e : showRow (((s, Tok.num n) :: row') :: rows).flatten ++ r
          = s.show ++ (n.show ++ (showRow row' ++ (showRow rows.flatten ++ r))) := by
        rw [List.flatten_cons, List.cons_append, showRow_cons, showRow_append]
        simp only [List.append_assoc]
        rfl
      rw [e, strRows, if_pos (looks_sep s n hnok _),
        ← hl, sNums_row' s n row' rows.flatten true _ hn' hok hsp hr (sSep_false_comma s _ (num_noSep n hnok _))]
      simp only
      rw [hl, ih (fun row h => hn row (List.mem_cons_of_mem _ h))
        (fun t ht => hok t (List.mem_cons_of_mem _ (List.mem_append_right _ ht)))
        (spaced_drop ((s, Tok.num n) :: row') hsp) fuel (by simpa using hf)]
      rfl

theorem strGroups_ok {S : Type} (k : Nat) (first other : S → List ℚ → S) (row : Row) (rows : List Row) {r : List Char}
    (hn : ∀ x ∈ row :: rows, NumRow k x) (hok : ∀ t ∈ (row :: rows).flatten, t.2.Ok) (hsp : Spaced (row :: rows).flatten)
    (hc : ∀ t, (row :: rows).flatten.head? = some t → t.1.comma = false)
    (hr : Follow r) (fuel : Nat) (hf : rows.length < fuel) (st : S) :
    strGroups (k + 1) first other fuel st (showRow (row :: rows).flatten ++ r)
      = (rows.foldl (fun st row => other st (row.map fun t => tokQ t.2)) (first st (row.map fun t => tokQ t.2)),
          some (sSep false r)) := by
  obtain ⟨s, n, row', rfl, hl, hn'⟩ := (hn row (List.mem_cons_self ..)).cases
  rw [List.flatten_cons, List.cons_append] at hok hsp hc
  have hnok : n.Ok := hok (s, .num n) (List.mem_cons_self ..)
  have e : showRow (((s, Tok.num n) :: row') :: rows).flatten ++ r
      = s.show ++ (n.show ++ (showRow row' ++ (showRow rows.flatten ++ r))) := by
    rw [List.flatten_cons, List.cons_append, showRow_cons, showRow_append]
    simp only [List.append_assoc]
    rfl
  have hs : s.comma = false := hc _ rfl
  unfold strGroups
  rw [e, sSep_sep_false s hs (num_noSep n hnok _).noWs]
  rw [← hl, sNums_row' s n row' rows.flatten false _ hn' hok hsp hr (sSep_noSep (num_noSep n hnok _) false)]
  simp only
  rw [hl, strRows_ok k other rows (fun x h => hn x (List.mem_cons_of_mem _ h))
    (fun t ht => hok t (List.mem_cons_of_mem _ (List.mem_append_right _ ht)))
    (spaced_drop ((s, Tok.num n) :: row') hsp) hr fuel hf]

/-! ## Arcs -/

/-- what `s_arc` reads -/
def arcVals (row : Row) : List ℚ × Bool × Bool × List ℚ :=
  match row with
  | [a, b, c, d, e, f, g] => ([tokQ a.2, tokQ b.2, tokQ c.2], d.2.bool, e.2.bool, [tokQ f.2, tokQ g.2])
  | _ => ([], false, false, [])

/-- the shape of the arguments of an arc -/
theorem arcRow_cases {row : Row} (h : row.map (fun t => t.2.isFlag) = Kind.shape .a) :
    ∃ s1 n1 b c s4 f4 s5 f5 g k, row = [(s1, .num n1), b, c, (s4, .flag f4), (s5, .flag f5), g, k]
      ∧ b.2.isFlag = false ∧ c.2.isFlag = false ∧ g.2.isFlag = false ∧ k.2.isFlag = false := by
  obtain ⟨⟨s1, t1⟩, row, rfl, e1, h⟩ := List.map_eq_cons_iff.1 h
  obtain ⟨b, row, rfl, e2, h⟩ := List.map_eq_cons_iff.1 h
  obtain ⟨c, row, rfl, e3, h⟩ := List.map_eq_cons_iff.1 h
  obtain ⟨⟨s4, t4⟩, row, rfl, e4, h⟩ := List.map_eq_cons_iff.1 h
  obtain ⟨⟨s5, t5⟩, row, rfl, e5, h⟩ := List.map_eq_cons_iff.1 h
  obtain ⟨g, row, rfl, e6, h⟩ := List.map_eq_cons_iff.1 h
  obtain ⟨k, row, rfl, e7, h⟩ := List.map_eq_cons_iff.1 h
  obtain rfl := List.map_eq_nil_iff.1 h
  cases t1 with
  | flag _ => cases e1
  | num n1 =>
    cases t4 with
    | num _ => cases e4
    | flag f4 =>
      cases t5 with
      | num _ => cases e5
      | flag f5 => exact ⟨s1, n1, b, c, s4, f4, s5, f5, g, k, rfl, e2, e3, e6, e7⟩

theorem sArc_ok (fa fs : Bool) (b : Bool) (x : List Char) (s1 : Sep) (n1 : Num) (b2 c3 : Sep × Tok) (s4 : Sep) (f4 : Bool)
    (s5 : Sep) (f5 : Bool) (g k : Sep × Tok) (more : List (Sep × Tok)) {r : List Char}
    (h2 : b2.2.isFlag = false) (h3 : c3.2.isFlag = false) (h6 : g.2.isFlag = false) (h7 : k.2.isFlag = false)
    (hok : ∀ t ∈ [(s1, .num n1), b2, c3, (s4, .flag f4), (s5, .flag f5), g, k] ++ more, t.2.Ok)
    (hsp : Spaced ([(s1, .num n1), b2, c3, (s4, .flag f4), (s5, .flag f5), g, k] ++ more)) (hr : Follow r)
    (hx : sSep b x = n1.show ++ (showRow [b2, c3, (s4, .flag f4), (s5, .flag f5), g, k] ++ (showRow more ++ r))) :
    sArc fa fs b x = some (arcVals [(s1, .num n1), b2, c3, (s4, .flag f4), (s5, .flag f5), g, k], showRow more ++ r) := by
  have e1 : showRow [b2, c3, (s4, .flag f4), (s5, .flag f5), g, k] ++ (showRow more ++ r)
      = showRow [b2, c3] ++ (showRow ([(s4, Tok.flag f4), (s5, Tok.flag f5), g, k] ++ more) ++ r) := by
    rw [← List.append_assoc, ← showRow_append, ← List.append_assoc, ← showRow_append]
    rfl
  have a1 := sNums_row' s1 n1 [b2, c3] ([(s4, .flag f4), (s5, .flag f5), g, k] ++ more) (r := r) b x
    (by
      intro t ht
      simp only [List.mem_cons, List.not_mem_nil, or_false] at ht
      rcases ht with rfl | rfl <;> assumption) (by simpa using hok) (by simpa using hsp) hr (by rw [hx, e1])
  unfold sArc
  rw [show (3 : Nat) = [b2, c3].length + 1 from rfl, a1]
  simp only
  have e2 : showRow ([(s4, Tok.flag f4), (s5, Tok.flag f5), g, k] ++ more) ++ r
      = s4.show ++ ((Tok.flag f4).show ++ (s5.show ++ ((Tok.flag f5).show ++ (showRow [g, k] ++ (showRow more ++ r))))) := by
    rw [List.cons_append, List.cons_append, showRow_cons, showRow_cons, showRow_append]
    simp only [List.append_assoc]
  rw [e2, sBool_ok]
  simp only
  rw [sBool_ok]
  simp only
  have a2 := sNums_row [g, k] more (r := r)
    (by
      intro t ht
      simp only [List.mem_cons, List.not_mem_nil, or_false] at ht
      rcases ht with rfl | rfl <;> assumption)
    (fun t ht => hok t (by simp only [List.mem_append, List.mem_cons, List.not_mem_nil, or_false] at ht ⊢; tauto))
    (spaced_drop [(s1, .num n1), b2, c3, (s4, .flag f4), (s5, .flag f5)] (by simpa using hsp)) hr
  rw [show (2 : Nat) = [g, k].length from rfl, a2]
  rfl

theorem strArcs_ok {S : Type} (arc : S → List ℚ × Bool × Bool × List ℚ → S) (rows : List Row) {r : List Char}
    (hn : ∀ row ∈ rows, row.map (fun t => t.2.isFlag) = Kind.shape .a) (hok : ∀ t ∈ rows.flatten, t.2.Ok)
    (hsp : Spaced rows.flatten) (hr : Follow r) (fuel : Nat) (hf : rows.length < fuel) (fa fs : Bool) (st : S) :
    strArcs arc fuel fa fs st (showRow rows.flatten ++ r)
      = (rows.foldl (fun st row => arc st (arcVals row)) st, some (sSep false r)) := by
  induction rows generalizing fuel st fa fs with
  | nil =>
    cases fuel with
    | zero => cases hf
    | succ fuel =>
      show strArcs _ _ _ _ _ r = _
      rw [strArcs, if_neg (by simp [hr.2])]
      rfl
  | cons row rows ih =>
    cases fuel with
    | zero => cases hf
    | succ fuel =>
      obtain ⟨s1, n1, b2, c3, s4, f4, s5, f5, g, k, rfl, h2, h3, h6, h7⟩ := arcRow_cases (hn row (List.mem_cons_self ..))
      rw [List.flatten_cons] at hok hsp
      have hnok : n1.Ok := hok (s1, .num n1) (List.mem_append_left _ (List.mem_cons_self ..))
      have e : showRow ([(s1, Tok.num n1), b2, c3, (s4, .flag f4), (s5, .flag f5), g, k] :: rows).flatten ++ r
          = s1.show ++ (n1.show ++ (showRow [b2, c3, (s4, .flag f4), (s5, .flag f5), g, k] ++ (showRow rows.flatten ++ r))) := by
        rw [List.flatten_cons, showRow_append, showRow_cons]
        simp only [List.append_assoc]
        rfl
      rw [e, strArcs, if_pos (looks_sep s1 n1 hnok _),
        sArc_ok fa fs true _ s1 n1 b2 c3 s4 f4 s5 f5 g k rows.flatten h2 h3 h6 h7 hok hsp hr
          (sSep_false_comma s1 _ (num_noSep n1 hnok _))]
      simp only
      rw [ih (fun row h => hn row (List.mem_cons_of_mem _ h))
        (fun t ht => hok t (List.mem_append_right _ ht)) (spaced_drop _ hsp) fuel (by simpa using hf)]
      rfl

theorem strArc_ok {S : Type} (arc : S → List ℚ × Bool × Bool × List ℚ → S) (row : Row) (rows : List Row) {r : List Char}
    (hn : ∀ x ∈ row :: rows, x.map (fun t => t.2.isFlag) = Kind.shape .a) (hok : ∀ t ∈ (row :: rows).flatten, t.2.Ok)
    (hsp : Spaced (row :: rows).flatten) (hc : ∀ t, (row :: rows).flatten.head? = some t → t.1.comma = false)
    (hr : Follow r) (fuel : Nat) (hf : rows.length < fuel) (st : S) :
    strArc arc fuel st (showRow (row :: rows).flatten ++ r)
      = ((row :: rows).foldl (fun st row => arc st (arcVals row)) st, some (sSep false r)) := by
  obtain ⟨s1, n1, b2, c3, s4, f4, s5, f5, g, k, rfl, h2, h3, h6, h7⟩ := arcRow_cases (hn row (List.mem_cons_self ..))
  rw [List.flatten_cons] at hok hsp hc
  have hnok : n1.Ok := hok (s1, .num n1) (List.mem_append_left _ (List.mem_cons_self ..))
  have e : showRow ([(s1, Tok.num n1), b2, c3, (s4, .flag f4), (s5, .flag f5), g, k] :: rows).flatten ++ r
      = s1.show ++ (n1.show ++ (showRow [b2, c3, (s4, .flag f4), (s5, .flag f5), g, k] ++ (showRow rows.flatten ++ r))) := by
    rw [List.flatten_cons, showRow_append, showRow_cons]
    simp only [List.append_assoc]
    rfl
  have hs : s1.comma = false := hc _ rfl
  unfold strArc
  rw [e, sSep_sep_false s1 hs (num_noSep n1 hnok _).noWs,
    sArc_ok false false false _ s1 n1 b2 c3 s4 f4 s5 f5 g k rows.flatten h2 h3 h6 h7 hok hsp hr
      (sSep_noSep (num_noSep n1 hnok _) false)]
  simp only
  rw [strArcs_ok arc rows (fun x h => hn x (List.mem_cons_of_mem _ h))
    (fun t ht => hok t (List.mem_append_right _ ht)) (spaced_drop _ hsp) hr fuel hf]
  rfl

/-! ## Groups -/

section

variable {K : Type} [Field K] [LinearOrder K]

/-- one command on the state of the model -/
def exec (c : Cfg K) (st : St K) : Cmd K → St K
  | .move rel p => pathMove st rel p
  | .line rel p => pathLine c st rel p
  | .horiz rel x => pathHoriz c st rel x
  | .vert rel y => pathVert c st rel y
  | .quad rel p1 p2 => pathQuad c st rel p1 p2
  | .cub rel p1 p2 p3 => pathCub c st rel p1 p2 p3
  | .squad rel p2 => pathSquad c st rel p2
  | .scub rel p2 p3 => pathScub c st rel p2 p3
  | .arc rel rx ry ph fa fs p => pathArc c st rel rx ry ph fa fs p
  | .close => pathClose st

theorem numRow_of {k : Kind} {n : Nat} {row : Row} (hk : k.shape = List.replicate (n + 1) false)
    (h : row.map (fun t => t.2.isFlag) = k.shape) : NumRow n row := by
  rw [hk] at h
  refine ⟨by simpa using congrArg List.length h, fun t ht => ?_⟩
  have : t.2.isFlag ∈ row.map (fun t => t.2.isFlag) := List.mem_map_of_mem ht
  rw [h] at this
  exact (List.mem_replicate.1 this).2

/-- the rows of a group, one by one -/
theorem foldl_cmds (c : Cfg K) (k : Kind) (rel : Bool) (f : St K → Row → St K) (rows : List Row)
    (h : ∀ row ∈ rows, ∀ st, ((rowCmd k rel false row).toList : List (Cmd K)).foldl (exec c) st = f st row) (st : St K) :
    (rows.flatMap fun r => ((rowCmd k rel false r).toList : List (Cmd K))).foldl (exec c) st = rows.foldl f st := by
  induction rows generalizing st with
  | nil => rfl
  | cons row rows ih =>
    rw [List.flatMap_cons, List.foldl_append, h row (List.mem_cons_self ..), ih (fun r hr => h r (List.mem_cons_of_mem _ hr))]
    rfl

theorem row1 {row : Row} (h : NumRow 0 row) : ∃ s1 n1, row = [(s1, .num n1)] := by
  obtain ⟨s, n, row', rfl, hl, -⟩ := h.cases
  rw [List.length_eq_zero_iff] at hl
  exact ⟨s, n, by rw [hl]⟩

theorem numRow_cons {k : Nat} {row : Row} (h : NumRow (k + 1) row) : ∃ s n row', row = (s, .num n) :: row' ∧ NumRow k row' := by
  obtain ⟨s, n, row', rfl, hl, hn⟩ := h.cases
  exact ⟨s, n, row', rfl, hl, hn⟩

theorem row2 {row : Row} (h : NumRow 1 row) : ∃ s1 n1 s2 n2, row = [(s1, .num n1), (s2, .num n2)] := by
  obtain ⟨s1, n1, row1', rfl, h1⟩ := numRow_cons h
  obtain ⟨s2, n2, rfl⟩ := row1 h1
  exact ⟨s1, n1, s2, n2, rfl⟩

theorem row4 {row : Row} (h : NumRow 3 row) :
    ∃ s1 n1 s2 n2 s3 n3 s4 n4, row = [(s1, .num n1), (s2, .num n2), (s3, .num n3), (s4, .num n4)] := by
  obtain ⟨s1, n1, row1', rfl, h1⟩ := numRow_cons h
  obtain ⟨s2, n2, row2', rfl, h2⟩ := numRow_cons h1
  obtain ⟨s3, n3, s4, n4, rfl⟩ := row2 h2
  exact ⟨s1, n1, s2, n2, s3, n3, s4, n4, rfl⟩

theorem row6 {row : Row} (h : NumRow 5 row) :
    ∃ s1 n1 s2 n2 s3 n3 s4 n4 s5 n5 s6 n6, row = [(s1, .num n1), (s2, .num n2), (s3, .num n3), (s4, .num n4), (s5, .num n5), (s6, .num n6)] := by
  obtain ⟨s1, n1, row1', rfl, h1⟩ := numRow_cons h
  obtain ⟨s2, n2, row2', rfl, h2⟩ := numRow_cons h1
  obtain ⟨s3, n3, s4, n4, s5, n5, s6, n6, rfl⟩ := row4 h2
  exact ⟨s1, n1, s2, n2, s3, n3, s4, n4, s5, n5, s6, n6, rfl⟩

/-- `rel` is recognised by the letter -/
theorem letter_rel (k : Kind) (rel : Bool) :
    (decide ('a' ≤ k.letter rel) && decide (k.letter rel ≤ 'z')) = rel := by
  cases k <;> cases rel <;> decide

theorem strCmd_ok (c : Cfg K) (g : Group) (h : g.Ok) {r : List Char} (hr : Follow r) (fuel : Nat)
    (hf : g.rows.length < fuel) (st : St K) :
    ∃ s, strCmd c fuel (g.kind.letter g.rel) st (showRow g.rows.flatten ++ r) = (g.cmds.foldl (exec c) st, some s)
      ∧ sSep false s = sSep false r := by
  obtain ⟨hz, hshape, hok, hsp, hc⟩ := h
  obtain ⟨lead, kind, rel, rows⟩ := g
  simp only at hz hshape hok hsp hc hf ⊢
  have hid : sSep false (sSep false r) = sSep false r := by
    have : ∀ l : List Char, sSep false (sSep false l) = sSep false l := by
      intro l
      induction l with
      | nil => rfl
      | cons a l ih =>
        by_cases ha : isSpace a = true
        · rw [sSep, if_neg (by simp), if_pos ha, ih]
        · have : sSep false (a :: l) = a :: l := by rw [sSep, if_neg (by simp), if_neg ha]
          rw [this, this]
    exact this r
  cases rows with
  | nil =>
    have : kind = .z := hz.2 rfl
    subst this
    refine ⟨r, ?_, rfl⟩
    cases rel <;> rfl
  | cons row rows =>
    have hkz : kind ≠ .z := fun h => by have := hz.1 h; cases this
    refine ⟨sSep false r, ?_, hid⟩
    have hf' : rows.length < fuel := by simp only [List.length_cons] at hf; omega
    have hrow := hshape row (List.mem_cons_self ..)
    have hrows : ∀ x ∈ rows, _ := fun x hx => hshape x (List.mem_cons_of_mem _ hx)
    have hrel := letter_rel kind rel
    unfold strCmd
    simp only [hrel]
    show _ = (List.foldl (exec c) st ((rowCmd kind rel true row).toList ++ rows.flatMap fun r => (rowCmd kind rel false r).toList), _)
    rw [List.foldl_append]
    cases kind with
    | z => exact absurd rfl hkz
    | a =>
      rw [if_neg (by cases rel <;> decide), if_neg (by cases rel <;> decide), if_neg (by cases rel <;> decide),
        if_neg (by cases rel <;> decide), if_neg (by cases rel <;> decide), if_neg (by cases rel <;> decide),
        if_neg (by cases rel <;> decide), if_neg (by cases rel <;> decide), if_neg (by cases rel <;> decide),
        if_pos (by cases rel <;> decide), strArc_ok _ row rows hshape hok hsp hc hr fuel hf']
      have key : ∀ x : Row, x.map (fun t => t.2.isFlag) = Kind.shape .a → ∀ b st,
          ((rowCmd .a rel b x).toList : List (Cmd K)).foldl (exec c) st =
          pathArc c st rel (arg (arcVals x).1 0) (arg (arcVals x).1 1) (arg (arcVals x).1 2) (arcVals x).2.1
            (arcVals x).2.2.1 (argP (arcVals x).2.2.2 0) := by
        intro x hx b st
        obtain ⟨s1, n1, b2, c3, s4, f4, s5, f5, g, k, rfl, h2, h3, h6, h7⟩ := arcRow_cases hx
        obtain ⟨s2, t2⟩ := b2
        obtain ⟨s3, t3⟩ := c3
        obtain ⟨s6, t6⟩ := g
        obtain ⟨s7, t7⟩ := k
        cases t2 with
        | flag => cases h2
        | num n2 =>
        cases t3 with
        | flag => cases h3
        | num n3 =>
        cases t6 with
        | flag => cases h6
        | num n6 =>
        cases t7 with
        | flag => cases h7
        | num n7 => rfl
      rw [foldl_cmds c .a rel _ rows (fun x hx st => key x (hrows x hx) false st), key row hrow true]
      rfl
    | m =>
      rw [if_neg (by cases rel <;> decide), if_pos (by cases rel <;> decide),
        strGroups_ok 1 _ _ row rows (fun x hx => numRow_of rfl (hshape x hx)) hok hsp hc hr fuel hf',
        foldl_cmds c .m rel (fun st row => pathLine c st rel (argP (row.map fun t => tokQ t.2) 0)) rows ?_]
      · obtain ⟨s1, n1, s2, n2, rfl⟩ := row2 (numRow_of rfl hrow)
        rfl
      · intro x hx st
        obtain ⟨s1, n1, s2, n2, rfl⟩ := row2 (numRow_of rfl (hrows x hx))
        rfl
    | l =>
      rw [if_neg (by cases rel <;> decide), if_neg (by cases rel <;> decide), if_pos (by cases rel <;> decide),
        strGroups_ok 1 _ _ row rows (fun x hx => numRow_of rfl (hshape x hx)) hok hsp hc hr fuel hf',
        foldl_cmds c .l rel (fun st row => pathLine c st rel (argP (row.map fun t => tokQ t.2) 0)) rows ?_]
      · obtain ⟨s1, n1, s2, n2, rfl⟩ := row2 (numRow_of rfl hrow)
        rfl
      · intro x hx st
        obtain ⟨s1, n1, s2, n2, rfl⟩ := row2 (numRow_of rfl (hrows x hx))
        rfl
    | h =>
      rw [if_neg (by cases rel <;> decide), if_neg (by cases rel <;> decide), if_neg (by cases rel <;> decide),
        if_pos (by cases rel <;> decide),
        strGroups_ok 0 _ _ row rows (fun x hx => numRow_of rfl (hshape x hx)) hok hsp hc hr fuel hf',
        foldl_cmds c .h rel (fun st row => pathHoriz c st rel (arg (row.map fun t => tokQ t.2) 0)) rows ?_]
      · obtain ⟨s1, n1, rfl⟩ := row1 (numRow_of rfl hrow)
        rfl
      · intro x hx st
        obtain ⟨s1, n1, rfl⟩ := row1 (numRow_of rfl (hrows x hx))
        rfl
    | v =>
      rw [if_neg (by cases rel <;> decide), if_neg (by cases rel <;> decide), if_neg (by cases rel <;> decide),
        if_neg (by cases rel <;> decide), if_pos (by cases rel <;> decide),
        strGroups_ok 0 _ _ row rows (fun x hx => numRow_of rfl (hshape x hx)) hok hsp hc hr fuel hf',
        foldl_cmds c .v rel (fun st row => pathVert c st rel (arg (row.map fun t => tokQ t.2) 0)) rows ?_]
      · obtain ⟨s1, n1, rfl⟩ := row1 (numRow_of rfl hrow)
        rfl
      · intro x hx st
        obtain ⟨s1, n1, rfl⟩ := row1 (numRow_of rfl (hrows x hx))
        rfl
    | q =>
      rw [if_neg (by cases rel <;> decide), if_neg (by cases rel <;> decide), if_neg (by cases rel <;> decide),
        if_neg (by cases rel <;> decide), if_neg (by cases rel <;> decide), if_pos (by cases rel <;> decide),
        strGroups_ok 3 _ _ row rows (fun x hx => numRow_of rfl (hshape x hx)) hok hsp hc hr fuel hf',
        foldl_cmds c .q rel (fun st row => pathQuad c st rel (argP (row.map fun t => tokQ t.2) 0)
          (argP (row.map fun t => tokQ t.2) 2)) rows ?_]
      · obtain ⟨s1, n1, s2, n2, s3, n3, s4, n4, rfl⟩ := row4 (numRow_of rfl hrow)
        rfl
      · intro x hx st
        obtain ⟨s1, n1, s2, n2, s3, n3, s4, n4, rfl⟩ := row4 (numRow_of rfl (hrows x hx))
        rfl
    | c =>
      rw [if_neg (by cases rel <;> decide), if_neg (by cases rel <;> decide), if_neg (by cases rel <;> decide),
        if_neg (by cases rel <;> decide), if_neg (by cases rel <;> decide), if_neg (by cases rel <;> decide),
        if_pos (by cases rel <;> decide),
        strGroups_ok 5 _ _ row rows (fun x hx => numRow_of rfl (hshape x hx)) hok hsp hc hr fuel hf',
        foldl_cmds c .c rel (fun st row => pathCub c st rel (argP (row.map fun t => tokQ t.2) 0)
          (argP (row.map fun t => tokQ t.2) 2) (argP (row.map fun t => tokQ t.2) 4)) rows ?_]
      · obtain ⟨s1, n1, s2, n2, s3, n3, s4, n4, s5, n5, s6, n6, rfl⟩ := row6 (numRow_of rfl hrow)
        rfl
      · intro x hx st
        obtain ⟨s1, n1, s2, n2, s3, n3, s4, n4, s5, n5, s6, n6, rfl⟩ := row6 (numRow_of rfl (hrows x hx))
        rfl
    | t =>
      rw [if_neg (by cases rel <;> decide), if_neg (by cases rel <;> decide), if_neg (by cases rel <;> decide),
        if_neg (by cases rel <;> decide), if_neg (by cases rel <;> decide), if_neg (by cases rel <;> decide),
        if_neg (by cases rel <;> decide), if_pos (by cases rel <;> decide),
        strGroups_ok 1 _ _ row rows (fun x hx => numRow_of rfl (hshape x hx)) hok hsp hc hr fuel hf',
        foldl_cmds c .t rel (fun st row => pathSquad c st rel (argP (row.map fun t => tokQ t.2) 0)) rows ?_]
      · obtain ⟨s1, n1, s2, n2, rfl⟩ := row2 (numRow_of rfl hrow)
        rfl
      · intro x hx st
        obtain ⟨s1, n1, s2, n2, rfl⟩ := row2 (numRow_of rfl (hrows x hx))
        rfl
    | s =>
      rw [if_neg (by cases rel <;> decide), if_neg (by cases rel <;> decide), if_neg (by cases rel <;> decide),
        if_neg (by cases rel <;> decide), if_neg (by cases rel <;> decide), if_neg (by cases rel <;> decide),
        if_neg (by cases rel <;> decide), if_neg (by cases rel <;> decide), if_pos (by cases rel <;> decide),
        strGroups_ok 3 _ _ row rows (fun x hx => numRow_of rfl (hshape x hx)) hok hsp hc hr fuel hf',
        foldl_cmds c .s rel (fun st row => pathScub c st rel (argP (row.map fun t => tokQ t.2) 0)
          (argP (row.map fun t => tokQ t.2) 2)) rows ?_]
      · obtain ⟨s1, n1, s2, n2, s3, n3, s4, n4, rfl⟩ := row4 (numRow_of rfl hrow)
        rfl
      · intro x hx st
        obtain ⟨s1, n1, s2, n2, s3, n3, s4, n4, rfl⟩ := row4 (numRow_of rfl (hrows x hx))
        rfl

/-! ## Path data -/

theorem letter_props (k : Kind) (rel : Bool) : isSpace (k.letter rel) = false ∧ looksFloat [k.letter rel] = false ∧
    (isDigit (k.letter rel) = false ∧ k.letter rel ≠ 'e' ∧ k.letter rel ≠ 'E' ∧ k.letter rel ≠ 'x' ∧ k.letter rel ≠ 'X'
      ∧ k.letter rel ≠ '.') := by
  cases k <;> cases rel <;> decide

theorem sSep_letter (k : Kind) (rel : Bool) (t : List Char) : sSep false (k.letter rel :: t) = k.letter rel :: t :=
  sSep_noWs (fun c t' e => by injection e with e1 e2; rw [← e1]; exact (letter_props k rel).1)

theorem group_show_append (g : Group) (r : List Char) :
    g.show ++ r = showWs g.lead ++ (g.kind.letter g.rel :: (showRow g.rows.flatten ++ r)) := by
  unfold Group.show; simp

/-- the rest of the path data can follow a group -/
theorem follow_doc (gs : List Group) (trail : List Space) : Follow (gs.flatMap Group.show ++ showWs trail) := by
  have hws : ∀ (w : List Space) (x : List Char) (c : Char) (t : List Char), w ≠ [] → showWs w ++ x = c :: t →
      isDigit c = false ∧ c ≠ 'e' ∧ c ≠ 'E' ∧ c ≠ 'x' ∧ c ≠ 'X' ∧ c ≠ '.' := by
    intro w x c t hw e
    cases w with
    | nil => exact absurd rfl hw
    | cons a w =>
      simp only [showWs, List.map_cons, List.cons_append, List.cons.injEq] at e
      rw [← e.1]; cases a <;> decide
  cases gs with
  | nil =>
    refine ⟨fun c t e => ?_, ?_⟩
    · cases trail with
      | nil => cases e
      | cons a w => exact hws (a :: w) [] c t (by simp) (by simpa using e)
    · have := sSep_ws false trail []
      rw [List.append_nil] at this
      rw [List.flatMap_nil, List.nil_append, this]; rfl
  | cons g gs =>
    rw [List.flatMap_cons, List.append_assoc, group_show_append]
    refine ⟨fun c t e => ?_, ?_⟩
    · by_cases hl : g.lead = []
      · rw [hl] at e
        simp only [showWs, List.map_nil, List.nil_append, List.cons.injEq] at e
        rw [← e.1]; exact (letter_props g.kind g.rel).2.2
      · exact hws _ _ c t hl e
    · rw [sSep_ws, sSep_letter]
      exact (letter_props g.kind g.rel).2.1

theorem length_showRow (rows : List Row) (k : Kind) (hk : k ≠ .z)
    (h : ∀ r ∈ rows, r.map (fun t => t.2.isFlag) = k.shape) (hok : ∀ t ∈ rows.flatten, t.2.Ok) :
    rows.length ≤ (showRow rows.flatten).length := by
  induction rows with
  | nil => simp
  | cons row rows ih =>
    have h1 := ih (fun r hr => h r (List.mem_cons_of_mem _ hr))
      (fun t ht => hok t (by rw [List.flatten_cons]; exact List.mem_append_right _ ht))
    have h2 : 1 ≤ (showRow row).length := by
      cases hrow : row with
      | nil =>
        have := h row (List.mem_cons_self ..)
        rw [hrow] at this
        cases k <;> first | exact absurd rfl hk | cases this
      | cons t row' =>
        rw [showRow_cons]
        have : 1 ≤ t.2.show.length := by
          have ht : t.2.Ok := hok t (by simp [hrow])
          cases hv : t.2 with
          | flag b => simp [Tok.show]
          | num n =>
            rw [hv] at ht
            obtain ⟨c, u, e, -⟩ := num_head n ht []
            rw [List.append_nil] at e
            show 1 ≤ n.show.length
            rw [e]; simp
        simp only [List.length_append]; omega
    rw [List.flatten_cons, showRow_append, List.length_append, List.length_cons]
    omega

theorem strPathLoop_ok (c : Cfg K) (gs : List Group) (trail : List Space) (h : ∀ g ∈ gs, g.Ok) (fuel : Nat)
    (hf : gs.length < fuel) (st : St K) (s : List Char) (hs : sSep false s = sSep false (gs.flatMap Group.show ++ showWs trail)) :
    strPathLoop c fuel st s = ((gs.flatMap Group.cmds).foldl (exec c) st, true) := by
  induction gs generalizing fuel st s with
  | nil =>
    cases fuel with
    | zero => cases hf
    | succ fuel =>
      have := sSep_ws false trail []
      rw [List.append_nil] at this
      rw [List.flatMap_nil, List.nil_append, this] at hs
      rw [strPathLoop, hs]
      rfl
  | cons g gs ih =>
    cases fuel with
    | zero => cases hf
    | succ fuel =>
      rw [List.flatMap_cons, List.append_assoc, group_show_append, sSep_ws, sSep_letter] at hs
      have hg := h g (List.mem_cons_self ..)
      rw [strPathLoop, hs]
      simp only
      obtain ⟨s', e1, e2⟩ := strCmd_ok c g hg (follow_doc gs trail)
        ((showRow g.rows.flatten ++ (gs.flatMap Group.show ++ showWs trail)).length + 1) (by
          rw [List.length_append]
          by_cases hk : g.kind = .z
          · rw [hg.1.1 hk]; simp
          · have := length_showRow g.rows g.kind hk hg.2.1 hg.2.2.1
            omega) st
      rw [e1]
      simp only
      rw [ih (fun g hg => h g (List.mem_cons_of_mem _ hg)) fuel (by simpa using hf) _ _ e2, List.flatMap_cons,
        List.foldl_append]

theorem strPath_ok (c : Cfg K) (d : Doc) (h : d.Ok) : strPath c d.show = (d.cmds.foldl (exec c) St.new, true) := by
  unfold strPath
  refine strPathLoop_ok c d.groups d.trail h _ ?_ _ _ rfl
  have : d.groups.length ≤ (d.groups.flatMap Group.show).length := by
    generalize d.groups = gs
    induction gs with
    | nil => simp
    | cons g gs ih =>
      rw [List.flatMap_cons, List.length_append, List.length_cons]
      have : 1 ≤ g.show.length := by unfold Group.show; simp only [List.length_append, List.length_cons]; omega
      omega
  unfold Doc.show
  rw [List.length_append]
  omega

end

end Hob3l.Svg
