import Verif.Loc.Model
import Verif.Loc.Spec
import Mathlib.Tactic.SplitIfs

namespace Hob3l.Loc

open Hob3l.Matq

theorem lineOf_zero (text : List Nat) : lineOf text 0 = 0 := by simp [lineOf]

theorem lineOf_cons (c : Nat) (cs : List Nat) (p : Nat) :
    lineOf (c :: cs) (p + 1) = (if c = 10 then 1 else 0) + lineOf cs p := by
  by_cases h : c = 10 <;> simp [lineOf, h]
  omega

theorem lineOf_succ_le (text : List Nat) (p : Nat) : lineOf text p ≤ lineOf text (p + 1) := by
  induction text generalizing p with
  | nil => simp [lineOf]
  | cons c cs ih =>
    cases p with
    | zero => rw [lineOf_zero]; omega
    | succ p => rw [lineOf_cons, lineOf_cons]; have := ih p; omega

theorem lineOf_mono (text : List Nat) {p q : Nat} (h : p ≤ q) : lineOf text p ≤ lineOf text q := by
  induction h with
  | refl => exact Nat.le_refl _
  | step _ ih => exact Nat.le_trans ih (lineOf_succ_le _ _)

theorem lineOf_lf (text : List Nat) (p : Nat) (h : text[p]? = some 10) : lineOf text (p + 1) = lineOf text p + 1 := by
  induction text generalizing p with
  | nil => simp at h
  | cons c cs ih =>
    cases p with
    | zero => simp at h; rw [lineOf_cons, h, lineOf_zero, lineOf_zero]; rfl
    | succ p => rw [lineOf_cons, lineOf_cons]; simp at h; have := ih p h; omega

/-- the table without the end -/
def starts (base : Nat) (text : List Nat) : List Nat := base :: lineLoop text base

theorem starts_cons (base c : Nat) (cs : List Nat) :
    starts base (c :: cs) = if c = 10 then base :: starts (base + 1) cs else base :: (starts (base + 1) cs).tail := by
  unfold starts
  rw [lineLoop]
  split_ifs <;> rfl

theorem starts_length (base : Nat) (text : List Nat) : (starts base text).length = lineOf text text.length + 1 := by
  induction text generalizing base with
  | nil => simp [starts, lineLoop, lineOf]
  | cons c cs ih =>
    rw [starts_cons, List.length_cons, lineOf_cons]
    split_ifs
    · rw [List.length_cons, ih]; omega
    · rw [List.length_cons, List.length_tail, ih]; omega

theorem starts_spec (text : List Nat) : ∀ (base i e : Nat), (starts base text)[i]? = some e →
    ∃ p, e = base + p ∧ p ≤ text.length ∧ lineOf text p = i ∧ (0 < i → 0 < p ∧ text[p - 1]? = some 10) := by
  induction text with
  | nil =>
    intro base i e h
    cases i with
    | zero => simp [starts] at h; exact ⟨0, by omega, Nat.le_refl _, lineOf_zero _, by omega⟩
    | succ i => simp [starts, lineLoop] at h
  | cons c cs ih =>
    intro base i e h
    cases i with
    | zero => simp [starts] at h; exact ⟨0, by omega, Nat.zero_le _, lineOf_zero _, by omega⟩
    | succ j =>
      rw [starts_cons] at h
      by_cases hc : c = 10
      · rw [if_pos hc, List.getElem?_cons_succ] at h
        obtain ⟨p, h1, h2, h3, h4⟩ := ih _ _ _ h
        refine ⟨p + 1, by omega, by simpa using h2, by rw [lineOf_cons, if_pos hc, h3]; omega, fun _ => ⟨by omega, ?_⟩⟩
        rcases Nat.eq_zero_or_pos j with hj | hj
        · subst hj
          have : p = 0 := by
            simp [starts] at h
            omega
          subst this
          simp [hc]
        · obtain ⟨h5, h6⟩ := h4 hj
          obtain ⟨q, rfl⟩ := Nat.exists_eq_add_of_lt h5
          simpa using h6
      · rw [if_neg hc, List.getElem?_cons_succ, List.getElem?_tail] at h
        obtain ⟨p, h1, h2, h3, h4⟩ := ih _ _ _ h
        obtain ⟨h5, h6⟩ := h4 (by omega)
        refine ⟨p + 1, by omega, by simpa using h2, by rw [lineOf_cons, if_neg hc, h3]; omega, fun _ => ⟨by omega, ?_⟩⟩
        obtain ⟨q, rfl⟩ := Nat.exists_eq_add_of_lt h5
        simpa using h6

theorem table_eq (base : Nat) (text : List Nat) :
    lineTable base text = if (starts base text).getLast? = some (base + text.length) then starts base text
      else starts base text ++ [base + text.length] := rfl

/-- what the table contains -/
theorem table_spec {base : Nat} {text : List Nat} {i e : Nat} (h : (lineTable base text)[i]? = some e) :
    ∃ p, e = base + p ∧ p ≤ text.length ∧
      ((lineOf text p = i ∧ (0 < i → AtLineStart text p)) ∨
       (AtOpenEnd text p ∧ i = lineOf text p + 1 ∧ i + 1 = (lineTable base text).length)) := by
  rw [table_eq] at h ⊢
  split_ifs at h ⊢ with hl
  · obtain ⟨p, h1, h2, h3, h4⟩ := starts_spec _ _ _ _ h
    exact ⟨p, h1, h2, Or.inl ⟨h3, h4⟩⟩
  · rcases Nat.lt_or_ge i (starts base text).length with hi | hi
    · rw [List.getElem?_append_left hi] at h
      obtain ⟨p, h1, h2, h3, h4⟩ := starts_spec _ _ _ _ h
      exact ⟨p, h1, h2, Or.inl ⟨h3, h4⟩⟩
    · rw [List.getElem?_append_right hi] at h
      have hi2 : i = (starts base text).length := by
        rcases Nat.eq_or_lt_of_le hi with h' | h'
        · exact h'.symm
        · rw [List.getElem?_eq_none (by simp; omega)] at h; cases h
      rw [hi2, Nat.sub_self] at h
      simp only [List.getElem?_cons_zero, Option.some.injEq] at h
      refine ⟨text.length, h.symm, Nat.le_refl _, Or.inr ⟨⟨?_, rfl, ?_⟩, ?_, ?_⟩⟩
      · rcases Nat.eq_zero_or_pos text.length with h0 | h0
        · have : text = [] := List.length_eq_zero_iff.1 h0
          subst this
          simp [starts, lineLoop] at hl
        · exact h0
      · intro h10
        apply hl
        have hlen := starts_length base text
        have hne : (starts base text).length - 1 < (starts base text).length := by omega
        obtain ⟨e', he'⟩ : ∃ e', (starts base text)[(starts base text).length - 1]? = some e' :=
          ⟨_, List.getElem?_eq_getElem hne⟩
        rw [List.getLast?_eq_getElem?, he']
        obtain ⟨p, h1, h2, h3, h4⟩ := starts_spec _ _ _ _ he'
        have : p = text.length := by
          by_contra hp
          have h0 : 0 < text.length := by omega
          have a1 := lineOf_lf text (text.length - 1) h10
          rw [Nat.sub_add_cancel h0] at a1
          have a2 := lineOf_mono text (p := p) (q := text.length - 1) (by omega)
          omega
        rw [h1, this]
      · rw [hi2, starts_length]
      · rw [hi2, List.length_append]; rfl

theorem table_length (base : Nat) (text : List Nat) :
    lineOf text text.length + 1 ≤ (lineTable base text).length ∧
      (lineTable base text).length ≤ lineOf text text.length + 2 := by
  have := starts_length base text
  rw [table_eq]
  split_ifs
  · omega
  · rw [List.length_append]; simp; omega

theorem table_zero (base : Nat) (text : List Nat) : (lineTable base text)[0]? = some base := by
  unfold lineTable
  simp only
  split_ifs <;> simp

/-- the last entry is the end -/
theorem table_last {base : Nat} {text : List Nat} {i e : Nat} (h : (lineTable base text)[i]? = some e)
    (hi : i + 1 = (lineTable base text).length) : e = base + text.length := by
  have : (lineTable base text).getLast? = some (base + text.length) := by
    rw [table_eq]
    split_ifs with hl
    · exact hl
    · rw [List.getLast?_append]; rfl
  rw [List.getLast?_eq_getElem?, ← hi, Nat.add_sub_cancel, h] at this
  injection this

theorem table_mono {base : Nat} {text : List Nat} {i j e f : Nat} (hij : i < j) (hi : (lineTable base text)[i]? = some e)
    (hj : (lineTable base text)[j]? = some f) : e < f := by
  obtain ⟨p, p1, p2, p3⟩ := table_spec hi
  obtain ⟨q, q1, q2, q3⟩ := table_spec hj
  have hjl : j < (lineTable base text).length := by
    by_contra hn
    rw [List.getElem?_eq_none (by omega)] at hj
    cases hj
  rcases p3 with ⟨p3, -⟩ | ⟨-, -, p5⟩
  · have key : ¬ q ≤ p ∨ False := by
      left
      intro hqp
      have := lineOf_mono text hqp
      rcases q3 with ⟨q3, -⟩ | ⟨⟨q4, q5, q6⟩, q7, -⟩
      · omega
      · -- the open end is after the last line start
        have hp : p = text.length := by omega
        have hi0 : i = lineOf text text.length := by rw [← hp, p3]
        by_cases hz : 0 < i
        · obtain ⟨p3', h4⟩ : lineOf text p = i ∧ (0 < i → AtLineStart text p) := by
            obtain ⟨p', p1', p2', p3'⟩ := table_spec hi
            have : p' = p := by omega
            subst this
            rcases p3' with p3' | ⟨-, h, h'⟩
            · exact p3'
            · omega
          have := (h4 hz).2
          rw [hp, ← q5] at this
          exact q6 this
        · have hi00 : i = 0 := by omega
          subst hi00
          rw [table_zero] at hi
          injection hi with hi
          omega
    rcases key with key | key
    · omega
    · exact key.elim
  · omega

theorem cmpLine_spec {base : Nat} {text : List Nat} {pos idx : Nat} (hp : pos ≤ text.length)
    (hi : idx < (lineTable base text).length) :
    ∃ c e, cmpLine (base + pos) (lineTable base text) idx = some c ∧ (lineTable base text)[idx]? = some e ∧
      (c < 0 → base + pos < e) ∧
      (c > 0 → ∃ e1, (lineTable base text)[idx + 1]? = some e1 ∧ e1 < base + pos) ∧
      (c = 0 → e ≤ base + pos ∧ (idx + 1 = (lineTable base text).length → base + pos = e) ∧
        ∀ e1, (lineTable base text)[idx + 1]? = some e1 → base + pos ≤ e1) := by
  obtain ⟨e, he⟩ : ∃ e, (lineTable base text)[idx]? = some e := ⟨_, List.getElem?_eq_getElem hi⟩
  by_cases h1 : base + pos < e
  · refine ⟨-1, e, ?_, he, fun _ => h1, by omega, by omega⟩
    unfold cmpLine
    simp only [he, Option.bind_eq_bind, Option.bind_some]
    rw [if_pos h1]
  · by_cases h2 : base + pos = e
    · refine ⟨0, e, ?_, he, by omega, by omega, fun _ => ⟨by omega, fun _ => h2, ?_⟩⟩
      · unfold cmpLine
        simp only [he, Option.bind_eq_bind, Option.bind_some]
        rw [if_neg h1, if_pos h2]
      · intro e1 he1
        have := table_mono (Nat.lt_succ_self idx) he he1
        omega
    · have h3 : idx + 1 < (lineTable base text).length := by
        by_contra hn
        have := table_last he (by omega)
        omega
      obtain ⟨e1, he1⟩ : ∃ e, (lineTable base text)[idx + 1]? = some e := ⟨_, List.getElem?_eq_getElem h3⟩
      have hs : cmpLine (base + pos) (lineTable base text) idx = if base + pos > e1 then some 1 else some 0 := by
        unfold cmpLine ass
        simp only [he, Option.bind_eq_bind, Option.bind_some]
        rw [if_neg h1, if_neg h2, if_pos h3]
        simp only [he1, Option.bind_some]
      by_cases h4 : base + pos > e1
      · rw [if_pos h4] at hs
        exact ⟨1, e, hs, he, by omega, fun _ => ⟨e1, he1, h4⟩, by omega⟩
      · rw [if_neg h4] at hs
        refine ⟨0, e, hs, he, by omega, by omega, fun _ => ⟨by omega, by omega, ?_⟩⟩
        intro e' he'
        rw [he1] at he'
        injection he' with he'
        omega

theorem findLoop_spec {base : Nat} {text : List Nat} {pos : Nat} (hp : pos ≤ text.length) :
    ∀ (k a b : Nat), b ≤ a + k → b ≤ (lineTable base text).length →
      (∃ e, (lineTable base text)[a]? = some e ∧ e ≤ base + pos) →
      (∀ e, (lineTable base text)[b]? = some e → base + pos < e) →
      ∃ idx e, findLoop (cmpLine (base + pos) (lineTable base text)) k a b = some (some idx) ∧
        (lineTable base text)[idx]? = some e ∧ e ≤ base + pos ∧
        (idx + 1 = (lineTable base text).length → base + pos = e) ∧
        ∀ e1, (lineTable base text)[idx + 1]? = some e1 → base + pos ≤ e1 := by
  intro k
  induction k with
  | zero =>
    intro a b hk hb ⟨e, he, hle⟩ hup
    exfalso
    obtain hlt | heq := Nat.lt_or_eq_of_le (show b ≤ a by omega)
    · have ha : a < (lineTable base text).length := by
        by_contra hn
        rw [List.getElem?_eq_none (by omega)] at he
        cases he
      have hb' : (lineTable base text)[b]? = some (lineTable base text)[b] := List.getElem?_eq_getElem (by omega)
      have := table_mono hlt hb' he
      have := hup _ hb'
      omega
    · have := hup e (heq ▸ he)
      omega
  | succ k ih =>
    intro a b hk hb ⟨e, he, hle⟩ hup
    have ha : a < (lineTable base text).length := by
      by_contra hn
      rw [List.getElem?_eq_none (by omega)] at he
      cases he
    have hab : a < b := by
      by_contra hn
      obtain hlt | heq := Nat.lt_or_eq_of_le (show b ≤ a by omega)
      · have hb' : (lineTable base text)[b]? = some (lineTable base text)[b] := List.getElem?_eq_getElem (by omega)
        have := table_mono hlt hb' he
        have := hup _ hb'
        omega
      · have := hup e (heq ▸ he)
        omega
    have hidx : a + (b - a) / 2 < b ∧ a ≤ a + (b - a) / 2 := by omega
    obtain ⟨c, e', hc, he', hneg, hpos, hzero⟩ :=
      cmpLine_spec (base := base) hp (idx := a + (b - a) / 2) (by omega)
    have hloop : findLoop (cmpLine (base + pos) (lineTable base text)) (k + 1) a b =
        if c < 0 then findLoop (cmpLine (base + pos) (lineTable base text)) k a (a + (b - a) / 2)
        else if c > 0 then findLoop (cmpLine (base + pos) (lineTable base text)) k (a + (b - a) / 2 + 1) b
        else some (some (a + (b - a) / 2)) := by
      rw [findLoop, if_pos hab]
      simp only [hc, Option.bind_eq_bind, Option.bind_some]
    rw [hloop]
    by_cases h1 : c < 0
    · rw [if_pos h1]
      refine ih a _ (by omega) (by omega) ⟨e, he, hle⟩ ?_
      intro e'' he''
      rw [he'] at he''
      injection he'' with he''
      have := hneg h1
      omega
    · rw [if_neg h1]
      by_cases h2 : c > 0
      · rw [if_pos h2]
        obtain ⟨e1, he1, hlt⟩ := hpos h2
        exact ih _ b (by omega) hb ⟨e1, he1, by omega⟩ hup
      · rw [if_neg h2]
        obtain ⟨z1, z2, z3⟩ := hzero (by omega)
        exact ⟨_, e', rfl, he', z1, z2, z3⟩

theorem findLine_spec {base : Nat} {text : List Nat} {pos : Nat} (hp : pos ≤ text.length) :
    ∃ idx e, findLine (base + pos) (lineTable base text) = some (some idx) ∧
        (lineTable base text)[idx]? = some e ∧ e ≤ base + pos ∧
        (idx + 1 = (lineTable base text).length → base + pos = e) ∧
        ∀ e1, (lineTable base text)[idx + 1]? = some e1 → base + pos ≤ e1 := by
  refine findLoop_spec hp _ 0 _ (by omega) (Nat.le_refl _) ⟨base, table_zero _ _, by omega⟩ ?_
  intro e he
  rw [List.getElem?_eq_none (Nat.le_refl _)] at he
  cases he

/-! ### the text of a line -/

/-- the text between two line starts -/
theorem starts_text (text : List Nat) : ∀ (base i e : Nat), (starts base text)[i]? = some e →
    ((text.drop (e - base)).take (((starts base text)[i + 1]?.getD (base + text.length)) - e)) = lineText text i := by
  induction text with
  | nil => intro base i e _; simp [lineText]
  | cons c cs ih =>
    intro base i e h
    obtain ⟨p, hp1, -, -, -⟩ := starts_spec _ _ _ _ h
    rw [starts_cons] at h ⊢
    cases i with
    | zero =>
      have he : e = base := by
        split_ifs at h <;> simp at h <;> omega
      subst he
      rw [Nat.sub_self, List.drop_zero, lineText]
      by_cases hc : c = 10
      · rw [if_pos hc, if_pos hc]
        simp [starts, hc]
      · rw [if_neg hc, if_neg hc]
        have h0 := ih (e + 1) 0 (e + 1) (by simp [starts])
        simp only [Nat.sub_self, List.drop_zero] at h0
        rw [← h0]
        simp only [Nat.zero_add, List.getElem?_cons_succ, List.getElem?_tail]
        have hge : e + 1 ≤ ((starts (e + 1) cs)[1]?).getD (e + 1 + cs.length) := by
          cases hq : (starts (e + 1) cs)[1]? with
          | none => simp
          | some q =>
            obtain ⟨p, h1, -⟩ := starts_spec _ _ _ _ hq
            simp; omega
        have e1 : e + (c :: cs).length = e + 1 + cs.length := by simp; omega
        rw [e1]
        have e2 : ((starts (e + 1) cs)[1]?).getD (e + 1 + cs.length) - e =
            (((starts (e + 1) cs)[1]?).getD (e + 1 + cs.length) - (e + 1)) + 1 := by omega
        rw [e2, List.take_succ_cons]
    | succ j =>
      rw [lineText]
      by_cases hc : c = 10
      · rw [if_pos hc] at h ⊢
        rw [if_pos hc, List.getElem?_cons_succ] at *
        have h0 := ih _ _ _ h
        obtain ⟨q, hq1, -⟩ := starts_spec _ _ _ _ h
        rw [← h0]
        have e1 : e - base = (e - (base + 1)) + 1 := by omega
        have e2 : base + (c :: cs).length = base + 1 + cs.length := by simp; omega
        rw [e1, e2, List.drop_succ_cons]
      · rw [if_neg hc] at h ⊢
        rw [if_neg hc, List.getElem?_cons_succ] at *
        rw [List.getElem?_tail] at *
        have h0 := ih _ _ _ h
        obtain ⟨q, hq1, -⟩ := starts_spec _ _ _ _ h
        rw [← h0]
        have e1 : e - base = (e - (base + 1)) + 1 := by omega
        have e2 : base + (c :: cs).length = base + 1 + cs.length := by simp; omega
        rw [e1, e2, List.drop_succ_cons]

theorem lineText_none (text : List Nat) : ∀ i, lineOf text text.length < i → lineText text i = [] := by
  induction text with
  | nil => intro i _; simp [lineText]
  | cons c cs ih =>
    intro i h
    rw [List.length_cons, lineOf_cons] at h
    cases i with
    | zero => omega
    | succ j =>
      rw [lineText]
      split_ifs with hc
      · rw [if_pos hc] at h; exact ih j (by omega)
      · rw [if_neg hc] at h; exact ih (j + 1) (by omega)

theorem table_text {base : Nat} {text : List Nat} {i e : Nat} (h : (lineTable base text)[i]? = some e) :
    ((text.drop (e - base)).take (((lineTable base text)[i + 1]?.getD e) - e)) = lineText text i := by
  have hs : lineTable base text = if (starts base text).getLast? = some (base + text.length) then starts base text
      else starts base text ++ [base + text.length] := rfl
  have hil : i < (lineTable base text).length := by
    by_contra hn
    rw [List.getElem?_eq_none (by omega)] at h
    cases h
  rcases Nat.lt_or_ge i (starts base text).length with hi | hi
  · have hse : (starts base text)[i]? = some e := by
      rw [hs] at h
      split_ifs at h
      · exact h
      · rwa [List.getElem?_append_left hi] at h
    rw [← starts_text text base i e hse]
    rcases Nat.lt_or_ge (i + 1) (starts base text).length with hi1 | hi1
    · have : (lineTable base text)[i + 1]? = (starts base text)[i + 1]? := by
        rw [hs]
        split_ifs
        · rfl
        · rw [List.getElem?_append_left hi1]
      rw [this, List.getElem?_eq_getElem hi1]
      rfl
    · rw [List.getElem?_eq_none hi1, Option.getD_none]
      by_cases hl : (starts base text).getLast? = some (base + text.length)
      · rw [if_pos hl] at hs
        have he : e = base + text.length := by
          refine table_last h ?_
          rw [hs]; omega
        rw [he]
        simp
      · rw [if_neg hl] at hs
        have : (lineTable base text)[i + 1]? = some (base + text.length) := by
          rw [hs, List.getElem?_append_right hi1]
          have : i + 1 - (starts base text).length = 0 := by omega
          rw [this]; rfl
        rw [this]; rfl
  · have hlen := starts_length base text
    rw [lineText_none text i (by omega)]
    have hlast : i + 1 = (lineTable base text).length := by
      have := table_length base text
      omega
    rw [List.getElem?_eq_none (by omega)]
    simp

end Hob3l.Loc
