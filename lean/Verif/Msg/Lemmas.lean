import Verif.Msg.Model
import Verif.Msg.Spec
import Verif.Loc.Props
import Mathlib.Tactic.SplitIfs

/-!
Lemmas on the text of messages.
-/

namespace Hob3l.Msg

open Hob3l.Matq (ass)
open Hob3l.Loc

theorem isPrintable_iff (c : Nat) : isPrintable c = true ↔ Plain c := by
  simp only [isPrintable, Plain, Bool.or_eq_true, beq_iff_eq, Bool.and_eq_true, decide_eq_true_eq]
  omega

theorem tabStop_eq {x : Nat} (h : x + 4 < 2 ^ 32) : tabStop x - x = 4 - x % 4 := by
  unfold tabStop
  rw [Nat.mod_eq_of_lt h]
  omega

theorem shown_append (x : Nat) (a b : List Nat) : shown x (a ++ b) = shown x a ++ shown (x + (shown x a).length) b := by
  induction a generalizing x with
  | nil => simp [shown]
  | cons c a ih =>
    simp only [List.cons_append, shown]
    split_ifs
    · rw [ih, List.append_assoc, List.length_append, List.length_replicate, Nat.add_assoc]
    · rw [ih, List.cons_append, List.length_cons, Nat.add_assoc, Nat.add_comm 1]

theorem shown_length_le (x : Nat) (a : List Nat) : (shown x a).length ≤ 4 * a.length := by
  induction a generalizing x with
  | nil => simp [shown]
  | cons c a ih =>
    simp only [shown]
    split_ifs
    · have := ih (x + (4 - x % 4)); simp only [List.length_append, List.length_replicate, List.length_cons]; omega
    · have := ih (x + 1); simp only [List.length_cons]; omega

theorem shown_eq_nil (x : Nat) (a : List Nat) : shown x a = [] ↔ a = [] := by
  cases a with
  | nil => simp [shown]
  | cons c a =>
    simp only [shown]
    split_ifs
    · have : 4 - x % 4 ≠ 0 := by omega
      simp [this]
    · simp

/-- the loop over a text without binary data -/
theorem loop_plain (loc old : Nat) (b : List Nat) : ∀ (a : List Nat) (i x : Nat) (pos : Option Nat) (cr : Bool) (out : List Nat),
    (∀ c ∈ a, Plain c) → x + 4 * a.length + 4 < 2 ^ 32 → 
    loop loc old (a ++ b) i x pos cr out =
      loop loc old b (i + a.length) (x + (shown x a).length)
        (if i ≤ loc ∧ loc < i + a.length then some (x + (shown x (a.take (loc - i))).length) else pos)
        (cr && !decide (10 ∈ a)) (out ++ shown x a) := by
  intro a
  induction a with
  | nil =>
    intro i x pos cr out _ _
    have h : ¬ (i ≤ loc ∧ loc < i + ([] : List Nat).length) := by rw [List.length_nil]; omega
    rw [if_neg h]
    simp [shown]
  | cons c a ih =>
    intro i x pos cr out hp hx
    have hp' : ∀ c ∈ a, Plain c := fun d hd => hp d (by simp [hd])
    rw [List.length_cons] at hx
    have hpos : ∀ y, x + y = x + y → ∀ w, (∀ m, shown x (c :: m) = w ++ shown (x + w.length) m) →
        (if i + 1 ≤ loc ∧ loc < i + 1 + a.length then some (x + w.length + (shown (x + w.length) (a.take (loc - (i + 1)))).length)
          else if i = loc then some x else pos) =
        (if i ≤ loc ∧ loc < i + (a.length + 1) then some (x + (shown x ((c :: a).take (loc - i))).length) else pos) := by
      intro _ _ w hw
      by_cases h1 : i + 1 ≤ loc ∧ loc < i + 1 + a.length
      · obtain ⟨d, rfl⟩ : ∃ d, loc = i + 1 + d := ⟨loc - (i + 1), by omega⟩
        rw [if_pos h1, if_pos (by omega), show i + 1 + d - i = d + 1 by omega, show i + 1 + d - (i + 1) = d by omega, List.take_succ_cons, hw,
          List.length_append, Nat.add_assoc]
      · rw [if_neg h1]
        by_cases h2 : i = loc
        · subst h2
          rw [if_pos rfl, if_pos (by omega)]
          simp [shown]
        · rw [if_neg h2, if_neg (by omega)]
    rw [List.cons_append, loop]
    by_cases h9 : c = 9
    · subst h9
      have ht := tabStop_eq (x := x) (by omega)
      rw [if_pos rfl, ht, ih _ _ _ _ _ hp' (by omega)]
      have hw : ∀ m, shown x (9 :: m) = List.replicate (4 - x % 4) 32 ++ shown (x + (List.replicate (4 - x % 4) 32).length) m := by
        intro m; simp [shown]
      have := hpos 0 rfl _ hw
      rw [List.length_replicate] at this
      rw [this, hw, List.length_append, List.length_replicate, List.append_assoc]
      simp only [List.length_cons, Nat.add_assoc, Nat.add_comm 1]
      simp
    · have hc : isPrintable c = true := (isPrintable_iff c).2 (hp c (by simp))
      rw [if_neg h9, hc, Bool.not_true, if_neg (by simp), ih _ _ _ _ _ hp' (by omega)]
      have hw : ∀ m, shown x (c :: m) = [c] ++ shown (x + [c].length) m := by
        intro m; simp [shown, h9]
      have := hpos 0 rfl _ hw
      rw [List.length_singleton] at this
      rw [this, hw, List.length_append, List.length_singleton, List.append_assoc]
      simp only [List.length_cons, Nat.add_assoc, Nat.add_comm 1]
      by_cases h10 : c = 10
      · simp [h10]
      · simp [h10, Ne.symm h10]

/-- a line without binary data -/
theorem formatLine_plain (k : Nat) (a : List Nat) (hp : ∀ c ∈ a, Plain c) (hx : 4 * a.length + 4 < 2 ^ 32) (hk : k < a.length) :
    formatLine [] k a = (str " " ++ (shown 0 a ++ if 10 ∈ a then [] else [10]), some (shown 0 (a.take k)).length, true) := by
  have h := loop_plain k 1 [] a 0 0 none true [32] hp (by omega)
  have hk' : 0 ≤ k ∧ k < 0 + a.length := ⟨Nat.zero_le _, by omega⟩
  rw [List.append_nil, loop, if_pos hk'] at h
  have hne : shown 0 a ≠ [] := by
    rw [ne_eq, shown_eq_nil]; rintro rfl; simp at hk
  have hl : ¬ 1 = ([32] ++ shown 0 a).length := by
    have := List.length_pos_of_ne_nil hne
    simp only [List.length_append, List.length_singleton]; omega
  simp only [formatLine, List.nil_append, List.length_singleton, h]
  rw [if_neg hl]
  by_cases h10 : 10 ∈ a <;> simp [h10, str]

/-- a line with binary data before the position -/
theorem formatLine_binary (k : Nat) (a : List Nat) (c : Nat) (b : List Nat) (hp : ∀ c ∈ a, Plain c) (h10 : 10 ∉ a) (hc : ¬ Plain c)
    (hx : 4 * a.length + 4 < 2 ^ 32) (hk : a.length < k) :
    formatLine [] k (a ++ c :: b) =
      (if a = [] then str " " else str " " ++ (shown 0 a ++ str "[...binary...]\n"), none, decide (a ≠ [])) := by
  have h := loop_plain k 1 (c :: b) a 0 0 none true [32] hp (by omega)
  have h9 : c ≠ 9 := by rintro rfl; exact hc (Or.inl rfl)
  have hc' : isPrintable c = false := by
    rw [Bool.eq_false_iff, ne_eq, isPrintable_iff]; exact hc
  have hk' : ¬ (0 ≤ k ∧ k < 0 + a.length) := by omega
  have hk2 : ¬ (0 + a.length = k) := by omega
  rw [loop, if_neg h9, hc', if_pos (by simp), if_neg hk', if_neg hk2] at h
  simp only [formatLine, List.nil_append, List.length_singleton, h]
  by_cases ha : a = []
  · subst ha; simp [shown, str]
  · have hne : shown 0 a ≠ [] := by rw [ne_eq, shown_eq_nil]; exact ha
    have hlen := List.length_pos_of_ne_nil hne
    have h1 : 1 ≠ ([32] ++ shown 0 a).length := by simp only [List.length_append, List.length_singleton]; omega
    have h2 : ¬ 1 = ([32] ++ shown 0 a ++ str "[...binary...]").length := by
      rw [List.length_append, List.length_append, List.length_singleton]; omega
    simp only [if_pos h1, if_neg h2]
    simp [h10, ha, str]

theorem loop_beyond (loc old : Nat) : ∀ (src : List Nat) (i x : Nat) (pos : Option Nat) (cr : Bool) (out : List Nat), i + src.length ≤ loc →
    (loop loc old src i x pos cr out).2.1 = pos := by
  intro src
  induction src with
  | nil => intro i x pos cr out _; rfl
  | cons c cs ih =>
    intro i x pos cr out h
    rw [List.length_cons] at h
    have hi : i ≠ loc := by omega
    rw [loop]
    simp only [if_neg hi]
    split_ifs
    · exact ih _ _ _ _ _ (by omega)
    · rfl
    · rfl
    · exact ih _ _ _ _ _ (by omega)
    · exact ih _ _ _ _ _ (by omega)

theorem formatLine_beyond (out : List Nat) (k : Nat) (src : List Nat) (h : src.length ≤ k) : (formatLine out k src).2.1 = none := by
  unfold formatLine
  dsimp only
  split_ifs <;> exact loop_beyond _ _ _ _ _ _ _ _ (by omega)

theorem inFile_line {n : Nat} {f : File} {token : Nat} {r : Found} (h : inFile n f token = some r) :
    f.line[r.line]? = some r.copy := by
  simp only [inFile, Option.bind_eq_bind, Option.bind_eq_some_iff, Option.some.injEq] at h
  obtain ⟨_, _, _, _, _, _, _, h1, _, _, _, _, _, _, rfl⟩ := h
  exact h1

theorem inFile_end {n : Nat} {f : File} {token : Nat} {r : Found} (h : inFile n f token = some r) :
    r.line < f.line.length ∧ lineEnd f.line r.line r.copy = some r.copyEnd := by
  simp only [inFile, ass, Option.bind_eq_bind, Option.bind_eq_some_iff, Option.some.injEq] at h
  obtain ⟨_, _, _, _, _, h1, _, _, _, h2, _, _, _, _, rfl⟩ := h
  refine ⟨?_, h2⟩
  by_contra hn
  simp [hn] at h1

/-- a position at the end of the line that was found is the start of the next one -/
theorem atStart_of_end {n base : Nat} {text : List Nat} {pos : Nat} {r : Found} (h : inFile n (load base text) (base + pos) = some r)
    (he : r.copyEnd = base + pos) (hp : pos < text.length) : AtLineStart text pos := by
  obtain ⟨h1, h2⟩ := inFile_end h
  have hl := inFile_line h
  unfold lineEnd at h2
  by_cases hn : r.line + 1 < (load base text).line.length
  · rw [if_pos hn, he] at h2
    obtain ⟨p, p1, p2, p3⟩ := table_spec (base := base) (text := text) h2
    have : p = pos := by omega
    subst this
    rcases p3 with ⟨-, p4⟩ | ⟨⟨-, p3, -⟩, -⟩
    · exact p4 (by omega)
    · omega
  · rw [if_neg hn] at h2
    injection h2 with h2
    have := table_last (base := base) (text := text) hl (by have : r.line < (lineTable base text).length := h1; have : ¬ r.line + 1 < (lineTable base text).length := hn; omega)
    omega

/-- where the line begins -/
theorem inFile_start {n base : Nat} {text : List Nat} {pos k : Nat} {r : Found} (hp : pos < text.length) (hs : ¬ AtLineStart text pos)
    (hk : InLine text pos k) (h : inFile n (load base text) (base + pos) = some r) : r.orig + k = pos := by
  obtain ⟨r', e, -, c1, -, c2, -, -, -, c3⟩ := C47_partial base text pos n hp.le
  rw [h] at e
  injection e with e
  subst e
  have hl := inFile_line h
  have hln : r.line = lineOf text pos := by
    rcases c3 with c | ⟨c, -⟩ | ⟨⟨-, c, -⟩, -⟩
    · exact c
    · exact absurd c hs
    · omega
  obtain ⟨p, p1, p2, p3⟩ := table_spec (base := base) (text := text) hl
  have hpo : p = r.orig := by omega
  subst hpo
  rcases p3 with ⟨p3, p4⟩ | ⟨⟨-, p3, -⟩, -⟩
  swap
  · omega
  rcases Nat.lt_trichotomy (r.orig + k) pos with hlt | heq | hgt
  · -- the line begins later: there would be a line feed in between
    exfalso
    rcases hk.start with rfl | hst
    · omega
    have e1 := lineOf_lf text (pos - k - 1) hst
    have e2 := lineOf_mono text (p := r.orig) (q := pos - k - 1) (by omega)
    have e3 := lineOf_mono text (p := pos - k - 1 + 1) (q := pos) (by omega)
    omega
  · exact heq
  · exfalso
    by_cases h0 : 0 < r.line
    · have hst := (p4 h0).2
      have h1 := (p4 h0).1
      refine hk.same (r.orig - 1 - (pos - k)) (by have := hk.le; omega) ?_
      rw [show pos - k + (r.orig - 1 - (pos - k)) = r.orig - 1 by omega]
      exact hst
    · have h0 : r.line = 0 := by omega
      have hz := table_zero base text
      rw [show (load base text).line = lineTable base text from rfl, h0, hz] at hl
      injection hl with hl
      have := hk.le
      omega

end Hob3l.Msg
