import Verif.Dict.LemmasJoin

namespace Hob3l.Dict

open Tree

variable {α : Type}

/-- the search continues to the right of `a` -/
def GoRight (cmp : α → Int) (dup : Int) (a : α) : Prop := (if cmp a = 0 then dup else cmp a) > 0

/-- the reference is next to the gap between `X` and `Y` -/
def RefAt (p : Option α) (i : Bool) (X Y : List α) : Prop :=
  (∃ a X', p = some a ∧ i = true ∧ X = X' ++ [a]) ∨ (∃ a Y', p = some a ∧ i = false ∧ Y = a :: Y')

/-- the candidate `o` if it is equal to the key -/
def eqOr (cmp : α → Int) (o e : Option α) : Option α :=
  match o with
  | none => e
  | some a => if cmp a = 0 then some a else e

/-- outcome of the search loop: stopped at an equal entry, or found the gap -/
def FindOk (cmp : α → Int) (dup : Int) (t : Tree α) (p : Option α) (i : Bool) (pa : Nat) (e : Option α)
    (r : Found α) : Prop :=
  (dup = 0 ∧ ∃ a, r.n = some a ∧ cmp a = 0 ∧ a ∈ toList t) ∨
  (r.n = none ∧ (dup = 0 → ∀ a ∈ toList t, cmp a ≠ 0) ∧ ∃ X Y, toList t = X ++ Y ∧
    (∀ a ∈ X, GoRight cmp dup a) ∧ (∀ a ∈ Y, ¬ GoRight cmp dup a) ∧
    (t = leaf → r.p = p ∧ r.i = i) ∧ (t ≠ leaf → RefAt r.p r.i X Y) ∧
    r.pa.testBit 0 = (pa.testBit 0 || !Y.isEmpty) ∧ r.pa.testBit 1 = (pa.testBit 1 || !X.isEmpty) ∧
    (∀ k, 2 ≤ k → r.pa.testBit k = pa.testBit k) ∧
    (dup > 0 → r.e = eqOr cmp X.getLast? e) ∧ (dup < 0 → r.e = eqOr cmp Y.head? e))

theorem testBit_or2 (pa k : Nat) : (pa ||| 2).testBit k = (pa.testBit k || decide (k = 1)) := by
  have : (2 : Nat) = 2 ^ 1 := rfl
  rw [this, Nat.testBit_or, Nat.testBit_two_pow]
  simp [eq_comm]

theorem testBit_or1 (pa k : Nat) : (pa ||| 1).testBit k = (pa.testBit k || decide (k = 0)) := by
  have : (1 : Nat) = 2 ^ 0 := rfl
  rw [this, Nat.testBit_or, Nat.testBit_two_pow]
  simp [eq_comm]

theorem findLoop_ok (cmp : α → Int) (dup : Int) (t : Tree α) (p : Option α) (i : Bool) (pa : Nat) (e : Option α)
    (hs : Sorted cmp (toList t)) : FindOk cmp dup t p i pa e (findLoop cmp dup t p i pa e) := by
  induction t generalizing p i pa e with
  | leaf =>
    refine Or.inr ⟨rfl, by simp [toList], [], [], rfl, by simp, by simp, fun _ => ⟨rfl, rfl⟩, fun h => absurd rfl h, ?_⟩
    simp [findLoop, eqOr]
  | node l n s r ih1 ih2 =>
    simp only [toList, Sorted, List.pairwise_append, List.pairwise_cons, List.mem_cons] at hs
    obtain ⟨s1, ⟨s2, s3⟩, s4⟩ := hs
    simp only [findLoop]
    by_cases h0 : (if cmp n = 0 then dup else cmp n) = 0
    · rw [if_pos h0]
      have hn : cmp n = 0 := by
        by_contra h; rw [if_neg h] at h0; exact h h0
      rw [if_pos hn] at h0
      exact Or.inl ⟨h0, n, rfl, hn, by simp [toList]⟩
    · rw [if_neg h0]
      by_cases hp : (if cmp n = 0 then dup else cmp n) > 0
      · rw [if_pos hp]
        have hgl : ∀ a ∈ toList l, GoRight cmp dup a := by
          intro a ha
          have := s4 a ha n (Or.inl rfl)
          unfold GoRight
          split_ifs at hp ⊢ <;> omega
        rcases ih2 (some n) true (pa ||| 2) (if cmp n = 0 then some n else e) s3 with
          ⟨hd, a, e1, e2, e3⟩ | ⟨e1, e2, X, Y, e3, e4, e5, e6, e7, e8, e9, e10, e11, e12⟩
        · exact Or.inl ⟨hd, a, e1, e2, by simp [toList, e3]⟩
        · refine Or.inr ⟨e1, ?_, toList l ++ n :: X, Y, by simp [toList, e3], ?_, e5, by simp, ?_, ?_, ?_, ?_, ?_, ?_⟩
          · intro hd a ha
            simp only [toList, List.mem_append, List.mem_cons] at ha
            rcases ha with ha | rfl | ha
            · have := hgl a ha
              unfold GoRight at this
              split_ifs at this <;> omega
            · split_ifs at hp <;> omega
            · exact e2 hd a ha
          · intro a ha
            simp only [List.mem_append, List.mem_cons] at ha
            rcases ha with ha | rfl | ha
            · exact hgl a ha
            · exact hp
            · exact e4 a ha
          · intro _
            by_cases hr : r = leaf
            · obtain ⟨g1, g2⟩ := e6 hr
              subst hr
              simp only [toList, List.nil_eq, List.append_eq_nil_iff] at e3
              obtain ⟨rfl, rfl⟩ := e3
              exact Or.inl ⟨n, toList l, g1, g2, rfl⟩
            · rcases e7 hr with ⟨a, X', g1, g2, g3⟩ | ⟨a, Y', g1, g2, g3⟩
              · exact Or.inl ⟨a, toList l ++ n :: X', g1, g2, by simp [g3]⟩
              · exact Or.inr ⟨a, Y', g1, g2, g3⟩
          · rw [e8, testBit_or2]; simp
          · rw [e9, testBit_or2]; simp
          · intro k hk
            rw [e10 k hk, testBit_or2]
            have : k ≠ 1 := by omega
            simp [this]
          · intro hd
            rw [e11 hd]
            cases hX : X.getLast? with
            | none =>
              rw [List.getLast?_eq_none_iff] at hX
              subst hX
              simp [eqOr]
            | some a =>
              have hl : (toList l ++ n :: X).getLast? = some a := by
                rw [List.getLast?_append, List.getLast?_cons, hX]; rfl
              rw [hl]
              simp only [eqOr]
              by_cases ha : cmp a = 0
              · simp [ha]
              · have haX : a ∈ X := List.mem_of_getLast? hX
                have h1 := e4 a haX
                unfold GoRight at h1
                rw [if_neg ha] at h1
                have h2 := s2 a (by rw [e3]; simp [haX])
                have : cmp n ≠ 0 := by omega
                simp [ha, this]
          · intro hd
            rw [e12 hd]
            have : cmp n ≠ 0 := by
              intro h; rw [if_pos h] at hp; omega
            simp [this]
      · rw [if_neg hp]
        have hgr : ∀ a ∈ toList r, ¬ GoRight cmp dup a := by
          intro a ha
          have := s2 a ha
          unfold GoRight
          split_ifs at h0 hp ⊢ <;> omega
        rcases ih1 (some n) false (pa ||| 1) (if cmp n = 0 then some n else e) s1 with
          ⟨hd, a, e1, e2, e3⟩ | ⟨e1, e2, X, Y, e3, e4, e5, e6, e7, e8, e9, e10, e11, e12⟩
        · exact Or.inl ⟨hd, a, e1, e2, by simp [toList, e3]⟩
        · refine Or.inr ⟨e1, ?_, X, Y ++ n :: toList r, by simp [toList, e3], e4, ?_, by simp, ?_, ?_, ?_, ?_, ?_, ?_⟩
          · intro hd a ha
            simp only [toList, List.mem_append, List.mem_cons] at ha
            rcases ha with ha | rfl | ha
            · exact e2 hd a ha
            · split_ifs at h0 <;> omega
            · have := s2 a ha
              split_ifs at h0 hp <;> omega
          · intro a ha
            simp only [List.mem_append, List.mem_cons] at ha
            rcases ha with ha | rfl | ha
            · exact e5 a ha
            · exact hp
            · exact hgr a ha
          · intro _
            by_cases hr : l = leaf
            · obtain ⟨g1, g2⟩ := e6 hr
              subst hr
              simp only [toList, List.nil_eq, List.append_eq_nil_iff] at e3
              obtain ⟨rfl, rfl⟩ := e3
              exact Or.inr ⟨n, toList r, g1, g2, rfl⟩
            · rcases e7 hr with ⟨a, X', g1, g2, g3⟩ | ⟨a, Y', g1, g2, g3⟩
              · exact Or.inl ⟨a, X', g1, g2, g3⟩
              · exact Or.inr ⟨a, Y' ++ n :: toList r, g1, g2, by simp [g3]⟩
          · rw [e8, testBit_or1]; simp
          · rw [e9, testBit_or1]; simp
          · intro k hk
            rw [e10 k hk, testBit_or1]
            have : k ≠ 0 := by omega
            simp [this]
          · intro hd
            rw [e11 hd]
            have : cmp n ≠ 0 := by
              intro h; rw [if_pos h] at hp; omega
            simp [this]
          · intro hd
            rw [e12 hd]
            cases Y with
            | nil => simp [eqOr]
            | cons a Y =>
              simp only [List.head?_cons, List.cons_append, eqOr]
              by_cases ha : cmp a = 0
              · simp [ha]
              · have h1 := e5 a (by simp)
                unfold GoRight at h1
                rw [if_neg ha] at h1
                have h2 := s4 a (by rw [e3]; simp) n (Or.inl rfl)
                have : cmp n ≠ 0 := by omega
                simp [ha, this]

theorem filter_split {P : α → Bool} {X Y : List α} (h1 : ∀ a ∈ X, P a = true) (h2 : ∀ a ∈ Y, P a = false) :
    X = (X ++ Y).filter P ∧ Y = (X ++ Y).filter (fun a => !P a) := by
  have e1 : X.filter P = X := List.filter_eq_self.mpr h1
  have e2 : Y.filter P = [] := List.filter_eq_nil_iff.mpr (by simpa using h2)
  have e3 : X.filter (fun a => !P a) = [] := List.filter_eq_nil_iff.mpr (by simpa using h1)
  have e4 : Y.filter (fun a => !P a) = Y := List.filter_eq_self.mpr (by simpa using h2)
  constructor
  · rw [List.filter_append, e1, e2]; simp
  · rw [List.filter_append, e3, e4]; simp

theorem pa_six {pa : Nat} (h : ∀ k, 2 ≤ k → pa.testBit k = false) :
    (pa &&& 6 = 0 ↔ pa.testBit 1 = false) ∧ (pa &&& 5 = 0 ↔ pa.testBit 0 = false) := by
  have hlt : pa < 2 ^ 2 := Nat.lt_pow_two_of_testBit pa (fun i hi => by rw [h i hi])
  have : ∀ pa, pa < 4 → ((pa &&& 6 = 0 ↔ pa.testBit 1 = false) ∧ (pa &&& 5 = 0 ↔ pa.testBit 0 = false)) := by
    decide
  exact this pa (by simpa using hlt)

end Hob3l.Dict
