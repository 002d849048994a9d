import Verif.Dict.LemmasFind
import Mathlib.Data.Nat.Log

/-
Search tree properties C28-C33.  A call that does not return `none` has passed every assertion of the code.
-/

namespace Hob3l.Dict

open Tree

variable {α : Type} [DecidableEq α]

/-- a tree of seven nodes for the examples -/
def exTree : Tree Nat :=
  node (node (node leaf 1 1 leaf) 2 2 leaf) 3 4 (node (node leaf 4 2 leaf) 5 3 (node leaf 6 2 (node leaf 7 1 leaf)))

theorem exTree_rb : RB exTree false 2 :=
  RB.black (RB.black (RB.red RB.leaf RB.leaf) RB.leaf)
    (RB.red (RB.black RB.leaf RB.leaf) (RB.black RB.leaf (RB.red RB.leaf RB.leaf)))

theorem exTree_valid : Valid exTree := ⟨⟨_, _, exTree_rb⟩, by decide⟩

/-! ### C28: insertion -/

/-- C28: inserting a new node next to a node of a valid tree succeeds and gives a valid tree, whose root is the new value
of the root variable, and whose sequence is the old one with the new node directly before (`i = 0`) or after (`i = 1`)
the given node. -/
theorem C28_insert_at (t : Tree α) (hv : Valid t) (x : α) (hx : x ∉ toList t) (A B : List α) (a : α)
    (h : toList t = A ++ a :: B) (i : Bool) :
    ∃ t', insertRef x (some a) i t = some (t', rootId t') ∧ Valid t' ∧
      toList t' = if i then A ++ a :: x :: B else A ++ x :: a :: B :=
  insertRef_at i hv hx h

example : Valid exTree ∧ 9 ∉ toList exTree ∧ toList exTree = [1, 2, 3, 4] ++ 5 :: [6, 7] := ⟨exTree_valid, by decide, rfl⟩
example : (insertRef 9 (some 7) true exTree).map (fun r => (toList r.1, r.2)) = some ([1, 2, 3, 4, 5, 6, 7, 9], some 3) := by
  decide

/-- C28: with a NULL reference the new node becomes the minimum (`i = 1`) or the maximum (`i = 0`). -/
theorem C28_insert_end (t : Tree α) (hv : Valid t) (x : α) (hx : x ∉ toList t) (i : Bool) :
    ∃ t', insertRef x none i t = some (t', rootId t') ∧ Valid t' ∧
      toList t' = if i then x :: toList t else toList t ++ [x] :=
  insertRef_null i hv hx

example : (insertRef 9 none true exTree).map (fun r => (toList r.1, r.2)) = some ([9, 1, 2, 3, 4, 5, 6, 7], some 3) := by
  decide

/-! ### C29: removal -/

/-- C29: removing a node of a valid tree succeeds and gives a valid tree, whose root is the new value of the root
variable, and whose sequence is the old one without that node. -/
theorem C29_remove (t : Tree α) (hv : Valid t) (c : α) (A B : List α) (h : toList t = A ++ c :: B) :
    ∃ t', remove c t = some (t', rootId t') ∧ Valid t' ∧ toList t' = A ++ B :=
  remove_ok hv h

example : (remove 3 exTree).map (fun r => (toList r.1, r.2)) = some ([1, 2, 4, 5, 6, 7], some 4) := by decide

/-- C29: extracting the minimum (`d = 0`) or maximum (`d = 1`) removes and returns the first or last element, and an empty
tree gives NULL. -/
theorem C29_extract (t : Tree α) (hv : Valid t) (d : Bool) :
    ∃ t', extractStart d t = some (if d then (toList t).getLast? else (toList t).head?, t', rootId t') ∧ Valid t' ∧
      toList t' = if d then (toList t).dropLast else (toList t).tail := by
  by_cases ht : t = leaf
  · subst ht
    exact ⟨leaf, by simp [extractStart, startLoc, toList], hv, by simp [toList]⟩
  · obtain ⟨a, t', e1, e2, e3⟩ := extractStart_ok d hv ht
    refine ⟨t', ?_, e2, ?_⟩
    · rw [e1, e3]; cases d <;> simp
    · rw [e3]; cases d <;> simp

example : (extractStart true exTree).map (fun r => (r.1, toList r.2.1)) = some (some 7, [1, 2, 3, 4, 5, 6]) := by decide

/-- C29: extraction with a cached minimum or maximum: the cached element is removed and returned, and the cache is again
the minimum or maximum. -/
theorem C29_extract_update (t : Tree α) (hv : Valid t) (d : Bool) :
    ∃ t', extractUpdateStart d t (if d then (toList t).getLast? else (toList t).head?) =
        some (if d then (toList t).getLast? else (toList t).head?, t', rootId t',
          if d then (toList t').getLast? else (toList t').head?) ∧ Valid t' ∧
      toList t' = if d then (toList t).dropLast else (toList t).tail := by
  by_cases ht : t = leaf
  · subst ht
    exact ⟨leaf, by simp [extractUpdateStart, toList], hv, by simp [toList]⟩
  · obtain ⟨q, hq⟩ : ∃ q, startLoc d t [] = some q := by
      cases hq : startLoc d t [] with
      | none => rw [startLoc_none] at hq; exact absurd hq ht
      | some q => exact ⟨q, rfl⟩
    obtain ⟨h1, A, a, B, h2, h3⟩ := startLoc_at hq
    have h4 := h2.toList_eq
    rw [h1] at h4
    obtain ⟨q', l1, l2, l3⟩ := locate_at h4 hv.2
    obtain ⟨t', e1, e2, e3⟩ := remove_ok hv h4
    refine ⟨t', ?_, e2, ?_⟩
    · have s1 := stepLoc_false l3
      have s2 := stepLoc_true l3
      cases d
      · simp only at h3
        subst h3
        have hb : stepLoc true q'.1 q'.2 = none := by
          cases hs : stepLoc true q'.1 q'.2 with
          | none => rfl
          | some y => rw [hs] at s2; simp at s2
        have hf : (stepLoc false q'.1 q'.2).bind (fun y => rootId y.1) = B.head? := by
          cases hs : stepLoc false q'.1 q'.2 with
          | none => rw [hs] at s1; simp only at s1; simp [s1]
          | some y =>
            rw [hs] at s1
            simp only at s1
            obtain ⟨_, b, B', rfl, ⟨_, _, _, hy, _, _⟩⟩ := s1
            simp [hy, rootId]
        rw [h4]
        simp [extractUpdateStart, l1, hb, ass_true, e1, hf, e3]
      · simp only at h3
        subst h3
        have hb : stepLoc false q'.1 q'.2 = none := by
          cases hs : stepLoc false q'.1 q'.2 with
          | none => rfl
          | some y => rw [hs] at s1; simp at s1
        have hf : (stepLoc true q'.1 q'.2).bind (fun y => rootId y.1) = A.getLast? := by
          cases hs : stepLoc true q'.1 q'.2 with
          | none => rw [hs] at s2; simp only at s2; simp [s2]
          | some y =>
            rw [hs] at s2
            simp only at s2
            obtain ⟨_, b, A', rfl, ⟨_, _, _, hy, _, _⟩⟩ := s2
            simp [hy, rootId]
        rw [h4]
        simp [extractUpdateStart, l1, hb, ass_true, e1, hf, e3]
    · rw [h4, e3]
      cases d <;> simp at h3 <;> simp [h3]

example : (extractUpdateStart true exTree (some 7)).map (fun r => (r.1, toList r.2.1, r.2.2.2)) =
    some (some 7, [1, 2, 3, 4, 5, 6], some 6) := by decide

/-! ### C30: search -/

/-- C30: with a comparison consistent with the order, plain lookup returns an element that is equal to the key if there is
one and NULL otherwise. -/
theorem C30_lookup (t : Tree α) (cmp : α → Int) (hs : Sorted cmp (toList t)) :
    ((∃ a ∈ toList t, cmp a = 0) → ∃ b ∈ toList t, cmp b = 0 ∧ findRet cmp 0 t = some b) ∧
    ((∀ a ∈ toList t, cmp a ≠ 0) → findRet cmp 0 t = none) := by
  have hf : findRet cmp 0 t = (findRef cmp 0 t).n := by simp [findRet]
  rw [hf]
  rcases findLoop_ok cmp 0 t (rootId t) true 0 none hs with ⟨_, a, e1, e2, e3⟩ | ⟨e1, e2, _⟩
  · exact ⟨fun _ => ⟨a, e3, e2, e1⟩, fun h => absurd e2 (h a e3)⟩
  · exact ⟨fun ⟨a, h1, h2⟩ => absurd h2 (e2 rfl a h1), fun _ => e1⟩

/-- comparison of the key `k` with the element, for the examples -/
def keyCmp (k : Nat) (a : Nat) : Int := if k < a / 10 then -1 else if k = a / 10 then 0 else 1

/-- a tree with three entries of the same key -/
def exDup : Tree Nat := node (node leaf 10 2 leaf) 20 4 (node (node leaf 21 1 leaf) 22 2 (node leaf 30 1 leaf))

theorem exDup_valid : Valid exDup :=
  ⟨⟨_, _, RB.black (RB.black RB.leaf RB.leaf) (RB.black (RB.red RB.leaf RB.leaf) (RB.red RB.leaf RB.leaf))⟩, by decide⟩

theorem exDup_sorted : Sorted (keyCmp 2) (toList exDup) := by unfold Sorted; decide

example : Sorted (keyCmp 2) (toList exDup) ∧ findRet (keyCmp 2) 0 exDup = some 20 := ⟨exDup_sorted, by decide⟩

/-- C30: the modes −2 and 2 return the first and the last equal element (NULL if there is none). -/
theorem C30_first_last (t : Tree α) (cmp : α → Int) (hs : Sorted cmp (toList t)) :
    findRet cmp (-2) t = ((toList t).filter (fun a => cmp a = 0)).head? ∧
    findRet cmp 2 t = ((toList t).filter (fun a => cmp a = 0)).getLast? := by
  constructor
  · have hf : findRet cmp (-2) t = (findRef cmp (-2) t).e := by simp [findRet]
    rw [hf]
    rcases findLoop_ok cmp (-2) t (rootId t) true 0 none hs with ⟨h0, _⟩ |
      ⟨_, _, X, Y, e1, e2, e3, _, _, _, _, _, _, e4⟩
    · omega
    · have := e4 (by omega)
      unfold findRef
      rw [this, e1, List.filter_append]
      have hX : X.filter (fun a => decide (cmp a = 0)) = [] := by
        rw [List.filter_eq_nil_iff]
        intro a ha
        have := e2 a ha
        unfold GoRight at this
        split_ifs at this <;> simp <;> omega
      rw [hX, List.nil_append]
      cases Y with
      | nil => rfl
      | cons a Y =>
        simp only [List.head?_cons, eqOr]
        by_cases ha : cmp a = 0
        · simp [ha]
        · rw [if_neg ha, List.filter_cons, if_neg (by simpa using ha)]
          have h1 := e3 a (by simp)
          unfold GoRight at h1
          rw [if_neg ha] at h1
          have : Y.filter (fun a => decide (cmp a = 0)) = [] := by
            rw [List.filter_eq_nil_iff]
            intro b hb
            rw [e1] at hs
            have h2 := (List.pairwise_append.mp hs).2.1
            have h3 := (List.pairwise_cons.mp h2).1 b hb
            simp; omega
          rw [this]; rfl
  · have hf : findRet cmp 2 t = (findRef cmp 2 t).e := by simp [findRet]
    rw [hf]
    rcases findLoop_ok cmp 2 t (rootId t) true 0 none hs with ⟨h0, _⟩ |
      ⟨_, _, X, Y, e1, e2, e3, _, _, _, _, _, e4, _⟩
    · omega
    · have := e4 (by omega)
      unfold findRef
      rw [this, e1, List.filter_append]
      have hY : Y.filter (fun a => decide (cmp a = 0)) = [] := by
        rw [List.filter_eq_nil_iff]
        intro a ha
        have := e3 a ha
        unfold GoRight at this
        split_ifs at this <;> simp <;> omega
      rw [hY, List.append_nil]
      rcases List.eq_nil_or_concat X with rfl | ⟨X', a, rfl⟩
      · rfl
      · simp only [List.concat_eq_append, List.getLast?_append, List.getLast?_singleton, Option.some_or, eqOr,
          List.filter_append]
        by_cases ha : cmp a = 0
        · simp [ha]
        · have h1 := e2 a (by simp)
          unfold GoRight at h1
          rw [if_neg ha] at h1
          have hX : X'.filter (fun a => decide (cmp a = 0)) = [] := by
            rw [List.filter_eq_nil_iff]
            intro b hb
            rw [e1] at hs
            have h2 := (List.pairwise_append.mp hs).1
            rw [List.concat_eq_append] at h2
            have h3 := (List.pairwise_append.mp h2).2.2 b hb a (by simp)
            simp; omega
          simp [ha, hX]

example : findRet (keyCmp 2) (-2) exDup = some 20 ∧ findRet (keyCmp 2) 2 exDup = some 22 := by decide

/-- the modes −1 and 1 never return an element -/
theorem C30_always_insert (t : Tree α) (cmp : α → Int) (hs : Sorted cmp (toList t)) :
    findRet cmp (-1) t = none ∧ findRet cmp 1 t = none := by
  constructor
  · have hf : findRet cmp (-1) t = (findRef cmp (-1) t).n := by simp [findRet]
    rw [hf]
    rcases findLoop_ok cmp (-1) t (rootId t) true 0 none hs with ⟨h0, _⟩ | ⟨e1, _⟩
    · omega
    · exact e1
  · have hf : findRet cmp 1 t = (findRef cmp 1 t).n := by simp [findRet]
    rw [hf]
    rcases findLoop_ok cmp 1 t (rootId t) true 0 none hs with ⟨h0, _⟩ | ⟨e1, _⟩
    · omega
    · exact e1

/-- C30/C28: search and insertion.  If the search returns an element, it is equal to the key, nothing changes and the
element is returned.  Otherwise the new node is put behind all smaller elements and before all greater ones, and behind
(`dup > 0`) or before (`dup ≤ 0`) all equal ones; the tree stays valid, and cached minimum and maximum stay the minimum and
maximum. -/
theorem C30_insert_by (t : Tree α) (hv : Valid t) (x : α) (hx : x ∉ toList t) (cmp : α → Int) (dup : Int)
    (hs : Sorted cmp (toList t)) :
    (∀ a, findRet cmp dup t = some a → a ∈ toList t ∧ cmp a = 0 ∧
      insertUpdateBy x cmp dup t (toList t).head? (toList t).getLast? =
        some ⟨some a, t, rootId t, (toList t).head?, (toList t).getLast?⟩) ∧
    (findRet cmp dup t = none → ∃ t',
      insertUpdateBy x cmp dup t (toList t).head? (toList t).getLast? =
        some ⟨none, t', rootId t', (toList t').head?, (toList t').getLast?⟩ ∧ Valid t' ∧
      toList t' = (toList t).filter (fun a => cmp a > 0 ∨ (cmp a = 0 ∧ dup > 0)) ++ x ::
        (toList t).filter (fun a => cmp a < 0 ∨ (cmp a = 0 ∧ ¬ dup > 0))) := by
  have hfl := findLoop_ok cmp dup t (rootId t) true 0 none hs
  constructor
  · intro a ha
    have hres : insertUpdateBy x cmp dup t (toList t).head? (toList t).getLast? =
        some ⟨some a, t, rootId t, (toList t).head?, (toList t).getLast?⟩ := by
      simp [insertUpdateBy, ha]
    refine and_assoc.mp ⟨?_, hres⟩
    unfold findRet at ha
    by_cases h2 : dup % 4 = 2
    · rw [if_pos h2] at ha
      rcases hfl with ⟨h0, _⟩ | ⟨_, _, X, Y, e1, _, _, _, _, _, _, _, e5, e6⟩
      · subst h0; simp at h2
      · have hne : dup ≠ 0 := by rintro rfl; simp at h2
        unfold findRef at ha
        rcases lt_or_gt_of_ne hne with hlt | hgt
        · rw [e6 hlt] at ha
          cases Y with
          | nil => simp [eqOr] at ha
          | cons b Y =>
            simp only [List.head?_cons, eqOr] at ha
            split_ifs at ha with hb
            simp only [Option.some.injEq] at ha
            subst ha
            exact ⟨by rw [e1]; simp, hb⟩
        · rw [e5 hgt] at ha
          cases hX : X.getLast? with
          | none => simp [hX, eqOr] at ha
          | some b =>
            simp only [hX, eqOr] at ha
            split_ifs at ha with hb
            simp only [Option.some.injEq] at ha
            subst ha
            exact ⟨by rw [e1]; simp [List.mem_of_getLast? hX], hb⟩
    · rw [if_neg h2] at ha
      rcases hfl with ⟨_, b, e1, e2, e3⟩ | ⟨e1, _⟩
      · unfold findRef at ha
        rw [e1] at ha
        simp only [Option.some.injEq] at ha
        subst ha
        exact ⟨e3, e2⟩
      · unfold findRef at ha
        rw [e1] at ha; simp at ha
  · intro hnone
    have hn : (findRef cmp dup t).n = none := by
      rcases hfl with ⟨h0, b, e1, _⟩ | ⟨e1, _⟩
      · subst h0
        simp [findRet] at hnone
        exact hnone
      · exact e1
    rcases hfl with ⟨_, b, e1, _⟩ | ⟨_, _, X, Y, e1, e2, e3, e4, e5, e6, e7, e8, _, _⟩
    · unfold findRef at hn; rw [e1] at hn; simp at hn
    · have hR : ∀ a, GoRight cmp dup a ↔ (cmp a > 0 ∨ (cmp a = 0 ∧ dup > 0)) := by
        intro a; unfold GoRight; split_ifs <;> omega
      have hL : ∀ a, ¬ GoRight cmp dup a ↔ (cmp a < 0 ∨ (cmp a = 0 ∧ ¬ dup > 0)) := by
        intro a; unfold GoRight; split_ifs <;> omega
      have hXf : X = (toList t).filter (fun a => cmp a > 0 ∨ (cmp a = 0 ∧ dup > 0)) := by
        have := (filter_split (P := fun a => decide (cmp a > 0 ∨ (cmp a = 0 ∧ dup > 0)))
          (fun a ha => by simpa using (hR a).mp (e2 a ha))
          (fun a ha => by
            have := e3 a ha
            rw [hR] at this
            exact decide_eq_false this)).1
        rw [e1]; exact this
      have hYf : Y = (toList t).filter (fun a => cmp a < 0 ∨ (cmp a = 0 ∧ ¬ dup > 0)) := by
        rw [e1, List.filter_append]
        have h1 : X.filter (fun a => decide (cmp a < 0 ∨ (cmp a = 0 ∧ ¬ dup > 0))) = [] := by
          rw [List.filter_eq_nil_iff]
          intro a ha
          have h1 := e2 a ha
          have h2 := hL a
          simpa using fun h => (h2.mpr h) h1
        have h2 : Y.filter (fun a => decide (cmp a < 0 ∨ (cmp a = 0 ∧ ¬ dup > 0))) = Y := by
          rw [List.filter_eq_self]
          intro a ha
          simpa using (hL a).mp (e3 a ha)
        rw [h1, h2]; rfl
      rw [← hXf, ← hYf]
      have hpa := pa_six (pa := (findRef cmp dup t).pa) (fun k hk => by rw [show (findRef cmp dup t).pa.testBit k = _ from e8 k hk]; simp)
      have h0 : (findRef cmp dup t).pa.testBit 0 = !Y.isEmpty := by
        have := e6; rw [Nat.zero_testBit, Bool.false_or] at this; exact this
      have h1 : (findRef cmp dup t).pa.testBit 1 = !X.isEmpty := by
        have := e7; rw [Nat.zero_testBit, Bool.false_or] at this; exact this
      have hins : ∃ t', insertRef x (findRef cmp dup t).p (findRef cmp dup t).i t = some (t', rootId t') ∧ Valid t' ∧
          toList t' = X ++ x :: Y := by
        by_cases ht : t = leaf
        · subst ht
          obtain ⟨t', g1, g2, g3⟩ := insertRef_null true hv hx
          simp only [toList, List.nil_eq, List.append_eq_nil_iff] at e1
          obtain ⟨rfl, rfl⟩ := e1
          exact ⟨t', g1, g2, by simpa [toList] using g3⟩
        · rcases e5 ht with ⟨a, X', g1, g2, g3⟩ | ⟨a, Y', g1, g2, g3⟩
          · obtain ⟨t', k1, k2, k3⟩ := insertRef_at (A := X') (B := Y) (a := a) true hv hx (by rw [e1, g3]; simp)
            refine ⟨t', ?_, k2, ?_⟩
            · unfold findRef; rw [g1, g2]; exact k1
            · rw [k3, g3]; simp
          · obtain ⟨t', k1, k2, k3⟩ := insertRef_at (A := X) (B := Y') (a := a) false hv hx (by rw [e1, g3])
            refine ⟨t', ?_, k2, ?_⟩
            · unfold findRef; rw [g1, g2]; exact k1
            · rw [k3, g3]; simp
      obtain ⟨t', k1, k2, k3⟩ := hins
      refine ⟨t', ?_, k2, k3⟩
      simp only [insertUpdateBy, hnone, k1, Option.bind_eq_bind, Option.bind_some, Option.some.injEq, Inserted.mk.injEq,
        true_and, k3]
      rw [e1]
      constructor
      · cases X with
        | nil => rw [if_pos (hpa.1.mpr (by rw [h1]; rfl))]; rfl
        | cons b X => rw [if_neg (by rw [hpa.1, h1]; simp)]; rfl
      · rcases List.eq_nil_or_concat Y with rfl | ⟨Y', b, rfl⟩
        · rw [if_pos (hpa.2.mpr (by rw [h0]; rfl))]; simp
        · rw [if_neg (by rw [hpa.2, h0]; simp)]; simp [List.getLast?_cons]

example : Valid exDup ∧ 23 ∉ toList exDup ∧ Sorted (keyCmp 2) (toList exDup) := ⟨exDup_valid, by decide, exDup_sorted⟩
example : (insertUpdateBy 23 (keyCmp 2) 1 exDup (some 10) (some 30)).map (fun r => (toList r.tree, r.min, r.max)) =
    some ([10, 20, 21, 22, 23, 30], some 10, some 30) := by decide
example : (insertUpdateBy 23 (keyCmp 2) (-1) exDup (some 10) (some 30)).map (fun r => toList r.tree) =
    some [10, 23, 20, 21, 22, 30] := by decide

/-- C28: insertion next to a node with cached minimum and maximum keeps them the minimum and maximum. -/
theorem C28_insert_update_at (t : Tree α) (hv : Valid t) (x : α) (hx : x ∉ toList t) (A B : List α) (a : α)
    (h : toList t = A ++ a :: B) (i : Bool) :
    ∃ t', insertUpdateAt x (some a) i t (toList t).head? (toList t).getLast? =
        some ⟨none, t', rootId t', (toList t').head?, (toList t').getLast?⟩ ∧ Valid t' ∧
      toList t' = if i then A ++ a :: x :: B else A ++ x :: a :: B := by
  obtain ⟨t', e1, e2, e3⟩ := insertRef_at i hv hx h
  refine ⟨t', ?_, e2, e3⟩
  have hn := hv.2
  rw [h] at hn
  simp only [insertUpdateAt, e1, Option.bind_eq_bind, Option.bind_some, Option.some.injEq, Inserted.mk.injEq, true_and,
    e3, h]
  constructor
  · cases A with
    | nil => cases i <;> simp
    | cons b A =>
      have : b ≠ a := by rintro rfl; simp at hn
      cases i <;> simp [this]
  · rcases List.eq_nil_or_concat B with rfl | ⟨B', b, rfl⟩
    · cases i <;> simp
    · have : b ≠ a := by rintro rfl; simp [List.nodup_append] at hn
      have h1 : (A ++ a :: B'.concat b).getLast? = some b := by
        rw [List.concat_eq_append, List.getLast?_append, List.getLast?_cons]; simp
      have h2 : (A ++ a :: x :: B'.concat b).getLast? = some b := by
        rw [List.concat_eq_append, List.getLast?_append, List.getLast?_cons, List.getLast?_cons]; simp
      have h3 : (A ++ x :: a :: B'.concat b).getLast? = some b := by
        rw [List.concat_eq_append, List.getLast?_append, List.getLast?_cons, List.getLast?_cons]; simp
      rw [h1]
      cases i
      · simp [List.getLast?_cons]
      · simp [this, List.getLast?_cons]

example : (insertUpdateAt 9 (some 7) true exTree (some 1) (some 7)).map (fun r => (toList r.tree, r.min, r.max)) =
    some ([1, 2, 3, 4, 5, 6, 7, 9], some 1, some 9) := by decide

/-- With a NULL position on a non-empty tree the code does not update the cached extremum: here the new node 9 is the
maximum of the resulting tree, but the cached maximum is still 7. -/
theorem C28_insert_update_at_null_wrong :
    (insertUpdateAt 9 none false exTree (some 1) (some 7)).map (fun r => (toList r.tree, r.max)) =
      some ([1, 2, 3, 4, 5, 6, 7, 9], some 7) := by decide

/-! ### C31: join and split -/

/-- C31: joining two valid trees and a node gives a valid tree whose sequence is the concatenation; the returned pointer is
its root. -/
theorem C31_join3 (l r : Tree α) (m : α) (hl : Valid l) (hr : Valid r) (hd : (toList l ++ m :: toList r).Nodup) :
    ∃ t, join3 l m r = some (t, rootId t) ∧ Valid t ∧ toList t = toList l ++ m :: toList r := by
  obtain ⟨t, h1, h2, h3⟩ := join3_ok (m := m) hl.1 hr.1
  exact ⟨t, h1, ⟨h2, by rw [h3]; exact hd⟩, h3⟩

example : (join3 exTree 8 (node leaf 9 1 leaf)).map (fun r => (toList r.1, r.2)) =
    some ([1, 2, 3, 4, 5, 6, 7, 8, 9], some 5) := by decide

/-- C31: the same without a middle node. -/
theorem C31_join2 (l r : Tree α) (hl : Valid l) (hr : Valid r) (hd : (toList l ++ toList r).Nodup) :
    ∃ t, join2 l r = some (t, rootId t) ∧ Valid t ∧ toList t = toList l ++ toList r := by
  obtain ⟨t, h1, h2, h3⟩ := join2_ok hl.1 hr
  exact ⟨t, h1, ⟨h2, by rw [h3]; exact hd⟩, h3⟩

example : (join2 (node leaf 0 1 leaf) exTree).map (fun r => (toList r.1, r.2)) =
    some ([0, 1, 2, 3, 4, 5, 6, 7], some 3) := by decide

/-- C31: splitting a valid tree at a key gives two valid trees: the first one has the elements less than the key (and the
equal ones unless `back`), the second one the others, both in their order. -/
theorem C31_split (t : Tree α) (hv : Valid t) (cmp : α → Int) (hs : Sorted cmp (toList t)) (back : Bool) :
    ∃ l r, split cmp back t = some (l, r) ∧ Valid l ∧ Valid r ∧
      toList l = (toList t).filter (fun a => cmp a > 0 ∨ (cmp a = 0 ∧ back = false)) ∧
      toList r = (toList t).filter (fun a => cmp a < 0 ∨ (cmp a = 0 ∧ back = true)) := by
  obtain ⟨l, r, e1, e2, e3, e4, e5, e6⟩ := split_ok cmp back hv.1 hs
  have hn := hv.2
  rw [e4, List.nodup_append] at hn
  refine ⟨l, r, e1, ⟨e2, hn.1⟩, ⟨e3, hn.2.1⟩, ?_, ?_⟩
  · rw [e4, List.filter_append, List.filter_eq_self.mpr, List.filter_eq_nil_iff.mpr, List.append_nil]
    · intro a ha
      have := e6 a ha
      cases back <;> simp at this ⊢ <;> omega
    · intro a ha
      have := e5 a ha
      cases back <;> simp at this ⊢ <;> omega
  · rw [e4, List.filter_append, List.filter_eq_nil_iff.mpr, List.filter_eq_self.mpr, List.nil_append]
    · intro a ha
      have := e6 a ha
      cases back <;> simp at this ⊢ <;> omega
    · intro a ha
      have := e5 a ha
      cases back <;> simp at this ⊢ <;> omega

example : (split (keyCmp 2) true exDup).map (fun q => (toList q.1, toList q.2)) = some ([10], [20, 21, 22, 30]) ∧
    (split (keyCmp 2) false exDup).map (fun q => (toList q.1, toList q.2)) = some ([10, 20, 21, 22], [30]) := by decide

/-! ### C32: stepping -/

/-- the node reached by starting at one end and doing `n` steps -/
def walk (dir : Bool) (t : Tree α) : Nat → Option (Tree α × Path α)
  | 0 => startLoc dir t []
  | n + 1 => (walk dir t n).bind (fun q => stepLoc dir q.1 q.2)

theorem walk_at (dir : Bool) (t : Tree α) (n : Nat) :
    match walk dir t n with
    | none => (toList t).length ≤ n
    | some q => plug q.1 q.2 = t ∧ ∃ A a B, At q.1 q.2 A a B ∧ (match dir with | false => A | true => B).length = n := by
  induction n with
  | zero =>
    simp only [walk]
    split
    · rename_i h
      rw [startLoc_none] at h
      subst h; simp [toList]
    · rename_i q h
      obtain ⟨h1, A, a, B, h2, h3⟩ := startLoc_at h
      exact ⟨h1, A, a, B, h2, by cases dir <;> (simp only at h3 ⊢; rw [h3]; rfl)⟩
  | succ n ih =>
    simp only [walk]
    cases hw : walk dir t n with
    | none =>
      rw [hw] at ih
      simp only [Option.bind_none]
      simp only at ih
      omega
    | some q =>
      rw [hw] at ih
      obtain ⟨h1, A, a, B, h2, h3⟩ := ih
      simp only [Option.bind_some]
      have h4 := h2.toList_eq
      rw [h1] at h4
      cases dir
      · have := stepLoc_false h2
        split
        · rename_i hs
          rw [hs] at this
          simp only at this h3
          rw [h4, this]; simp; omega
        · rename_i q' hs
          rw [hs] at this
          obtain ⟨g1, b, B', rfl, g2⟩ := this
          exact ⟨g1.trans h1, _, _, _, g2, by simp only at h3; simp; omega⟩
      · have := stepLoc_true h2
        split
        · rename_i hs
          rw [hs] at this
          simp only at this h3
          rw [h4, this]; simp; omega
        · rename_i q' hs
          rw [hs] at this
          obtain ⟨g1, b, A', rfl, g2⟩ := this
          exact ⟨g1.trans h1, _, _, _, g2, by simp only at h3; simp; omega⟩

/-- C32: starting at the minimum and stepping forward `n` times gives the `n`-th element, and NULL after the last one;
starting at the maximum and stepping backward gives the elements in reverse. -/
theorem C32_walk (t : Tree α) (n : Nat) :
    (walk false t n).bind (fun q => rootId q.1) = (toList t)[n]? ∧
    (walk true t n).bind (fun q => rootId q.1) = (toList t).reverse[n]? := by
  constructor
  · have := walk_at false t n
    cases hw : walk false t n with
    | none => rw [hw] at this; simp only at this; simp [this]
    | some q =>
      rw [hw] at this
      obtain ⟨h1, A, a, B, h2, h3⟩ := this
      have h4 := h2.toList_eq
      rw [h1] at h4
      obtain ⟨l, s, r, hq, _, _⟩ := h2
      simp only at h3
      rw [h4, Option.bind_some, hq]
      simp [rootId, ← h3]
  · have := walk_at true t n
    cases hw : walk true t n with
    | none => rw [hw] at this; simp only at this; simp [this]
    | some q =>
      rw [hw] at this
      obtain ⟨h1, A, a, B, h2, h3⟩ := this
      have h4 := h2.toList_eq
      rw [h1] at h4
      obtain ⟨l, s, r, hq, _, _⟩ := h2
      simp only at h3
      rw [h4, Option.bind_some, hq]
      simp [rootId, ← h3]

example : (walk false exTree 4).bind (fun q => rootId q.1) = some 5 ∧ (walk true exTree 4).bind (fun q => rootId q.1) = some 3 ∧
    walk false exTree 7 = none := by decide

/-- C32: from any node, stepping gives the next or the previous element, and NULL at the ends. -/
theorem C32_step (t : Tree α) (hn : (toList t).Nodup) (A B : List α) (a : α) (h : toList t = A ++ a :: B) :
    ∃ q, locate a t [] = some q ∧ (stepLoc false q.1 q.2).bind (fun q => rootId q.1) = B.head? ∧
      (stepLoc true q.1 q.2).bind (fun q => rootId q.1) = A.getLast? := by
  obtain ⟨q, h1, h2, h3⟩ := locate_at h hn
  refine ⟨q, h1, ?_, ?_⟩
  · have s1 := stepLoc_false h3
    cases hs : stepLoc false q.1 q.2 with
    | none => rw [hs] at s1; simp only at s1; simp [s1]
    | some y =>
      rw [hs] at s1
      obtain ⟨_, b, B', rfl, ⟨_, _, _, hy, _, _⟩⟩ := s1
      simp [hy, rootId]
  · have s1 := stepLoc_true h3
    cases hs : stepLoc true q.1 q.2 with
    | none => rw [hs] at s1; simp only at s1; simp [s1]
    | some y =>
      rw [hs] at s1
      obtain ⟨_, b, A', rfl, ⟨_, _, _, hy, _, _⟩⟩ := s1
      simp [hy, rootId]

/-! ### C33: height -/

omit [DecidableEq α] in
theorem rb_bounds {t : Tree α} {c : Bool} {h : Nat} (H : RB t c h) :
    height t ≤ 2 * h + (if c then 1 else 0) ∧ 2 ^ (h + if c then 1 else 0) ≤ (toList t).length + 1 := by
  induction H with
  | leaf => simp [height, toList]
  | red h1 h2 ih1 ih2 =>
    simp only [height, toList, List.length_append, List.length_cons, Bool.false_eq_true, if_false, if_true, add_zero] at *
    refine ⟨by omega, ?_⟩
    rw [pow_succ]; omega
  | @black l r a c d h h1 h2 ih1 ih2 =>
    simp only [height, toList, List.length_append, List.length_cons, Bool.false_eq_true, if_false, add_zero] at *
    obtain ⟨a1, a2⟩ := ih1
    obtain ⟨b1, b2⟩ := ih2
    have p1 : 2 ^ h ≤ 2 ^ (h + if c then 1 else 0) := Nat.pow_le_pow_right (by norm_num) (by omega)
    have p2 : 2 ^ h ≤ 2 ^ (h + if d then 1 else 0) := Nat.pow_le_pow_right (by norm_num) (by omega)
    refine ⟨by split_ifs at a1 b1 <;> omega, ?_⟩
    rw [pow_succ]; omega

/-- C33: the height of a valid tree is at most twice the binary logarithm of its size plus one. -/
theorem C33_height (t : Tree α) (hv : Valid t) : height t ≤ 2 * Nat.log 2 ((toList t).length + 1) := by
  obtain ⟨⟨c, h, H⟩, _⟩ := hv
  obtain ⟨h1, h2⟩ := rb_bounds H
  have := Nat.le_log_of_pow_le (by norm_num) h2
  split_ifs at h1 this <;> omega

example : Valid exTree ∧ height exTree = 4 ∧ (toList exTree).length = 7 := ⟨exTree_valid, by decide, by decide⟩

/-- trees that a program can build from empty trees with the operations of the library (new nodes are in no tree, joined
trees are different) -/
inductive Reach : Tree α → Prop where
  | empty : Reach leaf
  | insertRef {t t' : Tree α} {x : α} {ref : Option α} {i : Bool} {rv : Option α} : Reach t → x ∉ toList t →
      insertRef x ref i t = some (t', rv) → Reach t'
  | insertBy {t : Tree α} {x : α} {cmp : α → Int} {dup : Int} {mn mx : Option α} {o : Inserted α} : Reach t →
      x ∉ toList t → insertUpdateBy x cmp dup t mn mx = some o → Reach o.tree
  | remove {t t' : Tree α} {c : α} {rv : Option α} : Reach t → remove c t = some (t', rv) → Reach t'
  | join3 {l r t : Tree α} {m : α} {rv : Option α} : Reach l → Reach r → (toList l ++ m :: toList r).Nodup →
      join3 l m r = some (t, rv) → Reach t
  | join2 {l r t : Tree α} {rv : Option α} : Reach l → Reach r → (toList l ++ toList r).Nodup →
      join2 l r = some (t, rv) → Reach t
  | splitL {t l r : Tree α} {cmp : α → Int} {back : Bool} : Reach t → Sorted cmp (toList t) →
      split cmp back t = some (l, r) → Reach l
  | splitR {t l r : Tree α} {cmp : α → Int} {back : Bool} : Reach t → Sorted cmp (toList t) →
      split cmp back t = some (l, r) → Reach r

theorem insertRef_valid {t t' : Tree α} {x : α} {ref : Option α} {i : Bool} {rv : Option α} (hv : Valid t)
    (hx : x ∉ toList t) (h : insertRef x ref i t = some (t', rv)) : Valid t' := by
  cases ref with
  | none =>
    obtain ⟨t'', e1, e2, _⟩ := insertRef_null i hv hx
    rw [e1] at h; simp at h; rw [← h.1]; exact e2
  | some a =>
    by_cases ha : a ∈ toList t
    · obtain ⟨A, B, hAB⟩ := List.append_of_mem ha
      obtain ⟨t'', e1, e2, _⟩ := insertRef_at i hv hx hAB
      rw [e1] at h; simp at h; rw [← h.1]; exact e2
    · have : locate a t [] = none := locate_none.mpr ha
      cases t with
      | leaf => simp [insertRef, Hob3l.Matq.ass] at h
      | node l b s r => simp [insertRef, insertLoc, this] at h

/-- C33: every tree a program can build is valid, hence logarithmically high. -/
theorem C33_reachable (t : Tree α) (h : Reach t) :
    Valid t ∧ height t ≤ 2 * Nat.log 2 ((toList t).length + 1) := by
  have hv : Valid t := by
    induction h with
    | empty => exact ⟨⟨_, _, RB.leaf⟩, by simp [toList]⟩
    | insertRef _ hx h ih => exact insertRef_valid ih hx h
    | @insertBy t x cmp dup mn mx o _ hx h ih =>
      unfold insertUpdateBy at h
      split at h
      · simp at h; rw [← h]; exact ih
      · simp only [Option.bind_eq_bind, Option.bind_eq_some_iff, Option.some.injEq] at h
        obtain ⟨res, h1, rfl⟩ := h
        exact insertRef_valid ih hx h1
    | @remove t t' c rv _ h ih =>
      by_cases hc : c ∈ toList t
      · obtain ⟨A, B, hAB⟩ := List.append_of_mem hc
        obtain ⟨t'', e1, e2, _⟩ := remove_ok ih hAB
        rw [e1] at h; simp at h; rw [← h.1]; exact e2
      · have : locate c t [] = none := locate_none.mpr hc
        simp [remove, this] at h
    | join3 _ _ hd h ih1 ih2 =>
      obtain ⟨t'', e1, e2, _⟩ := C31_join3 _ _ _ ih1 ih2 hd
      rw [e1] at h; simp at h; rw [← h.1]; exact e2
    | join2 _ _ hd h ih1 ih2 =>
      obtain ⟨t'', e1, e2, _⟩ := C31_join2 _ _ ih1 ih2 hd
      rw [e1] at h; simp at h; rw [← h.1]; exact e2
    | @splitL t l r cmp back _ hs h ih =>
      obtain ⟨l', r', e1, e2, e3, _⟩ := C31_split _ ih cmp hs back
      rw [e1] at h; simp at h; rw [← h.1]; exact e2
    | @splitR t l r cmp back _ hs h ih =>
      obtain ⟨l', r', e1, e2, e3, _⟩ := C31_split _ ih cmp hs back
      rw [e1] at h; simp at h; rw [← h.2]; exact e3
  exact ⟨hv, C33_height t hv⟩

example : ∃ t : Tree Nat, Reach t ∧ toList t = [1, 2] :=
  ⟨_, Reach.insertRef (x := 2) (ref := some 1) (i := true)
    (Reach.insertRef (x := 1) (ref := none) (i := true) Reach.empty (by simp [toList]) rfl) (by decide) rfl, by decide⟩

end Hob3l.Dict
