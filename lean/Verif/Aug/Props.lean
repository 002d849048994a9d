import Verif.Aug.LemmasRight
import Verif.Dict.Props

/-
Property C125: values stored in the nodes of a search tree by the augmentation callback.
-/

namespace Hob3l.Aug

open Hob3l.Dict
open Hob3l.Dict.Tree

variable {α M : Type} [DecidableEq α] [DecidableEq M]

/-- a result with right values from one without values -/
theorem lift {t : Dict.Tree α} {r : Option (Dict.Tree (α × M) × Option α)} {g : α → M → M → M} {z : M} (h : r.map eraseR = some (t, rootId t))
    (hg : ∀ q, r = some q → Good g z q.1) : ∃ t', r = some (t', rid t') ∧ Right g z t' ∧ erase t' = t := by
  obtain ⟨q, rfl, h2⟩ := Option.map_eq_some_iff.mp h
  obtain ⟨t', rv⟩ := q
  simp only [eraseR, Prod.mk.injEq] at h2
  obtain ⟨rfl, rfl⟩ := h2
  exact ⟨t', by rw [rootId_erase], (good_iff _).mp (hg _ rfl), rfl⟩

/-- **C125**: let the callback store in a node any function `g` of the node and of what is stored in its children.  If the stored
values of a valid tree are right, they are so after inserting a new node next to a node, whatever was stored in the new node. -/
theorem C125_insert_at (g : α → M → M → M) (z : M) (t : Dict.Tree (α × M)) (hr : Right g z t) (hv : Valid (erase t)) (x : α × M)
    (hx : x.1 ∉ toList (erase t)) (A B : List α) (a : α) (h : toList (erase t) = A ++ a :: B) (i : Bool) :
    ∃ t', insertRefA g z x (some a) i t = some (t', rid t') ∧ Right g z t' ∧ Valid (erase t') ∧
      toList (erase t') = if i then A ++ a :: x.1 :: B else A ++ x.1 :: a :: B := by
  obtain ⟨u, h1, h2, h3⟩ := C28_insert_at (erase t) hv x.1 hx A B a h i
  obtain ⟨t', e1, e2, rfl⟩ := lift (by rw [insertRefA_erase, h1]) fun q hq => insertRefA_good (g := g) (z := z) hq ((good_iff t).mpr hr)
    fun ht => by subst ht; simp [erase, toList] at h
  exact ⟨t', e1, e2, h2, h3⟩

/-- **C125**: the same for an insertion at one end; the value of the first node of a tree has to be stored by the caller. -/
theorem C125_insert_end (g : α → M → M → M) (z : M) (t : Dict.Tree (α × M)) (hr : Right g z t) (hv : Valid (erase t)) (x : α × M)
    (hx : x.1 ∉ toList (erase t)) (hf : toList (erase t) = [] → x.2 = g x.1 z z) (i : Bool) :
    ∃ t', insertRefA g z x none i t = some (t', rid t') ∧ Right g z t' ∧ Valid (erase t') ∧
      toList (erase t') = if i then x.1 :: toList (erase t) else toList (erase t) ++ [x.1] := by
  obtain ⟨u, h1, h2, h3⟩ := C28_insert_end (erase t) hv x.1 hx i
  obtain ⟨t', e1, e2, rfl⟩ := lift (by rw [insertRefA_erase, h1]) fun q hq => insertRefA_good (g := g) (z := z) hq ((good_iff t).mpr hr)
    fun ht => hf (by rw [ht]; rfl)
  exact ⟨t', e1, e2, h2, h3⟩

/-- **C125**, the callback is not called for the first node of a tree: what was stored in the node remains. -/
theorem C125_insert_first_wrong :
    ∃ t', insertRefA (fun (a : Nat) x y => a ^^^ x ^^^ y) 0 (5, 7) none true leaf = some (t', rid t') ∧
      ¬ Right (fun (a : Nat) x y => a ^^^ x ^^^ y) 0 t' :=
  ⟨node leaf (5, 7) 1 leaf, by decide, fun h => absurd h.2.2 (by decide)⟩

/-- **C125**: removing a node. -/
theorem C125_remove (g : α → M → M → M) (z : M) (t : Dict.Tree (α × M)) (hr : Right g z t) (hv : Valid (erase t)) (c : α) (A B : List α)
    (h : toList (erase t) = A ++ c :: B) :
    ∃ t', removeA g z c t = some (t', rid t') ∧ Right g z t' ∧ Valid (erase t') ∧ toList (erase t') = A ++ B := by
  obtain ⟨u, h1, h2, h3⟩ := C29_remove (erase t) hv c A B h
  obtain ⟨t', e1, e2, rfl⟩ := lift (by rw [removeA_erase, h1]) fun q hq => removeA_good (g := g) (z := z) hq ((good_iff t).mpr hr)
  exact ⟨t', e1, e2, h2, h3⟩

/-- **C125**: taking out the first or last node. -/
theorem C125_extract (g : α → M → M → M) (z : M) (t : Dict.Tree (α × M)) (hr : Right g z t) (hv : Valid (erase t)) (d : Bool) :
    ∃ e t', extractStartA g z d t = some (e, t', rid t') ∧
      e.map Prod.fst = (if d then (toList (erase t)).getLast? else (toList (erase t)).head?) ∧ Right g z t' ∧ Valid (erase t') ∧
      toList (erase t') = if d then (toList (erase t)).dropLast else (toList (erase t)).tail := by
  obtain ⟨u, h1, h2, h3⟩ := C29_extract (erase t) hv d
  have e := extractStartA_erase g z d t
  rw [h1] at e
  obtain ⟨q, e1, e2⟩ := Option.map_eq_some_iff.mp e
  obtain ⟨a, t', rv⟩ := q
  simp only [Prod.mk.injEq] at e2
  obtain ⟨e3, rfl, rfl⟩ := e2
  refine ⟨a, t', by rw [e1, rootId_erase], e3, (good_iff _).mp (extractStartA_good (g := g) (z := z) e1 ((good_iff t).mpr hr)), h2, h3⟩

/-- **C125**: joining two trees with a node in between, whatever was stored in it. -/
theorem C125_join3 (g : α → M → M → M) (z : M) (l r : Dict.Tree (α × M)) (m : α × M) (hrl : Right g z l) (hrr : Right g z r)
    (hl : Valid (erase l)) (hr : Valid (erase r)) (hd : (toList (erase l) ++ m.1 :: toList (erase r)).Nodup) :
    ∃ t, join3A g z l m r = some (t, rid t) ∧ Right g z t ∧ Valid (erase t) ∧
      toList (erase t) = toList (erase l) ++ m.1 :: toList (erase r) := by
  obtain ⟨u, h1, h2, h3⟩ := C31_join3 (erase l) (erase r) m.1 hl hr hd
  obtain ⟨t, e1, e2, rfl⟩ := lift (by rw [join3A_erase, h1]) fun q hq =>
    join3A_good (g := g) (z := z) hq ((good_iff l).mpr hrl) ((good_iff r).mpr hrr)
  exact ⟨t, e1, e2, h2, h3⟩

/-- **C125**: joining two trees. -/
theorem C125_join2 (g : α → M → M → M) (z : M) (l r : Dict.Tree (α × M)) (hrl : Right g z l) (hrr : Right g z r)
    (hl : Valid (erase l)) (hr : Valid (erase r)) (hd : (toList (erase l) ++ toList (erase r)).Nodup) :
    ∃ t, join2A g z l r = some (t, rid t) ∧ Right g z t ∧ Valid (erase t) ∧ toList (erase t) = toList (erase l) ++ toList (erase r) := by
  obtain ⟨u, h1, h2, h3⟩ := C31_join2 (erase l) (erase r) hl hr hd
  obtain ⟨t, e1, e2, rfl⟩ := lift (by rw [join2A_erase, h1]) fun q hq =>
    join2A_good (g := g) (z := z) hq ((good_iff l).mpr hrl) ((good_iff r).mpr hrr)
  exact ⟨t, e1, e2, h2, h3⟩

/-- **C125**: splitting a tree. -/
theorem C125_split (g : α → M → M → M) (z : M) (t : Dict.Tree (α × M)) (hr : Right g z t) (hv : Valid (erase t)) (cmp : α → Int)
    (hs : Sorted cmp (toList (erase t))) (back : Bool) :
    ∃ l r, splitA g z cmp back t = some (l, r) ∧ Right g z l ∧ Right g z r ∧ Valid (erase l) ∧ Valid (erase r) ∧
      toList (erase l) = (toList (erase t)).filter (fun a => cmp a > 0 ∨ (cmp a = 0 ∧ back = false)) ∧
      toList (erase r) = (toList (erase t)).filter (fun a => cmp a < 0 ∨ (cmp a = 0 ∧ back = true)) := by
  obtain ⟨l, r, h1, h2, h3, h4, h5⟩ := C31_split (erase t) hv cmp hs back
  have e := splitA_erase g z cmp back t
  rw [h1] at e
  obtain ⟨q, e1, e2⟩ := Option.map_eq_some_iff.mp e
  obtain ⟨l', r'⟩ := q
  simp only [Prod.mk.injEq] at e2
  obtain ⟨rfl, rfl⟩ := e2
  have hg := splitA_good (g := g) (z := z) e1 ((good_iff t).mpr hr)
  exact ⟨l', r', e1, (good_iff _).mp hg.1, (good_iff _).mp hg.2, h2, h3, h4, h5⟩

theorem xors_append (f : α → Nat) (a b : List α) : xors f (a ++ b) = xors f a ^^^ xors f b := by
  induction a with
  | nil => simp [xors]
  | cons x a ih =>
    simp only [xors, List.cons_append, List.map_cons, List.foldr_cons] at ih ⊢
    rw [ih, Nat.xor_assoc]

theorem total_xors (f : α → Nat) (t : Dict.Tree α) : total (fun a x y => f a ^^^ x ^^^ y) 0 t = xors f (toList t) := by
  induction t with
  | leaf => rfl
  | node l a s r ih1 ih2 =>
    rw [total, toList, xors_append, ih1, ih2, Nat.xor_comm (f a), Nat.xor_assoc]
    rfl

/-- **C125**, the use for bundles of edges: if the stored values are right, then what is stored in a node is the exclusive-or of the
members of all nodes of its subtree; for the root, of the whole tree. -/
theorem C125_bundle (f : α → Nat) (t : Dict.Tree (α × Nat)) (hr : Right (fun a x y => f a ^^^ x ^^^ y) 0 t) :
    (∀ a, rootId t = some a → a.2 = xors f (toList (erase t))) ∧
    ∀ (l : Dict.Tree (α × Nat)) a s r p, t = plug (node l a s r) p → a.2 = xors f (toList (erase (node l a s r))) := by
  have h : ∀ (l : Dict.Tree (α × Nat)) a s r p, t = plug (node l a s r) p → a.2 = xors f (toList (erase (node l a s r))) := by
    intro l a s r p e
    have h1 := (good_iff _).mpr hr
    rw [e] at h1
    have h2 := (good_iff _).mp (plug_good h1).1
    rw [h2.2.2, total_xors]
  refine ⟨fun a ha => ?_, h⟩
  cases t with
  | leaf => cases ha
  | node l b s r =>
    cases ha
    exact h l _ s r [] rfl

/-! ### examples -/

/-- the tree of the examples of C28 with stored values -/
def exAug : Dict.Tree (Nat × Nat) :=
  node (node (node leaf (1, 1) 1 leaf) (2, 3) 2 leaf) (3, 0) 4
    (node (node leaf (4, 4) 2 leaf) (5, 0) 3 (node leaf (6, 1) 2 (node leaf (7, 7) 1 leaf)))

example : erase exAug = exTree := rfl

/-- the callback for bundles, with the numbers of the nodes as members -/
def exG (a x y : Nat) : Nat := a ^^^ x ^^^ y

theorem exAug_right : Right exG 0 exAug := by
  simp only [Right, exAug, true_and]
  decide

example : Valid (erase exAug) ∧ 9 ∉ toList (erase exAug) ∧ toList (erase exAug) = [1, 2, 3, 4] ++ 5 :: [6, 7] :=
  ⟨exTree_valid, by decide, rfl⟩
example : (insertRefA exG 0 (9, 77) (some 7) true exAug).map (fun r => (toList r.1, r.2)) =
    some ([(1, 1), (2, 3), (3, 9), (4, 4), (5, 9), (6, 6), (7, 8), (9, 9)], some 3) := by decide
example : (removeA exG 0 3 exAug).map (fun r => (toList r.1, r.2)) =
    some ([(1, 1), (2, 3), (4, 3), (5, 5), (6, 4), (7, 7)], some 4) := by decide
example : (join3A exG 0 exAug (8, 77) (node leaf (9, 9) 1 leaf)).map (fun r => (rootId r.1, r.2)) = some (some (5, 1), some 5) := by decide
example : (splitA exG 0 (fun n => 5 - (n : Int)) true exAug).map (fun r => (rootId r.1, rootId r.2)) =
    some (some (3, 4), some (6, 4)) := by decide
example : Sorted (fun (n : Nat) => 5 - (n : Int)) (toList (erase exAug)) := by
  unfold Sorted
  decide

end Hob3l.Aug
