import Verif.Rev.Lemmas
import Verif.Dict.Props

/-
Property C127: at a crossing, the order of the edges through it is reversed.
-/

namespace Hob3l.Rev

open Hob3l.Dict
open Hob3l.Dict.Tree
open Hob3l.Swap (rename exch)

variable {α ξ : Type} [DecidableEq α] [DecidableEq ξ]

/-- **C127**, phase 2: let `M1 ++ e :: M2` be the edges around `e` whose neighbours intersect in the point of the crossing, up to the
first pair in either direction that does not.  If there are less than 100 on each side of `e`, then their order is reversed, and
nothing else changes; half as many rounds as there are edges suffice. -/
theorem C127_phase2_partial (eqv : α → α → Bool) (tr : Dict.Tree α) (hv : Valid tr) (A M1 M2 B : List α) (e : α)
    (h : toList tr = A ++ (M1 ++ e :: M2) ++ B)
    (h2 : (e :: M2).IsChain (fun x y => eqv x y = true)) (hB : ∀ b, B.head? = some b → eqv (M2.getLastD e) b = false)
    (h1 : (e :: M1.reverse).IsChain (fun x y => eqv x y = true))
    (hA : ∀ a, A.getLast? = some a → eqv (M1.reverse.getLastD e) a = false)
    (l1 : M1.length < 100) (l2 : M2.length < 100) (n : Nat) (hn : M1.length + M2.length ≤ 2 * n) :
    ∃ tr', reverse2 eqv (some e) n tr = some tr' ∧ Valid tr' ∧ toList tr' = A ++ (M1 ++ e :: M2).reverse ++ B := by
  have f2 := findEnd_fwd (cont := eqv) hv.2 M2 e (A ++ M1) 100 (B := B) (by rw [h]; simp) h2 hB l2
  have f1 := findEnd_bwd (cont := eqv) hv.2 M1.reverse e (M2 ++ B) 100 (A := A) (by rw [h]; simp) h1 hA (by simpa using l1)
  have hm : e ∈ toList tr := by rw [h]; simp
  simp only [reverse2, Matq.ass, hm, if_true, f1, f2, Option.bind_eq_bind, Option.bind_some]
  by_cases hM : M1 ≠ [] ∨ M2 ≠ []
  · obtain ⟨M, hM⟩ := run_ends M1 M2 e hM
    have hlen := congrArg List.length hM
    simp only [List.length_append, List.length_cons, List.length_nil] at hlen
    generalize M1.reverse.getLastD e = s at hM ⊢
    generalize M2.getLastD e = t at hM ⊢
    rw [hM] at h
    have h' : toList tr = A ++ s :: (M ++ t :: B) := by rw [h]; simp
    have hst : s ≠ t := by
      rintro rfl
      have := hv.2
      rw [h'] at this
      simp [List.nodup_append] at this
    obtain ⟨tr', q1, q2, q3⟩ := revLoop2_ok n M A B s t tr h' hv.2 (by omega)
    rw [if_neg hst]
    refine ⟨tr', q1, ?_, ?_⟩
    · obtain ⟨c, k, hrb⟩ := hv.1
      refine ⟨⟨c, k, q3 c k hrb⟩, ?_⟩
      have hp : (toList tr').Perm (toList tr) := by
        rw [q2, h']
        refine List.Perm.append_left A ?_
        have p1 : (t :: (M.reverse ++ s :: B)).Perm (s :: t :: (M.reverse ++ B)) :=
          (List.perm_middle.cons t).trans (List.Perm.swap s t _)
        have p2 : (s :: (M ++ t :: B)).Perm (s :: t :: (M ++ B)) := List.perm_middle.cons s
        exact p1.trans (((M.reverse_perm.append_right B).cons t).cons s |>.trans p2.symm)
      exact hp.nodup_iff.mpr hv.2
    · rw [q2, hM]
      simp
  · have e1 : M1 = [] := by
      by_contra k
      exact hM (Or.inl k)
    have e2 : M2 = [] := by
      by_contra k
      exact hM (Or.inr k)
    subst e1 e2
    refine ⟨tr, by simp, hv, by rw [h]; simp⟩

/-- **C127**, phase 2: a hundred or more edges above `e` through the point make it abort. -/
theorem C127_phase2_wrong (eqv : α → α → Bool) (tr : Dict.Tree α) (hv : Valid tr) (A M B : List α) (e : α)
    (h : toList tr = A ++ e :: M ++ B) (h2 : (e :: M).IsChain (fun x y => eqv x y = true)) (l2 : 100 ≤ M.length) (n : Nat) :
    reverse2 eqv (some e) n tr = none := by
  have f2 := findEnd_fwd_none (cont := eqv) hv.2 100 M e A (B := B) (by rw [h]; simp) h2 l2
  simp only [reverse2, f2, Option.bind_eq_bind, Option.bind_none]
  cases Matq.ass (e ∈ toList tr) <;> rfl

/-- **C127**, phase 1: let `ev` be a crossing known to the edge `e`, and `M1 ++ e :: M2` the edges around `e` that wait for it, at
least two and less than 100 on each side.  If neighbours in the state agree on the crossing they wait for, then nothing aborts, the
order of these edges is reversed and nothing else in the state changes; these edges do not wait for any crossing any more, the edges
next to them do not wait for one with them, and the crossings that were expected there are forgotten. -/
theorem C127_phase1_partial (ev : ξ) (south : α → Bool) (tb : Bool → Option α) (xs : XS α ξ) (tr : Dict.Tree α) (hv : Valid tr)
    (A M1 M2 B : List α) (e : α) (he : xs.se ev = some e) (h : toList tr = A ++ (M1 ++ e :: M2) ++ B)
    (h2 : ∀ x ∈ M2, xs.px x = some ev) (hB : ∀ b, B.head? = some b → xs.px b ≠ some ev)
    (h1 : ∀ x ∈ M1, xs.nx x = some ev) (hA : ∀ a, A.getLast? = some a → xs.nx a ≠ some ev)
    (hc : (toList tr).IsChain (fun x y => xs.nx x = xs.px y)) (hM : M1 ≠ [] ∨ M2 ≠ [])
    (l1 : M1.length < 100) (l2 : M2.length < 100) (n : Nat) (hn : M1.length + M2.length ≤ 2 * n) :
    ∃ r, cross ev south n tb xs tr = some r ∧ Valid r.tr ∧ toList r.tr = A ++ (M1 ++ e :: M2).reverse ++ B ∧
      r.s = (M1 ++ [e]).headD e ∧ r.t = (e :: M2).getLastD e ∧ r.r = A.getLast? ∧ r.u = B.head? ∧
      r.tb (south r.t) = some r.t ∧ (south r.s ≠ south r.t → r.tb (south r.s) = some r.s) ∧
      (∀ i, i ≠ south r.s → i ≠ south r.t → r.tb i = tb i) ∧
      (∀ y, r.xs.nx y = if y ∈ M1 ++ e :: M2 ∨ r.r = some y then none else xs.nx y) ∧
      (∀ y, r.xs.px y = if y ∈ M1 ++ e :: M2 ∨ r.u = some y then none else xs.px y) ∧
      ∀ c, r.xs.se c = if c = ev ∨ r.r.bind xs.nx = some c ∨ xs.px r.s = some c ∨ xs.nx r.t = some c ∨ r.u.bind xs.px = some c
        then none else xs.se c := by
  have f2 := findEnd_fwd (cont := fun _ u => decide (xs.px u = some ev)) hv.2 M2 e (A ++ M1) 100 (B := B) (by rw [h]; simp)
    (chain_of_forall M2 e fun y hy => by simp [h2 y hy]) (fun b hb => by simp [hB b hb]) l2
  have f1 := findEnd_bwd (cont := fun _ u => decide (xs.nx u = some ev)) hv.2 M1.reverse e (M2 ++ B) 100 (A := A) (by rw [h]; simp)
    (chain_of_forall _ e fun y hy => by simp [h1 y (by simpa using hy)]) (fun b hb => by simp [hA b hb]) (by simpa using l1)
  -- the crossings of the edges of the run
  have hc' : (M1 ++ e :: M2).IsChain (fun x y => xs.nx x = xs.px y) := by
    rw [h] at hc
    exact hc.left_of_append.right_of_append
  have run2 := chain_run M2 e hc'.right_of_append h2
  have run1 := chain_run (f := xs.px) (k := xs.nx) (ev := ev) M1.reverse e (by
    have hh := (List.isChain_split.mp hc').1
    have : (e :: M1.reverse) = (M1 ++ [e]).reverse := by simp
    rw [this, List.isChain_reverse]
    exact hh.imp fun x y q => q.symm) (fun y hy => h1 y (by simpa using hy))
  obtain ⟨M, hR⟩ := run_ends M1 M2 e hM
  have hlen := congrArg List.length hR
  simp only [List.length_append, List.length_cons, List.length_nil] at hlen
  have s' : (M1 ++ [e]).headD e = M1.reverse.getLastD e := by cases M1 <;> simp [List.getLastD_eq_getLast?]
  have t' : (e :: M2).getLastD e = M2.getLastD e := by rw [List.getLastD_cons]
  rw [s', t']
  generalize hs : M1.reverse.getLastD e = s at *
  generalize ht : M2.getLastD e = t at *
  have h' : toList tr = A ++ s :: (M ++ t :: B) := by rw [h, hR]; simp
  have hnd := hv.2
  rw [h'] at hnd
  simp only [List.nodup_append, List.nodup_cons, List.mem_append, List.mem_cons, not_or] at hnd
  obtain ⟨nA, ⟨ns, nM, ⟨nt, nB⟩, nMB⟩, nAs⟩ := hnd
  have hst : s ≠ t := ns.2.1
  have mA : ∀ a, A.getLast? = some a → a ∈ A := fun a ha => List.mem_of_getLast? ha
  have mB : ∀ a, B.head? = some a → a ∈ B := fun a ha => List.mem_of_mem_head? ha
  have x1 : A.getLast? ≠ some s := fun q => nAs s (mA s q) s (Or.inl rfl) rfl
  have x2 : A.getLast? ≠ some t := fun q => nAs t (mA t q) t (Or.inr (Or.inr (Or.inl rfl))) rfl
  have x3 : B.head? ≠ some s := fun q => ns.2.2 (mB s q)
  have x4 : B.head? ≠ some t := fun q => nt (mB t q)
  obtain ⟨p1, p2, p3⟩ := split_spec (xs.clrS ev) A.getLast? (some s)
  obtain ⟨q1, q2, q3⟩ := split_spec (split (xs.clrS ev) A.getLast? (some s)) (some t) B.head?
  have hx : ∀ x, x ∈ s :: (M ++ [t]) →
      ((split (split (xs.clrS ev) A.getLast? (some s)) (some t) B.head?).nx x = none ∨
        (split (split (xs.clrS ev) A.getLast? (some s)) (some t) B.head?).nx x = some ev) ∧
      ((split (split (xs.clrS ev) A.getLast? (some s)) (some t) B.head?).px x = none ∨
        (split (split (xs.clrS ev) A.getLast? (some s)) (some t) B.head?).px x = some ev) := by
    intro x hxm
    rw [← hR, List.mem_append, List.mem_cons] at hxm
    rw [q1, q2, p1, p2]
    constructor
    · by_cases k1 : some t = some x
      · simp [k1]
      · rw [if_neg k1]
        by_cases k2 : A.getLast? = some x
        · simp [k2]
        · rw [if_neg k2]
          refine Or.inr ?_
          rcases hxm with hxm | hxm
          · exact h1 x hxm
          · rcases run2 x (by simpa using hxm) with q | q
            · exact absurd (by rw [q]) k1
            · exact q
    · by_cases k1 : B.head? = some x
      · simp [k1]
      · rw [if_neg k1]
        by_cases k2 : some s = some x
        · simp [k2]
        · rw [if_neg k2]
          refine Or.inr ?_
          rcases hxm with hxm | hxm | hxm
          · rcases run1 x (by simp [hxm]) with q | q
            · exact absurd (by rw [q]) k2
            · exact q
          · rcases run1 x (by simp [hxm]) with q | q
            · exact absurd (by rw [q]) k2
            · exact q
          · exact h2 x hxm
  obtain ⟨tr', xs', r1, r2, r3, r4, r5, r6⟩ := revLoop1_ok ev n M A B s t tr _ h' hv.2 (by omega) hx
  refine ⟨⟨tr', xs', s, t, A.getLast?, B.head?, fun i => if i = south t then some t else if i = south s then some s else tb i⟩,
    ?_, ?_, ?_, rfl, rfl, rfl, rfl, ?_, ?_, ?_, ?_, ?_, ?_⟩
  · simp only [cross, he, f1, f2, r1, Matq.ass, hst, x1, x2, x3, x4, ne_eq, not_false_eq_true, if_true, Option.bind_eq_bind,
      Option.bind_some]
  · obtain ⟨c, k, hrb⟩ := hv.1
    refine ⟨⟨c, k, r3 c k hrb⟩, ?_⟩
    have hp : (toList tr').Perm (toList tr) := by
      rw [r2, h']
      refine List.Perm.append_left A ?_
      have p1 : (t :: (M.reverse ++ s :: B)).Perm (s :: t :: (M.reverse ++ B)) :=
        (List.perm_middle.cons t).trans (List.Perm.swap s t _)
      have p2 : (s :: (M ++ t :: B)).Perm (s :: t :: (M ++ B)) := List.perm_middle.cons s
      exact p1.trans (((M.reverse_perm.append_right B).cons t).cons s |>.trans p2.symm)
    exact hp.nodup_iff.mpr hv.2
  · show toList tr' = _
    rw [r2, hR]
    simp
  · simp
  · intro k
    have : south s ≠ south t := k
    simp [this]
  · intro i k1 k2
    have k1' : i ≠ south s := k1
    have k2' : i ≠ south t := k2
    simp [k1', k2']
  · intro y
    show xs'.nx y = _
    rw [r4, q1, p1, hR]
    by_cases k1 : y ∈ s :: (M ++ [t])
    · simp only [k1, if_true, true_or]
    · have : t ≠ y := fun k => k1 (by simp [← k])
      simp only [k1, if_false, false_or, Option.some.injEq, this]
      rfl
  · intro y
    show xs'.px y = _
    rw [r5, q2, p2, hR]
    by_cases k1 : y ∈ s :: (M ++ [t])
    · simp only [k1, if_true, true_or]
    · have : s ≠ y := fun k => k1 (by simp [← k])
      simp only [k1, if_false, false_or, Option.some.injEq, this]
      rfl
  · intro c
    show xs'.se c = _
    rw [r6, q3, p3]
    have w1 : (some t).bind (split (xs.clrS ev) A.getLast? (some s)).nx = xs.nx t := by
      rw [Option.bind_some, p1, if_neg x2]
      rfl
    have w2 : B.head?.bind (split (xs.clrS ev) A.getLast? (some s)).px = B.head?.bind xs.px := by
      cases k : B.head? with
      | none => rfl
      | some b =>
        rw [Option.bind_some, p2, if_neg (fun q => x3 (k.trans q.symm))]
        rfl
    rw [w1, w2]
    show _ = if c = ev ∨ A.getLast?.bind xs.nx = some c ∨ xs.px s = some c ∨ xs.nx t = some c ∨ B.head?.bind xs.px = some c
        then none else xs.se c
    have w3 : A.getLast?.bind (xs.clrS ev).nx = A.getLast?.bind xs.nx := rfl
    have w4 : (some s).bind (xs.clrS ev).px = xs.px s := rfl
    rw [w3, w4]
    have w5 : (xs.clrS ev).se c = if c = ev then none else xs.se c := rfl
    rw [w5]
    by_cases k1 : c = ev <;> by_cases k2 : A.getLast?.bind xs.nx = some c <;> by_cases k3 : xs.px s = some c <;>
      by_cases k4 : xs.nx t = some c <;> by_cases k5 : B.head?.bind xs.px = some c <;> simp [k1, k2, k3, k4, k5]

/-- **C127**, phase 1: a hundred or more edges above `e` that wait for the crossing make it abort. -/
theorem C127_phase1_wrong (ev : ξ) (south : α → Bool) (tb : Bool → Option α) (xs : XS α ξ) (tr : Dict.Tree α) (hv : Valid tr)
    (A M B : List α) (e : α) (he : xs.se ev = some e) (h : toList tr = A ++ e :: M ++ B) (h2 : ∀ x ∈ M, xs.px x = some ev)
    (l2 : 100 ≤ M.length) (n : Nat) : cross ev south n tb xs tr = none := by
  have f2 := findEnd_fwd_none (cont := fun _ u => decide (xs.px u = some ev)) hv.2 100 M e A (B := B) (by rw [h]; simp)
    (chain_of_forall M e fun y hy => by simp [h2 y hy]) l2
  simp only [cross, he, f2, Option.bind_eq_bind, Option.bind_some, Option.bind_none]

/-! ### examples -/

-- 3, 4, 5, 6 of the tree of 1, ..., 7 meet
example : (reverse2 (fun x y => decide (3 ≤ x ∧ x ≤ 6 ∧ 3 ≤ y ∧ y ≤ 6)) (some 4) 2 exTree).map toList = some [1, 2, 6, 5, 4, 3, 7] := by
  decide
example : toList exTree = [1, 2] ++ ([3] ++ 4 :: [5, 6]) ++ [7] ∧
    (4 :: [5, 6]).IsChain (fun x y => decide (3 ≤ x ∧ x ≤ 6 ∧ 3 ≤ y ∧ y ≤ 6) = true) ∧
    (4 :: [3].reverse).IsChain (fun x y => decide (3 ≤ x ∧ x ≤ 6 ∧ 3 ≤ y ∧ y ≤ 6) = true) := by
  refine ⟨rfl, ?_, ?_⟩ <;> simp

/-- the pair 1, 2 waits for a crossing 0, the edges 3, 4, 5 for the crossing 1, 5 and 6 for 2 -/
def exXS : XS Nat Nat where
  nx x := [none, some 0, none, some 1, some 1, some 2, none, none].getD x none
  px x := [none, none, some 0, none, some 1, some 1, some 2, none].getD x none
  se x := [some 1, some 4, some 6].getD x none

example : (cross 1 (fun x => decide (x ≤ 3)) 1 (fun _ => none) exXS exTree).map
    (fun r => (toList r.tr, [some r.s, some r.t, r.r, r.u, r.tb true, r.tb false])) =
    some ([1, 2, 5, 4, 3, 6, 7], [some 3, some 5, some 2, some 6, some 3, some 5]) := by decide
example : (cross 1 (fun x => decide (x ≤ 3)) 1 (fun _ => none) exXS exTree).map
    (fun r => ([1, 2, 3, 4, 5, 6].map r.xs.nx, [1, 2, 3, 4, 5, 6].map r.xs.px, [0, 1, 2].map r.xs.se)) =
    some ([some 0, none, none, none, none, none], [none, some 0, none, none, none, none], [some 1, none, none]) := by decide
example : toList exTree = [1, 2] ++ ([3] ++ 4 :: [5]) ++ [6, 7] ∧ (toList exTree).IsChain (fun x y => exXS.nx x = exXS.px y) := by
  refine ⟨rfl, ?_⟩
  simp only [toList, exTree, List.nil_append, List.cons_append]
  decide

/-- a full tree with the edges `o`, `o + 1`, ... -/
def full : Nat → Nat → Dict.Tree Nat
  | 0, _ => leaf
  | d + 1, o => node (full d o) (o + (2 ^ d - 1)) (2 * d + 2) (full d (o + 2 ^ d))

theorem full_rb : ∀ d o, RB (full d o) false d
  | 0, _ => RB.leaf
  | d + 1, o => RB.black (full_rb d o) (full_rb d _)

theorem full_list : ∀ d o, toList (full d o) = List.range' o (2 ^ d - 1)
  | 0, _ => rfl
  | d + 1, o => by
    have hp : 0 < 2 ^ d := Nat.two_pow_pos d
    rw [full, toList, full_list d, full_list d]
    have e : 2 ^ (d + 1) - 1 = (2 ^ d - 1) + ((2 ^ d - 1) + 1) := by rw [Nat.pow_succ]; omega
    rw [e, ← List.range'_append_1, List.range'_succ]
    congr 3
    omega

theorem full_valid (d o : Nat) : Valid (full d o) := ⟨⟨_, _, full_rb d o⟩, by rw [full_list]; exact List.nodup_range'⟩

-- 127 edges through a point
example : Valid (full 7 0) ∧ toList (full 7 0) = [] ++ 0 :: List.range' 1 126 ++ [] ∧ 100 ≤ (List.range' 1 126).length :=
  ⟨full_valid 7 0, by rw [full_list]; rfl, by simp⟩

end Hob3l.Rev
