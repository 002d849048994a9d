import Verif.Dedup.Model
import Verif.Dict.Props
import Mathlib.Tactic.SplitIfs

/-!
C57: deduplicating vertices assigns one index per distinct vertex.

Proved for every consistent comparison.  The comparison that is used treats coordinates as equal if they differ by less
than an epsilon, and this is not consistent: `C57_epsilon_wrong`.
-/

namespace Hob3l.Dedup

open Hob3l.Dict

variable {V : Type} [DecidableEq V]

/-- the comparison is a total preorder -/
structure Consistent (cmp : V → V → Int) : Prop where
  anti : ∀ a b, cmp a b < 0 ↔ 0 < cmp b a
  trans : ∀ a b c, cmp a b ≤ 0 → cmp b c ≤ 0 → cmp a c ≤ 0

omit [DecidableEq V] in
theorem Consistent.refl {cmp : V → V → Int} (h : Consistent cmp) (a : V) : cmp a a = 0 := by
  have := h.anti a a; omega

omit [DecidableEq V] in
theorem Consistent.le_lt {cmp : V → V → Int} (h : Consistent cmp) {a b c : V} (h1 : cmp a b ≤ 0) (h2 : cmp b c < 0) :
    cmp a c < 0 := by
  by_contra hc
  have e1 : cmp c a ≤ 0 := by have := h.anti c a; have := h.anti a c; omega
  have e2 := h.trans c a b e1 h1
  have := (h.anti b c).1 h2
  omega

omit [DecidableEq V] in
theorem Consistent.eq_symm {cmp : V → V → Int} (h : Consistent cmp) {a b : V} (h1 : cmp a b = 0) : cmp b a = 0 := by
  have := h.anti a b; have := h.anti b a; omega

omit [DecidableEq V] in
theorem Consistent.eq_trans {cmp : V → V → Int} (h : Consistent cmp) {a b c : V} (h1 : cmp a b = 0) (h2 : cmp b c = 0) :
    cmp a c = 0 := by
  have e1 := h.trans a b c (by omega) (by omega)
  have e2 := h.trans c b a (by have := h.eq_symm h2; omega) (by have := h.eq_symm h1; omega)
  have := h.anti c a; have := h.anti a c; omega

/-- what holds of the dictionary: `reps` are the representatives by index -/
structure DInv (cmp : V → V → Int) (reps : List V) (d : VDict V) : Prop where
  valid : Valid d.root
  sorted : (toList d.root).Pairwise (fun a b => cmp a.2 b.2 < 0)
  mem : ∀ a, a ∈ toList d.root ↔ reps[a.1]? = some a.2
  size : d.size = reps.length

omit [DecidableEq V] in
theorem sorted_of {cmp : V → V → Int} (h : Consistent cmp) (v : V) {L : List (Nat × V)}
    (hL : L.Pairwise (fun a b => cmp a.2 b.2 < 0)) : Sorted (fun n : Nat × V => cmp v n.2) L := by
  unfold Sorted
  refine hL.imp ?_
  intro a b hab
  refine ⟨fun h1 => h.le_lt (Int.le_of_lt h1) hab, fun h1 => ?_⟩
  exact Int.le_of_lt (h.le_lt h1 hab)

omit [DecidableEq V] in
theorem pairwise_or {cmp : V → V → Int} {L : List (Nat × V)} (hL : L.Pairwise (fun a b => cmp a.2 b.2 < 0))
    {a b : Nat × V} (ha : a ∈ L) (hb : b ∈ L) (hne : a ≠ b) : cmp a.2 b.2 < 0 ∨ cmp b.2 a.2 < 0 := by
  induction L with
  | nil => cases ha
  | cons c L ih =>
    rw [List.pairwise_cons] at hL
    rw [List.mem_cons] at ha hb
    rcases ha with rfl | ha
    · rcases hb with rfl | hb
      · exact absurd rfl hne
      · exact .inl (hL.1 b hb)
    · rcases hb with rfl | hb
      · exact .inr (hL.1 a ha)
      · exact ih hL.2 ha hb

theorem insert_ok {cmp : V → V → Int} (h : Consistent cmp) {reps : List V} {d : VDict V} (hd : DInv cmp reps d) (v : V) :
    ∃ n d' reps', insert cmp v d = some (n, d') ∧ DInv cmp reps' d' ∧ reps'[n.1]? = some n.2 ∧ cmp v n.2 = 0 ∧
      ((n.1 < reps.length ∧ reps' = reps) ∨ (n.1 = reps.length ∧ reps' = reps ++ [v] ∧ ∀ w ∈ reps, cmp v w ≠ 0)) := by
  have hs := sorted_of h v hd.sorted
  have hx : (d.size, v) ∉ toList d.root := by
    rw [hd.mem, hd.size]; simp
  have hby := C30_insert_by d.root hd.valid (d.size, v) hx (fun n => cmp v n.2) 0 hs
  unfold insert
  cases hf : findRet (fun n : Nat × V => cmp v n.2) 0 d.root with
  | some n =>
    obtain ⟨h1, h2, -⟩ := hby.1 n hf
    have h3 := (hd.mem n).1 h1
    refine ⟨n, d, reps, rfl, hd, h3, h2, .inl ⟨?_, rfl⟩⟩
    exact (List.getElem?_eq_some_iff.1 h3).1
  | none =>
    obtain ⟨t', h1, h2, h3⟩ := hby.2 hf
    have hlook := (C30_lookup d.root (fun n => cmp v n.2) hs).1
    have hne : ∀ a ∈ toList d.root, cmp v a.2 ≠ 0 := by
      intro a ha h0
      obtain ⟨b, -, -, hb⟩ := hlook ⟨a, ha, h0⟩
      rw [hf] at hb; cases hb
    unfold insertUpdateBy at h1
    rw [hf] at h1
    simp only at h1
    -- the insertion succeeds
    cases hins : insertRef (d.size, v) (findRef (fun n : Nat × V => cmp v n.2) 0 d.root).p
        (findRef (fun n : Nat × V => cmp v n.2) 0 d.root).i d.root with
    | none => rw [hins] at h1; simp at h1
    | some res =>
      rw [hins] at h1
      simp only [Option.bind_eq_bind, Option.bind_some, Option.some.injEq, Inserted.mk.injEq] at h1
      refine ⟨(d.size, v), ⟨res.1, d.size + 1⟩, reps ++ [v], ?_, ?_, ?_, h.refl v, .inr ⟨hd.size, rfl, ?_⟩⟩
      · simp only [hins, Option.bind_eq_bind, Option.bind_some]
      · rw [h1.2.1]
        have hmem : ∀ a, a ∈ toList t' ↔ a = (d.size, v) ∨ a ∈ toList d.root := by
          intro a
          rw [h3]
          simp only [List.mem_append, List.mem_filter, List.mem_cons, decide_eq_true_eq]
          constructor
          · rintro (h | h | h)
            · exact .inr h.1
            · exact .inl h
            · exact .inr h.1
          · rintro (h | h)
            · exact .inr (.inl h)
            · have := hne a h
              rcases lt_or_gt_of_ne this with h' | h'
              · exact .inr (.inr ⟨h, .inl h'⟩)
              · exact .inl ⟨h, .inl h'⟩
        refine ⟨h2, ?_, ?_, ?_⟩
        · simp only
          rw [h3, List.pairwise_append]
          refine ⟨hd.sorted.filter _, List.pairwise_cons.2 ⟨?_, hd.sorted.filter _⟩, ?_⟩
          · intro b hb
            simp only [List.mem_filter, decide_eq_true_eq] at hb
            have := hne b hb.1
            simp only
            omega
          · intro a ha b hb
            simp only [List.mem_filter, decide_eq_true_eq] at ha
            have ha0 := hne a ha.1
            have ha1 : cmp a.2 v < 0 := (h.anti a.2 v).2 (by omega)
            rw [List.mem_cons] at hb
            rcases hb with rfl | hb
            · exact ha1
            · simp only [List.mem_filter, decide_eq_true_eq] at hb
              have hb0 := hne b hb.1
              exact h.le_lt (by omega : cmp a.2 v ≤ 0) (by omega)
        · intro a
          simp only
          rw [hmem, hd.mem, hd.size]
          constructor
          · rintro (rfl | h)
            · simp
            · rw [List.getElem?_append_left (List.getElem?_eq_some_iff.1 h).1]; exact h
          · intro h
            by_cases hl : a.1 < reps.length
            · rw [List.getElem?_append_left hl] at h; exact .inr h
            · rw [List.getElem?_append_right (by omega)] at h
              left
              have : a.1 - reps.length = 0 := by
                by_contra hc
                rw [List.getElem?_eq_none (by simp; omega)] at h
                cases h
              rw [this] at h
              simp only [List.getElem?_cons_zero, Option.some.injEq] at h
              ext
              · show a.1 = reps.length; omega
              · exact h.symm
        · simp only [List.length_append, List.length_singleton, hd.size]
      · simp [hd.size]
      · intro w hw
        obtain ⟨k, hk⟩ := List.getElem?_of_mem hw
        exact hne (k, w) ((hd.mem (k, w)).2 hk)

theorem insertAll_ok {cmp : V → V → Int} (h : Consistent cmp) (vs : List V) {reps : List V} {d : VDict V}
    (hd : DInv cmp reps d) :
    ∃ idx d' reps' , insertAll cmp vs d = some (idx, d') ∧ DInv cmp reps' d' ∧ idx.length = vs.length ∧
      (∃ more, reps' = reps ++ more) ∧
      (∀ (i : Nat) (v : V), vs[i]? = some v → ∃ k w, idx[i]? = some k ∧ reps'[k]? = some w ∧ cmp v w = 0) ∧
      (∀ k, reps.length ≤ k → k < reps'.length → ∃ i : Nat, idx[i]? = some k ∧ ∀ j < i, ∃ k', idx[j]? = some k' ∧ k' < k) := by
  induction vs generalizing reps d with
  | nil =>
    refine ⟨[], d, reps, rfl, hd, rfl, ⟨[], by simp⟩, by simp, fun k h1 h2 => by omega⟩
  | cons v vs ih =>
    obtain ⟨n, d1, reps1, e1, e2, e3, e4, e5⟩ := insert_ok h hd v
    obtain ⟨idx, d2, reps2, f1, f2, f3, ⟨more, f4⟩, f5, f6⟩ := ih e2
    have hn : n.1 < reps1.length := (List.getElem?_eq_some_iff.1 e3).1
    refine ⟨n.1 :: idx, d2, reps2, ?_, f2, by simp [f3], ?_, ?_, ?_⟩
    · simp only [insertAll, e1, f1, Option.bind_eq_bind, Option.bind_some]
    · rcases e5 with ⟨-, e6⟩ | ⟨-, e6, -⟩
      · exact ⟨more, by rw [f4, e6]⟩
      · exact ⟨v :: more, by rw [f4, e6]; simp⟩
    · intro i u hu
      cases i with
      | zero =>
        simp only [List.getElem?_cons_zero, Option.some.injEq] at hu
        subst hu
        refine ⟨n.1, n.2, by simp, ?_, e4⟩
        rw [f4, List.getElem?_append_left hn]; exact e3
      | succ i =>
        simp only [List.getElem?_cons_succ] at hu ⊢
        exact f5 i u hu
    · intro k hk1 hk2
      rcases e5 with ⟨e6, e7⟩ | ⟨e6, e7, -⟩
      · obtain ⟨i, g1, g2⟩ := f6 k (by rw [e7]; exact hk1) hk2
        refine ⟨i + 1, by simpa using g1, fun j hj => ?_⟩
        cases j with
        | zero => exact ⟨n.1, by simp, by omega⟩
        | succ j => simpa using g2 j (by omega)
      · by_cases hk : k = reps.length
        · exact ⟨0, by simp [hk, e6], fun j hj => by omega⟩
        · obtain ⟨i, g1, g2⟩ := f6 k (by rw [e7]; simp; omega) hk2
          refine ⟨i + 1, by simpa using g1, fun j hj => ?_⟩
          cases j with
          | zero => exact ⟨n.1, by simp, by omega⟩
          | succ j => simpa using g2 j (by omega)

/-- For every sequence of vertices and every consistent comparison: no assertion fails; each vertex gets an index; two
vertices get the same index if and only if they are equal; the indices are `0` up to the number of distinct vertices; and
they are given in the order of first occurrence (before the first vertex with index `k`, there are only smaller indices).
Missing: the comparison that is actually used is not consistent. -/
theorem C57_dedup_partial (cmp : V → V → Int) (h : Consistent cmp) (vs : List V) :
    ∃ idx d, insertAll cmp vs .empty = some (idx, d) ∧ idx.length = vs.length ∧
      (∀ (i j : Nat) a b k l, vs[i]? = some a → vs[j]? = some b → idx[i]? = some k → idx[j]? = some l →
        (k = l ↔ cmp a b = 0)) ∧
      (∀ k ∈ idx, k < d.size) ∧
      (∀ k, k < d.size → ∃ i : Nat, idx[i]? = some k ∧ ∀ j < i, ∃ k', idx[j]? = some k' ∧ k' < k) := by
  have h0 : DInv cmp [] (.empty : VDict V) :=
    ⟨⟨⟨_, _, .leaf⟩, by simp [VDict.empty, toList]⟩, by simp [VDict.empty, toList], by simp [VDict.empty, toList], rfl⟩
  obtain ⟨idx, d, reps, e1, e2, e3, -, e4, e5⟩ := insertAll_ok h vs h0
  refine ⟨idx, d, e1, e3, ?_, ?_, ?_⟩
  · intro i j a b k l ha hb hk hl
    obtain ⟨k', w, g1, g2, g3⟩ := e4 i a ha
    obtain ⟨l', w', g4, g5, g6⟩ := e4 j b hb
    rw [hk] at g1; cases g1
    rw [hl] at g4; cases g4
    constructor
    · rintro rfl
      rw [g2] at g5; cases g5
      exact h.eq_trans g3 (h.eq_symm g6)
    · intro hab
      have hww : cmp w w' = 0 := h.eq_trans (h.eq_symm g3) (h.eq_trans hab g6)
      have m1 := (e2.mem (k, w)).2 g2
      have m2 := (e2.mem (l, w')).2 g5
      by_contra hkl
      have hne : (k, w) ≠ (l, w') := fun he => hkl (by cases he; rfl)
      have hp := e2.sorted
      have : cmp w w' < 0 ∨ cmp w' w < 0 :=
        pairwise_or hp m1 m2 hne
      have := h.eq_symm hww
      omega
  · intro k hk
    obtain ⟨i, hi⟩ := List.getElem?_of_mem hk
    have hlt : i < vs.length := by rw [← e3]; exact (List.getElem?_eq_some_iff.1 hi).1
    obtain ⟨k', w, g1, g2, -⟩ := e4 i _ (List.getElem?_eq_getElem hlt)
    rw [hi] at g1; cases g1
    rw [e2.size]
    exact (List.getElem?_eq_some_iff.1 g2).1
  · intro k hk
    exact e5 k (by simp) (by rw [← e2.size]; exact hk)

/-- the exact comparison, without an epsilon, of vertices with three coordinates -/
def exactCmp (a b : Int × Int × Int) : Int :=
  if a.1 < b.1 then -1 else if b.1 < a.1 then 1 else
  if a.2.1 < b.2.1 then -1 else if b.2.1 < a.2.1 then 1 else
  if a.2.2 < b.2.2 then -1 else if b.2.2 < a.2.2 then 1 else 0

theorem exactCmp_lt (a b : Int × Int × Int) : exactCmp a b < 0 ↔
    a.1 < b.1 ∨ (a.1 = b.1 ∧ (a.2.1 < b.2.1 ∨ (a.2.1 = b.2.1 ∧ a.2.2 < b.2.2))) := by
  unfold exactCmp; split_ifs <;> omega

theorem exactCmp_gt (a b : Int × Int × Int) : 0 < exactCmp a b ↔
    b.1 < a.1 ∨ (b.1 = a.1 ∧ (b.2.1 < a.2.1 ∨ (b.2.1 = a.2.1 ∧ b.2.2 < a.2.2))) := by
  unfold exactCmp; split_ifs <;> omega

/-- the hypothesis of `C57_dedup_partial` is met -/
theorem exactCmp_consistent : Consistent exactCmp := by
  constructor
  · intro a b
    rw [exactCmp_lt, exactCmp_gt]
  · intro a b c h1 h2
    have e : ∀ x y, exactCmp x y ≤ 0 ↔ ¬ 0 < exactCmp x y := fun x y => by omega
    rw [e, exactCmp_gt] at *
    omega

example : (insertAll exactCmp [(1, 0, 0), (0, 0, 0), (1, 0, 0), (0, 1, 0), (0, 0, 0)] .empty).map (·.1) =
    some [0, 1, 0, 2, 1] := by decide +kernel

theorem lexCmp_one (a b c d e f : Int) : lexCmp 1 [a, b, c] [d, e, f] = exactCmp (a, b, c) (d, e, f) := by
  simp only [lexCmp, exactCmp]
  split_ifs <;> omega

/-- The comparison of the code for coordinates that are multiples of the epsilon (here: the unit): in this case, it is
consistent, so that the deduplication is right. -/
theorem C57_grid_partial (vs : List (Int × Int × Int)) :
    ∃ idx d, insertAll (fun a b => lexCmp 1 [a.1, a.2.1, a.2.2] [b.1, b.2.1, b.2.2]) vs .empty = some (idx, d) ∧
      idx.length = vs.length ∧
      (∀ (i j : Nat) a b k l, vs[i]? = some a → vs[j]? = some b → idx[i]? = some k → idx[j]? = some l →
        (k = l ↔ a = b)) ∧
      (∀ k ∈ idx, k < d.size) ∧
      (∀ k, k < d.size → ∃ i : Nat, idx[i]? = some k ∧ ∀ j < i, ∃ k', idx[j]? = some k' ∧ k' < k) := by
  have e : (fun a b : Int × Int × Int => lexCmp 1 [a.1, a.2.1, a.2.2] [b.1, b.2.1, b.2.2]) = exactCmp := by
    funext a b; exact lexCmp_one ..
  rw [e]
  obtain ⟨idx, d, h1, h2, h3, h4, h5⟩ := C57_dedup_partial exactCmp exactCmp_consistent vs
  refine ⟨idx, d, h1, h2, fun i j a b k l ha hb hk hl => ?_, h4, h5⟩
  rw [h3 i j a b k l ha hb hk hl]
  have h6 := exactCmp_lt a b
  have h7 := exactCmp_gt a b
  constructor
  · intro h
    ext <;> omega
  · rintro rfl
    exact exactCmp_consistent.refl a

/-- With the comparison of the code, where the epsilon is 10 units, the vertices at 0, 15 and 8: the second and the third
compare equal, but get different indices; inserted in another order, they get the same index. -/
theorem C57_epsilon_wrong :
    (insertAll (lexCmp 10) [[0, 0, 0], [15, 0, 0], [8, 0, 0]] .empty).map (·.1) ≠ some [0, 1, 1] ∧
    lexCmp 10 [15, 0, 0] [8, 0, 0] = 0 ∧
    (insertAll (lexCmp 10) [[0, 0, 0], [15, 0, 0], [8, 0, 0]] .empty).map (·.1) = some [0, 1, 0] ∧
    (insertAll (lexCmp 10) [[15, 0, 0], [8, 0, 0], [0, 0, 0]] .empty).map (·.1) = some [0, 0, 1] ∧
    ¬ Consistent (lexCmp 10) := by
  refine ⟨by decide +kernel, by decide, by decide +kernel, by decide +kernel, fun h => ?_⟩
  have := h.eq_trans (a := [0, 0, 0]) (b := [8, 0, 0]) (c := [15, 0, 0]) (by decide) (by decide)
  revert this; decide

end Hob3l.Dedup
