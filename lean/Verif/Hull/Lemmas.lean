import Verif.Hull.LemmasStack
import Mathlib.Tactic.FieldSimp
import Mathlib.Algebra.Order.Ring.Abs

/-!
From the epsilon comparisons and the array to the stack.
-/

namespace Hob3l.Hull

open Hob3l.Matq

theorem cmpE_exact {e a b : ℚ} (e0 : 0 < e) (h : a ≠ b → e ≤ |a - b|) :
    cmpE e a b = if a = b then 0 else if a < b then -1 else 1 := by
  unfold cmpE
  by_cases hab : a = b
  · subst hab; simp [e0]
  · rw [if_neg (not_lt.2 (h hab)), if_neg hab]

theorem normalZ_exact {e : Eps} {S : List V} (he : Separated e S) {a o b : V} (ha : a ∈ S) (ho : o ∈ S) (hb : b ∈ S) :
    (0 < normalZ e a o b ↔ 0 < turn a o b) ∧ (normalZ e a o b < 0 ↔ turn a o b < 0) := by
  unfold normalZ
  rw [cmpE_exact he.sqr0 (fun h => he.area a ha o ho b hb (fun h' => h (by unfold turn at h'; linarith)))]
  unfold turn
  split_ifs with h1 h2
  · simp [h1]
  · constructor <;> constructor <;> intro h <;> first | (exfalso; revert h; decide) | linarith | decide
  · have : (a.y - o.y) * (b.x - o.x) < (a.x - o.x) * (b.y - o.y) := lt_of_le_of_ne (not_lt.1 h2) (fun e => h1 e.symm)
    constructor <;> constructor <;> intro h <;> first | (exfalso; revert h; decide) | linarith | decide

theorem angleCmp_exact {e : Eps} {S : List V} (he : Separated e S) {u a b : V} (hu : u ∈ S) (ha : a ∈ S) (hb : b ∈ S) :
    angleCmp e u a b ≤ 0 ↔ L u a b := by
  obtain ⟨h1, h2⟩ := normalZ_exact he ha hu hb
  rw [turn_swap' u a b] at h1 h2
  have hd : cmpE e.eq (sqrDist u a) (sqrDist u b) ≤ 0 ↔ sqrDist u a ≤ sqrDist u b := by
    have hx := cmpE_exact he.eq0 (he.dist u hu a ha b hb)
    rw [hx]
    split_ifs with h1 h2
    · simp [h1]
    · simpa using h2.le
    · simpa using lt_of_le_of_ne (not_lt.1 h2) (fun e => h1 e.symm)
  unfold angleCmp L
  split_ifs with h0
  · constructor
    · intro h
      left
      have := h2.1 (by omega)
      linarith
    · rintro (h | ⟨h, -⟩)
      · have := h2.2 (by linarith); omega
      · rcases lt_trichotomy (normalZ e a u b) 0 with h3 | h3 | h3
        · omega
        · exact absurd h3 h0
        · have := h1.1 h3; linarith
  · have hz : normalZ e a u b = 0 := not_not.1 h0
    have ht : turn u a b = 0 := by
      rcases lt_trichotomy (turn u a b) 0 with h3 | h3 | h3
      · have := h1.2 (by linarith); omega
      · exact h3
      · have := h2.2 (by linarith); omega
    rw [hd, ht]; simp

theorem lexCmp_exact {e : Eps} {S : List V} (he : Separated e S) {a b : V} (ha : a ∈ S) (hb : b ∈ S) :
    (lexCmp e a b < 0 → Ge a b) ∧ (¬ lexCmp e a b < 0 → Ge b a) := by
  have hx : |a.x - b.x| < e.eq → a.x = b.x := fun h => by
    by_contra hne; exact absurd h (not_lt.2 ((he.coord a ha b hb).1 hne))
  have hy : |a.y - b.y| < e.eq → a.y = b.y := fun h => by
    by_contra hne; exact absurd h (not_lt.2 ((he.coord a ha b hb).2 hne))
  unfold lexCmp Ge
  split_ifs with h1 h2 h3 h3
  · exact ⟨fun h => absurd h (by decide), fun _ => .inr ⟨(hx h1).symm, (hy h2).ge⟩⟩
  · exact ⟨fun _ => .inr ⟨hx h1, h3.le⟩, fun h => absurd (by decide) h⟩
  · exact ⟨fun h => absurd h (by decide), fun _ => .inr ⟨(hx h1).symm, not_lt.1 h3⟩⟩
  · exact ⟨fun _ => .inl h3, fun h => absurd (by decide) h⟩
  · refine ⟨fun h => absurd h (by decide), fun _ => ?_⟩
    rcases lt_or_eq_of_le (not_lt.1 h3) with h | h
    · exact .inl h
    · exfalso; apply h1; rw [h]; simpa using he.eq0

theorem Ge.trans {a b c : V} (h1 : Ge a b) (h2 : Ge b c) : Ge a c := by
  unfold Ge at *
  rcases h1 with h1 | ⟨h1, h1'⟩ <;> rcases h2 with h2 | ⟨h2, h2'⟩
  · left; linarith
  · left; linarith
  · left; linarith
  · right; constructor <;> linarith

theorem Ge.refl (a : V) : Ge a a := .inr ⟨rfl, le_refl _⟩

theorem firstLoop_spec {e : Eps} {S : List V} (he : Separated e S) : ∀ (l : List V) (f : V), f ∈ S → (∀ v ∈ l, v ∈ S) →
    firstLoop e f l ∈ f :: l ∧ ∀ v ∈ f :: l, Ge (firstLoop e f l) v
  | [], f, _, _ => by simp [firstLoop, Ge.refl]
  | p :: l, f, hf, hl => by
    have hp := hl p (by simp)
    obtain ⟨c1, c2⟩ := lexCmp_exact he hp hf
    unfold firstLoop
    split_ifs with h
    · obtain ⟨h1, h2⟩ := firstLoop_spec he l p hp (fun v hv => hl v (List.mem_cons_of_mem _ hv))
      refine ⟨List.mem_cons_of_mem _ h1, fun v hv => ?_⟩
      rcases List.mem_cons.1 hv with rfl | hv
      · exact (h2 p (by simp)).trans (c1 h)
      · exact h2 v hv
    · obtain ⟨h1, h2⟩ := firstLoop_spec he l f hf (fun v hv => hl v (List.mem_cons_of_mem _ hv))
      refine ⟨?_, fun v hv => ?_⟩
      · rcases List.mem_cons.1 h1 with h1 | h1
        · rw [h1]; simp
        · exact List.mem_cons_of_mem _ (List.mem_cons_of_mem _ h1)
      · rcases List.mem_cons.1 hv with rfl | hv
        · exact h2 v (by simp)
        · rcases List.mem_cons.1 hv with rfl | hv
          · exact (h2 f (by simp)).trans (c2 h)
          · exact h2 v (List.mem_cons_of_mem _ hv)

theorem first_spec {e : Eps} {S : List V} (he : Separated e S) {l : List V} (hl : ∀ v ∈ l, v ∈ S) (h0 : l ≠ []) :
    first e l ∈ l ∧ ∀ v ∈ l, Ge (first e l) v := by
  cases l with
  | nil => exact absurd rfl h0
  | cons p l => exact firstLoop_spec he l p (hl p (by simp)) (fun v hv => hl v (List.mem_cons_of_mem _ hv))

/-! ### the array -/

/-- the first `last + 1` cells are the stack, the cells from `i` on are the rest of the input -/
structure Arr (arr s rest : List V) (i last : Nat) : Prop where
  take : arr.take (last + 1) = s.reverse
  drop : arr.drop i = rest
  lt : last < i
  len : s.length = last + 1

theorem Arr.get {arr s rest : List V} {i last : Nat} (h : Arr arr s rest i last) {k : Nat} (hk : k ≤ last) :
    arr[k]? = s[last - k]? := by
  have h1 : arr[k]? = (arr.take (last + 1))[k]? := by
    rw [List.getElem?_take]; simp [show k < last + 1 by omega]
  rw [h1, h.take, List.getElem?_reverse (by rw [h.len]; omega), h.len]
  congr 1

theorem popLoop_stack {e : Eps} {S : List V} (he : Separated e S) {arr rest : List V} {i : Nat} {cc : V} (hc : cc ∈ S) :
    ∀ (last : Nat) (s : List V), Arr arr s (cc :: rest) i last → (∀ v ∈ s, v ∈ S) →
      ∃ last', popLoop e arr i last = some last' ∧ Arr arr (popS cc s) (cc :: rest) i last'
  | 0, s, h, _ => by
    refine ⟨0, rfl, ?_⟩
    have : ∃ x, s = [x] := List.length_eq_one_iff.1 h.len
    obtain ⟨x, rfl⟩ := this
    exact h
  | last + 1, s, h, hg => by
    match s, h, hg with
    | cl :: cp :: r, h, hg =>
      have e1 := h.get (k := last) (by omega)
      have e2 := h.get (k := last + 1) (by omega)
      have e3 : arr[i]? = some cc := by
        have := congrArg (·[0]?) h.drop
        simpa using this
      simp at e2
      have e1' : arr[last]? = some cp := by rw [e1]; simp
      have hx := (normalZ_exact he (hg cp (by simp)) (hg cl (by simp)) hc).1
      unfold popLoop popS
      simp only [e1', e2, e3, Option.bind_eq_bind, Option.bind_some, gt_iff_lt, hx]
      split_ifs with ht
      · exact ⟨_, rfl, h⟩
      · refine popLoop_stack he hc last (cp :: r) ⟨?_, h.drop, by have := h.lt; omega, by have := h.len; simp at this ⊢; omega⟩
          (fun v hv => hg v (List.mem_cons_of_mem _ hv))
        have ht := congrArg (List.take (last + 1)) h.take
        rw [List.take_take] at ht
        rw [show min (last + 1) (last + 1 + 1) = last + 1 by omega] at ht
        rw [ht, List.reverse_cons, List.take_append_of_le_length (by have := h.len; simp at this ⊢; omega)]
        rw [List.take_of_length_le (by have := h.len; simp at this ⊢; omega)]
    | [x], h, _ => have := h.len; simp at this
    | [], h, _ => have := h.len; simp at this

theorem scanLoop_stack {e : Eps} {S : List V} (he : Separated e S) : ∀ (rest : List V) (arr s : List V) (i last : Nat),
    Arr arr s rest i last → (∀ v ∈ s, v ∈ S) → (∀ v ∈ rest, v ∈ S) → i ≤ arr.length →
    (∀ cc, ∀ s : List V, ∀ v ∈ popS cc s, v ∈ s) →
      ∃ last' arr', scanLoop e rest.length i last arr = some (last', arr') ∧ arr'.length = arr.length ∧
        last' < arr'.length ∧ arr'.take (last' + 1) = (stackLoop rest s).reverse
  | [], arr, s, i, last, h, _, _, hi, _ => by
    exact ⟨last, arr, rfl, rfl, by have := h.lt; omega, h.take⟩
  | cc :: rest, arr, s, i, last, h, hs, hr, hi, hsub => by
    obtain ⟨l2, e1, h2⟩ := popLoop_stack he (hr cc (by simp)) last s h hs
    have e3 : arr[i]? = some cc := by
      have := congrArg (·[0]?) h.drop
      simpa using this
    have hi' : i < arr.length := by
      by_contra hc
      rw [List.getElem?_eq_none (by omega)] at e3; simp at e3
    have hlt := h2.lt
    have hA : Arr (arr.set (l2 + 1) cc) (cc :: popS cc s) rest (i + 1) (l2 + 1) := by
      refine ⟨?_, ?_, by omega, by have := h2.len; simp; omega⟩
      · rw [List.take_add_one, List.getElem?_set_self (by omega), List.take_set_of_le (by omega), h2.take]
        simp
      · rw [List.drop_set_of_lt (by omega)]
        have := congrArg (List.drop 1) h.drop
        rw [List.drop_drop] at this
        simpa using this
    obtain ⟨l3, a3, e4, e5, e6, e7⟩ := scanLoop_stack he rest _ _ _ _ hA
      (fun v hv => by
        rcases List.mem_cons.1 hv with rfl | hv
        · exact hr v (by simp)
        · exact hs v (hsub _ _ v hv))
      (fun v hv => hr v (List.mem_cons_of_mem _ hv)) (by simp; omega) hsub
    refine ⟨l3, a3, ?_, by simpa using e5, e6, e7⟩
    rw [List.length_cons]
    unfold scanLoop
    simp only [e1, e3, Option.bind_eq_bind, Option.bind_some, ass]
    rw [if_pos (by omega)]
    exact e4

theorem popS_sub (cc : V) : ∀ s : List V, ∀ v ∈ popS cc s, v ∈ s
  | [], v, h => by simpa [popS] using h
  | [x], v, h => by simpa [popS] using h
  | cl :: cp :: s, v, h => by
    unfold popS at h
    split_ifs at h
    · exact h
    · exact List.mem_cons_of_mem _ (popS_sub cc (cp :: s) v h)

theorem scan_stack {e : Eps} {S : List V} (he : Separated e S) {u : V} {rest : List V} (hg : ∀ v ∈ u :: rest, v ∈ S) :
    scan e (u :: rest) = some (stackLoop rest [u]).reverse := by
  have hA : Arr (u :: rest) [u] rest 1 0 := ⟨by simp, by simp, by omega, rfl⟩
  obtain ⟨l, a, e1, e2, e3, e4⟩ := scanLoop_stack he rest _ _ _ _ hA (fun v hv => hg v (by simp at hv; simp [hv]))
    (fun v hv => hg v (List.mem_cons_of_mem _ hv)) (by simp) popS_sub
  unfold scan
  simp only [List.length_cons, Nat.add_sub_cancel, e1, Option.bind_eq_bind, Option.bind_some, ass]
  rw [if_pos (by rw [e2] at e3; simpa using e3)]
  simp [e4]

/-! ### sorting -/

theorem insert_sorted {u a : V} (ha : Ge u a) : ∀ l : List V, (∀ v ∈ l, Ge u v) → l.Pairwise (L u) →
    ∃ l', (a :: l).Perm l' ∧ l'.Pairwise (L u)
  | [], _, _ => ⟨[a], .refl _, by simp⟩
  | b :: l, hg, hp => by
    have hp' := List.pairwise_cons.1 hp
    by_cases h : L u a b
    · refine ⟨a :: b :: l, .refl _, List.pairwise_cons.2 ⟨fun v hv => ?_, hp⟩⟩
      rcases List.mem_cons.1 hv with rfl | hv'
      · exact h
      · exact L_trans ha (hg b (by simp)) (hg v hv) h (hp'.1 v hv')
    · have hb := (L_total u a b).resolve_left h
      obtain ⟨l', h1, h2⟩ := insert_sorted ha l (fun v hv => hg v (List.mem_cons_of_mem _ hv)) hp'.2
      refine ⟨b :: l', (List.Perm.swap b a l).trans (h1.cons b), List.pairwise_cons.2 ⟨fun v hv => ?_, h2⟩⟩
      rcases List.mem_cons.1 (h1.mem_iff.2 hv) with rfl | hv
      · exact hb
      · exact hp'.1 v hv

theorem exists_sorted {u : V} : ∀ l : List V, (∀ v ∈ l, Ge u v) → ∃ l', l.Perm l' ∧ l'.Pairwise (L u)
  | [], _ => ⟨[], .refl _, .nil⟩
  | a :: l, hg => by
    obtain ⟨l1, h1, h2⟩ := exists_sorted l (fun v hv => hg v (List.mem_cons_of_mem _ hv))
    obtain ⟨l2, h3, h4⟩ := insert_sorted (hg a (by simp)) l1 (fun v hv => hg v (List.mem_cons_of_mem _ (h1.mem_iff.2 hv))) h2
    exact ⟨l2, (h1.cons a).trans h3, h4⟩

theorem qsort_iff {e : Eps} {S : List V} (he : Separated e S) {u : V} (hu : u ∈ S) {l l' : List V} (hl : ∀ v ∈ l, v ∈ S) :
    Qsort (angleCmp e u) l l' ↔ l.Perm l' ∧ l'.Pairwise (L u) := by
  unfold Qsort
  refine and_congr_right fun hp => ?_
  have hl' : ∀ v ∈ l', v ∈ S := fun v hv => hl v (hp.mem_iff.2 hv)
  exact List.Pairwise.iff_of_mem fun ha hb => angleCmp_exact he hu (hl' _ ha) (hl' _ hb)

/-! ### the polygon -/

theorem conv_get : ∀ (s : List V), Conv s → ∀ (i j k : Nat) (a b c : V), i < j → j < k → s[i]? = some c → s[j]? = some b →
    s[k]? = some a → 0 < turn a b c
  | [], _, i, j, k, a, b, c, _, _, h, _, _ => by simp at h
  | x :: s, hc, 0, j + 1, k + 1, a, b, c, _, h2, e1, e2, e3 => by
    simp at e1 e2 e3
    subst e1
    have hp := List.pairwise_iff_getElem.1 hc.2
    obtain ⟨h1, rfl⟩ := List.getElem?_eq_some_iff.1 e2
    obtain ⟨h3, rfl⟩ := List.getElem?_eq_some_iff.1 e3
    exact hp j k h1 h3 (by omega)
  | x :: s, hc, i + 1, j + 1, k + 1, a, b, c, h1, h2, e1, e2, e3 => by
    simp at e1 e2 e3
    exact conv_get s hc.1 i j k a b c (by omega) (by omega) e1 e2 e3

theorem edges_get {out : List V} {e : V × V} (h : e ∈ edges out) :
    ∃ i : Nat, out[i]? = some e.1 ∧ (out[i + 1]? = some e.2 ∨ (i + 1 = out.length ∧ out[0]? = some e.2)) := by
  obtain ⟨i, hi⟩ := List.mem_iff_getElem?.1 h
  unfold edges at hi
  rw [List.getElem?_zip_eq_some] at hi
  obtain ⟨h1, h2⟩ := hi
  refine ⟨i, h1, ?_⟩
  rw [List.getElem?_append] at h2
  split_ifs at h2 with hl
  · left; simpa using h2
  · right
    have hlt := (List.getElem?_eq_some_iff.1 h1).1
    simp at hl
    have hi : i = out.length - 1 := by omega
    refine ⟨by omega, ?_⟩
    simp [hi] at h2
    cases out with
    | nil => simp at hlt
    | cons x out => simpa using h2

theorem convexCW_of_conv {s : List V} (hc : Conv s) (hn : s.Nodup) (h3 : 3 ≤ s.length) : ConvexCW s.reverse := by
  refine ⟨by simpa using h3, List.pairwise_reverse.2 (hn.imp fun h => h.symm), ?_⟩
  have T : ∀ (i j k : Nat) (a b c : V), i < j → j < k → s.reverse[i]? = some a → s.reverse[j]? = some b →
      s.reverse[k]? = some c → 0 < turn a b c := by
    intro i j k a b c h1 h2 e1 e2 e3
    have l1 := (List.getElem?_eq_some_iff.1 e1).1
    have l2 := (List.getElem?_eq_some_iff.1 e2).1
    have l3 := (List.getElem?_eq_some_iff.1 e3).1
    simp at l1 l2 l3
    rw [List.getElem?_reverse l1] at e1
    rw [List.getElem?_reverse l2] at e2
    rw [List.getElem?_reverse l3] at e3
    exact conv_get s hc _ _ _ a b c (by omega) (by omega) e3 e2 e1
  intro e he v hv h1 h2
  obtain ⟨i, ei, hi⟩ := edges_get he
  obtain ⟨k, ek⟩ := List.mem_iff_getElem?.1 hv
  rcases hi with hi | ⟨hl, hi⟩
  · rcases lt_trichotomy k i with hk | hk | hk
    · rw [turn_cyc]; exact T k i (i + 1) _ _ _ hk (by omega) ek ei hi
    · subst hk; rw [ei] at ek; exact absurd (Option.some.inj ek).symm h1
    · by_cases hk2 : k = i + 1
      · subst hk2; rw [hi] at ek; exact absurd (Option.some.inj ek).symm h2
      · exact T i (i + 1) k _ _ _ (by omega) (by omega) ei hi ek
  · have hkl := (List.getElem?_eq_some_iff.1 ek).1
    by_cases hk0 : k = 0
    · subst hk0; rw [hi] at ek; exact absurd (Option.some.inj ek).symm h2
    · by_cases hki : k = i
      · subst hki; rw [ei] at ek; exact absurd (Option.some.inj ek).symm h1
      · rw [← turn_cyc]; exact T 0 k i _ _ _ (by omega) (by omega) hi ek ei

theorem collinear_of_cover {a u : V} {l : List V} (h : Covers [a, u] l) : Collinear l := by
  have key : ∀ A B : ℚ, A * a.x + B * a.y = A * u.x + B * u.y → ∀ p ∈ l, A * p.x + B * p.y = A * u.x + B * u.y := by
    intro A B e p hp
    apply le_antisymm
    · exact h A B _ (by simp [e]) p hp
    · have := h (-A) (-B) (-(A * u.x + B * u.y)) (by
        intro v hv
        simp at hv
        rcases hv with rfl | rfl
        · linarith
        · linarith) p hp
      linarith
  intro p hp q hq r hr
  by_cases hau : a = u
  · subst hau
    have kx := key 1 0 rfl
    have ky := key 0 1 rfl
    have hx : ∀ p ∈ l, p.x = a.x := fun p hp => by have := kx p hp; linarith
    have hy : ∀ p ∈ l, p.y = a.y := fun p hp => by have := ky p hp; linarith
    simp only [turn, hx p hp, hx q hq, hx r hr, hy p hp, hy q hq, hy r hr]; ring
  · have k := key (a.y - u.y) (-(a.x - u.x)) (by ring)
    have k1 := k p hp
    have k2 := k q hq
    have k3 := k r hr
    have t1 : (a.x - u.x) * turn p q r = 0 := by
      simp only [turn]; linear_combination (r.x - q.x) * (k1 - k2) - (p.x - q.x) * (k3 - k2)
    have t2 : (a.y - u.y) * turn p q r = 0 := by
      simp only [turn]; linear_combination (r.y - q.y) * (k1 - k2) - (p.y - q.y) * (k3 - k2)
    rcases mul_eq_zero.1 t1 with e1 | e1
    · rcases mul_eq_zero.1 t2 with e2 | e2
      · exact absurd (V.ext' (by linarith) (by linarith)) hau
      · exact e2
    · exact e1

/-- the result for a sorted array -/
theorem sorted_hull {u : V} {rest : List V} (hg : ∀ v ∈ u :: rest, Ge u v) (hs : (u :: rest).Pairwise (L u))
    (hr : rest ≠ []) :
    (∀ v ∈ (stackLoop rest [u]).reverse, v ∈ u :: rest) ∧ Covers (stackLoop rest [u]).reverse (u :: rest) ∧
    (Collinear (u :: rest) → (stackLoop rest [u]).reverse.length = 2) ∧
    (¬ Collinear (u :: rest) → ConvexCW (stackLoop rest [u]).reverse) := by
  have hI : Inv u [u] [u] := ⟨.inl (Good.one u), fun v hv => hv, fun a b c h => h, by simp⟩
  obtain ⟨h1, h2⟩ := stackLoop_inv rest [u] [u] hI hg hs
  simp only [List.singleton_append] at h1
  have h2 := h2 hr
  have hcov : Covers (stackLoop rest [u]).reverse (u :: rest) := fun a b c h => h1.cover a b c (fun v hv => h v (by simpa using hv))
  refine ⟨fun v hv => h1.sub v (by simpa using hv), hcov, fun hc => ?_, fun hc => ?_⟩
  · rcases h1.stack with hG | ⟨e, -⟩
    · by_contra hne
      simp at hne
      match hs : stackLoop rest [u], hG, h1.sub, h2, hne with
      | [], _, _, h2, _ => simp at h2
      | [_], _, _, h2, _ => simp at h2
      | [_, _], _, _, _, hne => simp at hne
      | c :: b :: a :: t, hG, hsub, _, _ =>
        have := conv_get _ hG.conv 0 1 2 a b c (by omega) (by omega) rfl rfl rfl
        rw [hc a (hsub a (by simp)) b (hsub b (by simp)) c (hsub c (by simp))] at this
        exact lt_irrefl _ this
    · rw [e]; rfl
  · have h3 : 3 ≤ (stackLoop rest [u]).length := by
      by_contra hne
      obtain ⟨a, b, e⟩ := List.length_eq_two.1 (show (stackLoop rest [u]).length = 2 by omega)
      have := h1.cover
      rw [e] at this
      exact hc (collinear_of_cover this)
    rcases h1.stack with hG | ⟨e, -⟩
    · exact convexCW_of_conv hG.conv hG.nodup h3
    · rw [e] at h3; simp at h3

end Hob3l.Hull
