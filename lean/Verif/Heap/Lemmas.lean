import Verif.Heap.Spec

namespace Hob3l.Heap

open Hob3l.Matq

variable {α : Type} {cmp : α → α → Int}

def Le (cmp : α → α → Int) (L : List α) (i j : Nat) : Prop :=
  ∀ x y, L[i]? = some x → L[j]? = some y → cmp x y ≤ 0

def Child (i j : Nat) : Prop := j = 2 * i + 1 ∨ j = 2 * i + 2

theorem ordered_iff {L : List α} : Ordered cmp L ↔ ∀ i j, Child i j → Le cmp L i j :=
  ⟨fun h i j hc x y => h i j x y hc, fun h i j x y hc => h i j hc x y⟩

theorem IsOrder.refl (ho : IsOrder cmp) (a : α) : cmp a a ≤ 0 := by
  have := ho.anti a a; omega

theorem IsOrder.total (ho : IsOrder cmp) {a b : α} (h : ¬ cmp a b ≤ 0) : cmp b a ≤ 0 := by
  have := ho.anti a b
  have : cmp b a < 0 := by by_contra hc; exact h (this.mpr hc)
  omega

theorem Le.trans (ho : IsOrder cmp) {L : List α} {i j k : Nat} (hj : j < L.length) (h1 : Le cmp L i j)
    (h2 : Le cmp L j k) : Le cmp L i k := fun x z hx hz =>
  ho.trans _ _ _ (h1 x L[j] hx (List.getElem?_eq_getElem hj)) (h2 L[j] z (List.getElem?_eq_getElem hj) hz)

theorem Le.refl (ho : IsOrder cmp) (L : List α) (i : Nat) : Le cmp L i i := fun x y hx hy => by
  rw [hx] at hy; rw [Option.some.inj hy]; exact ho.refl _

/-- position where the element was before the swap -/
def sw (p q i : Nat) : Nat := if i = p then q else if i = q then p else i

theorem swap_list {L : List α} {p q : Nat} (hp : p < L.length) (hq : q < L.length) :
    (∀ i, ((L.set p L[q]).set q L[p])[i]? = L[sw p q i]?) ∧ ((L.set p L[q]).set q L[p]).Perm L := by
  constructor
  · intro i
    unfold sw
    rw [List.getElem?_set, List.getElem?_set]
    by_cases h1 : q = i
    · subst h1
      rw [if_pos rfl, if_pos (by simpa using hq)]
      by_cases h2 : q = p
      · subst h2; rw [if_pos rfl]; simp [hq]
      · rw [if_neg h2, if_pos rfl]; simp [hp]
    · rw [if_neg h1]
      by_cases h2 : p = i
      · subst h2; rw [if_pos rfl, if_pos hp, if_pos rfl]; simp [hq]
      · rw [if_neg h2, if_neg (fun h => h2 h.symm), if_neg (fun h => h1 h.symm)]
  · exact List.set_set_perm hp hq

theorem vswap_some {L : List α} {p q : Nat} (hp : p < L.length) (hq : q < L.length) :
    ∃ L', vswap L p q = some L' ∧ (∀ i, L'[i]? = L[sw p q i]?) ∧ L'.Perm L := by
  refine ⟨_, ?_, swap_list hp hq⟩
  simp [vswap, hp, hq]

theorem le_swap {L L' : List α} {p q : Nat} (h : ∀ i, L'[i]? = L[sw p q i]?) (i j : Nat) :
    Le cmp L' i j ↔ Le cmp L (sw p q i) (sw p q j) := by
  unfold Le; rw [h, h]

structure UpInv (cmp : α → α → Int) (L : List α) (pos : Nat) : Prop where
  edge : ∀ i j, Child i j → j ≠ pos → Le cmp L i j
  gp : ∀ i j, Child i pos → Child pos j → Le cmp L i j

structure DownInv (cmp : α → α → Int) (L : List α) (pos : Nat) : Prop where
  edge : ∀ i j, Child i j → i ≠ pos → Le cmp L i j
  gp : ∀ i j, Child i pos → Child pos j → Le cmp L i j

structure Except (cmp : α → α → Int) (L : List α) (pos : Nat) : Prop where
  edge : ∀ i j, Child i j → i ≠ pos → j ≠ pos → Le cmp L i j
  gp : ∀ i j, Child i pos → Child pos j → Le cmp L i j

theorem child_parent {pos : Nat} (h : pos > 0) : Child (parent pos) pos := by
  unfold Child parent; omega

theorem child_inj {i j pos : Nat} (h1 : Child i pos) (h2 : Child j pos) : i = j := by
  unfold Child at *; omega

theorem upInv_swap (ho : IsOrder cmp) {L L' : List α} {pos : Nat} (h0 : pos > 0) (hpos : pos < L.length)
    (hL : ∀ i, L'[i]? = L[sw (parent pos) pos i]?)
    (hbad : Le cmp L pos (parent pos)) (I : Except cmp L pos)
    (hs : ∀ j, Child pos j → Le cmp L (parent pos) j) : UpInv cmp L' (parent pos) := by
  have hc := child_parent h0
  have hpar : parent pos < L.length := by unfold parent; omega
  have hne : parent pos ≠ pos := by unfold parent; omega
  constructor
  · intro i j hij hj
    rw [le_swap hL]
    unfold sw
    by_cases h1 : i = parent pos
    · subst h1
      rw [if_pos rfl, if_neg hj]
      by_cases h2 : j = pos
      · subst h2; rw [if_pos rfl]; exact hbad
      · rw [if_neg h2]
        exact Le.trans ho hpar hbad (I.edge _ _ hij hne h2)
    · rw [if_neg h1, if_neg hj]
      by_cases h2 : i = pos
      · subst h2
        rw [if_pos rfl, if_neg (by unfold Child at hij; omega)]
        exact hs _ hij
      · rw [if_neg h2]
        by_cases h3 : j = pos
        · subst h3; exact absurd (child_inj hij hc) h1
        · rw [if_neg h3]; exact I.edge _ _ hij h2 h3
  · intro i j hij hj
    rw [le_swap hL]
    unfold sw
    have e1 : i ≠ parent pos := by unfold Child at hij; omega
    have e2 : i ≠ pos := by unfold Child at hij hc; omega
    have e3 : j ≠ parent pos := by unfold Child at hj; omega
    rw [if_neg e1, if_neg e2, if_neg e3]
    have h1 : Le cmp L i (parent pos) := I.edge _ _ hij e2 hne
    by_cases h2 : j = pos
    · rw [if_pos h2]; exact h1
    · rw [if_neg h2]; exact Le.trans ho hpar h1 (I.edge _ _ hj hne h2)

theorem UpInv.except {L : List α} {pos : Nat} (h : UpInv cmp L pos) : Except cmp L pos :=
  ⟨fun i j hc _ h2 => h.edge i j hc h2, h.gp⟩

theorem DownInv.except {L : List α} {pos : Nat} (h : DownInv cmp L pos) : Except cmp L pos :=
  ⟨fun i j hc h1 _ => h.edge i j hc h1, h.gp⟩

theorem vupLoop_ok (ho : IsOrder cmp) : ∀ (n : Nat) (L : List α) (pos : Nat), pos ≤ n → pos < L.length →
    UpInv cmp L pos → ∃ L', vupLoop cmp n L pos = some L' ∧ L'.Perm L ∧ Ordered cmp L' := by
  intro n
  induction n with
  | zero =>
    intro L pos h1 h2 I
    refine ⟨L, by simp [vupLoop]; omega, List.Perm.refl _, ?_⟩
    rw [ordered_iff]
    intro i j hij
    exact I.edge i j hij (by unfold Child at hij; omega)
  | succ n ih =>
    intro L pos h1 h2 I
    unfold vupLoop
    by_cases h0 : pos > 0
    · have hpar : parent pos < L.length := by unfold parent; omega
      rw [if_pos h0]
      simp only [List.getElem?_eq_getElem hpar, List.getElem?_eq_getElem h2, Option.bind_eq_bind, Option.bind_some]
      by_cases hc : cmp L[parent pos] L[pos] ≤ 0
      · rw [if_pos hc]
        refine ⟨L, rfl, List.Perm.refl _, ?_⟩
        rw [ordered_iff]
        intro i j hij
        by_cases hj : j = pos
        · subst hj
          have := child_inj hij (child_parent h0)
          subst this
          intro x y hx hy
          rw [List.getElem?_eq_getElem hpar] at hx
          rw [List.getElem?_eq_getElem h2] at hy
          rw [← Option.some.inj hx, ← Option.some.inj hy]; exact hc
        · exact I.edge i j hij hj
      · rw [if_neg hc]
        obtain ⟨L1, e1, e2, e3⟩ := vswap_some hpar h2
        rw [e1]
        simp only [Option.bind_some]
        have hbad : Le cmp L pos (parent pos) := by
          intro x y hx hy
          rw [List.getElem?_eq_getElem hpar] at hy
          rw [List.getElem?_eq_getElem h2] at hx
          rw [← Option.some.inj hx, ← Option.some.inj hy]; exact ho.total hc
        obtain ⟨L', f1, f2, f3⟩ := ih L1 (parent pos) (by unfold parent; omega) (by rw [e3.length_eq]; exact hpar)
          (upInv_swap ho h0 h2 e2 hbad I.except (fun j hj => I.gp _ _ (child_parent h0) hj))
        exact ⟨L', f1, f2.trans e3, f3⟩
    · rw [if_neg h0]
      refine ⟨L, rfl, List.Perm.refl _, ?_⟩
      rw [ordered_iff]
      intro i j hij
      exact I.edge i j hij (by unfold Child at hij; omega)

theorem downInv_of_ordered (ho : IsOrder cmp) {L : List α} (h : Ordered cmp L) (pos : Nat) (hp : pos < L.length) :
    DownInv cmp L pos :=
  ⟨fun i j hij _ => ordered_iff.mp h i j hij,
   fun i j h1 h2 => Le.trans ho hp (ordered_iff.mp h _ _ h1) (ordered_iff.mp h _ _ h2)⟩

theorem vup_ok (ho : IsOrder cmp) (L : List α) (pos : Nat) (hp : pos < L.length) (I : Except cmp L pos) :
    ∃ L', vup cmp L pos = some L' ∧ L'.Perm L ∧ DownInv cmp L' pos := by
  have hass : ass (pos < L.length) = some () := by simp [ass, hp]
  simp only [vup, hass, Option.bind_eq_bind, Option.bind_some]
  cases pos with
  | zero =>
    refine ⟨L, by simp [vupLoop], List.Perm.refl _, ?_, I.gp⟩
    intro i j hij hi
    exact I.edge i j hij hi (by unfold Child at hij; omega)
  | succ k =>
    have h0 : k + 1 > 0 := by omega
    have hpar : parent (k + 1) < L.length := by unfold parent; omega
    unfold vupLoop
    rw [if_pos h0]
    simp only [List.getElem?_eq_getElem hpar, List.getElem?_eq_getElem hp, Option.bind_eq_bind, Option.bind_some]
    by_cases hc : cmp L[parent (k + 1)] L[k + 1] ≤ 0
    · rw [if_pos hc]
      refine ⟨L, rfl, List.Perm.refl _, ?_, I.gp⟩
      intro i j hij hi
      by_cases hj : j = k + 1
      · subst hj
        have := child_inj hij (child_parent h0)
        subst this
        intro x y hx hy
        rw [List.getElem?_eq_getElem hpar] at hx
        rw [List.getElem?_eq_getElem hp] at hy
        rw [← Option.some.inj hx, ← Option.some.inj hy]; exact hc
      · exact I.edge i j hij hi hj
    · rw [if_neg hc]
      obtain ⟨L1, e1, e2, e3⟩ := vswap_some hpar hp
      rw [e1]
      simp only [Option.bind_some]
      have hbad : Le cmp L (k + 1) (parent (k + 1)) := by
        intro x y hx hy
        rw [List.getElem?_eq_getElem hpar] at hy
        rw [List.getElem?_eq_getElem hp] at hx
        rw [← Option.some.inj hx, ← Option.some.inj hy]; exact ho.total hc
      obtain ⟨L', f1, f2, f3⟩ := vupLoop_ok ho k L1 (parent (k + 1)) (by unfold parent; omega)
        (by rw [e3.length_eq]; exact hpar)
        (upInv_swap ho h0 hp e2 hbad I (fun j hj => I.gp _ _ (child_parent h0) hj))
      refine ⟨L', f1, f2.trans e3, downInv_of_ordered ho f3 _ ?_⟩
      rw [f2.length_eq, e3.length_eq]; exact hp

theorem smaller_ok (ho : IsOrder cmp) (L : List α) (pos : Nat) (hc : child0 pos < L.length) :
    ∃ d : Nat × α, smaller cmp L (child0 pos) L[child0 pos] = some d ∧ Child pos d.1 ∧ L[d.1]? = some d.2 ∧
      ∀ j, Child pos j → Le cmp L d.1 j := by
  unfold smaller
  by_cases h1 : child0 pos + 1 < L.length
  · simp only [if_pos h1, List.getElem?_eq_getElem h1, Option.bind_eq_bind, Option.bind_some]
    by_cases h2 : cmp L[child0 pos + 1] L[child0 pos] < 0
    · rw [if_pos h2]
      refine ⟨_, rfl, by unfold Child child0; simp; omega, by simp [h1], ?_⟩
      intro j hj
      have : j = child0 pos ∨ j = child0 pos + 1 := by unfold Child at hj; unfold child0; omega
      rcases this with rfl | rfl
      · intro x y hx hy
        rw [List.getElem?_eq_getElem h1] at hx
        rw [List.getElem?_eq_getElem hc] at hy
        rw [← Option.some.inj hx, ← Option.some.inj hy]; omega
      · exact Le.refl ho _ _
    · rw [if_neg h2]
      refine ⟨_, rfl, by unfold Child child0; simp; omega, by simp [hc], ?_⟩
      intro j hj
      have : j = child0 pos ∨ j = child0 pos + 1 := by unfold Child at hj; unfold child0; omega
      rcases this with rfl | rfl
      · exact Le.refl ho _ _
      · intro x y hx hy
        rw [List.getElem?_eq_getElem h1] at hy
        rw [List.getElem?_eq_getElem hc] at hx
        rw [← Option.some.inj hx, ← Option.some.inj hy]
        exact (ho.anti _ _).mpr h2
  · rw [if_neg h1]
    refine ⟨_, rfl, by unfold Child child0; simp; omega, by simp [hc], ?_⟩
    intro j hj
    have : j = child0 pos ∨ j = child0 pos + 1 := by unfold Child at hj; unfold child0; omega
    rcases this with rfl | rfl
    · exact Le.refl ho _ _
    · intro x y hx hy
      rw [List.getElem?_eq_none (by omega)] at hy
      simp at hy

theorem vdownLoop_ok (ho : IsOrder cmp) : ∀ (n : Nat) (L : List α) (pos : Nat), L.length < pos + n + 1 →
    pos < L.length → DownInv cmp L pos → ∃ L', vdownLoop cmp n L pos = some L' ∧ L'.Perm L ∧ Ordered cmp L' := by
  intro n
  induction n with
  | zero => intro L pos h1 h2; omega
  | succ n ih =>
    intro L pos h1 h2 I
    unfold vdownLoop
    by_cases hc : child0 pos ≥ L.length
    · rw [if_pos hc]
      refine ⟨L, rfl, List.Perm.refl _, ?_⟩
      rw [ordered_iff]
      intro i j hij
      by_cases hi : i = pos
      · subst hi
        intro x y hx hy
        rw [List.getElem?_eq_none (by unfold Child at hij; unfold child0 at hc; omega)] at hy
        simp at hy
      · exact I.edge i j hij hi
    · rw [if_neg hc]
      push Not at hc
      obtain ⟨d, e1, e2, e3, e4⟩ := smaller_ok ho L pos hc
      simp only [List.getElem?_eq_getElem hc, List.getElem?_eq_getElem h2, Option.bind_eq_bind, Option.bind_some, e1]
      have hd : d.1 < L.length := by
        by_contra hn
        rw [List.getElem?_eq_none (by omega)] at e3; simp at e3
      by_cases hq : cmp L[pos] d.2 ≤ 0
      · rw [if_pos hq]
        refine ⟨L, rfl, List.Perm.refl _, ?_⟩
        rw [ordered_iff]
        intro i j hij
        by_cases hi : i = pos
        · subst hi
          refine Le.trans ho hd ?_ (e4 j hij)
          intro x y hx hy
          rw [List.getElem?_eq_getElem h2] at hx
          rw [e3] at hy
          rw [← Option.some.inj hx, ← Option.some.inj hy]; exact hq
        · exact I.edge i j hij hi
      · rw [if_neg hq]
        obtain ⟨L1, f1, f2, f3⟩ := vswap_some hd h2
        rw [f1]
        simp only [Option.bind_some]
        have hbad : Le cmp L d.1 pos := by
          intro x y hx hy
          rw [List.getElem?_eq_getElem h2] at hy
          rw [e3] at hx
          rw [← Option.some.inj hx, ← Option.some.inj hy]; exact ho.total hq
        have hdp : d.1 > pos := by unfold Child at e2; omega
        have I1 : DownInv cmp L1 d.1 := by
          constructor
          · intro i j hij hi
            rw [le_swap f2]
            unfold sw
            rw [if_neg hi]
            by_cases h3 : i = pos
            · subst h3
              rw [if_pos rfl]
              by_cases h4 : j = d.1
              · rw [if_pos h4]; exact hbad
              · rw [if_neg h4, if_neg (by unfold Child at hij; omega)]
                exact e4 j hij
            · rw [if_neg h3]
              by_cases h4 : j = d.1
              · subst h4; exact absurd (child_inj hij e2) h3
              · rw [if_neg h4]
                by_cases h5 : j = pos
                · subst h5; rw [if_pos rfl]; exact I.gp _ _ hij e2
                · rw [if_neg h5]; exact I.edge _ _ hij h3
          · intro i j hij hj
            have hi := child_inj hij e2
            subst hi
            rw [le_swap f2]
            unfold sw
            rw [if_neg (by omega), if_pos rfl, if_neg (by unfold Child at hj; omega), if_neg (by unfold Child at hj; omega)]
            exact I.edge _ _ hj (by omega)
        obtain ⟨L', g1, g2, g3⟩ := ih L1 d.1 (by rw [f3.length_eq]; omega) (by rw [f3.length_eq]; exact hd) I1
        exact ⟨L', g1, g2.trans f3, g3⟩

theorem vdown_ok (ho : IsOrder cmp) (L : List α) (pos : Nat) (hp : pos < L.length) (I : DownInv cmp L pos) :
    ∃ L', vdown cmp L pos = some L' ∧ L'.Perm L ∧ Ordered cmp L' := by
  have hass : ass (pos < L.length) = some () := by simp [ass, hp]
  simp only [vdown, hass, Option.bind_eq_bind, Option.bind_some]
  exact vdownLoop_ok ho _ L pos (by omega) hp I

theorem vupdate_ok' (ho : IsOrder cmp) (L : List α) (pos : Nat) (hp : pos < L.length) (I : Except cmp L pos) :
    ∃ L', vupdate cmp L pos = some L' ∧ L'.Perm L ∧ Ordered cmp L' := by
  obtain ⟨L1, e1, e2, e3⟩ := vup_ok ho L pos hp I
  obtain ⟨L', f1, f2, f3⟩ := vdown_ok ho L1 pos (by rw [e2.length_eq]; exact hp) e3
  exact ⟨L', by simp [vupdate, e1, f1], f2.trans e2, f3⟩

theorem except_of {L : List α} {pos : Nat} (hp : pos < L.length) (h : OrderedExcept cmp L pos) :
    Except cmp L pos := by
  obtain ⟨cmp', ho', h1, h2⟩ := h
  constructor
  · intro i j hij hi hj x y hx hy
    rw [h2 i j x y hi hj hx hy]
    exact h1 i j x y hij hx hy
  · intro i j hi hj x y hx hy
    rw [h2 i j x y (by unfold Child at hi; omega) (by unfold Child at hj; omega) hx hy]
    exact Le.trans ho' hp (ordered_iff.mp h1 _ _ hi) (ordered_iff.mp h1 _ _ hj) x y hx hy

/-- ordered list with one element replaced -/
theorem except_set (ho : IsOrder cmp) {L : List α} {pos : Nat} (hp : pos < L.length) (h : Ordered cmp L) (x : α) :
    Except cmp (L.set pos x) pos := by
  constructor
  · intro i j hij hi hj a b ha hb
    rw [List.getElem?_set_ne (by omega)] at ha hb
    exact h i j a b hij ha hb
  · intro i j hi hj a b ha hb
    rw [List.getElem?_set_ne (by unfold Child at hi; omega)] at ha
    rw [List.getElem?_set_ne (by unfold Child at hj; omega)] at hb
    exact Le.trans ho hp (ordered_iff.mp h _ _ hi) (ordered_iff.mp h _ _ hj) a b ha hb

theorem except_append {L : List α} (h : Ordered cmp L) (x : α) : Except cmp (L ++ [x]) L.length := by
  have key : ∀ (i : Nat) (a : α), i ≠ L.length → (L ++ [x])[i]? = some a → L[i]? = some a := by
    intro i a hi ha
    rw [List.getElem?_append] at ha
    split_ifs at ha with hl
    · exact ha
    · rw [List.getElem?_eq_none (by simp; omega)] at ha; simp at ha
  constructor
  · intro i j hij hi hj a b ha hb
    exact h i j a b hij (key i a hi ha) (key j b hj hb)
  · intro i j hi hj a b ha hb
    rw [List.getElem?_eq_none (by unfold Child at hj; simp; omega)] at hb; simp at hb

theorem ordered_take {L : List α} (h : Ordered cmp L) (n : Nat) : Ordered cmp (L.take n) := by
  intro i j x y hij hx hy
  have hn : j < n := by
    by_contra hc
    rw [List.getElem?_eq_none (by rw [List.length_take]; omega)] at hy; simp at hy
  rw [List.getElem?_take_of_lt hn] at hy
  rw [List.getElem?_take_of_lt (by omega)] at hx
  exact h i j x y hij hx hy

theorem except_take {L : List α} {pos : Nat} (h : Except cmp L pos) (n : Nat) : Except cmp (L.take n) pos := by
  have key : ∀ (i : Nat) (a : α), (L.take n)[i]? = some a → L[i]? = some a := by
    intro i a ha
    by_cases hn : i < n
    · rwa [List.getElem?_take_of_lt hn] at ha
    · rw [List.getElem?_eq_none (by rw [List.length_take]; omega)] at ha; simp at ha
  exact ⟨fun i j hij hi hj a b ha hb => h.edge i j hij hi hj a b (key i a ha) (key j b hb),
    fun i j hi hj a b ha hb => h.gp i j hi hj a b (key i a ha) (key j b hb)⟩

/-- the front is a minimum -/
theorem ordered_front (ho : IsOrder cmp) {L : List α} (h : Ordered cmp L) :
    ∀ (j : Nat), Le cmp L 0 j := by
  intro j
  induction j using Nat.strong_induction_on with
  | _ j ih =>
    by_cases h0 : j = 0
    · subst h0; exact Le.refl ho _ _
    · have hc := child_parent (Nat.pos_of_ne_zero h0)
      by_cases hl : parent j < L.length
      · exact Le.trans ho hl (ih _ (by unfold parent; omega)) (ordered_iff.mp h _ _ hc)
      · intro x y hx hy
        rw [List.getElem?_eq_none (by unfold parent at hl; omega)] at hy; simp at hy

theorem front_isMin (ho : IsOrder cmp) {L : List α} (h : Ordered cmp L) {m : α} (hm : L[0]? = some m) :
    IsMin cmp L m := by
  refine ⟨List.mem_of_getElem? hm, fun x hx => ?_⟩
  obtain ⟨j, hj⟩ := List.getElem?_of_mem hx
  exact ordered_front ho h j m x hm hj

end Hob3l.Heap
