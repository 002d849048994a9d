import Verif.Heap.LemmasIdx

/-
Properties C34 and C35 of priority queues.
-/

namespace Hob3l.Heap

open Hob3l.Matq

variable {α : Type} {cmp : α → α → Int}

/-- order of numbers, for the examples -/
def natCmp (a b : Nat) : Int := (a : Int) - b

theorem natCmp_order : IsOrder natCmp := ⟨fun a b => by unfold natCmp; omega, fun a b c => by unfold natCmp; omega⟩

theorem dropLast_set_perm {L : List α} {idx : Nat} (h : idx + 1 < L.length) :
    L.Perm (L[idx] :: (L.set idx (L[L.length - 1])).dropLast) := by
  have hl : L.length - 1 < L.length := by omega
  have hs := (swap_list (L := L) (p := idx) (q := L.length - 1) (by omega) hl).2
  have : (L.set idx L[L.length - 1]).set (L.length - 1) L[idx] = (L.set idx L[L.length - 1]).dropLast ++ [L[idx]] := by
    apply List.ext_getElem?
    intro i
    rw [List.getElem?_set, List.getElem?_append, List.length_dropLast, List.length_set]
    by_cases h1 : L.length - 1 = i
    · subst h1; simp [hl]
    · rw [if_neg h1]
      by_cases h2 : i < L.length - 1
      · rw [if_pos h2, List.getElem?_dropLast, List.length_set, if_pos h2]
      · rw [if_neg h2, List.getElem?_eq_none (by simp; omega), List.getElem?_eq_none (by simp; omega)]
  rw [this] at hs
  exact (hs.symm.trans (List.perm_append_singleton _ _))

theorem dropLast_perm {L : List α} (h : 0 < L.length) : L.Perm (L[L.length - 1] :: L.dropLast) := by
  have h1 : L ≠ [] := by rintro rfl; simp at h
  have := List.dropLast_append_getLast h1
  rw [List.getLast_eq_getElem] at this
  exact (List.Perm.of_eq this.symm).trans (List.perm_append_singleton _ _)

/-! ### C34 for plain elements (vec.h) -/

/-- C34: insertion adds the element and keeps the order. -/
theorem C34_vec_insert (ho : IsOrder cmp) (L : List α) (h : Ordered cmp L) (x : α) :
    ∃ L', vinsert cmp L x = some L' ∧ L'.Perm (x :: L) ∧ Ordered cmp L' := by
  obtain ⟨L', e1, e2, e3⟩ := vupdate_ok' ho (L ++ [x]) L.length (by simp) (except_append h x)
  refine ⟨L', ?_, e2.trans (List.perm_append_singleton _ _), e3⟩
  simpa [vinsert] using e1

example : Ordered natCmp [1, 3, 2, 7] ∧ vinsert natCmp [1, 3, 2, 7] 0 = some [0, 1, 2, 7, 3] := by
  refine ⟨?_, by decide⟩
  intro i j x y hij hx hy
  have : j < 4 := by by_contra hc; rw [List.getElem?_eq_none (by simp; omega)] at hy; simp at hy
  have : i = 0 ∧ j = 1 ∨ i = 0 ∧ j = 2 ∨ i = 1 ∧ j = 3 := by omega
  rcases this with ⟨rfl, rfl⟩ | ⟨rfl, rfl⟩ | ⟨rfl, rfl⟩ <;> simp at hx hy <;> subst hx hy <;> decide

/-- C34: extraction from a non-empty queue returns a minimum and leaves the other elements in order. -/
theorem C34_vec_extract (ho : IsOrder cmp) (L : List α) (h : Ordered cmp L) (hne : L ≠ []) :
    ∃ m L', vextract cmp L = some (m, L') ∧ IsMin cmp L m ∧ L.Perm (m :: L') ∧ Ordered cmp L' := by
  have hl : 0 < L.length := List.length_pos_iff.mpr hne
  have hass : ass (L.length > 0) = some () := by simp [ass, hl]
  have hl1 : L.length - 1 < L.length := by omega
  simp only [vextract, hass, Option.bind_eq_bind, Option.bind_some, List.getElem?_eq_getElem hl,
    List.getElem?_eq_getElem hl1]
  have hmin : IsMin cmp L L[0] := front_isMin ho h (List.getElem?_eq_getElem hl)
  by_cases h1 : L.length - 1 > 0
  · rw [if_pos h1]
    have hE : Except cmp ((L.set 0 L[L.length - 1]).dropLast) 0 := by
      rw [List.dropLast_eq_take]
      exact except_take (except_set ho hl h _) _
    obtain ⟨L', e1, e2, e3⟩ := vupdate_ok' ho _ 0 (by simp; omega) hE
    refine ⟨L[0], L', by simp [e1], hmin, ?_, e3⟩
    exact (dropLast_set_perm (by omega)).trans (e2.symm.cons _)
  · rw [if_neg h1]
    refine ⟨_, _, rfl, ?_, dropLast_perm hl, ?_⟩
    · have : L.length - 1 = 0 := by omega
      simp only [this]; exact hmin
    · rw [List.dropLast_eq_take]; exact ordered_take h _

example : vextract natCmp [1, 3, 2, 7] = some (1, [2, 3, 7]) := by decide

/-- C34: update restores the order after the priority of one element has changed. -/
theorem C34_vec_update (ho : IsOrder cmp) (L : List α) (pos : Nat) (hp : pos < L.length) (h : OrderedExcept cmp L pos) :
    ∃ L', vupdate cmp L pos = some L' ∧ L'.Perm L ∧ Ordered cmp L' :=
  vupdate_ok' ho L pos hp (except_of hp h)

/-- order of numbers except that 3 has the priority of 9 -/
def changedCmp (a b : Nat) : Int := (if a = 3 then 9 else (a : Int)) - (if b = 3 then 9 else (b : Int))

theorem ex_ordered : Ordered natCmp [1, 3, 2, 7] := by
  intro i j x y hij hx hy
  have : j < 4 := by by_contra hc; rw [List.getElem?_eq_none (by simp; omega)] at hy; simp at hy
  have : i = 0 ∧ j = 1 ∨ i = 0 ∧ j = 2 ∨ i = 1 ∧ j = 3 := by omega
  rcases this with ⟨rfl, rfl⟩ | ⟨rfl, rfl⟩ | ⟨rfl, rfl⟩ <;> simp at hx hy <;> subst hx hy <;> decide

example : IsOrder changedCmp ∧ OrderedExcept changedCmp [1, 3, 2, 7] 1 ∧
    vupdate changedCmp [1, 3, 2, 7] 1 = some [1, 7, 2, 3] := by
  refine ⟨⟨fun a b => ?_, fun a b c => ?_⟩, ⟨natCmp, natCmp_order, ex_ordered, ?_⟩, by decide⟩
  · unfold changedCmp; split_ifs <;> omega
  · unfold changedCmp; split_ifs <;> omega
  · intro i j x y hi hj hx hy
    have key : ∀ (i x : Nat), i ≠ 1 → [1, 3, 2, 7][i]? = some x → x ≠ 3 := by
      intro i x hi hx h3
      have : i < 4 := by by_contra hc; rw [List.getElem?_eq_none (by simp; omega)] at hx; simp at hx
      have : i = 0 ∨ i = 2 ∨ i = 3 := by omega
      rcases this with rfl | rfl | rfl <;> simp at hx <;> omega
    simp [changedCmp, natCmp, key i x hi hx, key j y hj hy]

/-- C34: the front of a non-empty queue is a minimum. -/
theorem C34_vec_min (ho : IsOrder cmp) (L : List α) (h : Ordered cmp L) (hne : L ≠ []) :
    ∃ m, vmin L = some m ∧ IsMin cmp L m := by
  have hl : 0 < L.length := List.length_pos_iff.mpr hne
  exact ⟨L[0], by simp [vmin, ass, hl], front_isMin ho h (List.getElem?_eq_getElem hl)⟩

/-! ### C34 for elements with embedded index (heap.h) -/

variable [DecidableEq α]

/-- C34: insertion of an element that is not in the queue. -/
theorem C34_insert (ho : IsOrder cmp) (h : Heap α) (hg : Good cmp h) (x : α) (hx : x ∉ h.arr) :
    ∃ h', insert cmp h x = some h' ∧ Good cmp h' ∧ h'.arr.Perm (x :: h.arr) ∧
      ∀ y, y ∉ h.arr → y ≠ x → h'.ix y = h.ix y := by
  have hi : Indexed (h.arr ++ [x]) (setIx h.ix x h.arr.length) := by
    intro i y hy
    unfold setIx
    rw [List.getElem?_append] at hy
    split_ifs at hy with hl
    · have : y ≠ x := by rintro rfl; exact hx (List.mem_of_getElem? hy)
      rw [if_neg this]; exact hg.indexed i y hy
    · obtain ⟨h1, h2⟩ := List.getElem?_eq_some_iff.mp hy
      simp at h2
      rw [if_pos h2.symm]
      simp at h1; omega
  have hn : (h.arr ++ [x]).Nodup :=
    (List.perm_append_singleton x h.arr).nodup_iff.mpr (List.nodup_cons.mpr ⟨hx, hg.nodup⟩)
  obtain ⟨h', e1, e2, e3, e4⟩ := update_ok ho (h := ⟨h.arr ++ [x], setIx h.ix x h.arr.length⟩) (pos := h.arr.length)
    (by simp) hn hi (except_append hg.ordered x)
  refine ⟨h', e1, e3, e2.trans (List.perm_append_singleton _ _), fun y h1 h2 => ?_⟩
  rw [e4 y (by simp [h1, h2])]
  simp [setIx, h2]

/-- a queue of four elements -/
def exHeap : Heap Nat := ⟨[1, 3, 2, 7], fun x => if x = 1 then 0 else if x = 3 then 1 else if x = 2 then 2 else if x = 7 then 3 else noIdx⟩

theorem exHeap_good : Good natCmp exHeap := by
  refine ⟨ex_ordered, by decide, ?_⟩
  intro i x hx
  have : i < 4 := by by_contra hc; rw [List.getElem?_eq_none (by simp [exHeap]; omega)] at hx; simp at hx
  have : i = 0 ∨ i = 1 ∨ i = 2 ∨ i = 3 := by omega
  rcases this with rfl | rfl | rfl | rfl <;> simp [exHeap] at hx <;> subst hx <;> rfl

example : Good natCmp exHeap ∧ 0 ∉ exHeap.arr ∧ (insert natCmp exHeap 0).map (fun h => (h.arr, h.ix 0, h.ix 1, h.ix 3)) =
    some ([0, 1, 2, 7, 3], 0, 1, 4) := ⟨exHeap_good, by decide, by decide⟩

/-- C34: removal of the element at any position returns this element, marks it as being in no queue, and keeps the others. -/
theorem C34_remove (ho : IsOrder cmp) (h : Heap α) (hg : Good cmp h) (idx : Nat) (x : α) (hx : h.arr[idx]? = some x) :
    ∃ h', remove cmp h idx = some (x, h') ∧ Good cmp h' ∧ h.arr.Perm (x :: h'.arr) ∧ h'.ix x = noIdx ∧
      ∀ y, y ∉ h.arr → h'.ix y = h.ix y := by
  obtain ⟨hl, rfl⟩ := List.getElem?_eq_some_iff.mp hx
  have hass : ass (idx < h.arr.length) = some () := by simp [ass, hl]
  have hl1 : h.arr.length - 1 < h.arr.length := by omega
  simp only [remove, hass, Option.bind_eq_bind, Option.bind_some, List.getElem?_eq_getElem hl1,
    List.getElem?_eq_getElem hl]
  by_cases h1 : h.arr.length - 1 = idx
  · simp only [ne_eq, h1, not_true_eq_false, if_false]
    have hp := dropLast_perm (L := h.arr) (by omega)
    simp only [h1] at hp
    have hn := hp.nodup_iff.mp hg.nodup
    rw [List.nodup_cons] at hn
    refine ⟨_, rfl, ⟨?_, hn.2, ?_⟩, hp, by simp [setIx], fun y hy => ?_⟩
    · rw [List.dropLast_eq_take]; exact ordered_take hg.ordered _
    · intro i y hy
      simp only at hy
      have hne : y ≠ h.arr[idx] := by rintro rfl; exact hn.1 (List.mem_of_getElem? hy)
      simp only [setIx, if_neg hne]
      rw [List.getElem?_dropLast] at hy
      split_ifs at hy
      exact hg.indexed i y hy
    · have : y ≠ h.arr[idx] := by rintro rfl; exact hy (List.getElem_mem hl)
      simp [setIx, this]
  · have hass2 : ass (h.arr.length - 1 > 0) = some () := by
      have : h.arr.length - 1 > 0 := by omega
      simp [ass, this]
    simp only [ne_eq, h1, not_false_eq_true, if_true, hass2, Option.bind_some]
    set y := h.arr[h.arr.length - 1] with hy
    have hp := dropLast_set_perm (L := h.arr) (idx := idx) (by omega)
    have hn := hp.nodup_iff.mp hg.nodup
    rw [List.nodup_cons] at hn
    have hi : Indexed ((h.arr.set idx y).dropLast) (setIx (setIx h.ix h.arr[idx] (h.arr.length - 1)) y idx) := by
      intro i z hz
      have hne : z ≠ h.arr[idx] := by rintro rfl; exact hn.1 (List.mem_of_getElem? hz)
      rw [List.getElem?_dropLast, List.length_set] at hz
      split_ifs at hz with hi
      rw [List.getElem?_set] at hz
      unfold setIx
      split_ifs at hz with h2 <;> try omega
      · simp only [Option.some.injEq] at hz
        rw [if_pos hz.symm]; exact h2
      · have hzi := hg.indexed i z hz
        have : z ≠ y := by
          rintro rfl
          have := hg.indexed (h.arr.length - 1) y (by rw [hy]; exact List.getElem?_eq_getElem hl1)
          omega
        rw [if_neg this, if_neg hne]; exact hzi
    obtain ⟨h', e1, e2, e3, e4⟩ := update_ok ho
      (h := ⟨(h.arr.set idx y).dropLast, setIx (setIx h.ix h.arr[idx] (h.arr.length - 1)) y idx⟩) (pos := idx)
      (by simp; omega) hn.2 hi
      (by rw [List.dropLast_eq_take]; exact except_take (except_set ho hl hg.ordered _) _)
    simp only [e1, Option.bind_some]
    refine ⟨_, rfl, ⟨e3.ordered, e3.nodup, ?_⟩, hp.trans (e2.symm.cons _), by simp [setIx], fun z hz => ?_⟩
    · intro i z hz
      simp only at hz
      have : z ≠ h.arr[idx] := by
        rintro rfl; exact hn.1 (e2.mem_iff.mp (List.mem_of_getElem? hz))
      simp only [setIx, if_neg this]
      exact e3.indexed i z hz
    · have h2 : z ≠ h.arr[idx] := by rintro rfl; exact hz (List.getElem_mem hl)
      have h3 : z ≠ y := by rintro rfl; exact hz (List.getElem_mem hl1)
      have h4 : z ∉ (h.arr.set idx y).dropLast := fun hm => hz (hp.mem_iff.mpr (List.mem_cons_of_mem _ hm))
      simp only [setIx, if_neg h2]
      rw [e4 z h4]
      simp [setIx, h2, h3]

example : (remove natCmp exHeap 0).map (fun r => (r.1, r.2.arr, r.2.ix 1, r.2.ix 2)) = some (1, [2, 3, 7], noIdx, 0) := by decide

/-- C34: extraction returns a minimum, or NULL from an empty queue. -/
theorem C34_extract (ho : IsOrder cmp) (h : Heap α) (hg : Good cmp h) :
    (h.arr = [] → extract cmp h = some (none, h)) ∧
    (h.arr ≠ [] → ∃ m h', extract cmp h = some (some m, h') ∧ IsMin cmp h.arr m ∧ Good cmp h' ∧
      h.arr.Perm (m :: h'.arr) ∧ h'.ix m = noIdx ∧ ∀ y, y ∉ h.arr → h'.ix y = h.ix y) := by
  constructor
  · intro h0; simp [extract, h0]
  · intro h0
    have hl : 0 < h.arr.length := List.length_pos_iff.mpr h0
    obtain ⟨h', e1, e2, e3, e4, e5⟩ := C34_remove ho h hg 0 h.arr[0] (List.getElem?_eq_getElem hl)
    refine ⟨h.arr[0], h', ?_, front_isMin ho hg.ordered (List.getElem?_eq_getElem hl), e2, e3, e4, e5⟩
    simp [extract, h0, e1]

example : (extract natCmp exHeap).map (fun r => (r.1, r.2.arr)) = some (some 1, [2, 3, 7]) := by decide

/-- C34: the minimum function returns a minimum, or NULL for an empty queue. -/
theorem C34_min (ho : IsOrder cmp) (h : Heap α) (hg : Good cmp h) :
    (h.arr = [] → min h = some none) ∧ (h.arr ≠ [] → ∃ m, min h = some (some m) ∧ IsMin cmp h.arr m) := by
  constructor
  · intro h0; simp [min, h0]
  · intro h0
    have hl : 0 < h.arr.length := List.length_pos_iff.mpr h0
    exact ⟨h.arr[0], by simp [min, h0, hl], front_isMin ho hg.ordered (List.getElem?_eq_getElem hl)⟩

/-- C34: update after the priority of one element has changed. -/
theorem C34_update (ho : IsOrder cmp) (h : Heap α) (hn : h.arr.Nodup) (hi : Indexed h.arr h.ix) (pos : Nat)
    (hp : pos < h.arr.length) (hE : OrderedExcept cmp h.arr pos) :
    ∃ h', update cmp h pos = some h' ∧ Good cmp h' ∧ h'.arr.Perm h.arr ∧ ∀ y, y ∉ h.arr → h'.ix y = h.ix y := by
  obtain ⟨h', e1, e2, e3, e4⟩ := update_ok ho hp hn hi (except_of hp hE)
  exact ⟨h', e1, e3, e2, e4⟩

example : (update changedCmp exHeap 1).map (fun r => (r.arr, r.ix 3, r.ix 7)) = some ([1, 7, 2, 3], 3, 1) := by decide

/-- C34: replacing an element of the queue by one that is not in the queue. -/
theorem C34_replace (ho : IsOrder cmp) (h : Heap α) (hg : Good cmp h) (hsz : h.arr.length ≤ noIdx) (idx : Nat) (r x : α)
    (hr : h.arr[idx]? = some r) (hx : x ∉ h.arr) :
    ∃ h', replace cmp h idx (some x) = some (some r, h') ∧ Good cmp h' ∧ (r :: h'.arr).Perm (x :: h.arr) ∧
      h'.ix r = noIdx ∧ ∀ y, y ∉ h.arr → y ≠ x → h'.ix y = h.ix y := by
  obtain ⟨hl, rfl⟩ := List.getElem?_eq_some_iff.mp hr
  have hne : idx ≠ noIdx := by omega
  have hass : ass (idx < h.arr.length) = some () := by simp [ass, hl]
  have hrx : h.arr[idx] ≠ x := fun e => hx (by rw [← e]; exact List.getElem_mem hl)
  have hass2 : ass (h.ix h.arr[idx] = idx) = some () := by simp [ass, hg.indexed idx _ hr]
  have hp : (h.arr[idx] :: h.arr.set idx x).Perm (x :: h.arr) := by
    have h1 := List.set_perm_cons_eraseIdx hl x
    have h2 : h.arr.Perm (h.arr[idx] :: h.arr.eraseIdx idx) := (List.getElem_cons_eraseIdx_perm hl).symm
    exact ((h1.cons _).trans (List.Perm.swap _ _ _)).trans (h2.symm.cons _)
  have hn : (h.arr[idx] :: h.arr.set idx x).Nodup :=
    hp.nodup_iff.mpr (List.nodup_cons.mpr ⟨hx, hg.nodup⟩)
  rw [List.nodup_cons] at hn
  have hi : Indexed (h.arr.set idx x) (setIx (setIx h.ix x idx) h.arr[idx] noIdx) := by
    intro i y hy
    have h1 : y ≠ h.arr[idx] := by rintro rfl; exact hn.1 (List.mem_of_getElem? hy)
    unfold setIx
    rw [if_neg h1]
    rw [List.getElem?_set] at hy
    split_ifs at hy with h2
    · simp only [Option.some.injEq] at hy
      rw [if_pos hy.symm]; exact h2
    · have : y ≠ x := by rintro rfl; exact hx (List.mem_of_getElem? hy)
      rw [if_neg this]; exact hg.indexed i y hy
  obtain ⟨h', e1, e2, e3, e4⟩ := update_ok ho
    (h := ⟨h.arr.set idx x, setIx (setIx h.ix x idx) h.arr[idx] noIdx⟩) (pos := idx) (by simpa using hl) hn.2 hi
    (except_set ho hl hg.ordered x)
  have hni : h'.ix h.arr[idx] = noIdx := by rw [e4 _ hn.1]; simp [setIx]
  refine ⟨h', ?_, e3, (e2.cons _).trans hp, hni, fun y h1 h2 => ?_⟩
  · have hass3 : ass (h'.ix h.arr[idx] = noIdx) = some () := by simp [ass, hni]
    simp only [replace, if_neg hne, hass, hr, if_neg hrx, hass2, e1, hass3, Option.bind_eq_bind, Option.bind_some]
  · have h3 : y ≠ h.arr[idx] := by rintro rfl; exact h1 (List.getElem_mem hl)
    have h4 : y ∉ h.arr.set idx x := fun hm => by
      have := hp.mem_iff.mp (List.mem_cons_of_mem _ hm)
      simp [h2, h1] at this
    rw [e4 y h4]
    simp [setIx, h2, h3]

example : (replace natCmp exHeap 1 (some 9)).map (fun r => (r.1, r.2.arr, r.2.ix 3, r.2.ix 9)) =
    some (some 3, [1, 7, 2, 9], noIdx, 3) := by decide

/-- C34: the other modes of replacing: NULL removes, no index inserts, the same element updates. -/
theorem C34_replace_modes (ho : IsOrder cmp) (h : Heap α) (hg : Good cmp h) (hsz : h.arr.length ≤ noIdx) :
    (∀ idx x, h.arr[idx]? = some x → ∃ h', replace cmp h idx none = some (some x, h') ∧ Good cmp h' ∧
      h.arr.Perm (x :: h'.arr) ∧ h'.ix x = noIdx) ∧
    (∀ x, x ∉ h.arr → ∃ h', replace cmp h noIdx (some x) = some (none, h') ∧ Good cmp h' ∧ h'.arr.Perm (x :: h.arr)) ∧
    (∀ idx x, h.arr[idx]? = some x → ∃ h', replace cmp h idx (some x) = some (none, h') ∧ Good cmp h' ∧
      h'.arr.Perm h.arr) := by
  refine ⟨fun idx x hx => ?_, fun x hx => ?_, fun idx x hx => ?_⟩
  · obtain ⟨h', e1, e2, e3, e4, e5⟩ := C34_remove ho h hg idx x hx
    obtain ⟨hl, _⟩ := List.getElem?_eq_some_iff.mp hx
    have hne : idx ≠ noIdx := by omega
    exact ⟨h', by simp [replace, hne, ass, hl, e1], e2, e3, e4⟩
  · obtain ⟨h', e1, e2, e3, e4⟩ := C34_insert ho h hg x hx
    exact ⟨h', by simp [replace, e1], e2, e3⟩
  · obtain ⟨hl, _⟩ := List.getElem?_eq_some_iff.mp hx
    have hne : idx ≠ noIdx := by omega
    obtain ⟨h', e1, e2, e3, e4⟩ := C34_update ho h hg.nodup hg.indexed idx hl ⟨cmp, ho, hg.ordered, by intros; rfl⟩
    exact ⟨h', by simp only [replace, if_neg hne, ass, if_pos hl, hx, if_true, e1, Option.bind_eq_bind, Option.bind_some], e2, e3⟩

/-- histories: the queue `h` after some operations with the order `cmp`; `S` are the elements inserted and not removed,
in no particular order -/
inductive Hist : (α → α → Int) → Heap α → List α → Prop where
  | empty {cmp : α → α → Int} (ix : α → Nat) : (∀ x, ix x = noIdx) → Hist cmp ⟨[], ix⟩ []
  | insert {cmp : α → α → Int} {h h' : Heap α} {S : List α} {x : α} : Hist cmp h S → x ∉ S →
      insert cmp h x = some h' → Hist cmp h' (x :: S)
  | remove {cmp : α → α → Int} {h h' : Heap α} {S : List α} {x y : α} : Hist cmp h S → x ∈ S →
      remove cmp h (h.ix x) = some (y, h') → Hist cmp h' (S.erase x)
  | extract {cmp : α → α → Int} {h h' : Heap α} {S : List α} {y : α} : Hist cmp h S →
      extract cmp h = some (some y, h') → Hist cmp h' (S.erase y)
  | replace {cmp : α → α → Int} {h h' : Heap α} {S : List α} {x z : α} {y : Option α} : Hist cmp h S → x ∈ S → z ∉ S →
      S.length ≤ noIdx → replace cmp h (h.ix x) (some z) = some (y, h') → Hist cmp h' (z :: S.erase x)
  | update {cmp cmp' : α → α → Int} {h h' : Heap α} {S : List α} {x : α} : Hist cmp' h S → IsOrder cmp' → x ∈ S →
      (∀ a ∈ S, ∀ b ∈ S, a ≠ x → b ≠ x → cmp a b = cmp' a b) →
      update cmp h (h.ix x) = some h' → Hist cmp h' S

theorem Good.position {h : Heap α} (hg : Good cmp h) {x : α} (hx : x ∈ h.arr) : h.arr[h.ix x]? = some x := by
  obtain ⟨i, hi⟩ := List.getElem?_of_mem hx
  rw [hg.indexed i x hi]; exact hi

/-- C34: after any history the queue holds exactly the elements inserted and not removed, its front is a minimum, each
element knows its position, and an element is in the queue if and only if its index says so. -/
theorem C34_history (ho : IsOrder cmp) (h : Heap α) (S : List α) (H : Hist cmp h S) :
    Good cmp h ∧ h.arr.Perm S ∧ (∀ x, x ∉ S → h.ix x = noIdx) ∧ (∀ m, h.arr[0]? = some m → IsMin cmp S m) := by
  have main : Good cmp h ∧ h.arr.Perm S ∧ (∀ x, x ∉ S → h.ix x = noIdx) := by
    induction H with
    | empty ix hix =>
      exact ⟨⟨fun i j x y _ hx _ => by simp at hx, by simp, fun i x hx => by simp at hx⟩, List.Perm.refl _,
        fun x _ => hix x⟩
    | @insert cmp h h' S x _ hx he ih =>
      obtain ⟨i1, i2, i3⟩ := ih ho
      obtain ⟨h'', e1, e2, e3, e4⟩ := C34_insert ho h i1 x (fun hm => hx (i2.mem_iff.mp hm))
      rw [e1] at he
      obtain rfl := Option.some.inj he
      refine ⟨e2, e3.trans (i2.cons _), fun y hy => ?_⟩
      simp only [List.mem_cons, not_or] at hy
      rw [e4 y (fun hm => hy.2 (i2.mem_iff.mp hm)) hy.1]; exact i3 y hy.2
    | @remove cmp h h' S x y _ hx he ih =>
      obtain ⟨i1, i2, i3⟩ := ih ho
      obtain ⟨h'', e1, e2, e3, e4, e5⟩ := C34_remove ho h i1 _ x (i1.position (i2.mem_iff.mpr hx))
      rw [e1] at he
      simp only [Option.some.injEq, Prod.mk.injEq] at he
      obtain ⟨rfl, rfl⟩ := he
      have hp : h''.arr.Perm (S.erase x) := by
        have h1 := (e3.symm.trans i2).erase x
        simpa using h1
      refine ⟨e2, hp, fun y hy => ?_⟩
      by_cases hyx : y = x
      · subst hyx; exact e4
      · have : y ∉ S := fun hm => hy ((List.mem_erase_of_ne hyx).mpr hm)
        rw [e5 y (fun hm => this (i2.mem_iff.mp hm))]; exact i3 y this
    | @extract cmp h h' S y _ he ih =>
      obtain ⟨i1, i2, i3⟩ := ih ho
      by_cases h0 : h.arr = []
      · rw [(C34_extract ho h i1).1 h0] at he; simp at he
      · obtain ⟨m, h'', e1, _, e2, e3, e4, e5⟩ := (C34_extract ho h i1).2 h0
        rw [e1] at he
        simp only [Option.some.injEq, Prod.mk.injEq] at he
        obtain ⟨rfl, rfl⟩ := he
        have hp : h''.arr.Perm (S.erase m) := by
          have h1 := (e3.symm.trans i2).erase m
          simpa using h1
        refine ⟨e2, hp, fun y hy => ?_⟩
        by_cases hyx : y = m
        · subst hyx; exact e4
        · have : y ∉ S := fun hm => hy ((List.mem_erase_of_ne hyx).mpr hm)
          rw [e5 y (fun hm => this (i2.mem_iff.mp hm))]; exact i3 y this
    | @replace cmp h h' S x z y _ hx hz hsz he ih =>
      obtain ⟨i1, i2, i3⟩ := ih ho
      obtain ⟨h'', e1, e2, e3, e4, e5⟩ := C34_replace ho h i1 (by rw [i2.length_eq]; exact hsz) _ x z
        (i1.position (i2.mem_iff.mpr hx)) (fun hm => hz (i2.mem_iff.mp hm))
      rw [e1] at he
      simp only [Option.some.injEq, Prod.mk.injEq] at he
      obtain ⟨rfl, rfl⟩ := he
      have hzx : z ≠ x := by rintro rfl; exact hz hx
      have hp : h''.arr.Perm (z :: S.erase x) := by
        have h1 := (e3.trans (i2.cons z)).erase x
        rw [List.erase_cons_head, List.erase_cons_tail (by simpa using hzx)] at h1
        exact h1
      refine ⟨e2, hp, fun y hy => ?_⟩
      simp only [List.mem_cons, not_or] at hy
      by_cases hyx : y = x
      · subst hyx; exact e4
      · have : y ∉ S := fun hm => hy.2 ((List.mem_erase_of_ne hyx).mpr hm)
        rw [e5 y (fun hm => this (i2.mem_iff.mp hm)) hy.1]; exact i3 y this
    | @update cmp cmp' h h' S x _ ho' hx hag he ih =>
      obtain ⟨i1, i2, i3⟩ := ih ho'
      have hpos := i1.position (i2.mem_iff.mpr hx)
      obtain ⟨hl, _⟩ := List.getElem?_eq_some_iff.mp hpos
      obtain ⟨h'', e1, e2, e3, e4⟩ := C34_update ho h i1.nodup i1.indexed (h.ix x) hl
        ⟨cmp', ho', i1.ordered, fun i j a b hi hj ha hb => by
          refine hag a (i2.mem_iff.mp (List.mem_of_getElem? ha)) b (i2.mem_iff.mp (List.mem_of_getElem? hb)) ?_ ?_
          · rintro rfl; exact hi (i1.indexed i a ha).symm
          · rintro rfl; exact hj (i1.indexed j b hb).symm⟩
      rw [e1] at he
      obtain rfl := Option.some.inj he
      refine ⟨e2, e3.trans i2, fun y hy => ?_⟩
      rw [e4 y (fun hm => hy (i2.mem_iff.mp hm))]; exact i3 y hy
  refine ⟨main.1, main.2.1, main.2.2, fun m hm => ?_⟩
  have := front_isMin ho main.1.ordered hm
  exact ⟨main.2.1.mem_iff.mp this.1, fun x hx => this.2 x (main.2.1.mem_iff.mpr hx)⟩

example : ∃ h : Heap Nat, Hist natCmp h [3] ∧ h.ix 5 = noIdx := by
  have h0 : Hist natCmp ⟨[], fun _ : Nat => noIdx⟩ [] := Hist.empty _ (fun _ => rfl)
  have h1 := Hist.insert (x := 3) h0 (by simp) rfl
  have h2 := Hist.insert (x := 5) h1 (by simp) rfl
  have h3 := Hist.remove (x := 5) h2 (by simp) rfl
  exact ⟨_, h3, (C34_history natCmp_order _ _ h3).2.2.1 5 (by decide)⟩

/-! ### C35 -/

theorem vmakeLoop_ok (ho : IsOrder cmp) (n : Nat) : ∀ (k : Nat) (mem : List α) (size : Nat), n ≤ mem.length →
    0 < size → size ≤ n + 1 → n + 1 ≤ size + k → Ordered cmp (mem.take (size - 1)) →
    ∃ mem', vmakeLoop cmp n k mem size = some (mem', n + 1) ∧ (mem'.take n).Perm (mem.take n) ∧
      mem'.drop n = mem.drop n ∧ Ordered cmp (mem'.take n) := by
  intro k
  induction k with
  | zero =>
    intro mem size h1 h2 h3 h4 h5
    have : size = n + 1 := by omega
    subst this
    exact ⟨mem, by simp [vmakeLoop], List.Perm.refl _, rfl, by simpa using h5⟩
  | succ k ih =>
    intro mem size h1 h2 h3 h4 h5
    unfold vmakeLoop
    by_cases hs : size ≤ n
    · rw [if_pos hs]
      have hlen : (mem.take size).length = size := by simp; omega
      have hE : UpInv cmp (mem.take size) (size - 1) := by
        constructor
        · intro i j hij hj x y hx hy
          have hjl : j < size := by
            by_contra hc
            rw [List.getElem?_eq_none (by omega)] at hy; simp at hy
          have hij' : i < j := by unfold Child at hij; omega
          rw [List.getElem?_take_of_lt (by omega)] at hx hy
          refine h5 i j x y hij ?_ ?_
          · rw [List.getElem?_take_of_lt (by omega)]; exact hx
          · rw [List.getElem?_take_of_lt (by omega)]; exact hy
        · intro i j _ hj x y _ hy
          rw [List.getElem?_eq_none (by unfold Child at hj; omega)] at hy; simp at hy
      obtain ⟨L', e1, e2, e3⟩ := vupLoop_ok ho (size - 1) (mem.take size) (size - 1) (Nat.le_refl _) (by omega) hE
      have hass : ass (size - 1 < (mem.take size).length) = some () := by
        have : size - 1 < (mem.take size).length := by omega
        simp only [ass, this, if_true]
      have hL : L'.length = size := by rw [e2.length_eq, hlen]
      simp only [vup, hass, e1, Option.bind_eq_bind, Option.bind_some]
      obtain ⟨mem', f1, f2, f3, f4⟩ := ih (L' ++ mem.drop size) (size + 1) (by simp; omega) (by omega) (by omega)
        (by omega) (by simpa [hL, List.take_append] using e3)
      refine ⟨mem', f1, f2.trans ?_, f3.trans ?_, f4⟩
      · rw [List.take_append, List.take_of_length_le (by omega)]
        have : mem.take n = mem.take size ++ (mem.drop size).take (n - size) := by
          conv => lhs; rw [← List.take_append_drop size mem, List.take_append, List.take_of_length_le (by omega), hlen]
        rw [this, hL]
        exact e2.append_right _
      · rw [List.drop_append, List.drop_of_length_le (by omega), List.nil_append, hL, List.drop_drop]
        congr 1; omega
    · rw [if_neg hs]
      have : size = n + 1 := by omega
      subst this
      exact ⟨mem, rfl, List.Perm.refl _, rfl, by simpa using h5⟩

/-- C35 (part): making a heap permutes the elements of the vector into order and does not touch other memory.  Missing:
the element count is unchanged; this is false, see the next theorem: if there are two or more elements, the code leaves a
size that is one too large. -/
theorem C35_vec_make_partial (ho : IsOrder cmp) (mem : List α) (n : Nat) (hn : n ≤ mem.length) :
    ∃ mem', vmake cmp mem n = some (mem', if n < 2 then n else n + 1) ∧ (mem'.take n).Perm (mem.take n) ∧
      mem'.drop n = mem.drop n ∧ Ordered cmp (mem'.take n) := by
  unfold vmake
  have hord : ∀ k, k < 2 → Ordered cmp (mem.take k) := by
    intro k hk i j x y hij _ hy
    rw [List.getElem?_eq_none (by simp; omega)] at hy; simp at hy
  by_cases h2 : n < 2
  · rw [if_pos h2, if_pos h2]
    exact ⟨mem, rfl, List.Perm.refl _, rfl, hord n h2⟩
  · rw [if_neg h2, if_neg h2]
    exact vmakeLoop_ok ho n n mem 2 hn (by omega) (by omega) (by omega) (hord 1 (by omega))

example : vmake natCmp [5, 3, 8, 1] 4 = some ([1, 3, 8, 5], 5) := by decide

/-- C35 is false for the code: after making a heap of `n ≥ 2` elements that fill the allocated memory, the vector claims to
have `n + 1` elements, one of which is not in the allocated memory. -/
theorem C35_vec_make_wrong (ho : IsOrder cmp) (mem : List α) (hn : 2 ≤ mem.length) :
    ∃ mem' size, vmake cmp mem mem.length = some (mem', size) ∧ size = mem.length + 1 ∧ size > mem'.length := by
  obtain ⟨mem', e1, e2, e3, _⟩ := C35_vec_make_partial ho mem mem.length (Nat.le_refl _)
  rw [if_neg (by omega)] at e1
  refine ⟨mem', _, e1, rfl, ?_⟩
  have h1 := e2.length_eq
  have h2 := congrArg List.length e3
  simp at h1 h2
  omega

example : vmake natCmp [5, 3] 2 = some ([3, 5], 3) := by decide

theorem makeLoop_sim (n : Nat) : ∀ (k : Nat) (h : Heap α) (size : Nat) (mem' : List α) (s : Nat), 2 ≤ size → n ≤ h.arr.length →
    (h.arr.take n).Nodup → Indexed (h.arr.take n) h.ix → vmakeLoop cmp n k h.arr size = some (mem', s) →
    ∃ ix', makeLoop cmp n k h size = some (⟨mem', ix'⟩, s) ∧ Indexed (mem'.take n) ix' ∧
      ∀ x, x ∉ h.arr.take n → ix' x = h.ix x := by
  intro k
  induction k with
  | zero =>
    intro h size mem' s h2 hl hn hi hv
    simp only [vmakeLoop] at hv
    split_ifs at hv with h1
    simp only [Option.some.injEq, Prod.mk.injEq] at hv
    obtain ⟨rfl, rfl⟩ := hv
    exact ⟨h.ix, by simp [makeLoop, h1], hi, fun _ _ => rfl⟩
  | succ k ih =>
    intro h size mem' s h2 hl hn hi hv
    unfold vmakeLoop at hv
    unfold makeLoop
    split_ifs at hv with h1
    · rw [if_pos h1]
      simp only [Option.bind_eq_bind, Option.bind_eq_some_iff] at hv
      obtain ⟨L1, hu, hv⟩ := hv
      have hsub : h.arr.take size = (h.arr.take n).take size := by rw [List.take_take]; congr 1; omega
      have hn1 : (h.arr.take size).Nodup := by rw [hsub]; exact hn.sublist (List.take_sublist _ _)
      have hi1 : Indexed (h.arr.take size) h.ix := by
        intro i x hx
        have : i < size := by
          by_contra hc
          rw [List.getElem?_eq_none (by simp; omega)] at hx; simp at hx
        apply hi i x
        rw [List.getElem?_take_of_lt this] at hx
        rw [List.getElem?_take_of_lt (by omega)]; exact hx
      obtain ⟨ix1, s1, s2, s3, s4⟩ := up_sim (h := ⟨h.arr.take size, h.ix⟩) hn1 hi1 hu
      simp only [s1, Option.bind_eq_bind, Option.bind_some]
      have hL : L1.length = size := by rw [s2.length_eq]; simp; omega
      have hsplit : h.arr.take n = h.arr.take size ++ (h.arr.drop size).take (n - size) := by
        conv => lhs; rw [← List.take_append_drop size h.arr, List.take_append, List.take_of_length_le (by simp; omega)]
        congr 2; simp; omega
      have htk : (L1 ++ h.arr.drop size).take n = L1 ++ (h.arr.drop size).take (n - size) := by
        rw [List.take_append, List.take_of_length_le (by omega), hL]
      have hperm : ((L1 ++ h.arr.drop size).take n).Perm (h.arr.take n) := by
        rw [htk, hsplit]; exact List.Perm.append_right _ s2
      rw [hsplit, List.nodup_append] at hn
      obtain ⟨ix', f1, f2, f3⟩ := ih ⟨L1 ++ h.arr.drop size, ix1⟩ (size + 1) mem' s (by omega)
        (by simp only [List.length_append, List.length_drop]; omega)
        (hperm.nodup_iff.mpr (by rw [hsplit, List.nodup_append]; exact hn))
        (by
          intro i x hx
          simp only [htk] at hx ⊢
          rw [List.getElem?_append] at hx
          split_ifs at hx with hc
          · exact s3 i x hx
          · have hm := List.mem_of_getElem? hx
            have hnot : x ∉ h.arr.take size := fun hm' => hn.2.2 x hm' x hm rfl
            rw [s4 x hnot]
            apply hi i x
            rw [hsplit, List.getElem?_append_right (by simp; omega)]
            rw [hL] at hx
            convert hx using 2
            simp; omega) hv
      refine ⟨ix', f1, f2, fun x hx => ?_⟩
      rw [f3 x (fun hm => hx (hperm.mem_iff.mp hm))]
      refine s4 x (fun hm => hx ?_)
      rw [hsplit]; exact List.mem_append_left _ hm
    · rw [if_neg h1]
      simp only [Option.some.injEq, Prod.mk.injEq] at hv
      obtain ⟨rfl, rfl⟩ := hv
      exact ⟨h.ix, rfl, hi, fun _ _ => rfl⟩

/-- C35 (part) for queues with embedded index: the elements are permuted into order and know their positions.  Missing: the
size field, which is one too large from two elements on. -/
theorem C35_make_partial (ho : IsOrder cmp) (h : Heap α) (n : Nat) (hn : n ≤ h.arr.length) (hd : (h.arr.take n).Nodup) :
    ∃ h', make cmp h n = some (h', if n < 2 then n else n + 1) ∧ (h'.arr.take n).Perm (h.arr.take n) ∧
      h'.arr.drop n = h.arr.drop n ∧ Good cmp ⟨h'.arr.take n, h'.ix⟩ ∧ ∀ x, x ∉ h.arr.take n → h'.ix x = h.ix x := by
  obtain ⟨mem', e1, e2, e3, e4⟩ := C35_vec_make_partial ho h.arr n hn
  have hi : Indexed (h.arr.take n) (initIx (h.arr.take n) 0 h.ix) := by
    intro i x hx
    rw [initIx_at _ _ _ hd i x hx]; omega
  unfold make
  by_cases h2 : n < 2
  · simp only [vmake, if_pos h2, Option.some.injEq, Prod.mk.injEq, and_true] at e1
    subst e1
    simp only [if_pos h2]
    exact ⟨_, rfl, List.Perm.refl _, rfl, ⟨e4, hd, hi⟩, fun x hx => initIx_other _ _ _ _ hx⟩
  · simp only [vmake, if_neg h2] at e1
    simp only [if_neg h2]
    obtain ⟨ix', f1, f2, f3⟩ := makeLoop_sim n n ⟨h.arr, initIx (h.arr.take n) 0 h.ix⟩ 2 mem' (n + 1) (by omega) hn hd hi e1
    refine ⟨_, f1, e2, e3, ⟨e4, e2.nodup_iff.mpr hd, f2⟩, fun x hx => ?_⟩
    exact (f3 x hx).trans (initIx_other _ _ _ _ hx)

example : (make natCmp ⟨[5, 3, 8, 1], fun _ => noIdx⟩ 4).map (fun r => (r.1.arr, r.2, r.1.ix 5)) =
    some ([1, 3, 8, 5], 5, 3) := by decide

end Hob3l.Heap
