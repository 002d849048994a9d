import Verif.Svg.LemmasDraw
import Mathlib.Data.List.Induction
import Mathlib.Data.List.Nodup

/-! Lemmas about the polygon that is made of a path. -/

namespace Hob3l.Svg

/-! ## Assignment of the references -/

section

variable {A : Type}

theorem ensureSet_get (z : A) (l : List A) (i : Nat) (f : A → A) (n : Nat) :
    (ensureSet z l i f)[n]? =
      if n = i then some (f ((l[n]?).getD z)) else if n < max l.length (i + 1) then some ((l[n]?).getD z) else none := by
  unfold ensureSet
  have hg : (l ++ List.replicate (i + 1 - l.length) z)[n]? =
      if n < max l.length (i + 1) then some ((l[n]?).getD z) else none := by
    by_cases h : n < l.length
    · rw [List.getElem?_append_left h, if_pos (by omega), List.getElem?_eq_getElem h]; rfl
    · rw [List.getElem?_append_right (by omega), List.getElem?_replicate, List.getElem?_eq_none (by omega)]
      by_cases h2 : n < i + 1
      · rw [if_pos (by omega), if_pos (by omega)]; rfl
      · rw [if_neg (by omega), if_neg (by omega)]
  rw [List.getElem?_modify, hg]
  by_cases hn : n = i
  · subst hn
    rw [if_pos (by omega)]; simp
  · rw [if_neg hn]
    have : ¬ i = n := fun h => hn h.symm
    simp [this]

theorem ensureSet_length (z : A) (l : List A) (i : Nat) (f : A → A) : (ensureSet z l i f).length = max l.length (i + 1) := by
  unfold ensureSet; simp; omega

end

/-- the entry of path `j` at `i` -/
def entry (p : List (List Nat)) (j i : Nat) : Option Nat := (p[j]?).bind (·[i]?)

/-- one assignment -/
def put (p : List (List Nat)) (i j r : Nat) : List (List Nat) := ensureSet [] p j (fun u => ensureSet 0 u i (fun _ => r))

theorem entry_put_self (p : List (List Nat)) (i j r : Nat) : entry (put p i j r) j i = some r := by
  unfold entry put
  rw [ensureSet_get, if_pos rfl]
  simp only [Option.bind_some]
  rw [ensureSet_get, if_pos rfl]

theorem entry_put_ne (p : List (List Nat)) (i j r i' j' : Nat) (h : (i', j') ≠ (i, j)) (x : Nat) (hx : entry p j' i' = some x) :
    entry (put p i j r) j' i' = some x := by
  unfold entry at hx
  cases hp : p[j']? with
  | none => rw [hp] at hx; cases hx
  | some u =>
    rw [hp] at hx
    simp only [Option.bind_some] at hx
    have hj : j' < p.length := (List.getElem?_eq_some_iff.1 hp).1
    have hi : i' < u.length := (List.getElem?_eq_some_iff.1 hx).1
    unfold entry put
    rw [ensureSet_get]
    by_cases hjj : j' = j
    · subst hjj
      rw [if_pos rfl, hp]
      simp only [Option.getD_some, Option.bind_some]
      rw [ensureSet_get, if_neg (fun e => h (by rw [e])), if_pos (by omega), hx]; rfl
    · rw [if_neg hjj, if_pos (by omega), hp]
      exact hx

theorem putRefs_keep (l : List ((Nat × Nat) × Nat)) (p : List (List Nat)) (i j x : Nat) (h : (i, j) ∉ l.map (·.1))
    (hx : entry p j i = some x) : entry (putRefs l p) j i = some x := by
  induction l generalizing p with
  | nil => exact hx
  | cons a l ih =>
    obtain ⟨⟨i', j'⟩, r⟩ := a
    simp only [List.map_cons, List.mem_cons, not_or] at h
    show entry (putRefs l (put p i' j' r)) j i = _
    exact ih _ h.2 (entry_put_ne p i' j' r i j h.1 x hx)

theorem putRefs_val (l : List ((Nat × Nat) × Nat)) (hn : (l.map (·.1)).Nodup) (p : List (List Nat)) (i j r : Nat)
    (h : ((i, j), r) ∈ l) : entry (putRefs l p) j i = some r := by
  induction l generalizing p with
  | nil => cases h
  | cons a l ih =>
    rw [List.map_cons, List.nodup_cons] at hn
    rcases List.mem_cons.1 h with rfl | h'
    · show entry (putRefs l (put p i j r)) j i = _
      exact putRefs_keep l _ i j r hn.1 (entry_put_self p i j r)
    · obtain ⟨⟨i', j'⟩, r'⟩ := a
      exact ih hn.2 _ h'

theorem putRefs_row (l : List ((Nat × Nat) × Nat)) (p : List (List Nat)) (j i : Nat) (u : List Nat)
    (hu : (putRefs l p)[j]? = some u) (hi : i < u.length) :
    (∃ u0, p[j]? = some u0 ∧ i < u0.length) ∨ ∃ i', (i', j) ∈ l.map (·.1) ∧ i ≤ i' := by
  induction l generalizing p with
  | nil => exact .inl ⟨u, hu, hi⟩
  | cons a l ih =>
    obtain ⟨⟨i', j'⟩, r⟩ := a
    change (putRefs l (put p i' j' r))[j]? = some u at hu
    rcases ih _ hu with ⟨u0, h1, h2⟩ | ⟨i2, h1, h2⟩
    · unfold put at h1
      rw [ensureSet_get] at h1
      by_cases hj : j = j'
      · subst hj
        rw [if_pos rfl] at h1
        simp only [Option.some.injEq] at h1
        rw [← h1, ensureSet_length] at h2
        by_cases h3 : i ≤ i'
        · exact .inr ⟨i', by simp, h3⟩
        · cases hp : p[j]? with
          | none => rw [hp] at h2; simp at h2; omega
          | some u1 =>
            rw [hp] at h2
            exact .inl ⟨u1, rfl, by simp only [Option.getD_some] at h2; omega⟩
      · rw [if_neg hj] at h1
        split at h1
        · simp only [Option.some.injEq] at h1
          cases hp : p[j]? with
          | none => rw [hp] at h1; simp at h1; rw [h1] at h2; simp at h2
          | some u1 => rw [hp] at h1; simp at h1; rw [← h1] at h2; exact .inl ⟨u1, rfl, h2⟩
        · cases h1
    · exact .inr ⟨i2, by simp [h1], h2⟩

theorem putRefs_len (l : List ((Nat × Nat) × Nat)) (p : List (List Nat)) (j : Nat) (hj : j < (putRefs l p).length) :
    j < p.length ∨ ∃ i' j', (i', j') ∈ l.map (·.1) ∧ j ≤ j' := by
  induction l generalizing p with
  | nil => exact .inl hj
  | cons a l ih =>
    obtain ⟨⟨i', j'⟩, r⟩ := a
    change j < (putRefs l (put p i' j' r)).length at hj
    rcases ih _ hj with h | ⟨i2, j2, h1, h2⟩
    · unfold put at h
      rw [ensureSet_length] at h
      by_cases h3 : j ≤ j'
      · exact .inr ⟨i', j', by simp, h3⟩
      · exact .inl (by omega)
    · exact .inr ⟨i2, j2, by simp [h1], h2⟩

/-! ## The places -/

section

variable {A : Type}

theorem mem_tagged {l : List (List A)} {a : A} {i j : Nat} :
    (a, i, j) ∈ tagged l ↔ ∃ p, l[j]? = some p ∧ p[i]? = some a := by
  unfold tagged
  simp only [List.mem_flatMap, List.mem_map, Prod.mk.injEq]
  constructor
  · rintro ⟨⟨p, j'⟩, hq, ⟨a', i'⟩, ha, rfl, rfl, rfl⟩
    exact ⟨p, List.mem_zipIdx_iff_getElem?.1 hq, List.mem_zipIdx_iff_getElem?.1 ha⟩
  · rintro ⟨p, hp, ha⟩
    exact ⟨(p, j), List.mem_zipIdx_iff_getElem?.2 hp, (a, i), List.mem_zipIdx_iff_getElem?.2 ha, rfl, rfl, rfl⟩

theorem tagged_nodup (l : List (List A)) : ((tagged l).map (·.2)).Nodup := by
  induction l using List.reverseRecOn with
  | nil => exact List.nodup_nil
  | append_singleton l b ih =>
    rw [tagged_snoc, List.map_append, List.nodup_append]
    refine ⟨ih, ?_, ?_⟩
    · rw [List.map_map]
      have : (b.zipIdx.map ((fun x : A × Nat × Nat => x.2) ∘ fun p => (p.1, p.2, l.length)))
          = (List.range b.length).map (fun i => (i, l.length)) := by
        have h2 := List.zipIdx_map_snd 0 b
        rw [List.range_eq_range', ← h2, List.map_map]
        rfl
      rw [this]
      exact List.Nodup.map (fun a b h => by simpa using h) List.nodup_range
    · intro x hx y hy
      rintro rfl
      rw [List.mem_map] at hx hy
      obtain ⟨⟨a, i, j⟩, h1, rfl⟩ := hx
      obtain ⟨q, h2, h3⟩ := hy
      rw [List.mem_map] at h2
      obtain ⟨r, -, rfl⟩ := h2
      simp only [Prod.mk.injEq] at h3
      rw [mem_tagged] at h1
      obtain ⟨p, hp, -⟩ := h1
      have := (List.getElem?_eq_some_iff.1 hp).1
      omega

theorem tagged_map {B : Type} (f : A → B) (l : List (List A)) :
    (tagged l).map (fun q => (f q.1, q.2)) = tagged (l.map (List.map f)) := by
  induction l using List.reverseRecOn with
  | nil => rfl
  | append_singleton l b ih =>
    rw [tagged_snoc, List.map_append, ih, List.map_append, List.map_cons, List.map_nil, tagged_snoc, List.length_map,
      List.map_map, List.zipIdx_map, List.map_map]
    rfl

end

/-! ## The loop -/

section

variable {B : Type}

theorem uniqLoop_keys (eqv : B → B → Bool) (l : List (B × Nat × Nat)) (last : Option B) (k : Nat) :
    (uniqLoop eqv l last k).2.map (·.1) = l.map (·.2) := by
  induction l generalizing last k with
  | nil => rfl
  | cons q l ih =>
    obtain ⟨a, i, j⟩ := q
    cases last with
    | none => simp only [uniqLoop, List.map_cons, ih]
    | some b =>
      rw [uniqLoop]
      split
      · simp only [List.map_cons, ih]
      · simp only [List.map_cons, ih]

/-- every place gets a reference to a point that is kept and is equal -/
theorem uniqLoop_refs (eqv : B → B → Bool) (hrefl : ∀ a, eqv a a = true) (l : List (B × Nat × Nat)) (pre : List B)
    (a : B) (i j : Nat) (h : (a, i, j) ∈ l) :
    ∃ r x, ((i, j), r) ∈ (uniqLoop eqv l pre.getLast? pre.length).2
      ∧ (pre ++ (uniqLoop eqv l pre.getLast? pre.length).1)[r]? = some x ∧ eqv a x = true := by
  induction l generalizing pre with
  | nil => cases h
  | cons q l ih =>
    obtain ⟨b, i', j'⟩ := q
    -- the point is kept
    have keep : ∀ (L : List B × List ((Nat × Nat) × Nat)),
        L = (b :: (uniqLoop eqv l (some b) (pre.length + 1)).1,
          ((i', j'), pre.length) :: (uniqLoop eqv l (some b) (pre.length + 1)).2) →
        ∃ r x, ((i, j), r) ∈ L.2 ∧ (pre ++ L.1)[r]? = some x ∧ eqv a x = true := by
      rintro L rfl
      rcases List.mem_cons.1 h with h | h
      · obtain ⟨rfl, rfl, rfl⟩ : a = b ∧ i = i' ∧ j = j' := by simpa using h
        exact ⟨pre.length, a, List.mem_cons_self .., by simp, hrefl a⟩
      · have := ih (pre ++ [b]) h
        rw [List.getLast?_append, List.length_append] at this
        simp only [List.getLast?_singleton, List.length_singleton, Option.some_or] at this
        obtain ⟨r, x, h1, h2, h3⟩ := this
        refine ⟨r, x, List.mem_cons_of_mem _ h1, ?_, h3⟩
        simpa using h2
    cases hl : pre.getLast? with
    | none =>
      refine keep _ ?_
      rw [uniqLoop]
    | some c =>
      by_cases he : eqv b c = true
      · have e : uniqLoop eqv ((b, i', j') :: l) (some c) pre.length
            = ((uniqLoop eqv l (some c) pre.length).1, ((i', j'), pre.length - 1) :: (uniqLoop eqv l (some c) pre.length).2) := by
          rw [uniqLoop, if_pos he]
        rw [e]
        rcases List.mem_cons.1 h with h | h
        · obtain ⟨rfl, rfl, rfl⟩ : a = b ∧ i = i' ∧ j = j' := by simpa using h
          refine ⟨pre.length - 1, c, List.mem_cons_self .., ?_, he⟩
          have hne : pre ≠ [] := by rintro rfl; cases hl
          have hlen : 0 < pre.length := List.length_pos_iff.2 hne
          rw [List.getElem?_append_left (by omega), ← List.getLast?_eq_getElem?, hl]
        · have := ih pre h
          rw [hl] at this
          obtain ⟨r, x, h1, h2, h3⟩ := this
          exact ⟨r, x, List.mem_cons_of_mem _ h1, h2, h3⟩
      · refine keep _ ?_
        rw [uniqLoop, if_neg he]

/-- the points that are kept are some of those given, in the same order; and adjacent ones differ -/
theorem uniqLoop_kept (eqv : B → B → Bool) (l : List (B × Nat × Nat)) (last : Option B) (k : Nat) :
    List.Sublist (uniqLoop eqv l last k).1 (l.map (·.1)) := by
  induction l generalizing last k with
  | nil => exact List.Sublist.slnil
  | cons q l ih =>
    obtain ⟨b, i, j⟩ := q
    cases last with
    | none => rw [uniqLoop]; exact (ih _ _).cons₂ _
    | some c =>
      rw [uniqLoop]
      split
      · exact (ih _ _).cons _
      · exact (ih _ _).cons₂ _

theorem uniqLoop_chain (eqv : B → B → Bool) (l : List (B × Nat × Nat)) (last : Option B) (k : Nat) :
    List.IsChain (fun a b => eqv b a = false) (last.toList ++ (uniqLoop eqv l last k).1) := by
  induction l generalizing last k with
  | nil => cases last <;> simp [uniqLoop]
  | cons q l ih =>
    obtain ⟨b, i, j⟩ := q
    cases last with
    | none => rw [uniqLoop]; simpa using ih (some b) (k + 1)
    | some c =>
      rw [uniqLoop]
      by_cases he : eqv b c = true
      · rw [if_pos he]; exact ih (some c) k
      · rw [if_neg he]
        have := ih (some b) (k + 1)
        simp only [Option.toList_some, List.cons_append, List.nil_append] at this ⊢
        exact List.IsChain.cons_cons (by simpa using he) this

end

/-- the result of `uniquify`: the references lead to the points -/
theorem uniquify_ok {A B : Type} (xf : A → B) (srt : List (B × Nat × Nat) → List (B × Nat × Nat)) (eqv : B → B → Bool)
    (hs : ∀ l, (srt l).Perm l) (hrefl : ∀ a, eqv a a = true) (paths : List (List A)) (hne : ∀ p ∈ paths, p ≠ []) :
    (uniquify xf srt eqv (tagged paths)).2.length = paths.length ∧
    ∀ (j : Nat) (p : List A), paths[j]? = some p → ∃ u, (uniquify xf srt eqv (tagged paths)).2[j]? = some u ∧ u.length = p.length ∧
      ∀ (i : Nat) (a : A), p[i]? = some a → ∃ r x, u[i]? = some r ∧ (uniquify xf srt eqv (tagged paths)).1[r]? = some x ∧
        eqv (xf a) x = true := by
  set q := srt ((tagged paths).map fun q => (xf q.1, q.2)) with hq
  have hperm : q.Perm ((tagged paths).map fun q => (xf q.1, q.2)) := hs _
  rw [tagged_map] at hperm
  set paths' := paths.map (List.map xf) with hp'
  have e : uniquify xf srt eqv (tagged paths) = ((uniqLoop eqv q none 0).1, putRefs (uniqLoop eqv q none 0).2 []) := rfl
  rw [e]
  simp only
  set refs := (uniqLoop eqv q none 0).2 with hrefs
  have hkeys : refs.map (·.1) = q.map (·.2) := uniqLoop_keys eqv q none 0
  have hnd : (refs.map (·.1)).Nodup := by
    rw [hkeys]
    exact ((hperm.map (·.2)).nodup_iff).2 (tagged_nodup paths')
  have hkey : ∀ i j, (i, j) ∈ refs.map (·.1) ↔ ∃ p, paths[j]? = some p ∧ i < p.length := by
    intro i j
    rw [hkeys, List.mem_map]
    constructor
    · rintro ⟨⟨a, x⟩, h1, rfl⟩
      rw [hperm.mem_iff, mem_tagged] at h1
      obtain ⟨p, h1, h2⟩ := h1
      rw [hp', List.getElem?_map] at h1
      cases hpj : paths[j]? with
      | none => rw [hpj] at h1; cases h1
      | some p0 =>
        rw [hpj] at h1
        simp only [Option.map_some, Option.some.injEq] at h1
        refine ⟨p0, rfl, ?_⟩
        have := (List.getElem?_eq_some_iff.1 h2).1
        rw [← h1, List.length_map] at this
        exact this
    · rintro ⟨p, h1, h2⟩
      refine ⟨(xf p[i], i, j), ?_, rfl⟩
      rw [hperm.mem_iff, mem_tagged]
      exact ⟨p.map xf, by rw [hp', List.getElem?_map, h1]; rfl, by simp [h2]⟩
  -- the entries
  have hentry : ∀ i j p a, paths[j]? = some p → p[i]? = some a → ∃ r x, entry (putRefs refs []) j i = some r ∧
      (uniqLoop eqv q none 0).1[r]? = some x ∧ eqv (xf a) x = true := by
    intro i j p a h1 h2
    have hm : (xf a, i, j) ∈ q := by
      rw [hperm.mem_iff, mem_tagged]
      exact ⟨p.map xf, by rw [hp', List.getElem?_map, h1]; rfl, by rw [List.getElem?_map, h2]; rfl⟩
    obtain ⟨r, x, h3, h4, h5⟩ := uniqLoop_refs eqv hrefl q [] (xf a) i j hm
    exact ⟨r, x, putRefs_val refs hnd [] i j r h3, by simpa using h4, h5⟩
  have hrow : ∀ (j : Nat) (p : List A), paths[j]? = some p → ∃ u : List Nat, (putRefs refs [])[j]? = some u ∧ u.length = p.length := by
    intro j p h1
    have hp : p ≠ [] := hne p (List.mem_of_getElem? h1)
    have hpl : 0 < p.length := List.length_pos_iff.2 hp
    have hlast : p[p.length - 1]? = some (p[p.length - 1]'(by omega)) := List.getElem?_eq_getElem (by omega)
    obtain ⟨r, x, h2, -, -⟩ := hentry (p.length - 1) j p _ h1 hlast
    unfold entry at h2
    cases hu : (putRefs refs [])[j]? with
    | none => rw [hu] at h2; cases h2
    | some u =>
      rw [hu] at h2
      simp only [Option.bind_some] at h2
      refine ⟨u, rfl, ?_⟩
      have h3 := (List.getElem?_eq_some_iff.1 h2).1
      have h4 : u.length ≤ p.length := by
        by_contra hc
        rcases putRefs_row refs [] j p.length u hu (by omega) with ⟨u0, h5, -⟩ | ⟨i', h5, h6⟩
        · simp at h5
        · obtain ⟨p', h7, h8⟩ := (hkey i' j).1 h5
          rw [h1] at h7
          simp only [Option.some.injEq] at h7
          rw [← h7] at h8; omega
      omega
  refine ⟨?_, ?_⟩
  · apply Nat.le_antisymm
    · by_contra hc
      rcases putRefs_len refs [] paths.length (by omega) with h | ⟨i', j', h1, h2⟩
      · simp at h
      · obtain ⟨p, h3, -⟩ := (hkey i' j').1 h1
        have := (List.getElem?_eq_some_iff.1 h3).1
        omega
    · by_contra hc
      have hlt : (putRefs refs []).length < paths.length := by omega
      obtain ⟨u, h1, -⟩ := hrow _ _ (List.getElem?_eq_getElem hlt)
      have := (List.getElem?_eq_some_iff.1 h1).1
      omega
  · intro j p h1
    obtain ⟨u, h2, h3⟩ := hrow j p h1
    refine ⟨u, h2, h3, fun i a h4 => ?_⟩
    obtain ⟨r, x, h5, h6, h7⟩ := hentry i j p a h1 h4
    refine ⟨r, x, ?_, h6, h7⟩
    unfold entry at h5
    rw [h2] at h5
    exact h5

end Hob3l.Svg
