import Verif.Tri.LemmasFlush

/-!
`flush_triangle_` for a path.
-/

namespace Hob3l.Tri

open Hob3l.Poly (P Vtx Err ass Ins cross3 vec2Cmp treeNext treePrev Small crossI cross3_eq)

theorem vd_idx {s : St} {v w : V} (hn : s.points.Nodup) (hv : Vd s v) (hw : Vd s w) :
    idxOf s v = idxOf s w ↔ posOf s v = posOf s w := by
  obtain ⟨i, h1, h2⟩ := hv
  obtain ⟨j, h3, h4⟩ := hw
  rw [h1, h3]
  constructor
  · intro h
    simp at h
    subst h
    rw [h2] at h4
    exact Option.some.inj h4
  · intro h
    rw [h, ← h4] at h2
    have hi : i < s.points.length := by
      by_contra hc
      rw [h4, List.getElem?_eq_none (by omega)] at h2
      cases h2
    rw [(List.getElem?_inj hi hn).1 h2]

theorem first_ok {s : St} {p : V} {y0 : Nat} {u0 : Nat × Nat} {U : List (Nat × Nat)} {closed clo : Bool}
    (h : Go s p y0 (u0 :: U) closed clo) (hne : idxOf s (dst s u0.2) ≠ idxOf s p) :
    stepNeq s p false = .ok (some (dst s u0.2)) := by
  have hd := h.head
  simp at hd
  subst hd
  rcases h.start with ⟨rfl, -⟩ | ⟨x, rfl, hj, hx, -⟩
  · exact stepNeq_src (path_head h.path) h.vd.ne hne
  · refine stepNeq_dst hj (path_head h.path) ?_ hne
    rintro rfl
    exact hx (mem_ues2 (by simp))

theorem crossI_self (a o : P) : crossI a o a = 0 := by unfold crossI; ring

theorem nodes_cons (s : St) (u u' : Nat × Nat) (U : List (Nat × Nat)) : nodes s (u :: u' :: U) = node s u :: nodes s (u' :: U) := by
  unfold nodes; rw [List.dropLast_cons_cons]; rfl

theorem node_congr {s s' : St} (h1 : s'.back = s.back) (h2 : s'.idx = s.idx) (h3 : s'.pos = s.pos) (h4 : s'.inner = s.inner)
    (u : Nat × Nat) : node s' u = node s u := by
  unfold node posOf ix full dst; rw [h1, h2, h3, h4]

theorem nodes_congr {s s' : St} (h1 : s'.back = s.back) (h2 : s'.idx = s.idx) (h3 : s'.pos = s.pos) (h4 : s'.inner = s.inner)
    (U : List (Nat × Nat)) : nodes s' U = nodes s U := by
  unfold nodes; exact List.map_congr_left fun u _ => node_congr h1 h2 h3 h4 u

theorem node_merge {s : St} {u0 u1 : Nat × Nat} (h : u0.1 ≠ u1.2) : node s (u0.1, u1.2) = (node s u1).off := by
  unfold node Nd.off full; simp [h]

theorem eb_dst {s : St} {x y : Nat} (h : Jn s x y) : eb s (dst s x) = [x, y] := by
  unfold eb; rw [eqBuddy_dst h]; rfl

theorem eb_p {s : St} {p : V} {y0 : Nat} {u0 : Nat × Nat} {U : List (Nat × Nat)} {closed clo : Bool}
    (h : Go s p y0 (u0 :: U) closed clo) :
    u0.1 ∈ eb s p ∧ ∀ x ∈ eb s p, x = u0.1 ∨ x ∉ ues (u0 :: U) ∨
      (x = (lastU (u0 :: U)).2 ∧ posOf s (dst s (lastU (u0 :: U)).2) = posOf s p) := by
  have hd := h.head
  simp at hd
  subst hd
  rcases h.start with ⟨rfl, h1, h2⟩ | ⟨x, rfl, hj, hx, -⟩
  · unfold eb eqBuddy
    simp only [buddy_src, h1]
    refine ⟨by simp [src], ?_⟩
    intro x hx
    rcases List.mem_cons.1 hx with h | h
    · exact .inl h
    · right; right
      split_ifs at h with hc
      · simp at h
      · simp only [Option.map_some, Option.toList_some, List.mem_singleton] at h
        exact ⟨h, (not_not.1 hc).symm⟩
  · rw [eb_dst hj]
    refine ⟨by simp, ?_⟩
    intro z hz
    simp at hz
    rcases hz with rfl | rfl
    · exact .inr (.inl hx)
    · exact .inl rfl

theorem eb_p_last {s : St} {p : V} {y0 : Nat} {u0 : Nat × Nat} {U : List (Nat × Nat)} {closed clo : Bool}
    (h : Go s p y0 (u0 :: U) closed clo) (hne : (lastU (u0 :: U)).2 ≠ u0.1) :
    (decide ((lastU (u0 :: U)).2 ∈ eb s p) && full s (lastU (u0 :: U))) = clo := by
  have hd := h.head
  simp at hd
  subst hd
  rcases h.start with ⟨rfl, h1, h2⟩ | ⟨x, rfl, hj, hx, hc, -⟩
  · have hb : (lastU (u0 :: U)).2 ∈ eb s (src s u0.1) ↔ posOf s (dst s (lastU (u0 :: U)).2) = posOf s (src s u0.1) := by
      unfold eb eqBuddy
      simp only [buddy_src, h1]
      constructor
      · intro h
        rcases List.mem_cons.1 h with h | h
        · exact absurd h hne
        · split_ifs at h with hc
          · simp at h
          · exact (not_not.1 hc).symm
      · intro h
        rw [if_neg (not_not.2 h.symm)]
        simp [dst]
    rw [h2]
    simp only [hb]
  · rw [eb_dst hj, hc]
    have : (lastU (u0 :: U)).2 ≠ x := by rintro rfl; exact hx (mem_ues2 lastU_mem)
    simp [this, hne]

theorem isOutline_false {s : St} {p q : V} (h : ∀ x ∈ eb s p, x ∉ eb s q) : isOutline s p q = false := by
  rw [isOutline_eq (e := p.1) fun x h1 h2 => absurd h2 (h x h1)]
  have : ¬ (p.1 ∈ eb s p ∧ p.1 ∈ eb s q) := fun hc => h _ hc.1 hc.2
  simp [this]

/-- the edge is not in another piece -/
theorem ue_disj {u u' : Nat × Nat} {U V W : List (Nat × Nat)} (nd : (ues (U ++ u :: V ++ u' :: W)).Nodup) {x : Nat} (h : x ∈ ue u)
    (h' : x ∈ ue u') : False := by
  unfold ues at nd
  rw [List.flatMap_append] at nd
  exact (List.nodup_append.1 nd).2.2 x (List.mem_flatMap.2 ⟨u, by simp, h⟩) x (List.mem_flatMap.2 ⟨u', by simp, h'⟩) rfl

theorem ue_eq {u : Nat × Nat} (h : u.1 = u.2) : ue u = [u.1] := by unfold ue; rw [if_pos h]

theorem not_mem_tail {u : Nat × Nat} {U : List (Nat × Nat)} (nd : (ues (u :: U)).Nodup) {x : Nat} (h : x ∈ ue u) :
    ∀ u' ∈ U, x ∉ ue u' := fun u' hu' hx => by
  rw [ues_cons] at nd
  exact (List.nodup_append.1 nd).2.2 x h x (List.mem_flatMap.2 ⟨u', hu', hx⟩) rfl

/-- the triangle -/
theorem mkTri_ok {s : St} {p : V} {y0 : Nat} {u0 u1 u2 : Nat × Nat} {U : List (Nat × Nat)} {neg closed clo : Bool}
    (h : Go s p y0 (u0 :: u1 :: u2 :: U) closed clo) :
    mkTri s neg p (dst s u0.2) (dst s u1.2) = mk3 neg (ix s p) (node s u0) (node s u1) ((nodes s (u2 :: U)).isEmpty && clo) := by
  obtain ⟨hu0, hj0, hu1, hj1, hp2⟩ := h.path
  have e0 := eb_dst hj0
  have e1 := eb_dst hj1
  obtain ⟨m1, m2⟩ := eb_p h
  have d0 := fun {x : Nat} => not_mem_tail h.nodup (x := x)
  have nd1 : (ues (u1 :: u2 :: U)).Nodup := by
    have := h.nodup; rw [ues_cons] at this; exact (List.nodup_append.1 this).2.1
  have d1 := fun {x : Nat} => not_mem_tail nd1 (x := x)
  have nd2 : (ues (u2 :: U)).Nodup := by
    have := nd1; rw [ues_cons] at this; exact (List.nodup_append.1 this).2.1
  have hl : lastU (u0 :: u1 :: u2 :: U) = lastU (u2 :: U) := by rw [lastU_cons, lastU_cons]
  have hlm : lastU (u2 :: U) ∈ u2 :: U := lastU_mem
  have hl0 : (lastU (u2 :: U)).2 ∉ ue u0 := fun hc => d0 hc _ (List.mem_cons_of_mem _ hlm) (mem_ue2 _)
  have hl1 : (lastU (u2 :: U)).2 ∉ ue u1 := fun hc => d1 hc _ hlm (mem_ue2 _)
  have hlast := eb_p_last h (by rw [hl]; exact fun hc => hl0 (hc ▸ mem_ue1 u0))
  -- the three sides
  have s1 : ∀ x ∈ eb s p, x ∈ eb s (dst s u0.2) → x = u0.1 := by
    intro x hx hx'
    rcases m2 x hx with h | h | ⟨h, -⟩
    · exact h
    · rw [e0] at hx'; simp at hx'
      rcases hx' with rfl | rfl
      · exact absurd (mem_ues2 (by simp)) h
      · exact absurd (mem_ues1 (by simp)) h
    · rw [hl] at h
      rw [e0] at hx'; simp at hx'
      rcases hx' with rfl | rfl
      · exact absurd (mem_ue2 u0) (h ▸ hl0)
      · exact absurd (mem_ue1 u1) (h ▸ hl1)
  have o1 : isOutline s p (dst s u0.2) = full s u0 ∧ isOutline s (dst s u0.2) p = full s u0 := by
    have hm : u0.1 ∈ eb s (dst s u0.2) ↔ u0.1 = u0.2 := by
      rw [e0]; simp
      intro hc
      exact absurd (mem_ue1 u1) (d0 (hc ▸ mem_ue1 u0) u1 (by simp))
    unfold full
    constructor
    · rw [isOutline_eq s1]; simp [m1, hm]
    · rw [isOutline_eq (fun x h1 h2 => s1 x h2 h1)]; simp [m1, hm]
  have s2 : ∀ x ∈ eb s (dst s u0.2), x ∈ eb s (dst s u1.2) → x = u1.1 := by
    intro x hx hx'
    rw [e0] at hx; rw [e1] at hx'; simp at hx hx'
    rcases hx with rfl | rfl
    · rcases hx' with h | h
      · exact absurd (mem_ue2 u1) (d0 (h ▸ mem_ue2 u0) u1 (by simp))
      · exact absurd (mem_ue1 u2) (d0 (h ▸ mem_ue2 u0) u2 (by simp))
    · rfl
  have o2 : isOutline s (dst s u0.2) (dst s u1.2) = full s u1 ∧ isOutline s (dst s u1.2) (dst s u0.2) = full s u1 := by
    have hm : u1.1 ∈ eb s (dst s u1.2) ↔ u1.1 = u1.2 := by
      rw [e1]; simp
      intro hc
      exact absurd (mem_ue1 u2) (d1 (hc ▸ mem_ue1 u1) u2 (by simp))
    unfold full
    constructor
    · rw [isOutline_eq s2]; simp only [hm, e0]; simp
    · rw [isOutline_eq (fun x h1 h2 => s2 x h2 h1)]; simp only [hm, e0]; simp
  have s3 : ∀ x ∈ eb s p, x ∈ eb s (dst s u1.2) → x = (lastU (u2 :: U)).2 ∧ x = u2.1 := by
    intro x hx hx'
    rw [e1] at hx'; simp at hx'
    rcases m2 x hx with h | h | ⟨h, -⟩
    · rcases hx' with hx' | hx'
      · exact absurd (mem_ue2 u1) (d0 ((h.symm.trans hx') ▸ mem_ue1 u0) u1 (by simp))
      · exact absurd (mem_ue1 u2) (d0 ((h.symm.trans hx') ▸ mem_ue1 u0) u2 (by simp))
    · rcases hx' with hx' | hx'
      · exact absurd (hx' ▸ mem_ues2 (by simp)) h
      · exact absurd (hx' ▸ mem_ues1 (by simp)) h
    · rw [hl] at h
      refine ⟨h, ?_⟩
      rcases hx' with hx' | hx'
      · exact absurd (mem_ue2 u1) ((h.symm.trans hx') ▸ hl1)
      · exact hx'
  have o3 : isOutline s p (dst s u1.2) = ((nodes s (u2 :: U)).isEmpty && clo) ∧
      isOutline s (dst s u1.2) p = ((nodes s (u2 :: U)).isEmpty && clo) := by
    have key : (decide ((lastU (u2 :: U)).2 ∈ eb s p ∧ (lastU (u2 :: U)).2 ∈ eb s (dst s u1.2)) &&
        !s.inner (lastU (u2 :: U)).2) = ((nodes s (u2 :: U)).isEmpty && clo) := by
      rw [← hlast, hl]
      have hm : (lastU (u2 :: U)).2 ∈ eb s (dst s u1.2) ↔ (lastU (u2 :: U)).2 = u2.1 := by
        rw [e1]; simp
        intro hc
        exact absurd (mem_ue2 u1) (hc ▸ hl1)
      simp only [hm]
      cases U with
      | nil =>
        have : lastU [u2] = u2 := rfl
        rw [this]
        have hn : nodes s [u2] = [] := rfl
        rw [hn]
        unfold full
        by_cases hc : u2.1 = u2.2
        · simp [hc]
        · simp [hc, Ne.symm hc]
      | cons u3 U =>
        have : (lastU (u2 :: u3 :: U)).2 ≠ u2.1 := by
          rw [lastU_cons]
          intro hc
          exact not_mem_tail nd2 (mem_ue1 u2) _ lastU_mem (hc ▸ mem_ue2 _)
        rw [nodes_cons]
        simp [this]
    constructor
    · rw [isOutline_eq (fun x h1 h2 => (s3 x h1 h2).1), key]
    · rw [isOutline_eq (fun x h1 h2 => (s3 x h2 h1).1), ← key]
      congr 2
      exact propext and_comm
  unfold mkTri mk3
  rw [o1.1, o1.2, o2.1, o2.2, o3.1, o3.2]
  unfold node
  simp only

end Hob3l.Tri
