import Verif.Hull.LemmasGeo
import Mathlib.Tactic.SplitIfs

/-!
The scan as a stack.
-/

namespace Hob3l.Hull

/-- the inner loop on a stack, with exact arithmetic -/
def popS (cc : V) : List V → List V
  | cl :: cp :: s => if 0 < turn cp cl cc then cl :: cp :: s else popS cc (cp :: s)
  | s => s

/-- the outer loop on a stack -/
def stackLoop : List V → List V → List V
  | [], s => s
  | cc :: l, s => stackLoop l (cc :: popS cc s)

/-- all triples turn to the right; the last point comes first -/
def Conv : List V → Prop
  | [] => True
  | c :: l => Conv l ∧ l.Pairwise fun b a => 0 < turn a b c

/-- a stack with `u` at the bottom -/
structure Good (u : V) (s : List V) : Prop where
  conv : Conv s
  bottom : ∃ t, s = t ++ [u] ∧ ∀ c ∈ t, c ≠ u

theorem Good.mem {u : V} {s : List V} (h : Good u s) : u ∈ s := by
  obtain ⟨t, rfl, -⟩ := h.bottom; simp

theorem Good.tail {u c : V} {s : List V} (h : Good u (c :: s)) (hs : s ≠ []) : Good u s := by
  refine ⟨h.conv.1, ?_⟩
  obtain ⟨t, ht, hu⟩ := h.bottom
  cases t with
  | nil => simp at ht; exact absurd ht.2 hs
  | cons x t =>
    simp at ht
    exact ⟨t, ht.2, fun c hc => hu c (List.mem_cons_of_mem _ hc)⟩

theorem Good.one (u : V) : Good u [u] := ⟨⟨trivial, .nil⟩, [], rfl, by simp⟩

/-- in a good stack the points are seen from the bottom in strict order -/
theorem Good.below {u c b : V} {s : List V} (h : Good u (c :: s)) (hb : b ∈ s) (hbu : b ≠ u) : 0 < turn u b c := by
  obtain ⟨t, ht, hu⟩ := h.bottom
  cases t with
  | nil =>
    simp at ht
    rw [ht.2] at hb; simp at hb
  | cons x t =>
    simp at ht
    obtain ⟨rfl, rfl⟩ := ht
    have hp := h.conv.2
    rw [List.pairwise_append] at hp
    simp at hb
    rcases hb with hb | hb
    · exact hp.2.2 b hb u (by simp)
    · exact absurd hb hbu

theorem Good.top_ne {u c : V} {s : List V} (h : Good u (c :: s)) (hs : s ≠ []) : c ≠ u := by
  obtain ⟨t, ht, hu⟩ := h.bottom
  cases t with
  | nil => simp at ht; exact absurd ht.2 hs
  | cons x t => simp at ht; exact ht.1 ▸ hu x (by simp)

theorem Good.nodup {u : V} {s : List V} (h : Good u s) : s.Nodup := by
  induction s with
  | nil => exact List.nodup_nil
  | cons c s ih =>
    by_cases hs : s = []
    · subst hs; simp
    · rw [List.nodup_cons]
      refine ⟨fun hc => ?_, ih (h.tail hs)⟩
      have := h.below hc (h.top_ne hs)
      rw [turn_self_right] at this
      exact lt_irrefl _ this

/-- pushing a point onto a stack whose top is kept -/
theorem Good.push {u cl cp cc : V} {r : List V} (h : Good u (cl :: cp :: r)) (hge : ∀ v ∈ cl :: cp :: r, Ge u v)
    (hc : Ge u cc) (hcu : cc ≠ u) (hL : L u cl cc) (ht : 0 < turn cp cl cc) : Good u (cc :: cl :: cp :: r) := by
  have hclu := h.top_ne (by simp)
  have hcp : cp = u ∨ 0 < turn u cp cl := by
    by_cases e : cp = u
    · exact .inl e
    · exact .inr (h.below (by simp) e)
  have hstrict := kept_strict (hge cl (by simp)) hc hcp hL ht
  -- all points are seen strictly before the new one
  have hsee : ∀ b ∈ cl :: cp :: r, b ≠ u → 0 < turn u b cc := by
    intro b hb hbu
    rcases List.mem_cons.1 hb with rfl | hb
    · exact hstrict
    · exact strict_trans (hge b (List.mem_cons_of_mem _ hb)) (hge cl (by simp)) hc hcu (h.below hb hbu) hstrict.le
  have hpair := h.conv.2
  -- triples with the top
  have htop : ∀ a ∈ cp :: r, 0 < turn a cl cc := by
    intro a ha
    by_cases hau : a = u
    · subst hau; exact hstrict
    · rcases List.mem_cons.1 ha with rfl | ha'
      · exact ht
      · have h1 : 0 < turn a cp cl := (List.pairwise_cons.1 hpair).1 a ha'
        have hcpu : cp ≠ u := (h.tail (by simp)).top_ne (fun e => by rw [e] at ha'; simp at ha')
        exact conv_step1 h1 ht hstrict (h.below (by simp) hcpu) (h.below ha hau)
  refine ⟨⟨h.conv, ?_⟩, ?_⟩
  · rw [List.pairwise_cons]
    refine ⟨htop, ?_⟩
    -- the other triples
    have hg2 := h.tail (s := cp :: r) (by simp)
    have : ∀ s : List V, Good u s → (∀ v ∈ s, v ∈ cp :: r) → s.Pairwise (fun b a => 0 < turn a b cl) →
        s.Pairwise fun b a => 0 < turn a b cc := by
      intro s
      induction s with
      | nil => intro _ _ _; exact .nil
      | cons b s ih =>
        intro hg hm hp
        rw [List.pairwise_cons] at hp ⊢
        by_cases hs : s = []
        · subst hs; exact ⟨by simp, .nil⟩
        · have hbu := hg.top_ne hs
          have hbm := hm b (by simp)
          refine ⟨fun a ha => ?_, ih (hg.tail hs) (fun v hv => hm v (List.mem_cons_of_mem _ hv)) hp.2⟩
          by_cases hau : a = u
          · subst hau; exact hsee b (List.mem_cons_of_mem _ hbm) hbu
          · exact conv_step2 (hp.1 a ha) (htop b hbm) (hsee b (List.mem_cons_of_mem _ hbm) hbu) (h.below hbm hbu)
              (hg.below ha hau)
    exact this _ hg2 (fun v hv => hv) hpair
  · obtain ⟨t, ht', hu⟩ := h.bottom
    refine ⟨cc :: t, by rw [ht']; rfl, fun c hc' => ?_⟩
    rcases List.mem_cons.1 hc' with rfl | h'
    · exact hcu
    · exact hu c h'

theorem popS_good {u cc : V} (hc : Ge u cc) (hcu : cc ≠ u) : ∀ s : List V, Good u s → (∀ v ∈ s, Ge u v) →
    (∀ v ∈ s, L u v cc) →
    Good u (cc :: popS cc s) ∧ (∀ v ∈ popS cc s, v ∈ s) ∧ Covers (cc :: popS cc s) s
  | [], h, _, _ => by obtain ⟨t, ht, _⟩ := h.bottom; simp at ht
  | [x], h, _, _ => by
    have hx : x = u := by
      obtain ⟨t, ht, _⟩ := h.bottom
      cases t with
      | nil => simpa using ht
      | cons y t => simp at ht
    subst hx
    refine ⟨⟨⟨h.conv, by simp [popS]⟩, [cc], rfl, by simpa using hcu⟩, fun v hv => hv, ?_⟩
    intro a b c hv p hp
    exact hv p (List.mem_cons_of_mem _ hp)
  | cl :: cp :: r, h, hge, hL => by
    unfold popS
    split_ifs with ht
    · refine ⟨h.push hge hc hcu (hL cl (by simp)) ht, fun v hv => hv, ?_⟩
      intro a b c hv p hp
      exact hv p (List.mem_cons_of_mem _ hp)
    · obtain ⟨h1, h2, h3⟩ := popS_good hc hcu (cp :: r) (h.tail (by simp)) (fun v hv => hge v (List.mem_cons_of_mem _ hv))
        (fun v hv => hL v (List.mem_cons_of_mem _ hv))
      refine ⟨h1, fun v hv => List.mem_cons_of_mem _ (h2 v hv), ?_⟩
      intro a b c hv p hp
      rcases List.mem_cons.1 hp with rfl | hp
      · have hcp : cp = u ∨ 0 < turn u cp p := by
          by_cases e : cp = u
          · exact .inl e
          · exact .inr (h.below (by simp) e)
        exact pop_cover (hge p (by simp)) hc hcu hcp (hL p (by simp)) (not_lt.1 ht) a b c
          (h3 a b c hv u (h.tail (by simp)).mem) (h3 a b c hv cp (by simp)) (hv cc (by simp))
      · exact h3 a b c hv p hp

/-- the state of the scan after the points `pr` -/
structure Inv (u : V) (s pr : List V) : Prop where
  stack : Good u s ∨ (s = [u, u] ∧ ∀ p ∈ pr, p = u)
  sub : ∀ v ∈ s, v ∈ pr
  cover : Covers s pr
  umem : u ∈ pr

theorem L_to_u {u x : V} (h : L u x u) : x = u := by
  rcases h with h | ⟨h, hd⟩
  · rw [turn_self_out] at h; exact absurd h (lt_irrefl _)
  · apply eq_of_sqrDist
    have : sqrDist u u = 0 := by simp [sqrDist]
    linarith

theorem Inv.step {u cc : V} {s pr : List V} (h : Inv u s pr) (hge : ∀ v ∈ pr, Ge u v) (hc : Ge u cc)
    (hL : ∀ v ∈ pr, L u v cc) : Inv u (cc :: popS cc s) (pr ++ [cc]) ∧ (popS cc s).length + 1 ≥ 2 := by
  have hlen : ∀ s : List V, s ≠ [] → popS cc s ≠ [] := by
    intro s
    induction s with
    | nil => intro h; exact absurd rfl h
    | cons c s ih =>
      intro _
      cases s with
      | nil => simp [popS]
      | cons c2 s => unfold popS; split_ifs <;> [simp; exact ih (by simp)]
  have hsne : s ≠ [] := by
    rcases h.stack with hg | ⟨rfl, -⟩
    · intro e; have := hg.mem; rw [e] at this; simp at this
    · simp
  have hl2 : (popS cc s).length + 1 ≥ 2 := by
    have := List.length_pos_iff.2 (hlen s hsne); omega
  refine ⟨?_, hl2⟩
  by_cases hcu : cc = u
  · subst hcu
    have hall : ∀ p ∈ pr, p = cc := fun p hp => L_to_u (hL p hp)
    have hs : popS cc s = [cc] := by
      rcases h.stack with hg | ⟨rfl, -⟩
      · obtain ⟨t, rfl, hu⟩ := hg.bottom
        cases t with
        | nil => rfl
        | cons x t => exact absurd (hall x (h.sub x (by simp))) (hu x (by simp))
      · simp [popS, turn_self_left]
    rw [hs]
    refine ⟨.inr ⟨rfl, ?_⟩, ?_, ?_, by simp⟩
    · intro p hp
      rcases List.mem_append.1 hp with hp | hp
      · exact hall p hp
      · simpa using hp
    · intro v hv
      simp at hv; subst hv; simp
    · intro a b c hv p hp
      have : p = cc := by
        rcases List.mem_append.1 hp with hp | hp
        · exact hall p hp
        · simpa using hp
      rw [this]; exact hv cc (by simp)
  · rcases h.stack with hg | ⟨rfl, hall⟩
    · obtain ⟨h1, h2, h3⟩ := popS_good hc hcu s hg (fun v hv => hge v (h.sub v hv)) (fun v hv => hL v (h.sub v hv))
      refine ⟨.inl h1, ?_, ?_, by simp [h.umem]⟩
      · intro v hv
        rcases List.mem_cons.1 hv with rfl | hv
        · simp
        · exact List.mem_append_left _ (h.sub v (h2 v hv))
      · intro a b c hv p hp
        rcases List.mem_append.1 hp with hp | hp
        · exact h.cover a b c (h3 a b c hv) p hp
        · simp at hp; subst hp; exact hv p (by simp)
    · have hs : popS cc [u, u] = [u] := by simp [popS, turn_self_left]
      rw [hs]
      refine ⟨.inl ⟨⟨⟨trivial, .nil⟩, by simp⟩, [cc], rfl, by simpa using hcu⟩, ?_, ?_, by simp [h.umem]⟩
      · intro v hv
        simp at hv
        rcases hv with rfl | rfl
        · simp
        · simp [h.umem]
      · intro a b c hv p hp
        rcases List.mem_append.1 hp with hp | hp
        · rw [hall p hp]; exact hv u (by simp)
        · simp at hp; subst hp; exact hv p (by simp)

theorem stackLoop_inv {u : V} : ∀ (l s pr : List V), Inv u s pr → (∀ v ∈ pr ++ l, Ge u v) → (pr ++ l).Pairwise (L u) →
    Inv u (stackLoop l s) (pr ++ l) ∧ (l ≠ [] → 2 ≤ (stackLoop l s).length)
  | [], s, pr, h, _, _ => by simpa [stackLoop] using h
  | cc :: l, s, pr, h, hge, hp => by
    have hp2 := List.pairwise_append.1 hp
    obtain ⟨h1, h2⟩ := h.step (cc := cc) (fun v hv => hge v (by simp [hv])) (hge cc (by simp))
      (fun v hv => hp2.2.2 v hv cc (by simp))
    have e : pr ++ cc :: l = (pr ++ [cc]) ++ l := by simp
    rw [e] at hge hp ⊢
    obtain ⟨h3, h4⟩ := stackLoop_inv l _ _ h1 hge hp
    refine ⟨h3, fun _ => ?_⟩
    by_cases hl : l = []
    · subst hl; simpa [stackLoop] using h2
    · exact h4 hl

end Hob3l.Hull
