import Verif.Tri.LemmasBend2

/-!
Flushes of paths that end at an edge on the sweep line.
-/

namespace Hob3l.Tri

open Hob3l.Poly (P Vtx Err ass Ins cross3 vec2Cmp treeNext treePrev Small crossI cross3_eq Lt)

/-- the points of a path, up to the rightmost point and then down to the left end of an edge -/
structure Dn (neg : Bool) (v e0 e1 : P) (N : List P) : Prop where
  refl : Refl neg N
  sh : (N = [] ∧ e0 = v) ∨ ∃ A r B x0, N = A ++ r :: B ∧ Half neg x0 v (A ++ [r]) ∧ Half (!neg) e0 e1 (r :: B).reverse ∧
    (Lt r v ∨ r = v) ∧ Lt x0 v ∧ Lt e0 v ∧ (v ≠ e1 → 0 < cr (!neg) e1 e0 v)

theorem Dn.chain {neg : Bool} {v e0 e1 : P} {N : List P} (h : Dn neg v e0 e1 N) : (v :: N).IsChain (· ≠ ·) := by
  rcases h.sh with ⟨rfl, -⟩ | ⟨A, r, B, x0, rfl, h1, h2, h3, h4, h5, h6⟩
  · simp
  · refine chain_of_half h1.up (by have := h2.up; simpa using this) ?_
    rw [h1.hd]
    intro hc
    exact lt_ne h4 (Option.some.inj hc)

theorem Dn.le' {neg : Bool} {v e0 e1 : P} {N : List P} (h : Dn neg v e0 e1 N) : ∀ q ∈ N, Lt q v ∨ q = v := by
  rcases h.sh with ⟨rfl, -⟩ | ⟨A, r, B, x0, rfl, h1, h2, h3, h4, h5, h6⟩
  · simp
  · have hA := h1.up
    have hB := h2.up
    rw [List.pairwise_append] at hA
    rw [List.reverse_cons, List.pairwise_append] at hB
    have lv : ∀ {q : P}, Lt q r → Lt q v := by
      intro q hq
      rcases h3 with h3 | h3
      · exact lt_trans' hq h3
      · rw [← h3]; exact hq
    intro q hq
    rcases List.mem_append.1 hq with hq | hq
    · exact .inl (lv (hA.2.2 q hq r (by simp)))
    · rcases List.mem_cons.1 hq with rfl | hq
      · exact h3
      · exact .inl (lv (hB.2.2 q (by simpa using hq) r (by simp)))

theorem Dn.le {neg : Bool} {v e0 e1 : P} {L : List Nd} (h : Dn neg v e0 e1 (L.map Nd.pos)) : ∀ n ∈ L, Lt n.pos v ∨ n.pos = v :=
  fun _ hn => h.le' _ (List.mem_map_of_mem hn)

/-- the points of a half only -/
theorem dn_half {neg : Bool} {v e0 e1 : P} {N : List P} (hr : Refl neg N) (hh : N ≠ [] → Half (!neg) e0 e1 N.reverse)
    (hN : ∀ q ∈ N, Lt q v) (he : N ≠ [] → Lt e0 v) (hs : N ≠ [] → v ≠ e1 → 0 < cr (!neg) e1 e0 v) (h0 : N = [] → e0 = v) :
    Dn neg v e0 e1 N := by
  refine ⟨hr, ?_⟩
  cases N with
  | nil => exact .inl ⟨rfl, h0 rfl⟩
  | cons r B =>
    right
    refine ⟨[], r, B, r, rfl, ⟨by simp, rfl, by simp⟩, hh (by simp), .inl (hN r (by simp)), hN r (by simp), he (by simp), hs (by simp)⟩

/-- the first point that is left is to the left -/
theorem fl_lt {neg closed clo : Bool} {v : P} {vi : Nat} {L R : List Nd} {T : List Tri} (h : Fl neg v vi closed clo L T R)
    (hL : ∀ n ∈ L, Lt n.pos v ∨ n.pos = v) (hc : (v :: L.map Nd.pos).IsChain (· ≠ ·)) : ∀ q Q, R.map Nd.pos = q :: Q → Lt q v := by
  induction h with
  | nil => simp
  | keep q _ =>
    intro q' Q h2
    simp only [List.map_cons, List.cons.injEq] at h2
    rw [← h2.1]
    refine (hL q (by simp)).resolve_right ?_
    intro e
    rw [List.map_cons, List.isChain_cons_cons] at hc
    exact hc.1 e.symm
  | last q _ => simp
  | stop q w L _ _ =>
    intro q' Q h2
    simp only [List.map_cons, List.cons.injEq] at h2
    rw [← h2.1]
    refine (hL q (by simp)).resolve_right ?_
    intro e
    rw [List.map_cons, List.isChain_cons_cons] at hc
    exact hc.1 e.symm
  | dup q w L T R hw hf ih =>
    refine ih (fun n hn => ?_) ?_
    · obtain ⟨m, hm1, e⟩ := offs_mem hn
      rw [← pos_of_pi e]
      exact hL m (by simp [hm1])
    · have hm : (offs L).map Nd.pos = L.map Nd.pos := by rw [pi_pos, offs_pi, ← pi_pos]
      rw [hm]
      rw [List.map_cons, List.map_cons, List.isChain_cons_cons, List.isChain_cons_cons, hw] at hc
      exact hc.2.2
  | tri q w L T R hi hw hf ih =>
    refine ih (fun n hn => ?_) ?_
    · rcases List.mem_cons.1 hn with rfl | hn
      · exact hL w (by simp)
      · exact hL n (by simp [hn])
    · rw [List.map_cons, List.map_cons, List.isChain_cons_cons, List.isChain_cons_cons] at hc
      rw [List.map_cons, List.isChain_cons_cons]
      exact ⟨fun e => hw e.symm, hc.2.2⟩

theorem fw_weak {x1 y1 x2 y2 x3 y3 : Int} (h1 : Fw x1 y1) (h2 : Fw x2 y2) (h3 : Fw x3 y3)
    (ha : 0 ≤ x1 * y2 - y1 * x2) (hb : 0 ≤ x2 * y3 - y2 * x3) : 0 ≤ x1 * y3 - y1 * x3 := by
  unfold Fw at *
  have id : x2 * (x1 * y3 - y1 * x3) = x3 * (x1 * y2 - y1 * x2) + x1 * (x2 * y3 - y2 * x3) := by ring
  have q1 : 0 ≤ x3 * (x1 * y2 - y1 * x2) := mul_nonneg (by omega) ha
  have q2 : 0 ≤ x1 * (x2 * y3 - y2 * x3) := mul_nonneg (by omega) hb
  rcases h2 with h2 | ⟨h2, h2'⟩
  · by_contra hc
    have := mul_neg_of_pos_of_neg h2 (not_le.1 hc)
    omega
  · subst h2
    have hx1 : 0 ≤ x1 := by omega
    have hx3 : x3 = 0 := by
      by_contra hx
      have h3' : 0 < x3 := by omega
      have : 0 < y2 * x3 := mul_pos h2' h3'
      omega
    subst hx3
    have : 0 < y3 := by omega
    have := mul_nonneg hx1 this.le
    omega

/-- the order of directions to the left -/
theorem cr_weak {neg : Bool} {v a b c : P} (h1 : Lt a v) (h2 : Lt b v) (h3 : Lt c v) (ha : 0 ≤ cr neg v a b) (hb : 0 ≤ cr neg v b c) :
    0 ≤ cr neg v a c := by
  have f1 : Fw (v.1 - a.1) (v.2 - a.2) := by unfold Fw; unfold Lt at h1; omega
  have f2 : Fw (v.1 - b.1) (v.2 - b.2) := by unfold Fw; unfold Lt at h2; omega
  have f3 : Fw (v.1 - c.1) (v.2 - c.2) := by unfold Fw; unfold Lt at h3; omega
  unfold cr at *
  unfold crossI at *
  cases neg
  · simp only [Bool.false_eq_true, if_false] at *
    have := fw_weak f3 f2 f1 (by linarith) (by linarith)
    linarith
  · simp only [if_true] at *
    have := fw_weak f1 f2 f3 (by linarith) (by linarith)
    linarith

theorem cr_self (neg : Bool) (v a : P) : cr neg v a a = 0 := by
  unfold cr crossI; cases neg <;> simp <;> ring

theorem cr_swap (neg : Bool) (a v b : P) : cr neg a v b = -cr neg v a b := by
  unfold cr crossI; cases neg <;> simp <;> ring

/-- the flush turns away from the edge at which it starts -/
theorem fl_rot {neg closed clo : Bool} {v : P} {vi : Nat} {L R : List Nd} {T : List Tri} (h : Fl neg v vi closed clo L T R)
    (hL : ∀ n ∈ L, Lt n.pos v ∨ n.pos = v) (hr : Refl neg (L.map Nd.pos)) (hc : (v :: L.map Nd.pos).IsChain (· ≠ ·)) :
    ∀ x X q Q, L.map Nd.pos = x :: X → R.map Nd.pos = q :: Q → 0 ≤ cr neg v x q := by
  induction h with
  | nil => simp
  | keep q _ =>
    intro x X q' Q h1 h2
    rw [h1] at h2
    simp only [List.cons.injEq] at h2
    rw [h2.1, cr_self]
  | last q _ => simp
  | stop q w L _ _ =>
    intro x X q' Q h1 h2
    rw [h1] at h2
    simp only [List.cons.injEq] at h2
    rw [h2.1, cr_self]
  | dup q w L T R hw hf ih =>
    intro x X q' Q h1 h2
    simp only [List.map_cons, List.cons.injEq] at h1
    rw [← h1.1]
    have hm : (offs L).map Nd.pos = L.map Nd.pos := by rw [pi_pos, offs_pi, ← pi_pos]
    cases L with
    | nil =>
      obtain ⟨-, rfl⟩ := fl_nil hf rfl
      simp at h2
    | cons y L =>
      have hqv : q.pos ≠ v := by
        intro e
        rw [List.map_cons, List.isChain_cons_cons] at hc
        exact hc.1 e.symm
      have hyv : y.pos ≠ v := by
        intro e
        rw [List.map_cons, List.map_cons, List.map_cons, List.isChain_cons_cons, List.isChain_cons_cons, List.isChain_cons_cons] at hc
        exact hc.2.2.1 (by rw [hw, e])
      have lq : Lt q.pos v := (hL q (by simp)).resolve_right hqv
      have ly : Lt y.pos v := (hL y (by simp)).resolve_right hyv
      have i1 : 0 ≤ cr neg v q.pos y.pos := by
        have := hr [] q.pos w.pos y.pos (L.map Nd.pos) (by simp)
        rw [hw, cr_swap] at this
        omega
      have hc' : (v :: (y :: L).map Nd.pos).IsChain (· ≠ ·) := by
        rw [List.map_cons, List.map_cons, List.isChain_cons_cons, List.isChain_cons_cons] at hc
        rw [← hw]; exact hc.2.2
      have lq' : Lt q' v := by
        have hmem : q' ∈ R.map Nd.pos := by rw [h2]; simp
        exact fl_lt hf (fun n hn => by
          obtain ⟨m, hm1, e⟩ := offs_mem hn
          rw [← pos_of_pi e]
          exact hL m (by simp only [List.mem_cons] at hm1 ⊢; tauto)) (by rw [hm]; exact hc') q' Q h2
      refine cr_weak lq ly lq' i1 (ih (fun n hn => ?_) (by rw [hm]; exact hr.infix ⟨[q.pos, w.pos], [], by simp⟩) (by rw [hm]; exact hc')
        y.pos (L.map Nd.pos) q' Q (by rw [hm]; rfl) h2)
      obtain ⟨m, hm1, e⟩ := offs_mem hn
      rw [← pos_of_pi e]
      exact hL m (by simp only [List.mem_cons] at hm1 ⊢; tauto)
  | tri q w L T R hi hw hf ih =>
    intro x X q' Q h1 h2
    simp only [List.map_cons, List.cons.injEq] at h1
    rw [← h1.1]
    have hqv : q.pos ≠ v := by
      intro e
      rw [List.map_cons, List.isChain_cons_cons] at hc
      exact hc.1 e.symm
    have lq : Lt q.pos v := (hL q (by simp)).resolve_right hqv
    have lw : Lt w.pos v := (hL w (by simp)).resolve_right hw
    have hc' : (v :: (w.off :: L).map Nd.pos).IsChain (· ≠ ·) := by
      rw [List.map_cons, List.map_cons, List.isChain_cons_cons, List.isChain_cons_cons] at hc
      rw [List.map_cons, List.isChain_cons_cons]
      exact ⟨fun e => hw e.symm, hc.2.2⟩
    have hL' : ∀ n ∈ w.off :: L, Lt n.pos v ∨ n.pos = v := by
      intro n hn
      rcases List.mem_cons.1 hn with rfl | hn
      · exact .inl lw
      · exact hL n (by simp [hn])
    refine cr_weak lq lw (fl_lt hf hL' hc' q' Q h2) hi.le (ih hL' ?_ hc' w.pos (L.map Nd.pos) q' Q rfl h2)
    exact hr.infix ⟨[q.pos], [], by simp [Nd.off]⟩

theorem fl_dn {neg clo : Bool} {v e0 e1 : P} {vi : Nat} {L R : List Nd} {T : List Tri} (h : Fl neg v vi false clo L T R)
    (hd : Dn neg v e0 e1 (L.map Nd.pos)) :
    Half (!neg) e0 e1 ((R.map Nd.pos).reverse ++ [v]) ∧ Refl neg (v :: R.map Nd.pos) ∧ (R ≠ [] ∨ L = []) ∧
      ∀ x X q Q, L.map Nd.pos = x :: X → R.map Nd.pos = q :: Q → Lt q v ∧ 0 ≤ cr neg v x q := by
  have hrot : ∀ x X q Q, L.map Nd.pos = x :: X → R.map Nd.pos = q :: Q → Lt q v ∧ 0 ≤ cr neg v x q := by
    intro x X q Q h1 h2
    exact ⟨fl_lt h hd.le hd.chain q Q h2, fl_rot h hd.le hd.refl hd.chain x X q Q h1 h2⟩
  rcases hd.sh with ⟨h1, h2⟩ | ⟨A, r, B, x0, e, h1, h2, h3, h4, h5, h6⟩
  · rw [List.map_eq_nil_iff] at h1
    obtain ⟨-, rfl⟩ := fl_nil h h1
    refine ⟨⟨by simp, by simp [h2], by simp⟩, ?_, .inr h1, hrot⟩
    intro X a b c Y hc
    have := congrArg List.length hc
    simp at this
    omega
  · obtain ⟨A', r', B', rfl, rfl, rfl, rfl⟩ := split_map e
    obtain ⟨w1, w2, w3, w4⟩ := fl_open h (e0 := x0) (t0 := e0) (t1 := e1) (by simpa using h1) (by simpa using h2) hd.refl h3 h4 h5 h6
    exact ⟨w3, w4, .inl w1, hrot⟩

/-- a path with only one piece -/
theorem path_one {s : St} {U : List (Nat × Nat)} (h : nodes s U = []) (hne : U ≠ []) : ∃ u, U = [u] := by
  match U, h, hne with
  | [u], _, _ => exact ⟨u, rfl⟩
  | u :: u' :: U, h, _ => simp [nodes] at h

theorem map_pos (s : St) (U : List (Nat × Nat)) : (nodes s U).map Nd.pos = U.dropLast.map fun u => posOf s (dst s u.2) := arm_nodes s U

/-- `flush_triangle_fore` -/
theorem up_fore {p : V} {y0 : Nat} {clo : Bool} {s : St} {U : List (Nat × Nat)} {fuel : Nat} {v e0 e1 : P}
    (hg : Go s p y0 U false clo) (hv : posOf s p = v) (hnd : s.points.Nodup) (hsp : Small v)
    (hsm : ∀ q ∈ (nodes s U).map Nd.pos, Small q) (hd : Dn false v e0 e1 ((nodes s U).map Nd.pos)) (hk : U.length ≤ fuel) :
    ∃ s' U' T, flush fuel s p false = .ok s' ∧ Res v false s U s' U' T ∧ lastU U' = lastU U ∧
      Half true e0 e1 (((nodes s U').map Nd.pos).reverse ++ [v]) ∧ Refl false (v :: (nodes s U').map Nd.pos) ∧
      (∀ t ∈ T, TriOk s.points t) ∧ (∀ x X q Q, (nodes s U).map Nd.pos = x :: X → (nodes s U').map Nd.pos = q :: Q → Lt q v ∧ 0 ≤ cr false v x q) ∧
      ∀ f, (∀ a b, f a b = -f b a) → (T.map (sides f s.points)).sum =
        csum f (v :: (nodes s U).map Nd.pos) - csum f (v :: (nodes s U').map Nd.pos) := by
  obtain ⟨s', U', T, f1, f2, f3, f4⟩ := flush_fore (fuel := fuel) hg hnd (by rw [hv]; exact hsp)
    (by
      intro q hq
      apply hsm
      rw [pts_pos]; exact List.mem_map_of_mem hq)
    (by rw [hv, ← pts_pos]; exact hd.chain) hk
  rw [hv] at f2 f3
  obtain ⟨w1, w2, w3, w4⟩ := fl_dn f3 hd
  have hvn : Num s.points (v, ix s p) := by
    have := vd_num hg.vd
    rwa [hv] at this
  have hUne := path_ne hg.path
  have hlast : lastU U' = lastU U := by
    rcases w3 with w3 | w3
    · exact f4 (nodes_len w3)
    · obtain ⟨u, rfl⟩ := path_one w3 hUne
      have h2 : nodes s U' = [] := by
        rw [w3] at f3
        exact (fl_nil f3 rfl).2
      obtain ⟨u', rfl⟩ := path_one h2 (path_ne f2.path)
      exact Prod.ext f2.head f2.last
  refine ⟨s', U', T, f1, f2, hlast, w1, w2, fl_tris f3 hvn (path_num hg.path), ?_, ?_⟩
  · exact w4
  · intro f hf
    rw [fl_sum hf f3 hvn (path_num hg.path)]
    simp only [Bool.false_eq_true, if_false, lsum_open]
    ring

theorem num_mir {s : St} {U : List (Nat × Nat)} (h : Path s U) : ∀ n ∈ nodes (mir s) (revU U), Num s.points n.pi := by
  intro n hn
  have : n.pi ∈ (nodes (mir s) (revU U)).map Nd.pi := List.mem_map_of_mem hn
  rw [nodes_mir h, List.mem_reverse] at this
  obtain ⟨m, hm, e⟩ := List.mem_map.1 this
  rw [← e]; exact path_num h m hm

theorem pos_mir {s : St} {U : List (Nat × Nat)} (h : Path s U) :
    (nodes (mir s) (revU U)).map Nd.pos = ((nodes s U).map Nd.pos).reverse := by
  rw [pi_pos, nodes_mir h, List.map_reverse, ← pi_pos]

/-- `flush_triangle_back` -/
theorem down_back {p : V} {y0 : Nat} {clo : Bool} {s : St} {U : List (Nat × Nat)} {fuel : Nat} {v e0 e1 : P}
    (hg : Go (mir s) p y0 (revU U) false clo) (hp : Path s U) (hv : posOf s p = v) (hnd : s.points.Nodup) (hsp : Small v)
    (hsm : ∀ q ∈ (nodes s U).map Nd.pos, Small q) (hd : Dn true v e0 e1 ((nodes s U).map Nd.pos).reverse) (hk : U.length ≤ fuel) :
    ∃ s' U' T, flush fuel s p true = .ok s' ∧ Res v false s U s' U' T ∧ hdU U' = hdU U ∧
      Half false e0 e1 ((nodes s U').map Nd.pos ++ [v]) ∧ Refl false ((nodes s U').map Nd.pos ++ [v]) ∧
      (∀ t ∈ T, TriOk s.points t) ∧ (∀ x X q Q, (nodes s U).map Nd.pos = X ++ [x] → (nodes s U').map Nd.pos = Q ++ [q] → Lt q v ∧ 0 ≤ cr true v x q) ∧
      ∀ f, (∀ a b, f a b = -f b a) → (T.map (sides f s.points)).sum =
        csum f ((nodes s U).map Nd.pos ++ [v]) - csum f ((nodes s U').map Nd.pos ++ [v]) := by
  obtain ⟨s', U', T, f1, f2, f3, f4⟩ := flush_back (fuel := fuel) hg hp hnd (by rw [hv]; exact hsp)
    (by
      intro q hq
      apply hsm
      rw [pts_pos]; exact List.mem_map_of_mem hq)
    (by rw [hv, ← pts_pos]; exact hd.chain) hk
  rw [hv] at f2 f3
  have hRpos : (nodes (mir s) (revU U')).map Nd.pos = ((nodes s U').map Nd.pos).reverse := by
    rw [pi_pos, back_nodes f2.path f2.fr, List.map_reverse, ← pi_pos]
  obtain ⟨w1, w2, w3, w4⟩ := fl_dn f3 (by rw [pos_mir hp]; exact hd)
  rw [hRpos, List.reverse_reverse] at w1
  rw [hRpos] at w2
  have hvn : Num s.points (v, ix s p) := by
    have := vd_num hg.vd
    have e : posOf (mir s) p = v := hv
    rwa [e] at this
  have hUne := path_ne hp
  have hnil : ∀ {V : List (Nat × Nat)} {N : List Nd}, N.map Nd.pos = ((nodes s V).map Nd.pos).reverse → (N = [] ↔ nodes s V = []) := by
    intro V N h
    constructor
    · rintro rfl
      simp at h; exact h
    · intro hh
      rw [hh] at h; simpa using h
  have hhd : hdU U' = hdU U := by
    rcases w3 with w3 | w3
    · exact f4 (nodes_len (fun hc => w3 ((hnil hRpos).2 hc)))
    · have w3' := (hnil (pos_mir hp)).1 w3
      obtain ⟨u, rfl⟩ := path_one w3' hUne
      have h2 : nodes s U' = [] := by
        rw [w3] at f3
        exact (hnil hRpos).1 (fl_nil f3 rfl).2
      obtain ⟨u', rfl⟩ := path_one h2 (path_ne f2.path)
      exact Prod.ext f2.head f2.last
  refine ⟨s', U', T, f1, f2, hhd, w1, ?_, fl_tris f3 hvn (num_mir hp), ?_, ?_⟩
  · have := w2.reverse
    simpa using this
  · intro x X q Q h1 h2
    exact w4 x X.reverse q Q.reverse (by rw [pos_mir hp, h1]; simp) (by rw [hRpos, h2]; simp)
  · intro f hf
    rw [fl_sum hf f3 hvn (num_mir hp), pos_mir hp, hRpos]
    simp only [if_true, lsum_open]
    rw [csum_rev_cons hf, csum_rev_cons hf]
    ring

end Hob3l.Tri
