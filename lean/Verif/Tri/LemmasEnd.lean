import Verif.Tri.LemmasStart

/-!
The case END: the two edges belong to the same path.
-/

namespace Hob3l.Tri

open Hob3l.Poly (P Vtx Err ass Ins cross3 vec2Cmp treeNext treePrev Small crossI cross3_eq Lt)

theorem arm_first {ed : Nat → Bool → P} {s : St} {v : P} {a : Arm} (g : AG ed s v a) :
    ∃ L, lowP s a ++ highP s a = ed a.b false :: L := by
  have := g.lo.hd
  cases hl : lowP s a with
  | nil => rw [hl] at this; simp at this
  | cons x L => rw [hl] at this; simp at this; exact ⟨L ++ highP s a, by rw [this]; rfl⟩

theorem arm_last {ed : Nat → Bool → P} {s : St} {v : P} {a : Arm} (g : AG ed s v a) (hne : a.lo ≠ []) :
    ∃ L, lowP s a ++ highP s a = L ++ [ed a.t false] := by
  obtain ⟨A0, hlow, -⟩ := g.low hne
  have := g.hi.hd
  cases hh : (highP s a).reverse with
  | nil =>
    rw [hh] at this
    simp at this
    simp at hh
    exact ⟨A0, by rw [hlow, hh, this]; simp⟩
  | cons x L =>
    rw [hh] at this
    simp at this
    refine ⟨lowP s a ++ L.reverse, ?_⟩
    have h2 : highP s a = L.reverse ++ [x] := by
      have := congrArg List.reverse hh
      simpa using this
    rw [h2, this]; simp

theorem lsum_closed (f : P → P → Int) (v : P) : ∀ (L : List P), lsum f true v L = csum f (v :: L ++ [v]) := by
  intro L
  unfold lsum
  simp only [if_true]
  rcases List.eq_nil_or_concat L with rfl | ⟨A, r, rfl⟩
  · simp [psum, csum]
  · rw [List.concat_eq_append]
    have e : v :: (A ++ [r]) ++ [v] = (v :: A) ++ [r] ++ [v] := by simp
    rw [e, csum_snoc]
    simp [csum, List.getLast?_cons]

theorem arm_small {s : St} {a : Arm} (h : AI s a) (hs : ∀ p ∈ s.points, Small p) : ∀ p ∈ lowP s a ++ highP s a, Small p := by
  rw [← pts_arm h.ne1 h.ne2]
  exact node_small h.path hs

theorem AI.bt_ne {s : St} {a : Arm} (h : AI s a) : a.b ≠ a.t := by
  intro hc
  have h1 := h.bb
  have h2 := h.bt
  rw [hc, h2] at h1
  cases h1

theorem len_ues : ∀ U : List (Nat × Nat), U.length ≤ (ues U).length
  | [] => by simp
  | u :: U => by
    rw [ues_cons, List.length_append, List.length_cons]
    have := len_ues U
    have : 1 ≤ (ue u).length := by unfold ue; split_ifs <;> simp
    omega

/-- the number of points that are left is not one -/
theorem fl_closed_len {neg closed clo : Bool} {v : P} {vi : Nat} {L R : List Nd} {T : List Tri} (h : Fl neg v vi closed clo L T R)
    (hc : closed = true) : R.length ≠ 1 := by
  induction h with
  | nil => simp
  | keep q h => rw [hc] at h; cases h
  | last q _ => simp
  | stop q w L _ _ => simp
  | dup q w L T R _ _ ih => exact ih
  | tri q w L T R _ _ _ ih => exact ih

theorem path_one' {s : St} {U : List (Nat × Nat)} (h : nodes s U = []) (hne : U ≠ []) : ∃ u, U = [u] := by
  match U, h, hne with
  | [u], _, _ => exact ⟨u, rfl⟩
  | u :: u' :: U, h, _ => simp [nodes] at h

/-- END of a path -/
theorem end_proper {ed : Nat → Bool → P} {s : St} {a : Arm} {v : P} {fuel : Nat} (h : AI s a) (g : AG ed s v a)
    (vs : Vd s (a.t, true)) (vt : Vd s (a.b, true)) (ps : s.pos a.t true = v) (pt : s.pos a.b true = v)
    (hi : s.idx a.t true = s.idx a.b true) (hnd : s.points.Nodup) (hsv : Small v) (hsm : ∀ p ∈ s.points, Small p)
    (he1 : ed a.b true = v) (he2 : ed a.t true = v) (hb0 : Lt (ed a.b false) v) (ht0 : Lt (ed a.t false) v)
    (htr : treeNext s.tree a.b = some a.t) (hm1 : a.t ∈ s.tree) (hm2 : a.b ∈ s.tree) (hk : (ues a.U).length ≤ fuel) :
    ∃ s' T, finish fuel s ⟨a.t, true, v⟩ ⟨a.b, true, v⟩ = .ok s' ∧ Fr { s with tree := (s.tree.erase a.t).erase a.b } s' (ues a.U) ∧
      s'.tris = s.tris ++ T ∧ (∀ t ∈ T, TriOk s.points t) ∧
      (∀ f, (∀ a b, f a b = -f b a) → (T.map (sides f s.points)).sum = f v (ed a.b false) + asum f s a + f (ed a.t false) v) ∧
      Snd s a.U T ∧ ((∀ q ∈ lowP s a ++ highP s a, q ≠ v) → ed a.b false ≠ ed a.t false → Cmp s a.U [] T) := by
  obtain ⟨st, hst⟩ : ∃ st : St, st = { s with tree := (s.tree.erase a.t).erase a.b } := ⟨_, rfl⟩
  have hbt := h.bt_ne
  have hpos : st.pos = s.pos := by rw [hst]
  have hpts : st.points = s.points := by rw [hst]
  have hback : st.back = s.back := by rw [hst]
  have hring : st.ring = s.ring := by rw [hst]
  have hidx : st.idx = s.idx := by rw [hst]
  have hfin : finish fuel s ⟨a.t, true, v⟩ ⟨a.b, true, v⟩ = flushBoth fuel st (a.t, true) (a.b, true) := by
    unfold finish
    simp only
    rw [ass_ok _ trivial, bind_okE, ass_ok _ (by rw [h.bt, h.bb]; rfl), bind_okE, ass_ok _ htr, bind_okE]
    have e1 : edgeStep s a.b (s.back a.b) = a.t := by unfold edgeStep; rw [h.bb, if_pos rfl]; exact h.prv
    rw [if_pos e1]
    unfold treeRemove
    rw [ass_ok _ hm1, bind_okE, bind_okE]
    simp only
    rw [ass_ok _ (by rw [List.mem_erase_of_ne hbt]; exact hm2), bind_okE, bind_okE]
    simp only
    rw [ass_ok _ (by unfold edgeStep; simp only [h.bt, Bool.false_eq_true, if_false]; exact h.nxt), bind_okE, ass_ok _ hi, bind_okE, hst]
  have hpath : Path st a.U := by
    refine path_congr hback hidx hpos hpts h.path (fun u _ => ?_) (fun u _ => by rw [hring]) (fun u _ => by rw [hring])
    rw [hring, hst]; exact ⟨rfl, rfl, rfl, rfl⟩
  have hUne := path_ne h.path
  have d1 : dst st a.t = (a.t, true) := by unfold dst; rw [hback, h.bt]; rfl
  have d2 : src st a.b = (a.b, true) := by unfold src; rw [hback, h.bb]
  have vs' : Vd st (a.t, true) := vs.congr hidx hpos hpts
  have vt' : Vd st (a.b, true) := vt.congr hidx hpos hpts
  -- the first flush
  have hgo1 : Go (mir st) (a.t, true) a.t (revU a.U) true
      (decide (posOf (mir st) (dst (mir st) (lastU (revU a.U)).2) = posOf (mir st) (a.t, true)) && full (mir st) (lastU (revU a.U))) := by
    refine ⟨path_mir hpath, ?_, ?_, .inl ⟨by rw [src_mir, d1], ?_, rfl⟩, vs', ?_⟩
    · rw [head_revU hUne, h.lastU]
    · rw [ues_revU, List.nodup_reverse]; exact h.nodup
    · rw [lastU_revU', h.hdU]
      show st.ring.nxt a.t = a.b
      rw [hring]; exact h.nxt
    · rw [lastU_revU', h.hdU]
      simp only [if_true, Prod.swap]
      rw [dst_mir, d2]
      refine ⟨vt', ?_, ?_⟩
      · show st.idx a.b true = st.idx a.t true
        rw [hidx]; exact hi.symm
      · show st.ring.prv a.b = a.t
        rw [hring]; exact h.prv
  obtain ⟨clo, hclo⟩ : ∃ clo, clo = (decide (posOf (mir st) (dst (mir st) (lastU (revU a.U)).2) = posOf (mir st) (a.t, true)) &&
    full (mir st) (lastU (revU a.U))) := ⟨_, rfl⟩
  rw [← hclo] at hgo1
  have hpv : posOf st (a.t, true) = v := by unfold posOf; rw [hpos]; exact ps
  have hnodes : nodes st a.U = nodes s a.U := nodes_congr hback hidx hpos (by rw [hst]) a.U
  have hpp : (pts st a.U).map Prod.fst = lowP s a ++ highP s a := by rw [← pts_pos, hnodes, pts_arm h.ne1 h.ne2]
  obtain ⟨A0, hlow, -⟩ := g.low h.ne1
  have hsma := arm_small h hsm
  obtain ⟨s1, U', T1, f1, f2, f3, f4⟩ := flush_back (fuel := fuel) hgo1 hpath (by rw [hpts]; exact hnd) (by rw [hpv]; exact hsv)
    (by
      intro q hq
      apply hsma
      rw [← hpp]; exact List.mem_map_of_mem hq)
    (by
      rw [hpv, hpp, hlow]
      have : (A0 ++ [pk s a] ++ highP s a).reverse = (highP s a).reverse ++ pk s a :: A0.reverse := by simp
      rw [this]
      refine chain_of_half g.hi.up (by rw [List.reverse_reverse, ← hlow]; exact g.lo.up) ?_
      rw [g.hi.hd]
      intro hc
      exact lt_ne ht0 (Option.some.inj hc)) (le_trans (len_ues a.U) hk)
  obtain ⟨N, hN⟩ : ∃ N, N = nodes (mir st) (revU a.U) := ⟨_, rfl⟩
  have hNpi : N.map Nd.pi = ((nodes s a.U).map Nd.pi).reverse := by rw [hN, nodes_mir hpath, hnodes]
  obtain ⟨A, r, B, eN, m1, m2, m3, m4, m5⟩ := mir_points h g hNpi
  have hRpi := back_nodes f2.path f2.fr
  obtain ⟨R, hR⟩ : ∃ R, R = nodes (mir st) (revU U') := ⟨_, rfl⟩
  rw [← hR] at f3 hRpi
  rw [hpv, ← hN, eN] at f3
  obtain ⟨w1, w2, w3, -⟩ := fl_closed f3 (e0 := ed a.t false) (t0 := ed a.b false)
    (by rw [m1, ← he2]; exact g.hi) (by rw [m2, ← he1]; exact g.lo) m4 (by rw [m5]; exact g.le) ht0 hb0
  have hRpos : (R.map Nd.pos).reverse = (nodes st U').map Nd.pos := by
    rw [pi_pos, hRpi, List.map_reverse, List.reverse_reverse, ← pi_pos]
  have hnum : ∀ n ∈ A ++ r :: B, Num s.points n.pi := by
    intro n hn
    have : n.pi ∈ N.map Nd.pi := by rw [eN]; exact List.mem_map_of_mem hn
    rw [hNpi, List.mem_reverse] at this
    obtain ⟨m, hm, e⟩ := List.mem_map.1 this
    rw [← e]; exact path_num h.path m hm
  have hvn1 : Num s.points (v, ix st (a.t, true)) := by
    have := vd_num vs'
    rw [hpv, hpts] at this; exact this
  -- the second flush
  have hU' := path_ne f2.path
  have hn1 : nodes s1 U' = nodes st U' := fr_nodes f2.fr U'
  have hhd : (hdU U').1 = a.b := by rw [f2.head, h.hdU]
  have hlst : (lastU U').2 = a.t := by rw [f2.last, h.lastU]
  have d3 : dst s1 a.t = (a.t, true) := by rw [dst_congr f2.fr.back, d1]
  have d4 : src s1 a.b = (a.b, true) := by unfold src; rw [f2.fr.back]; exact d2
  have vs1 : Vd s1 (a.t, true) := vs'.congr f2.fr.idx f2.fr.pos f2.fr.points
  have vt1 : Vd s1 (a.b, true) := vt'.congr f2.fr.idx f2.fr.pos f2.fr.points
  obtain ⟨clo2, hclo2⟩ : ∃ clo, clo = (decide (posOf s1 (dst s1 (lastU U').2) = posOf s1 (a.b, true)) && full s1 (lastU U')) := ⟨_, rfl⟩
  have hgo2 : Go s1 (a.b, true) a.b U' true clo2 := by
    refine ⟨f2.path, ?_, h.nodup.sublist f2.sub, .inl ⟨d4.symm, ?_, hclo2⟩, vt1, ?_⟩
    · cases U' with
      | nil => exact absurd rfl hU'
      | cons u U => simp [← hhd, hdU]
    · have := f2.prv
      rw [h.hdU] at this
      rw [this, hlst, hring]; exact h.prv
    · simp only [if_true]
      rw [hlst, d3]
      refine ⟨vs1, ?_, ?_⟩
      · show s1.idx a.t true = s1.idx a.b true
        rw [f2.fr.idx, hidx]; exact hi
      · have := f2.nxt
        rw [h.lastU] at this
        rw [this, hring]; exact h.nxt
  have hpv2 : posOf s1 (a.b, true) = v := by unfold posOf; rw [f2.fr.pos, hpos]; exact pt
  have hN1 : (nodes s1 U').map Nd.pos = (R.map Nd.pos).reverse := by rw [hn1, hRpos]
  have hlt : ∀ n ∈ nodes s1 U', Lt n.pos v := by
    intro n hn
    have : n.pos ∈ (nodes s1 U').map Nd.pos := List.mem_map_of_mem hn
    rw [hN1, List.mem_reverse] at this
    obtain ⟨m, hm, e⟩ := List.mem_map.1 this
    rw [← e]; exact w3 m hm
  have hhalf : nodes s1 U' ≠ [] → Half false (ed a.b false) v ((nodes s1 U').map Nd.pos) := by
    intro hne
    rw [hN1]
    apply w1
    rintro rfl
    simp at hN1
    exact hne hN1
  have hpts1 : s1.points = s.points := by rw [f2.fr.points, hpts]
  obtain ⟨s2, U2, T2, k1, k2, k3, -⟩ := flush_fore (fuel := fuel) hgo2 (by rw [hpts1]; exact hnd) (by rw [hpv2]; exact hsv)
    (by
      intro q hq
      obtain ⟨n, hn, rfl⟩ := List.mem_map.1 hq
      exact node_small f2.path (by rw [hpts1]; exact hsm) _ (List.mem_map_of_mem hn))
    (by
      rw [hpv2, ← pts_pos, List.isChain_cons]
      refine ⟨?_, ?_⟩
      · intro y hy
        obtain ⟨n, hn, rfl⟩ := List.mem_map.1 (List.mem_of_mem_head? hy)
        exact (lt_ne (hlt n hn)).symm
      · by_cases hne : nodes s1 U' = []
        · rw [hne]; simp
        · exact chain_of_pairwise (hhalf hne).up)
    (by
      have := f2.sub.length_le
      have h3 := len_ues U'
      omega)
  rw [hpv2] at k3
  have hrefl : Refl false ((nodes s1 U').map Nd.pos) := by
    rw [hN1]
    exact w2.reverse
  have hnil := fl_all k3 hhalf hrefl hlt
  have hvn2 : Num s.points (v, ix s1 (a.b, true)) := by
    have := vd_num vt1
    rw [hpv2, hpts1] at this; exact this
  have hnum2 : ∀ n ∈ nodes s1 U', Num s.points n.pi := by
    rw [← hpts1]; exact path_num f2.path
  refine ⟨s2, T1 ++ T2, ?_, ?_, ?_, ?_, ?_, ?_, ?_⟩
  · rw [hfin]
    unfold flushBoth
    rw [f1]; exact k1
  · rw [← hst]
    exact f2.fr.trans k2.fr (f2.sub.subset)
  · rw [k2.tris, f2.tris, hst, List.append_assoc]
  · exact tri_mem (fl_tris f3 hvn1 hnum) (fl_tris k3 hvn2 hnum2)
  · intro f hf
    have hself : f v v = 0 := by have := hf v v; omega
    rw [List.map_append, List.sum_append, fl_sum hf f3 hvn1 hnum, fl_sum hf k3 hvn2 hnum2, m3, hnil, hN1]
    simp only [if_true, Bool.false_eq_true, if_false, lsum_closed, one_mul, List.map_nil]
    have rev : ∀ L : List P, csum f (v :: L.reverse ++ [v]) = -csum f (v :: L ++ [v]) := by
      intro L
      rw [← csum_reverse hf]; simp
    rw [rev, rev]
    have e0 : csum f [v, v] = 0 := by simp [csum, psum, hself]
    have e1 : csum f (v :: [] ++ [v]) = 0 := e0
    rw [e1]
    unfold asum
    obtain ⟨L, hL⟩ := arm_first g
    obtain ⟨M, hM⟩ := arm_last g h.ne1
    have e2 : csum f (v :: (lowP s a ++ highP s a) ++ [v]) = f v (ed a.b false) + csum f (lowP s a ++ highP s a) + f (ed a.t false) v := by
      have : v :: (lowP s a ++ highP s a) ++ [v] = (v :: M) ++ [ed a.t false] ++ [v] := by rw [hM]; simp
      rw [this, csum_snoc]
      have : v :: M ++ [ed a.t false] = v :: (lowP s a ++ highP s a) := by rw [hM]; simp
      rw [this, hL, csum_cons]
    rw [e2]
    ring
  · have hinn : st.inner = s.inner := by rw [hst]
    exact (f2.snd.congr hpos hinn hpts).append (((k2.snd.congr f2.fr.pos f2.fr.inner f2.fr.points).congr hpos hinn hpts).mono
      f2.kp)
  · intro hq hne
    have hinn : st.inner = s.inner := by rw [hst]
    have c1 := f2.cmp (by rw [hpv, hnodes, pts_arm h.ne1 h.ne2]; exact hq) (by
      intro _ hl
      have hle : (lowP s a ++ highP s a).length = 1 := by
        rw [← pts_arm h.ne1 h.ne2, List.length_map]
        unfold nodes
        rw [List.length_map, List.length_dropLast, hl]
      obtain ⟨L, hL⟩ := arm_first g
      obtain ⟨M, hM⟩ := arm_last g h.ne1
      rw [hL] at hle hM
      have : L = [] := by simpa using hle
      rw [this] at hM
      have hM' : M = [] := by
        have := congrArg List.length hM
        simpa using this
      rw [hM'] at hM
      exact hne (by simpa using hM))
    have c2 := k2.cmp (by
      rw [hpv2]
      intro q hq
      obtain ⟨n, hn, rfl⟩ := List.mem_map.1 hq
      exact lt_ne (hlt n hn)) (by
      intro _ hl
      have e1 := fl_closed_len f3 rfl
      apply e1
      have := congrArg List.length hN1
      rw [List.length_map, List.length_reverse, List.length_map] at this
      rw [← this]
      unfold nodes
      rw [List.length_map, List.length_dropLast, hl])
    have c3 := (c1.congr hpos hinn hpts).trans ((c2.congr f2.fr.pos f2.fr.inner f2.fr.points).congr hpos hinn hpts)
    intro e he hi
    rcases c3 e he hi with c | c
    · exfalso
      obtain ⟨u, hu⟩ := path_one' hnil (path_ne k2.path)
      have q1 := k2.head
      have q2 := k2.last
      rw [hhd] at q1
      rw [hlst] at q2
      rw [hu, List.mem_singleton] at c
      rw [hu, ← c] at q1 q2
      exact hbt (q1.symm.trans q2)
    · exact .inr c

end Hob3l.Tri
