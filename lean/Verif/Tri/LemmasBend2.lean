import Verif.Tri.LemmasBend

/-!
The case BEND of the upper edge.
-/

namespace Hob3l.Tri

open Hob3l.Poly (P Vtx Err ass Ins cross3 vec2Cmp treeNext treePrev Small crossI cross3_eq Lt)

theorem split_map {α β : Type} {f : α → β} {L : List α} {A B : List β} {r : β} (h : L.map f = A ++ r :: B) :
    ∃ A' r' B', L = A' ++ r' :: B' ∧ A'.map f = A ∧ f r' = r ∧ B'.map f = B := by
  obtain ⟨A', L2, e, h1, h2⟩ := List.map_eq_append_iff.1 h
  obtain ⟨r', B', e2, h3, h4⟩ := List.map_eq_cons_iff.1 h2
  exact ⟨A', r', B', by rw [e, e2], h1, h3, h4⟩

theorem csum_rev_cons {f : P → P → Int} (hf : ∀ a b, f a b = -f b a) (v : P) (L : List P) :
    csum f (v :: L.reverse) = -csum f (L ++ [v]) := by
  rw [← csum_reverse hf]; simp

theorem csum_snoc {f : P → P → Int} (L : List P) (q v : P) : csum f (L ++ [q] ++ [v]) = csum f (L ++ [q]) + f q v := by
  rw [List.append_assoc]
  show csum f (L ++ q :: [v]) = _
  rw [csum_append]
  simp [csum, psum]

/-- the nodes of the reversed path after a flush -/
theorem back_nodes {s s' : St} {S : List Nat} {U : List (Nat × Nat)} (h : Path s' U) (hf : Fr s s' S) :
    (nodes (mir s) (revU U)).map Nd.pi = ((nodes s U).map Nd.pi).reverse := by
  have h1 := nodes_mir h
  have h2 : nodes (mir s') (revU U) = nodes (mir s) (revU U) := by
    apply nodes_congr
    · show (fun e => !s'.back e) = fun e => !s.back e
      rw [hf.back]
    · exact hf.idx
    · exact hf.pos
    · exact hf.inner
  rw [h2, fr_nodes hf] at h1
  exact h1

theorem map_all (s : St) {U : List (Nat × Nat)} (h : U ≠ []) :
    U.map (fun u => posOf s (dst s u.2)) = (nodes s U).map Nd.pos ++ [posOf s (dst s (lastU U).2)] := by
  rw [arm_nodes]
  conv_lhs => rw [← List.dropLast_append_getLast h]
  rw [List.map_append]
  unfold lastU
  rw [List.getLast?_eq_getLast_of_ne_nil h]
  rfl

/-- the points of an arm from the top -/
theorem mir_points {ed : Nat → Bool → P} {s : St} {v : P} {a : Arm} {N : List Nd} (h : AI s a) (g : AG ed s v a)
    (hN : N.map Nd.pi = ((nodes s a.U).map Nd.pi).reverse) :
    ∃ A r B, N = A ++ r :: B ∧ (A ++ [r]).map Nd.pos = (highP s a).reverse ++ [pk s a] ∧
      ((r :: B).map Nd.pos).reverse = lowP s a ∧ (A ++ r :: B).map Nd.pos = (lowP s a ++ highP s a).reverse ∧
      Refl true ((A ++ r :: B).map Nd.pos) ∧ r.pos = pk s a := by
  have hlow := lowP_eq (s := s) h.ne1
  obtain ⟨A0, hA0⟩ : ∃ A0, A0 = a.lo.dropLast.map (fun u => posOf s (dst s u.2)) := ⟨_, rfl⟩
  rw [← hA0] at hlow
  have hp : N.map Nd.pos = (highP s a).reverse ++ pk s a :: A0.reverse := by
    rw [pi_pos, hN, List.map_reverse, ← pi_pos, pts_arm h.ne1 h.ne2, hlow]
    simp
  obtain ⟨A, r, B, e, h1, h2, h3⟩ := split_map hp
  have hall : (A ++ r :: B).map Nd.pos = (lowP s a ++ highP s a).reverse := by
    rw [← e, hp, hlow]; simp
  refine ⟨A, r, B, e, by simp [h1, h2], by rw [List.map_cons, h3, h2, hlow]; simp, hall, ?_, h2⟩
  rw [hall]
  exact g.refl.reverse

/-- BEND of the upper edge -/
theorem bend_hi {ed : Nat → Bool → P} {s : St} {a : Arm} {v : P} {et fuel : Nat} (h : AI s a) (g : AG ed s v a)
    (he : Ev s v a.t et true false) (hne : et ∉ ues a.U) (hd : s.dis et = fun _ => false)
    (ht1 : a.t ∈ s.tree) (ht2 : et ∉ s.tree) (hx : s.idx a.b true = none) (hsm : ∀ p ∈ lowP s a ++ highP s a, Small p)
    (he1 : ed a.t true = v) (he2 : ed et false = v) (he0 : Lt (ed a.t false) v) (hb0 : Lt (ed a.b false) v)
    (hs : v ≠ ed a.b true → 0 < cr false (ed a.b true) (ed a.b false) v) (hk : a.U.length ≤ fuel) :
    ∃ s' a' T, bend fuel s ⟨a.t, true, v⟩ ⟨et, false, v⟩ = .ok s' ∧ AI s' a' ∧ AG ed s' v a' ∧ a'.b = a.b ∧ a'.t = et ∧
      (∀ e ∈ ues a'.U, e = et ∨ e ∈ ues a.U) ∧ Out s s' (et :: ues a.U) ∧
      s'.tree = s.tree.map (fun x => if x = a.t then et else x) ∧ s'.new = s.new ∧ s'.pos = s.pos ∧ s'.inner = s.inner ∧
      s'.back = upd1 s.back et false ∧ s'.idx = upd s.idx (et, true) none ∧
      s'.tris = s.tris ++ T ∧ (∀ t ∈ T, TriOk s.points t) ∧
      (∀ f, (∀ a b, f a b = -f b a) → (T.map (sides f s.points)).sum = f (ed a.t false) v + asum f s a - asum f s' a') ∧
      Snd s a.U T ∧ ((∀ q ∈ lowP s a ++ highP s a, q ≠ v) → Cmp s a.U a'.U T) := by
  have hbt : a.b ≠ a.t := by
    intro hc
    have h1 := h.bb
    have h2 := h.bt
    rw [hc, h2] at h1
    cases h1
  have hetb : et ≠ a.b := fun hc => hne (hc ▸ h.mem_b)
  have hett : et ≠ a.t := fun hc => hne (hc ▸ h.mem_t)
  -- the state before the flush
  obtain ⟨st, hst⟩ : ∃ st : St, st = { s with
      idx := upd s.idx (et, true) none
      tree := s.tree.map fun x => if x = a.t then et else x
      back := upd1 s.back et false
      ring := Ring.chain (Ring.init s.ring et) a.t et
      rm := upd1 (upd1 s.rm et (et, false)) a.b (a.t, true) } := ⟨_, rfl⟩
  have r1 : (Ring.init s.ring et).prv et = et := by rw [init_prv, if_pos rfl]
  have r2 : (Ring.init s.ring et).nxt a.t = a.b := by rw [init_nxt, if_neg hett.symm]; exact h.nxt
  have n1 : st.ring.nxt et = a.b := by
    rw [hst]; show (Ring.chain (Ring.init s.ring et) a.t et).nxt et = _
    rw [chain_nxt, r1, if_pos rfl, r2]
  have n2 : st.ring.nxt a.t = et := by
    rw [hst]; show (Ring.chain (Ring.init s.ring et) a.t et).nxt a.t = _
    rw [chain_nxt, r1, if_neg hett.symm, if_pos rfl]
  have n3 : ∀ e, e ≠ et → e ≠ a.t → st.ring.nxt e = s.ring.nxt e := by
    intro e h1 h2
    rw [hst]; show (Ring.chain (Ring.init s.ring et) a.t et).nxt e = _
    rw [chain_nxt, r1, if_neg h1, if_neg h2, init_nxt, if_neg h1]
  have p1 : st.ring.prv et = a.t := by
    rw [hst]; show (Ring.chain (Ring.init s.ring et) a.t et).prv et = _
    rw [chain_prv, r2, if_neg hetb, if_pos rfl]
  have p2 : st.ring.prv a.b = et := by
    rw [hst]; show (Ring.chain (Ring.init s.ring et) a.t et).prv a.b = _
    rw [chain_prv, r2, if_pos rfl, r1]
  have p3 : ∀ e, e ≠ et → e ≠ a.b → st.ring.prv e = s.ring.prv e := by
    intro e h1 h2
    rw [hst]; show (Ring.chain (Ring.init s.ring et) a.t et).prv e = _
    rw [chain_prv, r2, if_neg h2, if_neg h1, init_prv, if_neg h1]
  have hbend : bend fuel s ⟨a.t, true, v⟩ ⟨et, false, v⟩ = flush fuel st (et, false) true := by
    unfold bend
    simp only [ass, if_true]
    simp only [Bind.bind, Except.bind, Bool.not_false]
    unfold treeReplace
    simp only [ass, if_pos hett.symm, if_pos ht1, if_pos ht2, Bind.bind, Except.bind]
    have e1 : upd1 s.back et (s.back a.t) et = false := by unfold upd1; rw [if_pos rfl]; exact h.bt
    simp only [e1, Bool.false_eq_true, if_false]
    unfold listChain
    simp only [ass, Bind.bind, Except.bind]
    have n2' := n2
    rw [hst] at n2'
    simp only at n2'
    simp only [n2', if_true]
    have p1' := p1
    rw [hst] at p1'
    simp only at p1'
    have n1' := n1
    rw [hst] at n1'
    simp only at n1'
    simp only [p1', n1', if_true, h.bt, hst]
  have ebk : ∀ e, e ≠ et → st.back e = s.back e := by
    intro e h1; rw [hst]; show upd1 s.back et false e = _; unfold upd1; rw [if_neg h1]
  have ebt : st.back et = false := by rw [hst]; show upd1 s.back et false et = _; unfold upd1; rw [if_pos rfl]
  have eix : ∀ e b, (e, b) ≠ (et, true) → st.idx e b = s.idx e b := by
    intro e b h1; rw [hst]; show upd s.idx (et, true) none e b = _; unfold upd
    rw [if_neg]; rintro ⟨rfl, rfl⟩; exact h1 rfl
  have hpos : st.pos = s.pos := by rw [hst]
  have hpts : st.points = s.points := by rw [hst]
  have hdis : st.dis = s.dis := by rw [hst]
  have hinn : st.inner = s.inner := by rw [hst]
  have hneu : ∀ e ∈ ues a.U, e ≠ et := fun e h1 hc => hne (hc ▸ h1)
  have hloc : Loc s st a.U := by
    refine ⟨fun e h1 => ebk e (hneu e h1), fun e _ => by rw [hpos], fun e _ => by rw [hdis], fun e _ => by rw [hinn],
      fun e h1 b _ => eix e b (fun hc => hneu e h1 (congrArg Prod.fst hc)), fun e h1 h2 => ?_, fun e h1 h2 => ?_, [], by rw [hpts]; simp⟩
    · rw [h.lastU] at h2; exact n3 e (hneu e h1) h2
    · rw [h.hdU] at h2; exact p3 e (hneu e h1) h2
  have hpath := path_loc h.path h.nodup hloc
  have hnodes := nodes_loc h.path hloc
  have d1 : src st et = (et, false) := by unfold src; rw [ebt]
  have d2 : src st a.b = (a.b, true) := by unfold src; rw [ebk _ hetb.symm, h.bb]
  have d3 : dst st a.t = (a.t, true) := by unfold dst; rw [ebk _ hett.symm, h.bt]; rfl
  have hvt : Vd st (et, false) := by
    obtain ⟨i, h1, h2⟩ := he.vt
    refine ⟨i, ?_, ?_⟩
    · show st.idx et false = some i
      rw [eix _ _ (by simp)]; exact h1
    · rw [hpts]; unfold posOf; rw [hpos]; exact h2
  have hvs : Vd st (a.t, true) := by
    obtain ⟨i, h1, h2⟩ := he.vs
    refine ⟨i, ?_, ?_⟩
    · show st.idx a.t true = some i
      rw [eix _ _ (by simp [hett.symm])]; exact h1
    · rw [hpts]; unfold posOf; rw [hpos]; exact h2
  have hjn : Jn st a.t et := by
    refine ⟨n2, p1, ?_, ?_, by rw [d3]; exact hvs⟩
    · rw [d1, d3]; show st.pos a.t true = st.pos et false; rw [hpos, he.pt, he.ps]
    · rw [d1, d3]; show st.idx a.t true = st.idx et false
      rw [eix a.t true (by simp [hett.symm]), eix et false (by simp), he.idx]
  have hUne := path_ne h.path
  have hgo : Go (mir st) (et, false) a.t (revU a.U) false false := by
    refine ⟨path_mir hpath, ?_, ?_, .inr ⟨et, by rw [dst_mir, d1], jn_mir hjn, ?_, rfl, rfl⟩, hvt, ?_⟩
    · rw [head_revU hUne, h.lastU]
    · rw [ues_revU, List.nodup_reverse]; exact h.nodup
    · rw [ues_revU, List.mem_reverse]; exact hne
    · rw [lastU_revU', h.hdU]
      simp only [Bool.false_eq_true, if_false, Prod.swap]
      rw [dst_mir, d2]
      show st.idx a.b true = none
      rw [eix _ _ (by simp [hetb.symm])]; exact hx
  have hpv : posOf st (et, false) = v := by unfold posOf; rw [hpos]; exact he.pt
  have hpp : (pts st a.U).map Prod.fst = lowP s a ++ highP s a := by rw [← pts_pos, hnodes, pts_arm h.ne1 h.ne2]
  have hlow := lowP_eq (s := s) h.ne1
  obtain ⟨A0, hA0⟩ : ∃ A0, A0 = a.lo.dropLast.map (fun u => posOf s (dst s u.2)) := ⟨_, rfl⟩
  rw [← hA0] at hlow
  obtain ⟨s', U', T, f1, f2, f3, f4⟩ := flush_back (fuel := fuel) hgo hpath (by rw [hpts]; exact he.nd) (by rw [hpv]; exact he.small)
    (by
      intro q hq
      apply hsm
      rw [← hpp]; exact List.mem_map_of_mem hq)
    (by
      rw [hpv, hpp, hlow]
      have : (A0 ++ [pk s a] ++ highP s a).reverse = (highP s a).reverse ++ pk s a :: A0.reverse := by simp
      rw [this]
      refine chain_of_half g.hi.up (by rw [List.reverse_reverse, ← hlow]; exact g.lo.up) ?_
      rw [g.hi.hd]
      intro hc
      exact lt_ne he0 (Option.some.inj hc)) hk
  obtain ⟨N, hN⟩ : ∃ N, N = nodes (mir st) (revU a.U) := ⟨_, rfl⟩
  have hNpi : N.map Nd.pi = ((nodes s a.U).map Nd.pi).reverse := by rw [hN, nodes_mir hpath, hnodes]
  obtain ⟨A, r, B, eN, m1, m2, m3, m4, m5⟩ := mir_points h g hNpi
  have hRpi := back_nodes f2.path f2.fr
  obtain ⟨R, hR⟩ : ∃ R, R = nodes (mir st) (revU U') := ⟨_, rfl⟩
  rw [← hR] at f3 hRpi
  rw [hpv, ← hN, eN] at f3
  obtain ⟨w1, w2, w3, w4⟩ := fl_open f3 (e0 := ed a.t false) (t0 := ed a.b false) (t1 := ed a.b true)
    (by rw [m1, ← he1]; exact g.hi) (by rw [m2]; exact g.lo) m4 (by rw [m5]; exact g.le) he0 hb0 hs
  have hRpos : (R.map Nd.pos).reverse = (nodes st U').map Nd.pos := by
    rw [pi_pos, hRpi, List.map_reverse, List.reverse_reverse, ← pi_pos]
  have hlen : 2 ≤ U'.length := by
    apply nodes_len (s := st)
    intro hc
    rw [hc] at hRpos
    simp at hRpos
    exact w1 hRpos
  have hU'ne : U' ≠ [] := by rintro rfl; simp at hlen
  have hlast : (lastU U').2 = a.t := by rw [f2.last, h.lastU]
  have hsub : ∀ e ∈ ues U', e ∈ ues a.U := fun e h1 => f2.sub.subset h1
  have hnet : et ∉ ues U' := fun hc => hne (hsub et hc)
  obtain ⟨a', ha'⟩ : ∃ a' : Arm, a' = ⟨U', [(et, et)]⟩ := ⟨_, rfl⟩
  have hat : a'.t = et := by rw [ha']; rfl
  have hab : a'.b = a.b := by
    rw [ha']; show (hdU U').1 = _
    rw [f2.head, h.hdU]
  have hfb := f2.fr.back
  have haU : a'.U = U' ++ [(et, et)] := by rw [ha']; rfl
  have hues : ues a'.U = ues U' ++ [et] := by rw [haU, ues_append, ues_cons, ue_eq rfl]; rfl
  have d3' : dst s' a.t = (a.t, true) := by rw [dst_congr hfb, d3]
  have hAI : AI s' a' := by
    refine ⟨by rw [ha']; exact hU'ne, by rw [ha']; simp, ?_, ?_, ?_, ?_, ?_, ?_, ?_, ?_, ?_⟩
    · rw [haU]
      have hun : Un s' (et, et) := by
        refine ⟨?_, ?_, fun hc => absurd rfl hc⟩
        · show s'.dis et _ = false
          rw [f2.fr.dis _ hne, hdis, hd]
        · show s'.dis et _ = false
          rw [f2.fr.dis _ hne, hdis, hd]
      have hj : Jn s' (lastU U').2 et := by
        rw [hlast]
        refine hjn.congr hfb f2.fr.idx f2.fr.pos f2.fr.points ?_ (f2.fr.prv _ hne)
        have := f2.nxt
        rw [h.lastU] at this; exact this
      exact (path_append (s := s') (U := U') (V := [(et, et)]) hU'ne (by simp)).2 ⟨f2.path, hj, hun⟩
    · rw [hues, List.nodup_append]
      refine ⟨h.nodup.sublist f2.sub, by simp, ?_⟩
      intro x hx y hy
      rw [List.mem_singleton] at hy
      rw [hy]; rintro rfl; exact hnet hx
    · rw [hat, hab, f2.fr.nxt _ hne, n1]
    · rw [hat, hab]
      have := f2.prv
      rw [h.hdU] at this
      rw [this, p2]
    · rw [hab, f2.fr.rm, ha']
      show st.rm a.b = dst s' (lastU U').2
      rw [hlast, d3', hst]
      show upd1 (upd1 s.rm et (et, false)) a.b (a.t, true) a.b = _
      unfold upd1
      rw [if_pos rfl]
    · rw [hab, hfb, ebk _ hetb.symm, h.bb]
    · rw [hat, hfb, ebt]
    · rw [hab, ha']; show (hdU U').2 = _
      rw [f4 hlen, h.hdU]
    · rw [hat, ha']; rfl
  have hlowP : lowP s' a' = (R.map Nd.pos).reverse ++ [v] := by
    rw [hRpos, ← fr_nodes f2.fr, ha']
    show U'.map (fun u => posOf s' (dst s' u.2)) = _
    rw [map_all s' hU'ne, hlast, d3']
    unfold posOf; rw [f2.fr.pos, hpos]
    rw [show s.pos (a.t, true).1 (a.t, true).2 = v from he.ps]
  have hhighP : highP s' a' = [] := by rw [ha']; rfl
  have hpk : pk s' a' = v := by
    rw [ha']
    show posOf s' (dst s' (lastU U').2) = v
    rw [hlast, d3']
    unfold posOf; rw [f2.fr.pos, hpos]; exact he.ps
  have hAG : AG ed s' v a' := by
    refine ⟨?_, ?_, ?_, .inr hpk⟩
    · rw [hlowP, hab]; exact w3
    · rw [hhighP, hpk, hat, he2]
      exact ⟨by simp, rfl, by simp⟩
    · rw [hlowP, hhighP, List.append_nil]
      have := w4.reverse
      simpa using this
  have hout : Out s s' (et :: ues a.U) := by
    refine ⟨fun e h1 => ?_, by rw [f2.fr.points, hpts], by rw [f2.fr.last, hst]⟩
    rw [List.mem_cons, not_or] at h1
    have ht : e ≠ a.t := fun hc => h1.2 (hc ▸ h.mem_t)
    have hb : e ≠ a.b := fun hc => h1.2 (hc ▸ h.mem_b)
    refine ⟨by rw [hfb, ebk _ h1.1], by rw [f2.fr.pos, hpos], by rw [f2.fr.dis _ h1.2, hdis], by rw [f2.fr.inner, hinn], ?_,
      by rw [f2.fr.nxt _ h1.2, n3 _ h1.1 ht], by rw [f2.fr.prv _ h1.2, p3 _ h1.1 hb], ?_⟩
    · funext b; rw [f2.fr.idx, eix e b (fun hc => h1.1 (congrArg Prod.fst hc))]
    · rw [f2.fr.rm, hst]
      show upd1 (upd1 s.rm et (et, false)) a.b (a.t, true) e = _
      unfold upd1
      rw [if_neg hb, if_neg h1.1]
  have hnum : ∀ n ∈ A ++ r :: B, Num s.points n.pi := by
    intro n hn
    have : n.pi ∈ N.map Nd.pi := by rw [eN]; exact List.mem_map_of_mem hn
    rw [hNpi, List.mem_reverse] at this
    obtain ⟨m, hm, e⟩ := List.mem_map.1 this
    rw [← e]; exact path_num h.path m hm
  have hvn : Num s.points (v, ix st (et, false)) := by
    have := vd_num hvt
    rw [hpv, hpts] at this; exact this
  refine ⟨s', a', T, hbend.trans f1, hAI, hAG, hab, hat, ?_, hout, by rw [f2.fr.tree, hst], by rw [f2.fr.new, hst],
    by rw [f2.fr.pos, hpos], by rw [f2.fr.inner, hinn], by rw [hfb, hst], by rw [f2.fr.idx, hst], by rw [f2.tris, hst], ?_, ?_, f2.snd.congr hpos hinn hpts, ?_⟩
  · intro e h1
    rw [hues, List.mem_append, List.mem_singleton] at h1
    exact h1.symm.imp id (hsub e)
  · exact fl_tris f3 hvn hnum
  · intro f hf
    rw [fl_sum hf f3 hvn hnum, m3]
    simp only [if_true, lsum_open]
    unfold asum
    rw [hlowP, hhighP, List.append_nil]
    have e1 : csum f ((R.map Nd.pos).reverse ++ [v]) = -csum f (v :: R.map Nd.pos) := by
      rw [← csum_reverse hf]; simp
    have hc : ∃ L, lowP s a ++ highP s a = L ++ [ed a.t false] := by
      have := g.hi.hd
      cases hh : (highP s a).reverse with
      | nil =>
        rw [hh] at this
        simp at this
        simp at hh
        exact ⟨A0, by rw [hlow, hh, this]; simp⟩
      | cons x L =>
        rw [hh] at this
        simp at this
        refine ⟨lowP s a ++ L.reverse, ?_⟩
        have : highP s a = L.reverse ++ [x] := by
          have := congrArg List.reverse hh
          simpa using this
        rw [this, ‹x = _›]; simp
    obtain ⟨L, hL⟩ := hc
    rw [e1, csum_rev_cons hf, hL, csum_snoc]
    ring
  · intro hq e h1 h2
    refine ((f2.cmp ?_ (by simp)).congr hpos hinn hpts e h1 h2).imp (fun h => by rw [haU]; simp [h]) id
    rw [hpv, hnodes, pts_arm h.ne1 h.ne2]; exact hq

end Hob3l.Tri
