import Verif.Tri.LemmasEnd

/-!
The case END: the two edges belong to different paths, which are joined.
-/

namespace Hob3l.Tri

open Hob3l.Poly (P Vtx Err ass Ins cross3 vec2Cmp treeNext treePrev Small crossI cross3_eq Lt)

theorem nxt_first {s : St} {U : List (Nat × Nat)} (h : Path s U) (hn : (ues U).Nodup) (hne : (hdU U).1 ≠ (lastU U).2) :
    s.ring.nxt (hdU U).1 ≠ (hdU U).1 := by
  match U, h, hn, hne with
  | [u], h, _, hne =>
    have hne' : u.1 ≠ u.2 := hne
    rw [show s.ring.nxt (hdU [u]).1 = _ from (h.link hne').1]
    exact hne'.symm
  | u :: u' :: U, h, hn, _ =>
    show s.ring.nxt u.1 ≠ u.1
    by_cases hu : u.1 = u.2
    · have := h.2.1.nxt
      rw [hu, this]
      intro hc
      refine not_mem_tail hn (mem_ue2 u) u' (by simp) ?_
      rw [← hc]; exact mem_ue1 u'
    · rw [(h.1.link hu).1]; exact fun hc => hu hc.symm

theorem prv_last {s : St} {U : List (Nat × Nat)} (h : Path s U) (hn : (ues U).Nodup) (hne : (hdU U).1 ≠ (lastU U).2) :
    s.ring.prv (lastU U).2 ≠ (lastU U).2 := by
  have := nxt_first (s := mir s) (U := revU U) (path_mir h) (by rw [ues_revU, List.nodup_reverse]; exact hn)
    (by rw [hdU_revU, lastU_revU']; exact hne.symm)
  rw [hdU_revU] at this
  exact this

theorem cr_anti (neg : Bool) (v a b : P) : cr neg v a b = -cr neg v b a := by
  unfold cr crossI; cases neg <;> simp <;> ring

theorem cr_not (neg : Bool) (v a b : P) : cr (!neg) v a b = -cr neg v a b := by
  unfold cr; cases neg <;> simp

theorem refl_join {neg : Bool} {v : P} {A B : List P} (h1 : Refl neg (A ++ [v])) (h2 : Refl neg (v :: B))
    (h3 : ∀ X x y Y, A = X ++ [x] → B = y :: Y → cr neg x v y ≤ 0) : Refl neg (A ++ [v] ++ B) := by
  intro X a b c Y he
  rw [List.append_assoc, List.singleton_append] at he
  rcases List.append_eq_append_iff.1 he with ⟨K, e1, e2⟩ | ⟨K, e1, e2⟩
  · -- the triple is in the second part
    exact h2 K a b c Y e2
  · match K, e2 with
    | [], e2 =>
      rw [List.nil_append] at e2
      exact h2 [] a b c Y e2.symm
    | [k], e2 =>
      simp only [List.cons_append, List.nil_append, List.cons.injEq] at e2
      obtain ⟨rfl, rfl, e9⟩ := e2
      exact h3 X a c Y e1 e9.symm
    | [k, k'], e2 =>
      simp only [List.cons_append, List.nil_append, List.cons.injEq] at e2
      obtain ⟨rfl, rfl, rfl, e2⟩ := e2
      exact h1 X a b c [] (by rw [e1]; simp)
    | k :: k' :: k'' :: K, e2 =>
      simp only [List.cons_append, List.cons.injEq] at e2
      obtain ⟨rfl, rfl, rfl, e2⟩ := e2
      exact h1 X a b c (K ++ [v]) (by rw [e1]; simp)

/-- the points of an arm whose upper edge ends -/
theorem dn_top {ed : Nat → Bool → P} {s : St} {v : P} {a : Arm} (h : AI s a) (g : AG ed s v a) (ht : ed a.t true = v)
    (ht0 : Lt (ed a.t false) v) (hb0 : Lt (ed a.b false) v) (hv : Vis ed v a.b a.t) :
    Dn true v (ed a.b false) (ed a.b true) (lowP s a ++ highP s a).reverse := by
  obtain ⟨A0, hlow, -⟩ := g.low h.ne1
  refine ⟨g.refl.reverse, .inr ⟨(highP s a).reverse, pk s a, A0.reverse, ed a.t false, ?_, ?_, ?_, g.le, ht0, hb0, hv.b hb0⟩⟩
  · rw [hlow]; simp
  · have := g.hi
    rwa [ht] at this
  · rw [List.reverse_cons, List.reverse_reverse, ← hlow]
    exact g.lo

/-- the points of an arm whose lower edge ends -/
theorem dn_bot {ed : Nat → Bool → P} {s : St} {v : P} {a : Arm} (h : AI s a) (g : AG ed s v a) (hb : ed a.b true = v)
    (ht0 : Lt (ed a.t false) v) (hb0 : Lt (ed a.b false) v) (hv : Vis ed v a.b a.t) :
    Dn false v (ed a.t false) (ed a.t true) (lowP s a ++ highP s a) := by
  obtain ⟨A0, hlow, -⟩ := g.low h.ne1
  refine ⟨g.refl, .inr ⟨A0, pk s a, highP s a, ed a.b false, ?_, ?_, ?_, g.le, hb0, ht0, hv.t ht0⟩⟩
  · rw [hlow]; simp
  · have := g.lo
    rwa [hb, hlow] at this
  · rw [List.reverse_cons]
    exact g.hi

/-- END that joins two paths -/
theorem end_improper {ed : Nat → Bool → P} {s : St} {a1 a2 : Arm} {v : P} {fuel : Nat} (h1 : AI s a1) (g1 : AG ed s v a1)
    (h2 : AI s a2) (g2 : AG ed s v a2) (hdj : ∀ e ∈ ues a1.U, e ∉ ues a2.U)
    (vs : Vd s (a2.b, true)) (vt : Vd s (a1.t, true)) (ps : s.pos a2.b true = v) (pt : s.pos a1.t true = v)
    (hi : s.idx a2.b true = s.idx a1.t true) (ib : s.idx a1.b true = none) (it : s.idx a2.t true = none)
    (hnd : s.points.Nodup) (hsv : Small v) (hsm : ∀ p ∈ s.points, Small p)
    (he1 : ed a1.t true = v) (he2 : ed a2.b true = v) (lb1 : Lt (ed a1.b false) v) (lt1 : Lt (ed a1.t false) v)
    (lb2 : Lt (ed a2.b false) v) (lt2 : Lt (ed a2.t false) v) (hv1 : Vis ed v a1.b a1.t) (hv2 : Vis ed v a2.b a2.t)
    (hbel : 0 ≤ cr false v (ed a1.t false) (ed a2.b false))
    (htr : treeNext s.tree a1.t = some a2.b) (hm1 : a2.b ∈ s.tree) (hm2 : a1.t ∈ s.tree) (hk1 : a1.U.length ≤ fuel)
    (hk2 : a2.U.length ≤ fuel) :
    ∃ s' a' T, finish fuel s ⟨a2.b, true, v⟩ ⟨a1.t, true, v⟩ = .ok s' ∧ AI s' a' ∧ AG ed s' v a' ∧ a'.b = a1.b ∧ a'.t = a2.t ∧
      (∀ e ∈ ues a'.U, e ∈ ues a1.U ∨ e ∈ ues a2.U) ∧ Out s s' (ues a1.U ++ ues a2.U) ∧
      s'.tree = (s.tree.erase a2.b).erase a1.t ∧ s'.new = s.new ∧ s'.pos = s.pos ∧ s'.inner = s.inner ∧
      s'.back = s.back ∧ s'.idx = s.idx ∧ s'.tris = s.tris ++ T ∧ (∀ t ∈ T, TriOk s.points t) ∧
      (∀ f, (∀ a b, f a b = -f b a) → (T.map (sides f s.points)).sum =
        f (ed a1.t false) v + f v (ed a2.b false) + asum f s a1 + asum f s a2 - asum f s' a') ∧
      Snd s (a1.U ++ a2.U) T ∧ ((∀ q ∈ lowP s a1 ++ highP s a1 ++ (lowP s a2 ++ highP s a2), q ≠ v) →
        Cmp s (a1.U ++ a2.U) a'.U T) := by
  obtain ⟨es, hes⟩ : ∃ es, es = a2.b := ⟨_, rfl⟩
  obtain ⟨et, het⟩ : ∃ et, et = a1.t := ⟨_, rfl⟩
  obtain ⟨b1, hb1⟩ : ∃ b1, b1 = a1.b := ⟨_, rfl⟩
  obtain ⟨t2, ht2⟩ : ∃ t2, t2 = a2.t := ⟨_, rfl⟩
  have mes : es ∈ ues a2.U := hes ▸ h2.mem_b
  have met : et ∈ ues a1.U := het ▸ h1.mem_t
  have mb1 : b1 ∈ ues a1.U := hb1 ▸ h1.mem_b
  have mt2 : t2 ∈ ues a2.U := ht2 ▸ h2.mem_t
  have hne : ∀ {x y : Nat}, x ∈ ues a1.U → y ∈ ues a2.U → x ≠ y := fun hx hy hc => hdj _ hx (hc ▸ hy)
  have nb1 : b1 ≠ et := by rw [hb1, het]; exact h1.bt_ne
  have nt2 : es ≠ t2 := by rw [hes, ht2]; exact h2.bt_ne
  have l1 : lastU a1.U = (et, et) := by rw [h1.lastU, het]
  have f1h : hdU a1.U = (b1, b1) := by rw [h1.hdU, hb1]
  have l2 : lastU a2.U = (t2, t2) := by rw [h2.lastU, ht2]
  have f2h : hdU a2.U = (es, es) := by rw [h2.hdU, hes]
  have bet : s.back et = false := by rw [het]; exact h1.bt
  have bb1 : s.back b1 = true := by rw [hb1]; exact h1.bb
  have bes : s.back es = true := by rw [hes]; exact h2.bb
  have bt2 : s.back t2 = false := by rw [ht2]; exact h2.bt
  have nxt1 : s.ring.nxt et = b1 := by rw [het, hb1]; exact h1.nxt
  have prv1 : s.ring.prv b1 = et := by rw [het, hb1]; exact h1.prv
  have nxt2 : s.ring.nxt t2 = es := by rw [hes, ht2]; exact h2.nxt
  have prv2 : s.ring.prv es = t2 := by rw [hes, ht2]; exact h2.prv
  rw [← hes] at vs ps hi he2 lb2 hv2 hbel htr hm1
  rw [← het] at vt pt hi he1 lt1 hv1 hbel htr hm2
  rw [← hb1] at ib lb1 hv1
  rw [← ht2] at it lt2 hv2
  rw [← hes, ← het, ← hb1, ← ht2]
  -- the state before the flushes
  obtain ⟨st, hst⟩ : ∃ st : St, st = { s with tree := (s.tree.erase es).erase et
                                              rm := upd1 (upd1 s.rm t2 (es, true)) b1 (et, true) } := ⟨_, rfl⟩
  have hpos : st.pos = s.pos := by rw [hst]
  have hpts : st.points = s.points := by rw [hst]
  have hback : st.back = s.back := by rw [hst]
  have hring : st.ring = s.ring := by rw [hst]
  have hidx : st.idx = s.idx := by rw [hst]
  have hdis : st.dis = s.dis := by rw [hst]
  have hinn : st.inner = s.inner := by rw [hst]
  have hfin : finish fuel s ⟨es, true, v⟩ ⟨et, true, v⟩ = (do
      let st ← flushBoth fuel st (et, true) (es, true)
      listMerge st et es : Except Err St) := by
    unfold finish
    simp only
    rw [ass_ok _ trivial, bind_okE, ass_ok _ (by rw [bet, bes]; rfl), bind_okE, ass_ok _ htr, bind_okE]
    have e1 : edgeStep s et (s.back et) ≠ es := by
      unfold edgeStep; rw [bet]; simp only [Bool.false_eq_true, if_false]; rw [nxt1]; exact hne mb1 mes
    rw [if_neg e1]
    unfold treeRemove
    rw [ass_ok _ hm1, bind_okE, bind_okE]
    simp only
    rw [ass_ok _ (by rw [List.mem_erase_of_ne (hne met mes)]; exact hm2), bind_okE, bind_okE]
    simp only
    rw [ass_ok _ bet, bind_okE, ass_ok _ bes, bind_okE, hst, prv2, nxt1]
  have hcp : ∀ {U : List (Nat × Nat)}, Path s U → Path st U := by
    intro U hU
    refine path_congr hback hidx hpos hpts hU (fun u _ => ?_) (fun u _ => by rw [hring]) (fun u _ => by rw [hring])
    rw [hring, hdis]; exact ⟨rfl, rfl, rfl, rfl⟩
  have hcn : ∀ U, nodes st U = nodes s U := fun U => nodes_congr hback hidx hpos hinn U
  have hP1 := hcp h1.path
  have hP2 := hcp h2.path
  have hU1 := path_ne h1.path
  have hU2 := path_ne h2.path
  have d1 : dst st et = (et, true) := by unfold dst; rw [hback, bet]; rfl
  have d2 : src st b1 = (b1, true) := by unfold src; rw [hback, bb1]
  have d3 : src st es = (es, true) := by unfold src; rw [hback, bes]
  have d4 : dst st t2 = (t2, true) := by unfold dst; rw [hback, bt2]; rfl
  have vt' : Vd st (et, true) := vt.congr hidx hpos hpts
  have vs' : Vd st (es, true) := vs.congr hidx hpos hpts
  have hpt1 : (nodes st a1.U).map Nd.pos = lowP s a1 ++ highP s a1 := by rw [hcn, pts_arm h1.ne1 h1.ne2]
  have hpt2 : (nodes st a2.U).map Nd.pos = lowP s a2 ++ highP s a2 := by rw [hcn, pts_arm h2.ne1 h2.ne2]
  have hpsm : ∀ p ∈ st.points, Small p := by rw [hpts]; exact hsm
  -- the lower path
  obtain ⟨clo, hclo⟩ : ∃ clo, clo = (decide (posOf (mir st) (dst (mir st) (lastU (revU a1.U)).2) = posOf (mir st) (et, true)) &&
    full (mir st) (lastU (revU a1.U))) := ⟨_, rfl⟩
  have hgo1 : Go (mir st) (et, true) et (revU a1.U) false clo := by
    refine ⟨path_mir hP1, ?_, ?_, .inl ⟨by rw [src_mir, d1], ?_, hclo⟩, vt', ?_⟩
    · rw [head_revU hU1, l1]
    · rw [ues_revU, List.nodup_reverse]; exact h1.nodup
    · rw [lastU_revU', f1h]
      show st.ring.nxt et = b1
      rw [hring]; exact nxt1
    · rw [lastU_revU', f1h]
      simp only [Bool.false_eq_true, if_false, Prod.swap]
      rw [dst_mir, d2]
      show st.idx b1 true = none
      rw [hidx]; exact ib
  have hD1 := dn_top h1 g1 (by rw [← het]; exact he1) (by rw [← het]; exact lt1) (by rw [← hb1]; exact lb1) (by rw [← hb1, ← het]; exact hv1)
  obtain ⟨s1, U1, T1, k1, k2, k3, k4, k5, k6, k7, k8⟩ := down_back (fuel := fuel) (v := v) hgo1 hP1
    (by unfold posOf; rw [hpos]; exact pt) (by rw [hpts]; exact hnd) hsv (node_small hP1 hpsm) (by rw [hpt1]; exact hD1) hk1
  -- the upper path
  have hP2' : Path s1 a2.U := fr_path k2.fr hP2 (fun e he hc => hdj e hc he)
  have hn2 := fr_nodes k2.fr a2.U
  have d3' : src s1 es = (es, true) := by unfold src; rw [k2.fr.back]; exact d3
  have d4' : dst s1 t2 = (t2, true) := by rw [dst_congr k2.fr.back]; exact d4
  obtain ⟨clo2, hclo2⟩ : ∃ clo, clo = (decide (posOf s1 (dst s1 (lastU a2.U).2) = posOf s1 (es, true)) && full s1 (lastU a2.U)) := ⟨_, rfl⟩
  have out1 : ∀ {e : Nat}, e ∈ ues a2.U → e ∉ ues a1.U := fun he hc => hdj _ hc he
  have hgo2 : Go s1 (es, true) es a2.U false clo2 := by
    refine ⟨hP2', ?_, h2.nodup, .inl ⟨d3'.symm, ?_, hclo2⟩, vs'.congr k2.fr.idx k2.fr.pos k2.fr.points, ?_⟩
    · have := f2h
      unfold hdU at this
      cases hu : a2.U with
      | nil => exact absurd hu hU2
      | cons u U => rw [hu] at this; simp at this; simp [this]
    · rw [l2, k2.fr.prv _ (out1 mes), hring]; exact prv2
    · rw [l2]
      simp only [Bool.false_eq_true, if_false]
      rw [d4']
      show s1.idx t2 true = none
      rw [k2.fr.idx, hidx]; exact it
  have hD2 := dn_bot h2 g2 (by rw [← hes]; exact he2) (by rw [← ht2]; exact lt2) (by rw [← hes]; exact lb2) (by rw [← hes, ← ht2]; exact hv2)
  obtain ⟨s2, U2, T2, m1, m2, m3, m4, m5, m6, m7, m8⟩ := up_fore (fuel := fuel) (v := v) hgo2
    (by unfold posOf; rw [k2.fr.pos, hpos]; exact ps) (by rw [k2.fr.points, hpts]; exact hnd) hsv
    (node_small hP2' (by rw [k2.fr.points]; exact hpsm)) (by rw [hn2, hpt2]; exact hD2) hk2
  rw [fr_nodes k2.fr] at m4 m5
  rw [hn2, fr_nodes k2.fr] at m7 m8
  rw [k2.fr.points] at m6 m8
  rw [hpt1] at k7 k8
  rw [hpt2] at m7 m8
  rw [hpts] at k6 k8 m6 m8
  have hfr : Fr st s2 (ues a1.U ++ ues a2.U) :=
    (k2.fr.mono (List.subset_append_left _ _)).trans m2.fr (List.subset_append_right _ _)
  have hU1' := path_ne k2.path
  have hU2' := path_ne m2.path
  have sub1 : ∀ e ∈ ues U1, e ∈ ues a1.U := fun e he => k2.sub.subset he
  have sub2 : ∀ e ∈ ues U2, e ∈ ues a2.U := fun e he => m2.sub.subset he
  have nd1 : (ues U1).Nodup := h1.nodup.sublist k2.sub
  have nd2 : (ues U2).Nodup := h2.nodup.sublist m2.sub
  have hp1 : Path s2 U1 := fr_path m2.fr k2.path (fun e he => hdj e (sub1 e he))
  have e1 : hdU U1 = (b1, b1) := k3.trans f1h
  have e2 : (lastU U1).2 = et := by rw [k2.last, l1]
  have e3 : (hdU U2).1 = es := by rw [m2.head, f2h]
  have e4 : lastU U2 = (t2, t2) := m3.trans l2
  -- the links
  have n1 : s2.ring.nxt et = b1 := by
    rw [m2.fr.nxt _ (hdj _ met)]
    have := k2.nxt
    rw [l1] at this
    rw [this, hring]; exact nxt1
  have n2 : s2.ring.prv et ≠ et := by
    have := prv_last hp1 nd1 (by rw [e1, e2]; exact nb1)
    rwa [e2] at this
  have n3 : s2.ring.nxt es ≠ es := by
    have := nxt_first m2.path nd2 (by rw [e3, e4]; exact nt2)
    rwa [e3] at this
  have n4 : s2.ring.prv es = t2 := by
    have := m2.prv
    rw [f2h] at this
    rw [this, k2.fr.prv _ (out1 mes), hring]; exact prv2
  have n5 : s2.ring.nxt t2 = es := by
    have := m2.nxt
    rw [l2] at this
    rw [this, k2.fr.nxt _ (out1 mt2), hring]; exact nxt2
  have n6 : s2.ring.prv b1 = et := by
    rw [m2.fr.prv _ (hdj _ mb1)]
    have := k2.prv
    rw [f1h] at this
    rw [this, hring]; exact prv1
  have b2t : s2.back et = false := by rw [hfr.back, hback]; exact bet
  have b2s : s2.back es = true := by rw [hfr.back, hback]; exact bes
  obtain ⟨s', hs'⟩ : ∃ s' : St, s' = { s2 with ring := Ring.chain s2.ring et es } := ⟨_, rfl⟩
  have c1 : ∀ e, s'.ring.nxt e = if e = t2 then b1 else if e = et then es else s2.ring.nxt e := by
    intro e; rw [hs']; show (Ring.chain s2.ring et es).nxt e = _; rw [chain_nxt, n4, n1]
  have c2 : ∀ e, s'.ring.prv e = if e = b1 then t2 else if e = es then et else s2.ring.prv e := by
    intro e; rw [hs']; show (Ring.chain s2.ring et es).prv e = _; rw [chain_prv, n4, n1]
  have hmerge : listMerge s2 et es = .ok s' := by
    unfold listMerge
    rw [ass_ok _ (by rw [n1]; exact nb1), bind_okE, ass_ok _ n2, bind_okE, ass_ok _ n3, bind_okE,
      ass_ok _ (by rw [n4]; exact nt2.symm), bind_okE, ass_ok _ (by rw [b2t, b2s]; simp), bind_okE,
      ass_ok _ (by rw [hfr.pos, hpos, ps, pt]), bind_okE]
    rw [if_neg (by rw [b2t]; simp)]
    have : (Ring.chain s2.ring et es).nxt et = es := by
      rw [chain_nxt, n4, if_neg (hne met mt2), if_pos rfl]
    simp only [this]
    rw [ass_ok _ trivial, bind_okE, hs']
  have hb' : s'.back = s.back := by rw [hs']; exact hfr.back.trans hback
  have hi' : s'.idx = s.idx := by rw [hs']; exact hfr.idx.trans hidx
  have hp' : s'.pos = s.pos := by rw [hs']; exact hfr.pos.trans hpos
  have hpt' : s'.points = s.points := by rw [hs']; exact hfr.points.trans hpts
  have hb2 : s'.back = s2.back := by rw [hs']
  have hi2 : s'.idx = s2.idx := by rw [hs']
  have hp2' : s'.pos = s2.pos := by rw [hs']
  have hpt2' : s'.points = s2.points := by rw [hs']
  have hloc1 : Loc s2 s' U1 := by
    refine ⟨fun e _ => by rw [hs'], fun e _ => by rw [hs'], fun e _ => by rw [hs'], fun e _ => by rw [hs'], fun e _ b _ => by rw [hs'],
      fun e he h3 => ?_, fun e he h3 => ?_, [], by rw [hs']; simp⟩
    · rw [e2] at h3
      rw [c1, if_neg (hne (sub1 e he) mt2), if_neg h3]
    · rw [e1] at h3
      rw [c2, if_neg h3, if_neg (hne (sub1 e he) mes)]
  have hloc2 : Loc s2 s' U2 := by
    refine ⟨fun e _ => by rw [hs'], fun e _ => by rw [hs'], fun e _ => by rw [hs'], fun e _ => by rw [hs'], fun e _ b _ => by rw [hs'],
      fun e he h3 => ?_, fun e he h3 => ?_, [], by rw [hs']; simp⟩
    · rw [e4] at h3
      rw [c1, if_neg h3, if_neg (hne met (sub2 e he)).symm]
    · rw [e3] at h3
      rw [c2, if_neg (hne mb1 (sub2 e he)).symm, if_neg h3]
  have d1' : dst s' et = (et, true) := by unfold dst; rw [hb', bet]; rfl
  have d5' : src s' es = (es, true) := by unfold src; rw [hb', bes]
  have hjn : Jn s' et es := by
    refine ⟨?_, ?_, ?_, ?_, ?_⟩
    · rw [c1, if_neg (hne met mt2), if_pos rfl]
    · rw [c2, if_neg (hne mb1 mes).symm, if_pos rfl]
    · rw [d1', d5']; show s'.pos et true = s'.pos es true; rw [hp', ps, pt]
    · rw [d1', d5']; show s'.idx et true = s'.idx es true; rw [hi']; exact hi.symm
    · rw [d1']; exact vt.congr hi' hp' hpt'
  obtain ⟨a', ha'⟩ : ∃ a' : Arm, a' = ⟨U1, U2⟩ := ⟨_, rfl⟩
  have hab : a'.b = b1 := by rw [ha']; show (hdU U1).1 = _; rw [e1]
  have hat : a'.t = t2 := by rw [ha']; show (lastU U2).2 = _; rw [e4]
  have haU : a'.U = U1 ++ U2 := by rw [ha']; rfl
  have hfrn : ∀ U, nodes s' U = nodes st U := fun U =>
    (nodes_congr hb2 hi2 hp2' (by rw [hs']) U).trans (fr_nodes hfr U)
  have hpv : posOf s' (dst s' (lastU U1).2) = v := by
    rw [e2, d1']; unfold posOf; rw [hp']; exact pt
  have hlow : lowP s' a' = (nodes st U1).map Nd.pos ++ [v] := by
    rw [ha']
    show U1.map (fun u => posOf s' (dst s' u.2)) = _
    rw [map_all s' hU1', hpv, hfrn]
  have hhigh : highP s' a' = (nodes st U2).map Nd.pos := by
    rw [← hfrn, map_pos, ha']; rfl
  have hpk : pk s' a' = v := by rw [ha']; exact hpv
  obtain ⟨M1, hM1⟩ := arm_last g1 h1.ne1
  obtain ⟨M2, hM2⟩ := arm_first g2
  rw [← het] at hM1
  rw [← hes] at hM2
  refine ⟨s', a', T1 ++ T2, ?_, ?_, ?_, hab, hat, ?_, ?_, ?_, ?_, hp', ?_, hb', hi', ?_, ?_, ?_, ?_, ?_⟩
  · rw [hfin]
    unfold flushBoth
    rw [k1, bind_okE, m1, bind_okE]
    exact hmerge
  · refine ⟨by rw [ha']; exact hU1', by rw [ha']; exact hU2', ?_, ?_, ?_, ?_, ?_, ?_, ?_, ?_, ?_⟩
    · rw [haU]
      refine (path_append hU1' hU2').2 ⟨path_loc hp1 nd1 hloc1, ?_, path_loc m2.path nd2 hloc2⟩
      show Jn s' (lastU U1).2 (hdU U2).1
      rw [e2, e3]; exact hjn
    · rw [haU, ues_append, List.nodup_append]
      exact ⟨nd1, nd2, fun x hx y hy => hne (sub1 x hx) (sub2 y hy)⟩
    · rw [hat, hab, c1, if_pos rfl]
    · rw [hat, hab, c2, if_pos rfl]
    · rw [hab, ha']
      show s'.rm b1 = dst s' (lastU U1).2
      rw [e2, d1', hs']
      show s2.rm b1 = _
      rw [hfr.rm, hst]
      show upd1 (upd1 s.rm t2 (es, true)) b1 (et, true) b1 = _
      unfold upd1
      rw [if_pos rfl]
    · rw [hab, hb']; exact bb1
    · rw [hat, hb']; exact bt2
    · rw [hab, ha']; show (hdU U1).2 = _; rw [e1]
    · rw [hat, ha']; show (lastU U2).1 = _; rw [e4]
  · refine ⟨?_, ?_, ?_, .inr hpk⟩
    · rw [hlow, hab]; rw [← hb1] at k4; exact k4
    · rw [hhigh, hpk, hat]; rw [← ht2] at m4; exact m4
    · rw [hlow, hhigh]
      refine refl_join k5 m5 ?_
      intro X x y Y hx hy
      obtain ⟨lx, rx⟩ := k7 (ed et false) M1 x X hM1 hx
      obtain ⟨ly, ry⟩ := m7 (ed es false) M2 y Y hM2 hy
      rw [cr_swap]
      have r1 : 0 ≤ cr false v x (ed et false) := by
        have e := cr_not false v (ed et false) x
        simp only [Bool.not_false] at e
        rw [e] at rx
        rw [cr_anti]; exact rx
      have := cr_weak lx lt1 lb2 r1 hbel
      have := cr_weak lx lb2 ly this ry
      omega
  · intro e he
    rw [haU, ues_append, List.mem_append] at he
    exact he.imp (sub1 e) (sub2 e)
  · refine ⟨fun e he => ?_, hpt', by rw [hs']; exact hfr.last.trans (by rw [hst])⟩
    have q1 : e ≠ t2 := fun hc => he (by rw [hc]; exact List.mem_append_right _ mt2)
    have q2 : e ≠ et := fun hc => he (by rw [hc]; exact List.mem_append_left _ met)
    have q3 : e ≠ b1 := fun hc => he (by rw [hc]; exact List.mem_append_left _ mb1)
    have q4 : e ≠ es := fun hc => he (by rw [hc]; exact List.mem_append_right _ mes)
    refine ⟨by rw [hb'], by rw [hp'], ?_, ?_, by rw [hi'], ?_, ?_, ?_⟩
    · rw [hs']; show s2.dis e = _; rw [hfr.dis _ he, hdis]
    · rw [hs']; show s2.inner e = _; rw [hfr.inner, hinn]
    · rw [c1, if_neg q1, if_neg q2, hfr.nxt _ he, hring]
    · rw [c2, if_neg q3, if_neg q4, hfr.prv _ he, hring]
    · rw [hs']; show s2.rm e = _
      rw [hfr.rm, hst]
      show upd1 (upd1 s.rm t2 (es, true)) b1 (et, true) e = _
      unfold upd1
      rw [if_neg q3, if_neg q1]
  · rw [hs']; show s2.tree = _; rw [hfr.tree, hst]
  · rw [hs']; show s2.new = _; rw [hfr.new, hst]
  · rw [hs']; show s2.inner = _; rw [hfr.inner, hinn]
  · rw [hs']; show s2.tris = _; rw [m2.tris, k2.tris, hst, List.append_assoc]
  · exact tri_mem k6 m6
  · intro f hf
    rw [List.map_append, List.sum_append, k8 f hf, m8 f hf]
    unfold asum
    have hx : csum f ((nodes st U1).map Nd.pos ++ [v] ++ (nodes st U2).map Nd.pos) =
        csum f ((nodes st U1).map Nd.pos ++ [v]) + csum f (v :: (nodes st U2).map Nd.pos) := by
      rw [List.append_assoc, List.singleton_append]; exact csum_append _ _ _
    rw [hlow, hhigh, hx, hM1, hM2, csum_snoc, csum_cons]
    ring
  · exact (((k2.snd.congr hpos hinn hpts).mono fun e he => List.mem_append_left _ he)).append
      (((m2.snd.congr k2.fr.pos k2.fr.inner k2.fr.points).congr hpos hinn hpts).mono fun e he => List.mem_append_right _ he)
  · intro hq e he hi
    rw [haU]
    rcases List.mem_append.1 he with he | he
    · exact ((k2.cmp (fun q h => hq q (List.mem_append_left _ (by rw [← hpt1]; exact h))) (by simp)).congr hpos hinn hpts e he hi).imp
        (fun h => by simp [h]) fun h => h.mono (List.subset_append_left _ _)
    · exact (((m2.cmp (fun q h => hq q (List.mem_append_right _ (by rw [← hpt2, ← hn2]; exact h))) (by simp)).congr k2.fr.pos
        k2.fr.inner k2.fr.points).congr hpos hinn hpts e he hi).imp (fun h => by simp [h])
        fun h => h.mono (List.subset_append_right _ _)

end Hob3l.Tri
