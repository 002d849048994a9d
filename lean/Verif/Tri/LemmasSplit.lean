import Verif.Tri.LemmasDn

/-!
The case START: a path is split.
-/

namespace Hob3l.Tri

open Hob3l.Poly (P Vtx Err ass Ins cross3 vec2Cmp treeNext treePrev Small crossI cross3_eq Lt)

theorem fr_path {s s' : St} {S : List Nat} {U : List (Nat × Nat)} (hf : Fr s s' S) (h : Path s U) (hd : ∀ e ∈ ues U, e ∉ S) :
    Path s' U := by
  refine path_congr hf.back hf.idx hf.pos hf.points h (fun u hu => ⟨?_, ?_, ?_, ?_⟩) (fun u hu => ?_) (fun u hu => ?_)
  · exact hf.dis _ (hd _ (mem_ues1 hu))
  · exact hf.dis _ (hd _ (mem_ues2 hu))
  · exact hf.nxt _ (hd _ (mem_ues1 hu))
  · exact hf.prv _ (hd _ (mem_ues2 hu))
  · exact hf.nxt _ (hd _ (mem_ues2 (List.dropLast_subset _ hu)))
  · exact hf.prv _ (hd _ (mem_ues1 (List.mem_of_mem_tail hu)))

theorem fr_jn {s s' : St} {S : List Nat} {x y : Nat} (hf : Fr s s' S) (h : Jn s x y) (hx : s'.ring.nxt x = s.ring.nxt x)
    (hy : s'.ring.prv y = s.ring.prv y) : Jn s' x y := h.congr hf.back hf.idx hf.pos hf.points hx hy

theorem un_single {s : St} {e : Nat} (h : s.dis e = fun _ => false) : Un s (e, e) := by
  refine ⟨?_, ?_, fun hc => absurd rfl hc⟩
  · show s.dis e _ = false
    rw [h]
  · show s.dis e _ = false
    rw [h]

/-- the links before the flush at an improper START -/
structure Sp (st : St) (es et b t : Nat) (U1 U2 : List (Nat × Nat)) : Prop where
  p1 : Path st U1
  p2 : Path st U2
  j1 : Jn st (lastU U1).2 es
  j2 : Jn st et (hdU U2).1
  nd1 : (ues U1).Nodup
  nd2 : (ues U2).Nodup
  dj : ∀ e ∈ ues U1, e ∉ ues U2
  s1 : es ∉ ues U1
  s2 : es ∉ ues U2
  t1 : et ∉ ues U1
  t2 : et ∉ ues U2
  ne : es ≠ et
  h1 : hdU U1 = (b, b)
  h2 : lastU U2 = (t, t)
  n1 : st.ring.nxt es = b
  n2 : st.ring.nxt t = et
  q1 : st.ring.prv b = es
  q2 : st.ring.prv et = t
  bb : st.back b = true
  bt : st.back t = false
  bs : st.back es = false
  be : st.back et = true
  rb : st.rm b = dst st (lastU U1).2
  re : st.rm et = (et, false)
  ds : st.dis es = fun _ => false
  dt : st.dis et = fun _ => false
  ib : st.idx b true = none
  it : st.idx t true = none

theorem split_flush {ed : Nat → Bool → P} {st : St} {v : P} {es et b t fuel : Nat} {U1 U2 : List (Nat × Nat)}
    (h : Sp st es et b t U1 U2) (hv : st.pos es false = v) (hv' : st.pos et false = v) (hnd : st.points.Nodup) (hsv : Small v)
    (hs1 : ∀ q ∈ (nodes st U1).map Nd.pos, Small q) (hs2 : ∀ q ∈ (nodes st U2).map Nd.pos, Small q)
    (hd1 : Dn true v (ed b false) (ed b true) ((nodes st U1).map Nd.pos).reverse)
    (hd2 : Dn false v (ed t false) (ed t true) ((nodes st U2).map Nd.pos)) (he1 : ed es false = v) (he2 : ed et false = v)
    (hk1 : U1.length ≤ fuel) (hk2 : U2.length ≤ fuel) :
    ∃ s' a1 a2 T, flushBoth fuel st (es, false) (et, false) = .ok s' ∧ AI s' a1 ∧ AG ed s' v a1 ∧ AI s' a2 ∧ AG ed s' v a2 ∧
      a1.b = b ∧ a1.t = es ∧ a2.b = et ∧ a2.t = t ∧ (∀ e ∈ ues a1.U, e = es ∨ e ∈ ues U1) ∧ (∀ e ∈ ues a2.U, e = et ∨ e ∈ ues U2) ∧
      Fr st s' (ues U1 ++ ues U2) ∧ s'.tris = st.tris ++ T ∧ (∀ t ∈ T, TriOk st.points t) ∧
      (∀ f, (∀ a b, f a b = -f b a) → (T.map (sides f st.points)).sum =
        csum f ((nodes st U1).map Nd.pos ++ [v]) + csum f (v :: (nodes st U2).map Nd.pos) - asum f s' a1 - asum f s' a2) ∧
      Snd st (U1 ++ U2) T ∧ ((∀ q ∈ (nodes st U1).map Nd.pos ++ (nodes st U2).map Nd.pos, q ≠ v) →
        Cmp st (U1 ++ U2) (a1.U ++ a2.U) T) := by
  have hU1 := path_ne h.p1
  have hU2 := path_ne h.p2
  have mb : b ∈ ues U1 := by
    have := mem_ues1 (hdU_mem hU1)
    rwa [h.h1] at this
  have mt : t ∈ ues U2 := by
    have := mem_ues2 (lastU_mem' hU2)
    rwa [h.h2] at this
  have d1 : src st es = (es, false) := by unfold src; rw [h.bs]
  have d2 : dst st et = (et, false) := by unfold dst; rw [h.be]; rfl
  have d3 : src st b = (b, true) := by unfold src; rw [h.bb]
  have d4 : dst st t = (t, true) := by unfold dst; rw [h.bt]; rfl
  have hvs : Vd st (es, false) := by have := h.j1.vd_src; rwa [d1] at this
  have hvt : Vd st (et, false) := by have := h.j2.vd; rwa [d2] at this
  -- the lower path
  have hgo1 : Go (mir st) (es, false) (lastU U1).2 (revU U1) false false := by
    refine ⟨path_mir h.p1, ?_, ?_, .inr ⟨es, by rw [dst_mir, d1], jn_mir h.j1, ?_, rfl, rfl⟩, hvs, ?_⟩
    · rw [head_revU hU1]
    · rw [ues_revU, List.nodup_reverse]; exact h.nd1
    · rw [ues_revU, List.mem_reverse]; exact h.s1
    · rw [lastU_revU', h.h1]
      simp only [Bool.false_eq_true, if_false, Prod.swap]
      rw [dst_mir, d3]
      exact h.ib
  obtain ⟨s1, U1', T1, f1, f2, f3, f4, f5, f6, f7, f8⟩ := down_back (fuel := fuel) hgo1 h.p1 hv hnd hsv hs1 hd1 hk1
  -- the upper path
  have p2' : Path s1 U2 := fr_path f2.fr h.p2 (fun e he hc => h.dj e hc he)
  have d2' : dst s1 et = (et, false) := by rw [dst_congr f2.fr.back, d2]
  have m2 : (hdU U2).1 ∈ ues U2 := mem_ues1 (hdU_mem hU2)
  have j2' : Jn s1 et (hdU U2).1 :=
    fr_jn f2.fr h.j2 (f2.fr.nxt _ h.t1) (f2.fr.prv _ (fun hc => h.dj _ hc m2))
  have hgo2 : Go s1 (et, false) (hdU U2).1 U2 false false := by
    refine ⟨p2', ?_, h.nd2, .inr ⟨et, d2'.symm, j2', h.t2, rfl, rfl⟩, hvt.congr f2.fr.idx f2.fr.pos f2.fr.points, ?_⟩
    · cases U2 with
      | nil => exact absurd rfl hU2
      | cons u U => rfl
    · rw [h.h2]
      simp only [Bool.false_eq_true, if_false]
      rw [dst_congr f2.fr.back, d4]
      unfold idxOf
      rw [f2.fr.idx]; exact h.it
  have hn2 := fr_nodes f2.fr U2
  obtain ⟨s2, U2', T2, g1, g2, g3, g4, g5, g6, g7, g8⟩ := up_fore (fuel := fuel) (v := v) hgo2
    (by unfold posOf; rw [f2.fr.pos]; exact hv')
    (by rw [f2.fr.points]; exact hnd) hsv (by rw [hn2]; exact hs2) (by rw [hn2]; exact hd2) hk2
  rw [fr_nodes f2.fr] at g4 g5
  rw [hn2, fr_nodes f2.fr] at g8
  rw [f2.fr.points] at g6 g8
  have hfr : Fr st s2 (ues U1 ++ ues U2) :=
    (f2.fr.mono (List.subset_append_left _ _)).trans g2.fr (List.subset_append_right _ _)
  have hback := hfr.back
  have hU1' := path_ne f2.path
  have hU2' := path_ne g2.path
  have sub1 : ∀ e ∈ ues U1', e ∈ ues U1 := fun e he => f2.sub.subset he
  have sub2 : ∀ e ∈ ues U2', e ∈ ues U2 := fun e he => g2.sub.subset he
  have p1' : Path s2 U1' := fr_path g2.fr f2.path (fun e he => h.dj e (sub1 e he))
  have ml : (lastU U1).2 ∈ ues U1 := mem_ues2 (lastU_mem' hU1)
  have j1' : Jn s2 (lastU U1').2 es := by
    rw [f2.last]
    refine fr_jn hfr h.j1 ?_ (hfr.prv _ (by rw [List.mem_append]; rintro (hc | hc); exact h.s1 hc; exact h.s2 hc))
    rw [g2.fr.nxt _ (h.dj _ ml), f2.nxt]
  have j2'' : Jn s2 et (hdU U2').1 := by
    rw [g2.head]
    exact fr_jn g2.fr j2' (g2.fr.nxt _ h.t2) g2.prv
  have out_s : es ∉ ues U1 ++ ues U2 := by rw [List.mem_append]; rintro (hc | hc); exact h.s1 hc; exact h.s2 hc
  have out_t : et ∉ ues U1 ++ ues U2 := by rw [List.mem_append]; rintro (hc | hc); exact h.t1 hc; exact h.t2 hc
  obtain ⟨a1, ha1⟩ : ∃ a : Arm, a = ⟨U1', [(es, es)]⟩ := ⟨_, rfl⟩
  obtain ⟨a2, ha2⟩ : ∃ a : Arm, a = ⟨[(et, et)], U2'⟩ := ⟨_, rfl⟩
  have b1 : a1.b = b := by rw [ha1]; show (hdU U1').1 = b; rw [f3, h.h1]
  have t1 : a1.t = es := by rw [ha1]; rfl
  have b2 : a2.b = et := by rw [ha2]; rfl
  have t2 : a2.t = t := by rw [ha2]; show (lastU U2').2 = t; rw [g3, h.h2]
  have e1 : a1.U = U1' ++ [(es, es)] := by rw [ha1]; rfl
  have e2 : a2.U = (et, et) :: U2' := by rw [ha2]; rfl
  have v1 : ues a1.U = ues U1' ++ [es] := by rw [e1, ues_append, ues_cons, ue_eq rfl]; rfl
  have v2 : ues a2.U = et :: ues U2' := by rw [e2, ues_cons, ue_eq rfl]; rfl
  have hpv1 : posOf s2 (dst s2 (lastU U1').2) = v := by
    rw [j1'.pos]
    unfold posOf src
    rw [hback, h.bs, hfr.pos]; exact hv
  have hpv2 : posOf s2 (dst s2 et) = v := by
    rw [dst_congr hback, d2]
    unfold posOf
    rw [hfr.pos]; exact hv'
  have hlow1 : lowP s2 a1 = (nodes st U1').map Nd.pos ++ [v] := by
    rw [← fr_nodes hfr, ha1]
    show U1'.map (fun u => posOf s2 (dst s2 u.2)) = _
    rw [map_all s2 hU1', hpv1]
  have hhigh1 : highP s2 a1 = [] := by rw [ha1]; rfl
  have hpk1 : pk s2 a1 = v := by rw [ha1]; exact hpv1
  have hlow2 : lowP s2 a2 = [v] := by
    rw [ha2]
    show [posOf s2 (dst s2 et)] = _
    rw [hpv2]
  have hhigh2 : highP s2 a2 = (nodes st U2').map Nd.pos := by
    rw [← fr_nodes hfr, ha2, map_pos]
    rfl
  have hpk2 : pk s2 a2 = v := by rw [ha2]; exact hpv2
  refine ⟨s2, a1, a2, T1 ++ T2, ?_, ?_, ?_, ?_, ?_, b1, t1, b2, t2, ?_, ?_, hfr, ?_, ?_, ?_, ?_, ?_⟩
  · unfold flushBoth
    rw [f1]
    exact g1
  · refine ⟨by rw [ha1]; exact hU1', by rw [ha1]; simp, ?_, ?_, ?_, ?_, ?_, ?_, ?_, ?_, ?_⟩
    · rw [e1]
      refine (path_append (s := s2) (U := U1') (V := [(es, es)]) hU1' (by simp)).2 ⟨p1', j1', ?_⟩
      exact un_single (by rw [hfr.dis _ out_s]; exact h.ds)
    · rw [v1, List.nodup_append]
      refine ⟨h.nd1.sublist f2.sub, by simp, ?_⟩
      intro x hx y hy
      rw [List.mem_singleton] at hy
      rw [hy]; rintro rfl; exact h.s1 (sub1 _ hx)
    · rw [t1, b1, hfr.nxt _ out_s]; exact h.n1
    · rw [t1, b1, g2.fr.prv _ (h.dj _ mb)]
      have := f2.prv
      rw [h.h1] at this
      rw [this]; exact h.q1
    · rw [b1, hfr.rm, h.rb, ha1]
      show _ = dst s2 (lastU U1').2
      rw [f2.last, dst_congr hback]
    · rw [b1, hback]; exact h.bb
    · rw [t1, hback]; exact h.bs
    · rw [b1, ha1]; show (hdU U1').2 = b
      rw [f3, h.h1]
    · rw [t1, ha1]; rfl
  · refine ⟨?_, ?_, ?_, .inr hpk1⟩
    · rw [hlow1, b1]; exact f4
    · rw [hhigh1, hpk1, t1, he1]
      exact ⟨by simp, rfl, by simp⟩
    · rw [hlow1, hhigh1, List.append_nil]; exact f5
  · refine ⟨by rw [ha2]; simp, by rw [ha2]; exact hU2', ?_, ?_, ?_, ?_, ?_, ?_, ?_, ?_, ?_⟩
    · rw [e2]
      refine (path_append (s := s2) (U := [(et, et)]) (V := U2') (by simp) hU2').2 ⟨?_, j2'', g2.path⟩
      exact un_single (by rw [hfr.dis _ out_t]; exact h.dt)
    · rw [v2, List.nodup_cons]
      exact ⟨fun hc => h.t2 (sub2 _ hc), h.nd2.sublist g2.sub⟩
    · rw [t2, b2]
      have := g2.nxt
      rw [h.h2] at this
      rw [this, f2.fr.nxt _ (fun hc => h.dj _ hc mt)]; exact h.n2
    · rw [t2, b2, hfr.prv _ out_t]; exact h.q2
    · rw [b2, hfr.rm, h.re, ha2]
      show _ = dst s2 et
      rw [dst_congr hback, d2]
    · rw [b2, hback]; exact h.be
    · rw [t2, hback]; exact h.bt
    · rw [b2, ha2]; rfl
    · rw [t2, ha2]; show (lastU U2').1 = t
      rw [g3, h.h2]
  · refine ⟨?_, ?_, ?_, .inr hpk2⟩
    · rw [hlow2, b2, he2]
      exact ⟨by simp, rfl, by simp⟩
    · rw [hhigh2, hpk2, t2]; exact g4
    · rw [hlow2, hhigh2]; exact g5
  · intro e he
    rw [v1, List.mem_append, List.mem_singleton] at he
    exact he.symm.imp id (sub1 e)
  · intro e he
    rw [v2, List.mem_cons] at he
    exact he.imp id (sub2 e)
  · rw [g2.tris, f2.tris, List.append_assoc]
  · exact tri_mem f6 g6
  · intro f hf
    rw [List.map_append, List.sum_append, f8 f hf, g8 f hf]
    unfold asum
    rw [hlow1, hhigh1, hlow2, hhigh2, List.append_nil, List.singleton_append]
    ring
  · exact (f2.snd.mono fun e he => List.mem_append_left _ he).append
      ((g2.snd.congr f2.fr.pos f2.fr.inner f2.fr.points).mono fun e he => List.mem_append_right _ he)
  · intro hq e he hi
    rcases List.mem_append.1 he with he | he
    · exact (f2.cmp (fun q h => hq q (List.mem_append_left _ h)) (by simp) e he hi).imp (fun h => by rw [e1]; simp [h])
        fun h => h.mono (List.subset_append_left _ _)
    · exact ((g2.cmp (fun q h => hq q (List.mem_append_right _ (by rw [← hn2]; exact h))) (by simp)).congr f2.fr.pos f2.fr.inner
        f2.fr.points e he hi).imp (fun h => by rw [e2]; simp [h]) fun h => h.mono (List.subset_append_right _ _)

end Hob3l.Tri
