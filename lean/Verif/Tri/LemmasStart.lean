import Verif.Tri.LemmasImp4

/-!
The case START.
-/

namespace Hob3l.Tri

open Hob3l.Poly (P Vtx Err ass Ins cross3 vec2Cmp treeNext treePrev Small crossI cross3_eq Lt)

theorem ext_fr {st st' s' : St} {S S' : List Nat} (h : Ext st st' S) (hf : Fr st' s' S')
    (hs : ∀ e ∈ S', e ∈ S ∨ st.new ≤ e) : Ext st s' S := by
  refine ⟨fun e he hn => ?_, fun e hn => ?_, by rw [hf.new]; exact h.new, by rw [hf.tree]; exact h.tree, by rw [hf.last]; exact h.last,
    by rw [hf.points]; exact h.points⟩
  · have he' : e ∉ S' := fun hc => by
      rcases hs e hc with h1 | h1
      · exact he h1
      · omega
    obtain ⟨a1, a2, a3, a4⟩ := h.eq e he hn
    exact ⟨(hf.dis e he').trans a1, (hf.nxt e he').trans a2, (hf.prv e he').trans a3, by rw [hf.rm]; exact a4⟩
  · obtain ⟨a1, a2, a3, a4⟩ := h.old e hn
    exact ⟨by rw [hf.back]; exact a1, by rw [hf.pos]; exact a2, by rw [hf.inner]; exact a3, by rw [hf.idx]; exact a4⟩

theorem node_small {s : St} {U : List (Nat × Nat)} (h : Path s U) (hs : ∀ p ∈ s.points, Small p) :
    ∀ q ∈ (nodes s U).map Nd.pos, Small q := by
  intro q hq
  obtain ⟨n, hn, rfl⟩ := List.mem_map.1 hq
  exact hs _ (List.mem_of_getElem? (path_num h n hn))

/-- the right ends of the edges of a path do not see the points otherwise -/
structure Vis (ed : Nat → Bool → P) (v : P) (b t : Nat) : Prop where
  b : Lt (ed b false) v → v ≠ ed b true → 0 < cr false (ed b true) (ed b false) v
  t : Lt (ed t false) v → v ≠ ed t true → 0 < cr true (ed t true) (ed t false) v

theorem AG.low {ed : Nat → Bool → P} {s : St} {v : P} {a : Arm} (g : AG ed s v a) (hne : a.lo ≠ []) :
    ∃ A0, lowP s a = A0 ++ [pk s a] ∧ ∀ q ∈ A0, Lt q (pk s a) := by
  refine ⟨_, lowP_eq hne, ?_⟩
  have := g.lo.up
  rw [lowP_eq hne, List.pairwise_append] at this
  exact fun q hq => this.2.2 q hq _ (by simp)

theorem AG.high {ed : Nat → Bool → P} {s : St} {v : P} {a : Arm} (g : AG ed s v a) : ∀ q ∈ highP s a, Lt q (pk s a) := by
  have := g.hi.up
  rw [List.pairwise_append] at this
  exact fun q hq => this.2.2 q (List.mem_reverse.2 hq) _ (by simp)

theorem half_head {neg : Bool} {e0 e1 : P} {L : List P} (h : Half neg e0 e1 L) : e0 ∈ L := by
  have := h.hd
  cases L with
  | nil => simp at this
  | cons a L => simp at this; simp [this]

/-- what an improper START does -/
def ImpRes (ed : Nat → Bool → P) (st : St) (v : P) (a : Arm) (es et fuel : Nat) : Prop :=
    ∃ s' a1 a2 T, startImproper fuel st a.b es et (es, false) (et, false) = .ok s' ∧ AI s' a1 ∧ AG ed s' v a1 ∧ AI s' a2 ∧
      AG ed s' v a2 ∧ a1.b = a.b ∧ a1.t = es ∧ a2.b = et ∧ a2.t = a.t ∧
      (∀ e ∈ ues a1.U, e = es ∨ e ∈ ues a.U ∨ (st.new ≤ e ∧ e < s'.new)) ∧
      (∀ e ∈ ues a2.U, e = et ∨ e ∈ ues a.U ∨ (st.new ≤ e ∧ e < s'.new)) ∧
      (∀ e ∈ ues a1.U, e ∉ ues a2.U) ∧ Ext st s' (es :: et :: ues a.U) ∧ s'.tris = st.tris ++ T ∧ (∀ t ∈ T, TriOk st.points t) ∧
      (∀ f, (∀ a b, f a b = -f b a) → (T.map (sides f st.points)).sum = asum f st a - asum f s' a1 - asum f s' a2) ∧
      Snd st a.U T ∧ ((∀ q ∈ lowP st a ++ highP st a, q ≠ v) → Cmp st a.U (a1.U ++ a2.U) T) ∧
      ∀ e ∈ ues a1.U ++ ues a2.U, st.new ≤ e → s'.inner e = true

/-- improper START -/
theorem imp_ok {ed : Nat → Bool → P} {st : St} {v : P} {a : Arm} {es et fuel : Nat} (h : Im st v a es et) (g : AG ed st v a)
    (hnd : st.points.Nodup) (hsm : ∀ p ∈ st.points, Small p) (hsv : Small v) (hvis : Vis ed v a.b a.t)
    (he1 : ed es false = v) (he2 : ed et false = v) (hk : a.U.length < fuel) :
    ImpRes ed st v a es et fuel := by
  obtain ⟨A0, hA0, hA⟩ := g.low h.ai.ne1
  have hH := g.high
  have hkl : a.lo.length + a.hi.length < fuel := by
    have : a.U.length = a.lo.length + a.hi.length := by unfold Arm.U; simp
    omega
  -- the rest, for given paths
  have main : ∀ st' U1 U2, startImproper fuel st a.b es et (es, false) (et, false) = flushBoth fuel st' (es, false) (et, false) →
      Sp st' es et a.b a.t U1 U2 → Ext st st' (es :: et :: ues a.U) → st'.tris = st.tris →
      U1.length ≤ fuel → U2.length ≤ fuel → (∀ e ∈ ues U1, e ∈ ues a.U ∨ (st.new ≤ e ∧ e < st'.new)) →
      (∀ e ∈ ues U2, e ∈ ues a.U ∨ (st.new ≤ e ∧ e < st'.new)) →
      Dn true v (ed a.b false) (ed a.b true) ((nodes st' U1).map Nd.pos).reverse →
      Dn false v (ed a.t false) (ed a.t true) ((nodes st' U2).map Nd.pos) →
      (∀ f, (∀ a b, f a b = -f b a) → csum f ((nodes st' U1).map Nd.pos ++ [v]) + csum f (v :: (nodes st' U2).map Nd.pos) =
        asum f st a) →
      (∀ e, (e, e) ∈ U1 ++ U2 → st'.inner e = false → (e, e) ∈ a.U) → (∀ e, (e, e) ∈ a.U → (e, e) ∈ U1 ++ U2) →
      (∀ q ∈ (nodes st' U1).map Nd.pos ++ (nodes st' U2).map Nd.pos, q ∈ lowP st a ++ highP st a) →
      (∀ e ∈ ues U1 ++ ues U2, st.new ≤ e → st'.inner e = true) → ImpRes ed st v a es et fuel := by
    intro st' U1 U2 q1 q2 q3 q4 q5 q6 q7 q8 q9 q10 q11 q12 q13 q14 q15
    obtain ⟨s', a1, a2, T, w1, w2, w3, w4, w5, w6, w7, w8, w9, w10, w11, w12, w13, w14, w15, w16, w17⟩ := split_flush (ed := ed) (fuel := fuel) q2
      (by rw [(q3.old es h.ls).2.1]; exact h.ps) (by rw [(q3.old et h.lt).2.1]; exact h.pt)
      (by rw [q3.points]; exact hnd) hsv (node_small q2.p1 (by rw [q3.points]; exact hsm))
      (node_small q2.p2 (by rw [q3.points]; exact hsm)) q9 q10 he1 he2 q5 q6
    have hnew : s'.new = st'.new := w12.new
    refine ⟨s', a1, a2, T, q1.trans w1, w2, w3, w4, w5, w6, w7, w8, w9, ?_, ?_, ?_, ?_, by rw [w13, q4], by rw [← q3.points]; exact w14, ?_, ?_, ?_, ?_⟩
    · intro e he
      rw [hnew]
      exact (w10 e he).imp id (q7 e)
    · intro e he
      rw [hnew]
      exact (w11 e he).imp id (q8 e)
    · intro e h1 h2
      rcases w10 e h1 with rfl | h1 <;> rcases w11 e h2 with h2 | h2
      · exact h.ne h2
      · exact q2.s2 h2
      · exact q2.t1 (h2 ▸ h1)
      · exact q2.dj e h1 h2
    · refine ext_fr q3 w12 ?_
      intro e he
      rcases List.mem_append.1 he with he | he
      · rcases q7 e he with h1 | h1
        · left; simp [h1]
        · exact .inr h1.1
      · rcases q8 e he with h1 | h1
        · left; simp [h1]
        · exact .inr h1.1
    · intro f hf
      have := w15 f hf
      rw [q11 f hf, q3.points] at this
      exact this
    · intro t ht i j hf
      obtain ⟨e, x, y, g1, g2, g3, g4, g5⟩ := w16 t ht i j hf
      have hm := q12 e g1 g2
      have ho := q3.old e (h.lu e (mem_ues1 hm))
      rw [ho.2.2.1] at g2
      rw [q3.points] at g3 g4
      exact ⟨e, x, y, hm, g2, g3, g4, (EdgeAt.congr ho.2.1).1 g5⟩
    · intro hq e he hi
      have ho := q3.old e (h.lu e (mem_ues1 he))
      refine (w17 (fun q hq' => hq q (q14 q hq')) e (q13 e he) (by rw [ho.2.2.1]; exact hi)).imp id ?_
      rintro ⟨t, ht, i, j, x, y, g1, g3, g4, g5⟩
      rw [q3.points] at g3 g4
      exact ⟨t, ht, i, j, x, y, g1, g3, g4, (EdgeAt.congr ho.2.1).1 g5⟩
    · intro e he hn
      rw [w12.inner]
      have hls := h.ls
      have hlt := h.lt
      rcases List.mem_append.1 he with he | he
      · rcases w10 e he with rfl | he
        · omega
        · exact q15 e (List.mem_append_left _ he) hn
      · rcases w11 e he with rfl | he
        · omega
        · exact q15 e (List.mem_append_right _ he) hn
  have infix1 : ∀ {M : List P}, M <:+: lowP st a ++ highP st a → Refl false M := fun hm => g.refl.infix hm
  rcases g.le with hp | hp
  · -- with new edges
    obtain ⟨st', hs, ht, q1, q2, q3, q4, q5, q6, q7, q8, q9, q10, q11, q12⟩ := imp_new h hnd hp fuel
    have lv : ∀ {q : P}, Lt q (pk st a) ∨ q = pk st a → Lt q v := by
      rintro q (hq | rfl)
      · exact lt_trans' hq hp
      · exact hp
    have llow : ∀ q ∈ lowP st a, Lt q v := by
      intro q hq
      rw [hA0, List.mem_append, List.mem_singleton] at hq
      exact lv (hq.imp (hA q) id)
    have lhigh : ∀ q ∈ pk st a :: highP st a, Lt q v := by
      intro q hq
      rcases List.mem_cons.1 hq with rfl | hq
      · exact hp
      · exact lv (.inl (hH q hq))
    have hb0 : Lt (ed a.b false) v := llow _ (half_head g.lo)
    have ht0 : Lt (ed a.t false) v := by
      apply lhigh
      have := half_head g.hi
      simp only [List.mem_append, List.mem_reverse, List.mem_singleton] at this
      simp only [List.mem_cons]
      tauto
    have u1 : ues (a.lo ++ [(hs, hs)]) = ues a.lo ++ [hs] := by rw [ues_append, ues_cons, ue_eq rfl]; rfl
    have u2 : ues ((ht, ht) :: a.hi) = ht :: ues a.hi := by rw [ues_cons, ue_eq rfl]; rfl
    refine main st' _ _ q1 q2 q3 q4 (by simp; omega) (by simp; omega) ?_ ?_ ?_ ?_ ?_ ?_ ?_ ?_ ?_
    · intro e he
      rw [u1, List.mem_append, List.mem_singleton] at he
      rcases he with he | rfl
      · exact .inl (mem_lo he)
      · exact .inr ⟨q7, q8⟩
    · intro e he
      rw [u2, List.mem_cons] at he
      rcases he with rfl | he
      · exact .inr ⟨q9, q10⟩
      · exact .inl (mem_hi he)
    · rw [q5]
      refine dn_half (infix1 ⟨[], highP st a, by simp⟩).reverse (fun _ => by rw [List.reverse_reverse]; exact g.lo) ?_
        (fun _ => hb0) (fun _ => hvis.b hb0) (fun hc => ?_)
      · intro q hq
        exact llow q (List.mem_reverse.1 hq)
      · rw [hA0] at hc; simp at hc
    · rw [q6]
      refine dn_half (infix1 ⟨A0, [], by rw [hA0]; simp⟩) (fun _ => by rw [List.reverse_cons]; exact g.hi) lhigh
        (fun _ => ht0) (fun _ => hvis.t ht0) (fun hc => by simp at hc)
    · intro f hf
      rw [q5, q6]
      unfold asum
      rw [hA0, csum_snoc, csum_cons, List.append_assoc]
      show _ = csum f (A0 ++ pk st a :: highP st a)
      rw [csum_append A0 (highP st a), hf (pk st a) v]
      ring
    · intro e he hi
      simp only [List.mem_append, List.mem_cons, List.not_mem_nil, or_false, Prod.mk.injEq, and_self] at he
      show (e, e) ∈ a.lo ++ a.hi
      rcases he with (he | rfl) | rfl | he
      · exact List.mem_append_left _ he
      · rw [q11] at hi; cases hi
      · rw [q12] at hi; cases hi
      · exact List.mem_append_right _ he
    · intro e he
      have he : (e, e) ∈ a.lo ++ a.hi := he
      simp only [List.mem_append, List.mem_cons] at he ⊢
      tauto
    · rw [q5, q6]
      intro q hq
      have : pk st a ∈ lowP st a := by rw [hA0]; simp
      simp only [List.mem_append, List.mem_cons] at hq ⊢
      rcases hq with hq | rfl | hq
      · exact .inl hq
      · exact .inl this
      · exact .inr hq
    · intro e he hn
      rw [u1, u2] at he
      simp only [List.mem_append, List.mem_cons, List.not_mem_nil, or_false] at he
      rcases he with (he | rfl) | rfl | he
      · have := h.lu e (mem_lo he); omega
      · exact q11
      · exact q12
      · have := h.lu e (mem_hi he); omega
  · -- without new edges
    obtain ⟨st', q1, q2, q3, q4, q5, q6⟩ := imp_eq h hnd hp fuel
    have p1 : (nodes st' a.lo).map Nd.pos = A0 := by
      rw [q5, map_pos]
      have := lowP_eq (s := st) h.ai.ne1
      rw [hA0] at this
      exact (List.append_inj_left' this rfl).symm
    have p2 : (nodes st' a.hi).map Nd.pos = highP st a := by rw [q6, map_pos]; rfl
    rw [hp] at hA hH
    refine main st' _ _ q1 q2 q3 q4 (by omega) (by omega) (fun e he => .inl (mem_lo he)) (fun e he => .inl (mem_hi he)) ?_ ?_ ?_
      (fun e he _ => he) (fun e he => he) ?_ ?_
    · rw [p1]
      have hb0 : A0 ≠ [] → ed a.b false ∈ A0 := by
        intro hne
        have := g.lo.prefix (M := A0) (by rw [hA0]; exact List.prefix_append _ _) hne
        exact half_head this
      refine dn_half (infix1 ⟨[], [pk st a] ++ highP st a, by rw [hA0]; simp⟩).reverse (fun hne => ?_) ?_
        (fun hne => hA _ (hb0 (by simpa using hne))) (fun hne => hvis.b (hA _ (hb0 (by simpa using hne)))) (fun hc => ?_)
      · rw [List.reverse_reverse]
        exact g.lo.prefix (by rw [hA0]; exact List.prefix_append _ _) (by simpa using hne)
      · intro q hq
        exact hA q (List.mem_reverse.1 hq)
      · have : A0 = [] := by simpa using hc
        have h2 := g.lo.hd
        rw [hA0, this] at h2
        simp at h2
        rw [← h2, hp]
    · rw [p2]
      have ht0 : highP st a ≠ [] → ed a.t false ∈ highP st a := by
        intro hne
        have := g.hi.prefix (M := (highP st a).reverse) (List.prefix_append _ _) (by simpa using hne)
        exact List.mem_reverse.1 (half_head this)
      refine dn_half (infix1 ⟨lowP st a, [], by simp⟩) (fun hne => ?_) hH
        (fun hne => hH _ (ht0 hne)) (fun hne => hvis.t (hH _ (ht0 hne))) (fun hc => ?_)
      · exact g.hi.prefix (List.prefix_append _ _) (by simpa using hne)
      · have h2 := g.hi.hd
        rw [hc] at h2
        simp at h2
        rw [← h2, hp]
    · intro f hf
      rw [p1, p2]
      unfold asum
      rw [hA0, hp, List.append_assoc]
      show _ = csum f (A0 ++ v :: highP st a)
      rw [csum_append A0 (highP st a)]
    · rw [p1, p2, hA0]
      intro q hq
      simp only [List.mem_append] at hq ⊢
      tauto
    · intro e he hn
      rcases List.mem_append.1 he with he | he
      · have := h.lu e (mem_lo he); omega
      · have := h.lu e (mem_hi he); omega

end Hob3l.Tri
