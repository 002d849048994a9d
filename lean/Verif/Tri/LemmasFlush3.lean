import Verif.Tri.LemmasFlag

/-!
`flush_triangle_` for a path: the loop.
-/

namespace Hob3l.Tri

open Hob3l.Poly (P Vtx Err ass Ins cross3 vec2Cmp treeNext treePrev Small crossI cross3_eq)

/-- the result of a flush -/
structure Done (neg : Bool) (p : V) (y0 : Nat) (closed clo : Bool) (s : St) (U : List (Nat × Nat)) (s' : St)
    (U' : List (Nat × Nat)) (T : List Tri) : Prop where
  fl : Fl neg (posOf s p) (ix s p) closed clo (nodes s U) T (nodes s U')
  tris : s'.tris = s.tris ++ T
  path : Path s' U'
  fr : Fr s s' (ues U)
  prv : s'.ring.prv y0 = s.ring.prv y0
  nxt : s'.ring.nxt (lastU U).2 = s.ring.nxt (lastU U).2
  sub : (ues U').Sublist (ues U)
  head : U'.head?.map (·.1) = some y0
  last : (lastU U').2 = (lastU U).2
  lst : 2 ≤ U'.length → lastU U' = lastU U
  kp : ∀ e, (e, e) ∈ U' → (e, e) ∈ U
  snd : Snd s U T
  cmp : (∀ n ∈ nodes s U, n.pos ≠ posOf s p) → (closed = true → U.length ≠ 2) → Cmp s U U' T

theorem fl_nil {neg : Bool} {v : P} {vi : Nat} {closed clo : Bool} {L R : List Nd} {T : List Tri}
    (h : Fl neg v vi closed clo L T R) (hL : L = []) : T = [] ∧ R = [] := by
  cases h <;> simp_all

theorem lst_merge {neg : Bool} {v : P} {vi : Nat} {closed clo : Bool} {s : St} {u0 u1 : Nat × Nat} {x : Nat × Nat}
    {U U' : List (Nat × Nat)} {T : List Tri} (h : Fl neg v vi closed clo (nodes s (x :: U)) T (nodes s U'))
    (hl : 2 ≤ U'.length → lastU U' = lastU (x :: U)) : 2 ≤ U'.length → lastU U' = lastU (u0 :: u1 :: U) := by
  intro h2
  cases U with
  | nil =>
    exfalso
    have : nodes s U' = [] := (fl_nil h rfl).2
    have := congrArg List.length this
    simp [nodes] at this
    omega
  | cons u U => rw [hl h2, lastU_cons, lastU_cons, lastU_cons]

theorem dst_congr {s s' : St} (h : s'.back = s.back) (e : Nat) : dst s' e = dst s e := by unfold dst; rw [h]
theorem src_congr {s s' : St} (h : s'.back = s.back) (e : Nat) : src s' e = src s e := by unfold src; rw [h]

theorem offs_nodes {s : St} {u0 u1 : Nat × Nat} {U : List (Nat × Nat)} (h : u0.1 ≠ u1.2) :
    nodes s ((u0.1, u1.2) :: U) = offs (nodes s (u1 :: U)) := by
  cases U with
  | nil => rfl
  | cons u U =>
    rw [nodes_cons, nodes_cons, node_merge h]
    rfl

theorem Done.cons {neg : Bool} {p : V} {y0 : Nat} {closed clo clo' : Bool} {s s1 s' : St} {u0 u1 : Nat × Nat}
    {U U' : List (Nat × Nat)} {T T1 : List Tri} (h : Done neg p y0 closed clo' s1 ((u0.1, u1.2) :: U) s' U' T)
    (hsub : (ues ((u0.1, u1.2) :: U)).Sublist (ues (u0 :: u1 :: U))) (hf : Fr s s1 (ues (u0 :: u1 :: U)))
    (h1 : s1.ring.prv y0 = s.ring.prv y0) (h2 : s1.ring.nxt (lastU (u0 :: u1 :: U)).2 = s.ring.nxt (lastU (u0 :: u1 :: U)).2)
    (ht : s1.tris = s.tris ++ T1)
    (hfl : Fl neg (posOf s p) (ix s p) closed clo' (nodes s ((u0.1, u1.2) :: U)) T (nodes s U') →
      Fl neg (posOf s p) (ix s p) closed clo (nodes s (u0 :: u1 :: U)) (T1 ++ T) (nodes s U'))
    (hsn : Snd s (u0 :: u1 :: U) T1)
    (hcm : (∀ n ∈ nodes s (u0 :: u1 :: U), n.pos ≠ posOf s p) → (closed = true → (u0 :: u1 :: U).length ≠ 2) →
      Cmp s (u0 :: u1 :: U) U' (T1 ++ T)) (hne : u0.1 ≠ u1.2) :
    Done neg p y0 closed clo s (u0 :: u1 :: U) s' U' (T1 ++ T) := by
  refine ⟨?_, ?_, h.path, hf.trans h.fr hsub.subset, h.prv.trans h1, ?_, h.sub.trans hsub, h.head, ?_, lst_merge h.fl h.lst,
    fun e he => ?_, hsn.append ((h.snd.congr hf.pos hf.inner hf.points).mono fun e he => ?_), hcm⟩
  · apply hfl
    have := h.fl
    rw [nodes_congr hf.back hf.idx hf.pos hf.inner, nodes_congr hf.back hf.idx hf.pos hf.inner] at this
    unfold posOf ix at *
    rw [hf.pos, hf.idx] at this
    exact this
  · rw [h.tris, ht, List.append_assoc]
  · have := h.nxt
    rw [lastU_merge] at this
    exact this.trans h2
  · rw [h.last, lastU_merge]
  · rcases List.mem_cons.1 (h.kp e he) with he | he
    · exact absurd ((congrArg Prod.fst he).symm.trans (congrArg Prod.snd he)) hne
    · simp [he]
  · rcases List.mem_cons.1 he with he | he
    · exact absurd ((congrArg Prod.fst he).symm.trans (congrArg Prod.snd he)) hne
    · simp [he]

theorem flushLoop_ok {neg : Bool} {p : V} {y0 : Nat} {closed : Bool} : ∀ (k : Nat) (clo : Bool) (s : St) (u0 u1 : Nat × Nat)
    (U : List (Nat × Nat)), Go s p y0 (u0 :: u1 :: U) closed clo → s.points.Nodup → Small (posOf s p) →
    (∀ n ∈ nodes s (u0 :: u1 :: U), Small n.pos) →
    (posOf s p :: (nodes s (u0 :: u1 :: U)).map Nd.pos).IsChain (· ≠ ·) → U.length + 2 ≤ k →
    ∃ s' U' T, flushLoop neg false p k s (dst s u0.2) = .ok s' ∧ Done neg p y0 closed clo s (u0 :: u1 :: U) s' U' T := by
  intro k
  induction k with
  | zero => intro _ _ _ _ _ _ _ _ _ _ hk; omega
  | succ k ih =>
    intro clo s u0 u1 U hg hnd hsp hsm hch hk
    have hd := hg.head
    simp at hd
    obtain ⟨hu0, hj0, hp1⟩ := hg.path
    have hu1 := path_head hp1
    rw [nodes_cons] at hsm hch
    rw [List.map_cons, List.isChain_cons_cons] at hch
    have hqp : posOf s p ≠ posOf s (dst s u0.2) := hch.1
    have hqs : Small (posOf s (dst s u0.2)) := hsm (node s u0) (by simp)
    have hqi : idxOf s p ≠ idxOf s (dst s u0.2) := fun hc => hqp ((vd_idx hnd hg.vd hj0.vd).1 hc)
    have hue := ues_merge hg.nodup
    have hu12 : u1.2 ≠ u0.2 := fun hc => not_mem_tail hg.nodup (mem_ue2 u0) u1 (by simp) (hc ▸ mem_ue2 u1)
    obtain ⟨k1, k2, k3, k4, k5⟩ := pop_ok hg
    rw [hd] at k3
    have self : Done neg p y0 closed clo s (u0 :: u1 :: U) s (u0 :: u1 :: U) [] ↔
        Fl neg (posOf s p) (ix s p) closed clo (nodes s (u0 :: u1 :: U)) [] (nodes s (u0 :: u1 :: U)) :=
      ⟨fun h => h.fl, fun h => ⟨h, by simp, hg.path, Fr.refl _ _, rfl, rfl, List.Sublist.refl _, hg.head, rfl, fun _ => rfl, fun _ h => h, snd_nil _ _,
        fun _ _ => cmp_refl _ _ _⟩⟩
    cases U with
    | nil =>
      have hl : lastU [u0, u1] = u1 := rfl
      have hfin := hg.fin
      rw [hl] at hfin
      cases closed with
      | false =>
        simp only [Bool.false_eq_true, if_false] at hfin
        refine ⟨s, [u0, u1], [], ?_, self.2 ?_⟩
        · unfold flushLoop
          rw [stepNeq_dst hj0 hu1 hu12 (by rw [hfin]; exact hj0.vd.ne.symm), bind_okE]
          simp only
          rw [if_pos hfin]
        · exact Fl.keep _ rfl
      | true =>
        simp only [if_true] at hfin
        obtain ⟨f1, f2, f3⟩ := hfin
        have hwp : posOf s (dst s u1.2) = posOf s p := (vd_idx hnd f1 hg.vd).1 f2
        have hps : p = src s u0.1 := by
          rcases hg.start with ⟨h, -⟩ | ⟨x, -, -, -, -, h⟩
          · rw [h, hd]
          · cases h
        refine ⟨remove2 s (dst s u0.2), [(u0.1, u1.2)], [], ?_, ?_⟩
        · unfold flushLoop
          rw [stepNeq_dst hj0 hu1 hu12 (by rw [f2]; exact hqi), bind_okE]
          simp only
          rw [if_neg f1.ne]
          have hcr : cross3 (s.pos p.1 p.2) (s.pos (dst s u0.2).1 (dst s u0.2).2) (s.pos (dst s u1.2).1 (dst s u1.2).2) =
              some 0 := by
            rw [show s.pos (dst s u1.2).1 (dst s u1.2).2 = s.pos p.1 p.2 from hwp, cross3_eq hsp hqs hsp, crossI_self]
          rw [hcr]
          simp only [neg_zero, ite_self, lt_irrefl, if_false, if_true]
          rw [ass_ok _ hqi, bind_okE, ass_ok _ (show idxOf s (dst s u1.2) ≠ idxOf s (dst s u0.2) by rw [f2]; exact hqi), bind_okE,
            if_pos f2.symm]
          have hb : dst s u1.2 = dst (remove2 s (dst s u0.2)) u1.2 := (dst_congr k2.back _).symm
          have hst : step (remove2 s (dst s u0.2)) (dst s u1.2) false = .ok (src (remove2 s (dst s u0.2)) u0.1) := by
            rw [hb]
            refine step_dst (by rw [← hl, k4]; exact f3.trans hd.symm) (path_head k1).enS ?_
            rw [← hb]
            unfold idxOf; rw [k2.idx]; exact f1.ne
          rw [hst, bind_okE]
          have : src (remove2 s (dst s u0.2)) u0.1 = p := by rw [hps]; exact src_congr k2.back _
          simp only [this, if_true]
        · refine ⟨Fl.last _ rfl, by simp [k5], k1, k2, k3, k4, hue.1, by simpa using hd, rfl, by simp, fun e he => ?_, snd_nil _ _, fun _ h => absurd rfl (h rfl)⟩
          have he := List.mem_singleton.1 he
          exact absurd ((congrArg Prod.fst he).symm.trans (congrArg Prod.snd he)) hue.2
    | cons u2 U =>
      obtain ⟨-, hj1, hp2⟩ := hp1
      have hu2 := path_head hp2
      rw [nodes_cons] at hsm hch
      rw [List.map_cons, List.isChain_cons_cons] at hch
      have hws : Small (posOf s (dst s u1.2)) := hsm (node s u1) (by simp)
      have hqw : posOf s (dst s u0.2) ≠ posOf s (dst s u1.2) := hch.2.1
      have hwi : idxOf s (dst s u1.2) ≠ idxOf s (dst s u0.2) := fun hc => hqw ((vd_idx hnd hj1.vd hj0.vd).1 hc).symm
      have hstep := stepNeq_dst hj0 hu1 hu12 hwi
      have hcr : cross3 (s.pos p.1 p.2) (s.pos (dst s u0.2).1 (dst s u0.2).2) (s.pos (dst s u1.2).1 (dst s u1.2).2) =
          some (crossI (posOf s p) (posOf s (dst s u0.2)) (posOf s (dst s u1.2))) := cross3_eq hsp hqs hws
      have hn1 : nodes s (u0 :: u1 :: u2 :: U) = node s u0 :: node s u1 :: nodes s (u2 :: U) := by
        rw [nodes_cons, nodes_cons]
      have hcrn : (if neg then -crossI (posOf s p) (posOf s (dst s u0.2)) (posOf s (dst s u1.2)) else
          crossI (posOf s p) (posOf s (dst s u0.2)) (posOf s (dst s u1.2))) = cr neg (posOf s p) (node s u0).pos (node s u1).pos := rfl
      obtain ⟨c, hc⟩ : ∃ c, c = cr neg (posOf s p) (node s u0).pos (node s u1).pos := ⟨_, rfl⟩
      have hstart : flushLoop neg false p (k + 1) s (dst s u0.2) =
          (if c < 0 then .ok s
          else do
            ass (s.idx p.1 p.2 ≠ s.idx (dst s u0.2).1 (dst s u0.2).2) .other
            ass (s.idx (dst s u1.2).1 (dst s u1.2).2 ≠ s.idx (dst s u0.2).1 (dst s u0.2).2) .other
            if c = 0 then
              if s.idx p.1 p.2 = s.idx (dst s u1.2).1 (dst s u1.2).2 then do
                let q ← step (remove2 s (dst s u0.2)) (dst s u1.2) false
                if q = p then .ok (remove2 s (dst s u0.2))
                else do
                  match ← stepNeq (remove2 (remove2 s (dst s u0.2)) (dst s u1.2)) p false with
                  | none => .ok (remove2 (remove2 s (dst s u0.2)) (dst s u1.2))
                  | some q =>
                    if (remove2 (remove2 s (dst s u0.2)) (dst s u1.2)).idx q.1 q.2 = none then
                      .ok (remove2 (remove2 s (dst s u0.2)) (dst s u1.2))
                    else flushLoop neg false p k (remove2 (remove2 s (dst s u0.2)) (dst s u1.2)) q
              else .ok s
            else do
              ass (s.idx p.1 p.2 ≠ s.idx (dst s u1.2).1 (dst s u1.2).2) .other
              flushLoop neg false p k (remove2 { s with tris := s.tris ++ [mkTri s neg p (dst s u0.2) (dst s u1.2)] } (dst s u0.2))
                (dst s u1.2) : Except Err St) := by
        conv_lhs => unfold flushLoop
        rw [hstep, bind_okE]
        simp only
        rw [if_neg hj1.vd.ne, hcr]
        simp only
        rw [hcrn, ← hc]
        rfl
      rw [hstart]
      by_cases hvp : posOf s (dst s u1.2) = posOf s p
      · -- the path comes back to the point
        have hc0 : c = 0 := by
          rw [hc]
          have : (node s u1).pos = posOf s p := hvp
          unfold cr
          rw [this, crossI_self]
          simp
        rw [if_neg (by omega), ass_ok _ hqi, bind_okE, ass_ok _ hwi, bind_okE, if_pos hc0,
          if_pos ((vd_idx hnd hg.vd hj1.vd).2 hvp.symm)]
        obtain ⟨s1, hs1⟩ : ∃ s1, s1 = remove2 s (dst s u0.2) := ⟨_, rfl⟩
        rw [← hs1] at k1 k2 k3 k4 k5 ⊢
        have hg1 : Go s1 p y0 ((u0.1, u1.2) :: u2 :: U) closed clo :=
          hg.step k1 k2 (by rw [hd]; exact k3) k4 (.inl ⟨by simp, rfl⟩)
        obtain ⟨g1, g2, g3⟩ := k1
        have hb : dst s u1.2 = dst s1 u1.2 := (dst_congr k2.back _).symm
        have hst : step s1 (dst s u1.2) false = .ok (src s1 u2.1) := by
          rw [hb]; exact step_dst g2.nxt (path_head g3).enS g2.vd.ne
        rw [hst, bind_okE]
        have hnp : src s1 u2.1 ≠ p := by
          rcases hg1.start with ⟨h, -⟩ | ⟨x, h, -, hx, -⟩
          · rw [h]
            intro he
            have := src_inj he
            rw [← hd] at this
            exact not_mem_tail hg.nodup (mem_ue1 u0) u2 (by simp) (this ▸ mem_ue1 u2)
          · rw [h]; exact src_ne_dst'
        rw [if_neg hnp, hb]
        obtain ⟨m1, m2, m3, m4, m5⟩ := pop_ok hg1
        obtain ⟨s2, hs2⟩ : ∃ s2, s2 = remove2 s1 (dst s1 u1.2) := ⟨_, rfl⟩
        rw [← hs2] at m1 m2 m3 m4 m5 ⊢
        simp only at m1 m2 m3 m4
        have hue1 := ues_merge hg1.nodup
        simp only at hue1
        have hg2 : Go s2 p y0 ((u0.1, u2.2) :: U) closed (clo && !U.isEmpty) :=
          hg1.step m1 m2 m3 m4 (.inr rfl)
        -- put the two removals together
        have fin : ∀ {s' : St} {U' : List (Nat × Nat)} {T : List Tri},
            Done neg p y0 closed (clo && !U.isEmpty) s2 ((u0.1, u2.2) :: U) s' U' T →
            Done neg p y0 closed clo s (u0 :: u1 :: u2 :: U) s' U' T := by
          intro s' U' T h
          have hfr : Fr s s2 (ues (u0 :: u1 :: u2 :: U)) := k2.trans m2 hue.1.subset
          have hn2 : nodes s ((u0.1, u2.2) :: U) = offs (nodes s (u2 :: U)) := offs_nodes hue1.2
          refine ⟨?_, by rw [h.tris, m5, k5], h.path, hfr.trans h.fr (hue1.1.trans hue.1).subset, ?_, ?_,
            h.sub.trans (hue1.1.trans hue.1), h.head, ?_, fun h2 => ?_, fun e he => ?_, (h.snd.congr hfr.pos hfr.inner hfr.points).mono fun e he => ?_,
            fun hno _ => absurd hvp (hno (node s u1) (by rw [hn1]; simp))⟩
          · have := h.fl
            rw [nodes_congr hfr.back hfr.idx hfr.pos hfr.inner, nodes_congr hfr.back hfr.idx hfr.pos hfr.inner, hn2] at this
            unfold posOf ix at this
            rw [hfr.pos, hfr.idx] at this
            rw [hn1]
            refine Fl.dup _ _ _ _ _ hvp ?_
            cases U with
            | nil =>
              have he : nodes s [u2] = [] := rfl
              rw [he] at this ⊢
              obtain ⟨e1, e2⟩ := fl_nil this rfl
              rw [e1, e2]
              exact Fl.nil
            | cons u3 U =>
              simp only [List.isEmpty_cons, Bool.not_false, Bool.and_true] at this
              exact this
          · rw [h.prv, ← hd, m3, hd, k3]
          · have e1 := h.nxt
            have : (lastU ((u0.1, u2.2) :: U)).2 = (lastU (u0 :: u1 :: u2 :: U)).2 := by
              have := lastU_merge (u0 := (u0.1, u1.2)) (u1 := u2) (U := U)
              simp only at this
              rw [this, lastU_merge]
            rw [this] at e1
            rw [e1]
            have e2 := m4
            rw [show (lastU ((u0.1, u1.2) :: u2 :: U)).2 = (lastU (u0 :: u1 :: u2 :: U)).2 from lastU_merge] at e2
            rw [e2, k4]
          · rw [h.last]
            have := lastU_merge (u0 := (u0.1, u1.2)) (u1 := u2) (U := U)
            simp only at this
            rw [this, lastU_merge]
          · rw [lst_merge (u0 := u0) (u1 := u2) h.fl h.lst h2, lastU_cons, lastU_cons, lastU_cons]
          · rcases List.mem_cons.1 (h.kp e he) with he | he
            · exact absurd ((congrArg Prod.fst he).symm.trans (congrArg Prod.snd he)) hue1.2
            · simp [he]
          · rcases List.mem_cons.1 he with he | he
            · exact absurd ((congrArg Prod.fst he).symm.trans (congrArg Prod.snd he)) hue1.2
            · simp [he]
        cases U with
        | nil =>
          refine ⟨s2, [(u0.1, u2.2)], [], ?_, fin ?_⟩
          · have hfin := hg2.fin
            have hl : lastU [(u0.1, u2.2)] = (u0.1, u2.2) := rfl
            rw [hl] at hfin
            cases closed with
            | false =>
              simp only [Bool.false_eq_true, if_false] at hfin
              rw [first_ok hg2 (by rw [hfin]; exact hg2.vd.ne.symm), bind_okE]
              simp only
              rw [if_pos hfin]
            | true =>
              simp only [if_true] at hfin
              have hps : p = src s2 u0.1 := by
                rcases hg2.start with ⟨h, -⟩ | ⟨x, -, -, -, -, h⟩
                · rw [h, hd]
                · cases h
              have := stepNeq_closed (u := (u0.1, u2.2)) m1 (by rw [← hps]; exact hg2.vd.ne) (by rw [← hps]; exact hfin.2.1)
                (by rw [hfin.2.2, hd])
              simp only at this
              rw [hps, this, bind_okE]
          · exact ⟨Fl.nil, by simp, m1, Fr.refl _ _, rfl, rfl, List.Sublist.refl _, by simpa using hd, rfl, by simp, fun _ h => h, snd_nil _ _, fun _ _ => cmp_refl _ _ _⟩
        | cons u3 U =>
          have hfr : Fr s s2 (ues (u0 :: u1 :: u2 :: u3 :: U)) := k2.trans m2 hue.1.subset
          have hn2 : nodes s2 ((u0.1, u2.2) :: u3 :: U) = (node s u2).off :: nodes s (u3 :: U) := by
            rw [nodes_congr hfr.back hfr.idx hfr.pos hfr.inner, nodes_cons, node_merge hue1.2]
          rw [nodes_cons, List.map_cons, List.isChain_cons_cons] at hch
          rw [nodes_cons] at hsm
          have hpp : posOf s2 p = posOf s p := by unfold posOf; rw [hfr.pos]
          have hp2p : posOf s2 (dst s2 u2.2) = posOf s (dst s u2.2) := by unfold posOf dst; rw [hfr.pos, hfr.back]
          have hvd2 : Vd s2 (dst s2 u2.2) := m1.2.1.vd
          have hne2 : idxOf s2 (dst s2 u2.2) ≠ idxOf s2 p := by
            intro he
            have := (vd_idx (by rw [hfr.points]; exact hnd) hvd2 hg2.vd).1 he
            rw [hpp, hp2p] at this
            exact hch.2.2.1 (hvp.trans this.symm)
          rw [first_ok hg2 hne2, bind_okE]
          simp only
          rw [if_neg hvd2.ne]
          obtain ⟨s', U', T, r1, r2⟩ := ih (clo && !(u3 :: U).isEmpty) s2 (u0.1, u2.2) u3 U hg2 (by rw [hfr.points]; exact hnd)
            (by rw [hpp]; exact hsp) (by
              rw [hn2]
              intro n hn
              rcases List.mem_cons.1 hn with rfl | hn
              · exact hsm (node s u2) (by simp)
              · exact hsm n (by simp [hn])) (by
              rw [hn2, hpp, List.map_cons, List.isChain_cons_cons]
              refine ⟨?_, hch.2.2.2⟩
              have := hch.2.2.1
              intro he
              exact this (hvp.trans he)) (by simp at hk ⊢; omega)
          exact ⟨s', U', T, r1, fin r2⟩
      · have hwi' : idxOf s p ≠ idxOf s (dst s u1.2) := fun he => hvp ((vd_idx hnd hg.vd hj1.vd).1 he).symm
        rcases lt_trichotomy c 0 with hlt | heq | hgt
        · rw [if_pos hlt]
          refine ⟨s, _, [], rfl, self.2 ?_⟩
          rw [hn1]
          exact Fl.stop _ _ _ hvp (by rw [← hc]; omega)
        · rw [if_neg (by omega), ass_ok _ hqi, bind_okE, ass_ok _ hwi, bind_okE, if_pos heq, if_neg hwi']
          refine ⟨s, _, [], rfl, self.2 ?_⟩
          rw [hn1]
          exact Fl.stop _ _ _ hvp (by rw [← hc]; omega)
        · rw [if_neg (by omega), ass_ok _ hqi, bind_okE, ass_ok _ hwi, bind_okE, if_neg (by omega), ass_ok _ hwi', bind_okE]
          -- the triangle
          obtain ⟨sa, hsa⟩ : ∃ sa, sa = { s with tris := s.tris ++ [mkTri s neg p (dst s u0.2) (dst s u1.2)] } := ⟨_, rfl⟩
          have hga : Go sa p y0 (u0 :: u1 :: u2 :: U) closed clo := by
            have hpa : Path sa (u0 :: u1 :: u2 :: U) :=
              path_congr (by rw [hsa]) (by rw [hsa]) (by rw [hsa]) (by rw [hsa]) hg.path (by rw [hsa]; simp) (by rw [hsa]; simp)
                (by rw [hsa]; simp)
            subst hsa
            refine ⟨hpa, hg.head, hg.nodup, ?_, hg.vd, hg.fin⟩
            rcases hg.start with h | ⟨x, h1, h2, h3⟩
            · exact .inl h
            · exact .inr ⟨x, h1, h2.congr rfl rfl rfl rfl rfl rfl, h3⟩
          rw [← hsa]
          have hda : dst s u0.2 = dst sa u0.2 := by rw [hsa]; rfl
          have hda1 : dst s u1.2 = dst sa u1.2 := by rw [hsa]; rfl
          obtain ⟨m1, m2, m3, m4, m5⟩ := pop_ok hga
          rw [hda, hda1]
          obtain ⟨s1, hs1⟩ : ∃ s1, s1 = remove2 sa (dst sa u0.2) := ⟨_, rfl⟩
          rw [← hs1] at m1 m2 m3 m4 m5 ⊢
          have hfa : Fr s sa (ues (u0 :: u1 :: u2 :: U)) := by
            rw [hsa]
            exact ⟨rfl, rfl, rfl, rfl, rfl, rfl, rfl, rfl, rfl, fun _ _ => rfl, fun _ _ => rfl, fun _ _ => rfl⟩
          have hfr := hfa.trans m2 (List.Subset.refl _)
          have hg1 : Go s1 p y0 ((u0.1, u1.2) :: u2 :: U) closed clo := hga.step m1 m2 m3 m4 (.inl ⟨by simp, rfl⟩)
          have hd1 : dst sa u1.2 = dst s1 (u0.1, u1.2).2 := (dst_congr m2.back _).symm
          rw [hd1]
          have hn2 : nodes s1 ((u0.1, u1.2) :: u2 :: U) = (node s u1).off :: nodes s (u2 :: U) := by
            rw [nodes_congr hfr.back hfr.idx hfr.pos hfr.inner, nodes_cons, node_merge hue.2]
          have hpp : posOf s1 p = posOf s p := by unfold posOf; rw [hfr.pos]
          obtain ⟨s', U', T, r1, r2⟩ := ih clo s1 (u0.1, u1.2) u2 U hg1 (by rw [hfr.points]; exact hnd)
            (by rw [hpp]; exact hsp) (by
              rw [hn2]
              intro n hn
              rcases List.mem_cons.1 hn with rfl | hn
              · exact hsm (node s u1) (by simp)
              · exact hsm n (by simp [hn])) (by
              rw [hn2, hpp, List.map_cons, List.isChain_cons_cons]
              exact ⟨fun he => hvp he.symm, hch.2.2⟩) (by simp at hk ⊢; omega)
          have ht1 : s1.tris = s.tris ++ [mkTri s neg p (dst s u0.2) (dst s u1.2)] := by rw [m5, hsa]
          obtain ⟨f1, f2, f3⟩ := tri_flags (neg := neg) hg (mkTri_ok hg)
          refine ⟨s', U', _, r1, Done.cons r2 hue.1 hfr ?_ ?_ ht1 ?_ f1 ?_ hue.2⟩
          · rw [← hd, m3, hsa]
          · rw [m4, hsa]
          · intro hfl
            rw [hn1, mkTri_ok hg]
            rw [nodes_cons, node_merge hue.2] at hfl
            exact Fl.tri _ _ _ _ _ (by rw [← hc]; omega) hvp hfl
          · intro hno _ e he hi
            rcases List.mem_cons.1 he with he | he
            · exact .inr ((f2 e (.inl he) hi).mono (List.subset_append_left _ _))
            rcases List.mem_cons.1 he with he | he
            · exact .inr ((f2 e (.inr he) hi).mono (List.subset_append_left _ _))
            by_cases hU : closed = true ∧ U = []
            · rw [hU.2, List.mem_singleton] at he
              exact .inr ((f3 hnd hU.1 hU.2 e he hi).mono (List.subset_append_left _ _))
            · have := (r2.cmp (by
                rw [hn2, hpp]
                intro n hn
                rcases List.mem_cons.1 hn with rfl | hn
                · exact hno (node s u1) (by rw [hn1]; simp)
                · exact hno n (by rw [hn1]; simp [hn])) (by
                intro h1 h2
                exact hU ⟨h1, by simpa using h2⟩)).congr hfr.pos hfr.inner hfr.points
              exact (this e (by simp [he]) hi).imp id fun h => h.mono (List.subset_append_right _ _)

/-- `flush_triangle_` for a path -/
theorem flushG_ok {neg : Bool} {p : V} {y0 : Nat} {closed clo : Bool} {s : St} {U : List (Nat × Nat)} {fuel : Nat}
    (hg : Go s p y0 U closed clo) (hnd : s.points.Nodup) (hsp : Small (posOf s p)) (hsm : ∀ n ∈ nodes s U, Small n.pos)
    (hch : (posOf s p :: (nodes s U).map Nd.pos).IsChain (· ≠ ·)) (hk : U.length ≤ fuel) :
    ∃ s' U' T, flushG neg false fuel s p = .ok s' ∧ Done neg p y0 closed clo s U s' U' T := by
  have hd := hg.head
  match U, hg, hsm, hch, hk, hd with
  | [], hg, _, _, _, hd => simp at hd
  | [u0], hg, _, _, _, hd =>
    simp at hd
    refine ⟨s, [u0], [], ?_, ⟨Fl.nil, by simp, hg.path, Fr.refl _ _, rfl, rfl, List.Sublist.refl _, hg.head, rfl, fun _ => rfl, fun _ h => h, snd_nil _ _,
      fun _ _ => cmp_refl _ _ _⟩⟩
    have hfin := hg.fin
    have hl : lastU [u0] = u0 := rfl
    rw [hl] at hfin
    unfold flushG
    cases closed with
    | false =>
      simp only [Bool.false_eq_true, if_false] at hfin
      rw [first_ok hg (by rw [hfin]; exact hg.vd.ne.symm), bind_okE]
      simp only
      rw [if_pos hfin]
    | true =>
      simp only [if_true] at hfin
      have hps : p = src s u0.1 := by
        rcases hg.start with ⟨h, -⟩ | ⟨x, -, -, -, -, h⟩
        · rw [h, hd]
        · cases h
      rw [hps, stepNeq_closed hg.path (by rw [← hps]; exact hg.vd.ne) (by rw [← hps]; exact hfin.2.1) (by rw [hfin.2.2, hd]), bind_okE]
  | u0 :: u1 :: U, hg, hsm, hch, hk, hd =>
    obtain ⟨s', U', T, r1, r2⟩ := flushLoop_ok (neg := neg) fuel clo s u0 u1 U hg hnd hsp hsm hch (by simpa using hk)
    refine ⟨s', U', T, ?_, r2⟩
    unfold flushG
    have hv := hg.path.2.1.vd
    rw [nodes_cons, List.map_cons, List.isChain_cons_cons] at hch
    rw [first_ok hg (fun he => hch.1 ((vd_idx hnd hv hg.vd).1 he).symm), bind_okE]
    simp only
    rw [if_neg hv.ne]
    exact r1

end Hob3l.Tri
