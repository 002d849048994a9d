import Verif.Tri.LemmasArm

/-!
The case BEND.
-/

namespace Hob3l.Tri

open Hob3l.Poly (P Vtx Err ass Ins cross3 vec2Cmp treeNext treePrev Small crossI cross3_eq Lt)

theorem chain_nxt (r : Ring.St) (a b e : Nat) :
    (Ring.chain r a b).nxt e = if e = r.prv b then r.nxt a else if e = a then b else r.nxt e := rfl

theorem chain_prv (r : Ring.St) (a b e : Nat) :
    (Ring.chain r a b).prv e = if e = r.nxt a then r.prv b else if e = b then a else r.prv e := rfl

theorem init_nxt (r : Ring.St) (x e : Nat) : (Ring.init r x).nxt e = if e = x then x else r.nxt e := rfl
theorem init_prv (r : Ring.St) (x e : Nat) : (Ring.init r x).prv e = if e = x then x else r.prv e := rfl

/-- only edges in `S` are changed -/
structure Out (s s' : St) (S : List Nat) : Prop where
  eq : ∀ e, e ∉ S → s'.back e = s.back e ∧ s'.pos e = s.pos e ∧ s'.dis e = s.dis e ∧ s'.inner e = s.inner e ∧ s'.idx e = s.idx e ∧
    s'.ring.nxt e = s.ring.nxt e ∧ s'.ring.prv e = s.ring.prv e ∧ s'.rm e = s.rm e
  points : s'.points = s.points
  last : s'.last = s.last

theorem Out.loc {s s' : St} {S : List Nat} (h : Out s s' S) {U : List (Nat × Nat)} (hd : ∀ e ∈ ues U, e ∉ S) : Loc s s' U := by
  refine ⟨fun e he => (h.eq e (hd e he)).1, fun e he => (h.eq e (hd e he)).2.1, fun e he => (h.eq e (hd e he)).2.2.1,
    fun e he => (h.eq e (hd e he)).2.2.2.1, fun e he b _ => by rw [(h.eq e (hd e he)).2.2.2.2.1],
    fun e he _ => (h.eq e (hd e he)).2.2.2.2.2.1, fun e he _ => (h.eq e (hd e he)).2.2.2.2.2.2.1, [], by rw [h.points]; simp⟩

theorem Out.arm {ed : Nat → Bool → P} {s s' : St} {v : P} {S : List Nat} (h : Out s s' S) {a : Arm} (hi : AI s a) (hg : AG ed s v a)
    (hd : ∀ e ∈ ues a.U, e ∉ S) : AI s' a ∧ AG ed s' v a :=
  ⟨hi.loc (h.loc hd) (h.eq _ (hd _ hi.mem_t)).2.2.2.2.2.1 (h.eq _ (hd _ hi.mem_b)).2.2.2.2.2.2.1 (h.eq _ (hd _ hi.mem_b)).2.2.2.2.2.2.2,
   hg.loc (h.loc hd) hi.ne1 (.inr rfl)⟩

/-- the sum over a path -/
def csum (f : P → P → Int) : List P → Int
  | [] => 0
  | q :: L => psum f q L

/-- the sum over the path of an arm -/
def asum (f : P → P → Int) (s : St) (a : Arm) : Int := csum f (lowP s a ++ highP s a)

theorem csum_append {f : P → P → Int} : ∀ (L M : List P) (q : P), csum f (L ++ q :: M) = csum f (L ++ [q]) + csum f (q :: M)
  | [], M, q => by simp [csum, psum]
  | [a], M, q => by simp [csum, psum]
  | a :: b :: L, M, q => by
    have ih := csum_append (f := f) (b :: L) M q
    show f a b + csum f (b :: L ++ q :: M) = f a b + csum f (b :: L ++ [q]) + _
    rw [ih]; ring

theorem csum_reverse {f : P → P → Int} (hf : ∀ a b, f a b = -f b a) : ∀ (L : List P), csum f L.reverse = -csum f L
  | [] => rfl
  | [a] => rfl
  | a :: b :: L => by
    have ih := csum_reverse hf (b :: L)
    rw [List.reverse_cons] at ih ⊢
    rw [List.reverse_cons, List.append_assoc]
    show csum f (L.reverse ++ b :: [a]) = -(f a b + csum f (b :: L))
    rw [csum_append, ih]
    show _ + (f b a + 0) = _
    rw [hf b a]; ring

theorem csum_cons (f : P → P → Int) (v q : P) (L : List P) : csum f (v :: q :: L) = f v q + csum f (q :: L) := rfl

theorem lsum_open (f : P → P → Int) (v : P) (L : List P) : lsum f false v L = csum f (v :: L) := by
  unfold lsum; simp [csum]

theorem Half.last_lt {neg : Bool} {e0 e1 r : P} {L : List P} (h : Half neg e0 e1 (L ++ [r])) : ∀ q ∈ L, Lt q r := by
  intro q hq
  have := h.up
  rw [List.pairwise_append] at this
  exact this.2.2 q hq r (by simp)

theorem chain_of_pairwise {L : List P} (h : L.Pairwise Lt) : L.IsChain (· ≠ ·) :=
  (List.Pairwise.isChain h).imp fun _ _ h => lt_ne h

theorem chain_of_half {v r : P} {A B : List P} (h1 : (A ++ [r]).Pairwise Lt) (h2 : (B.reverse ++ [r]).Pairwise Lt)
    (hv : (A ++ [r]).head? ≠ some v) : (v :: (A ++ r :: B)).IsChain (· ≠ ·) := by
  have e : (B.reverse ++ [r]) = (r :: B).reverse := by simp
  rw [e, List.pairwise_reverse] at h2
  have c1 := chain_of_pairwise h1
  have c2 : (r :: B).IsChain (· ≠ ·) := (List.Pairwise.isChain h2).imp fun _ _ h => (lt_ne h).symm
  have c3 : (A ++ r :: B).IsChain (· ≠ ·) := by
    cases A with
    | nil => exact c2
    | cons a A => exact List.isChain_split.2 ⟨c1, c2⟩
  rw [List.isChain_cons]
  refine ⟨?_, c3⟩
  intro y hy hc
  subst hc
  apply hv
  cases A with
  | nil => simpa using hy
  | cons a A => simpa using hy

theorem fr_nodes {s s' : St} {S : List Nat} (h : Fr s s' S) (U : List (Nat × Nat)) : nodes s' U = nodes s U :=
  nodes_congr h.back h.idx h.pos h.inner U

theorem arm_nodes (s : St) (U : List (Nat × Nat)) : (nodes s U).map Nd.pos = U.dropLast.map fun u => posOf s (dst s u.2) := by
  unfold nodes; rw [List.map_map]; rfl

theorem nodes_len {s : St} {U : List (Nat × Nat)} (h : nodes s U ≠ []) : 2 ≤ U.length := by
  by_contra hc
  apply h
  have : U.length ≤ 1 := by omega
  unfold nodes
  match U, this with
  | [], _ => rfl
  | [u], _ => rfl

theorem tri_mem {T : List Tri} {pts : List P} {X : List Tri} (h : ∀ t ∈ X, TriOk pts t) (h' : ∀ t ∈ T, TriOk pts t) :
    ∀ t ∈ X ++ T, TriOk pts t := fun t ht => (List.mem_append.1 ht).elim (h t) (h' t)

theorem vd_num {s : St} {v : V} (h : Vd s v) : Num s.points (posOf s v, ix s v) := by
  obtain ⟨i, h1, h2⟩ := h
  have : ix s v = i := by unfold ix; rw [show s.idx v.1 v.2 = some i from h1]; rfl
  unfold Num; rw [this]; exact h2

/-- the vertices of an event: the state after the numbers of the points are known -/
structure Ev (s : St) (v : P) (es et : Nat) (rs rt : Bool) : Prop where
  ne : es ≠ et
  vs : Vd s (es, rs)
  vt : Vd s (et, rt)
  ps : s.pos es rs = v
  pt : s.pos et rt = v
  idx : s.idx es rs = s.idx et rt
  nd : s.points.Nodup
  small : Small v

/-- BEND of the lower edge -/
theorem bend_lo {ed : Nat → Bool → P} {s : St} {a : Arm} {v : P} {et fuel : Nat} (h : AI s a) (g : AG ed s v a)
    (he : Ev s v a.b et true false) (hne : et ∉ ues a.U) (hd : s.dis et = fun _ => false)
    (ht1 : a.b ∈ s.tree) (ht2 : et ∉ s.tree) (hx : s.idx a.t true = none) (hsm : ∀ p ∈ lowP s a ++ highP s a, Small p)
    (he1 : ed a.b true = v) (he2 : ed et false = v) (he0 : Lt (ed a.b false) v) (ht0 : Lt (ed a.t false) v)
    (hs : v ≠ ed a.t true → 0 < cr true (ed a.t true) (ed a.t false) v) (hk : a.U.length ≤ fuel) :
    ∃ s' a' T, bend fuel s ⟨a.b, true, v⟩ ⟨et, false, v⟩ = .ok s' ∧ AI s' a' ∧ AG ed s' v a' ∧ a'.b = et ∧ a'.t = a.t ∧
      (∀ e ∈ ues a'.U, e = et ∨ e ∈ ues a.U) ∧ Out s s' (et :: ues a.U) ∧
      s'.tree = s.tree.map (fun x => if x = a.b then et else x) ∧ s'.new = s.new ∧ s'.pos = s.pos ∧ s'.inner = s.inner ∧
      s'.back = upd1 s.back et true ∧ s'.idx = upd s.idx (et, true) none ∧
      s'.tris = s.tris ++ T ∧ (∀ t ∈ T, TriOk s.points t) ∧
      (∀ f, (∀ a b, f a b = -f b a) → (T.map (sides f s.points)).sum = f v (ed a.b false) + asum f s a - asum f s' a') ∧
      Snd s a.U T ∧ ((∀ q ∈ lowP s a ++ highP s a, q ≠ v) → Cmp s a.U a'.U T) := by
  have hbt : a.b ≠ a.t := by
    intro hc
    have h1 := h.bb
    have h2 := h.bt
    rw [hc, h2] at h1
    cases h1
  have hetb : et ≠ a.b := fun hc => hne (hc ▸ h.mem_b)
  have hett : et ≠ a.t := fun hc => hne (hc ▸ h.mem_t)
  -- the state before the flush
  obtain ⟨st, hst⟩ : ∃ st : St, st = { s with
      idx := upd s.idx (et, true) none
      tree := s.tree.map fun x => if x = a.b then et else x
      back := upd1 s.back et true
      ring := Ring.chain (Ring.init s.ring et) et a.b
      rm := upd1 (upd1 s.rm et (et, false)) a.t (a.b, true) } := ⟨_, rfl⟩
  have r1 : (Ring.init s.ring et).prv a.b = a.t := by rw [init_prv, if_neg hetb.symm]; exact h.prv
  have r2 : (Ring.init s.ring et).nxt et = et := by rw [init_nxt, if_pos rfl]
  have n1 : st.ring.nxt et = a.b := by
    rw [hst]; show (Ring.chain (Ring.init s.ring et) et a.b).nxt et = _
    rw [chain_nxt, r1, if_neg hett, if_pos rfl]
  have n2 : st.ring.nxt a.t = et := by
    rw [hst]; show (Ring.chain (Ring.init s.ring et) et a.b).nxt a.t = _
    rw [chain_nxt, r1, if_pos rfl, r2]
  have n3 : ∀ e, e ≠ et → e ≠ a.t → st.ring.nxt e = s.ring.nxt e := by
    intro e h1 h2
    rw [hst]; show (Ring.chain (Ring.init s.ring et) et a.b).nxt e = _
    rw [chain_nxt, r1, if_neg h2, if_neg h1, init_nxt, if_neg h1]
  have p1 : st.ring.prv et = a.t := by
    rw [hst]; show (Ring.chain (Ring.init s.ring et) et a.b).prv et = _
    rw [chain_prv, r2, if_pos rfl, r1]
  have p2 : st.ring.prv a.b = et := by
    rw [hst]; show (Ring.chain (Ring.init s.ring et) et a.b).prv a.b = _
    rw [chain_prv, r2, if_neg hetb.symm, if_pos rfl]
  have p3 : ∀ e, e ≠ et → e ≠ a.b → st.ring.prv e = s.ring.prv e := by
    intro e h1 h2
    rw [hst]; show (Ring.chain (Ring.init s.ring et) et a.b).prv e = _
    rw [chain_prv, r2, if_neg h1, if_neg h2, init_prv, if_neg h1]
  have hbend : bend fuel s ⟨a.b, true, v⟩ ⟨et, false, v⟩ = flush fuel st (et, false) false := by
    unfold bend
    simp only [ass, if_true]
    simp only [Bind.bind, Except.bind, Bool.not_false]
    unfold treeReplace
    simp only [ass, if_pos hetb.symm, if_pos ht1, if_pos ht2, Bind.bind, Except.bind]
    have e1 : upd1 s.back et (s.back a.b) et = true := by unfold upd1; rw [if_pos rfl]; exact h.bb
    simp only [e1, if_true]
    unfold listChain
    simp only [ass, Bind.bind, Except.bind]
    have n1' := n1
    rw [hst] at n1'
    simp only at n1'
    simp only [n1', if_true]
    have p1' := p1
    rw [hst] at p1'
    simp only at p1'
    simp only [p1', h.bb, hst]
  have ebk : ∀ e, e ≠ et → st.back e = s.back e := by
    intro e h1; rw [hst]; show upd1 s.back et true e = _; unfold upd1; rw [if_neg h1]
  have ebt : st.back et = true := by rw [hst]; show upd1 s.back et true et = _; unfold upd1; rw [if_pos rfl]
  have eix : ∀ e b, (e, b) ≠ (et, true) → st.idx e b = s.idx e b := by
    intro e b h1; rw [hst]; show upd s.idx (et, true) none e b = _; unfold upd
    rw [if_neg]; rintro ⟨rfl, rfl⟩; exact h1 rfl
  have hpos : st.pos = s.pos := by rw [hst]
  have hpts : st.points = s.points := by rw [hst]
  have hdis : st.dis = s.dis := by rw [hst]
  have hinn : st.inner = s.inner := by rw [hst]
  have hneu : ∀ e ∈ ues a.U, e ≠ et := fun e h1 hc => hne (hc ▸ h1)
  have hloc : Loc s st a.U := by
    refine ⟨fun e h1 => ebk e (hneu e h1), fun e _ => by rw [hpos], fun e _ => by rw [hdis], fun e _ => by rw [hinn],
      fun e h1 b _ => eix e b (fun hc => hneu e h1 (congrArg Prod.fst hc)), fun e h1 h2 => ?_, fun e h1 h2 => ?_, [], by rw [hpts]; simp⟩
    · rw [h.lastU] at h2; exact n3 e (hneu e h1) h2
    · rw [h.hdU] at h2; exact p3 e (hneu e h1) h2
  have hpath := path_loc h.path h.nodup hloc
  have hnodes := nodes_loc h.path hloc
  have d1 : dst st et = (et, false) := by unfold dst; rw [ebt]; rfl
  have d2 : src st a.b = (a.b, true) := by unfold src; rw [ebk _ hetb.symm, h.bb]
  have d3 : dst st a.t = (a.t, true) := by unfold dst; rw [ebk _ hett.symm, h.bt]; rfl
  have hvt : Vd st (et, false) := by
    obtain ⟨i, h1, h2⟩ := he.vt
    refine ⟨i, ?_, ?_⟩
    · show st.idx et false = some i
      rw [eix _ _ (by simp)]; exact h1
    · rw [hpts]; unfold posOf; rw [hpos]; exact h2
  have hjn : Jn st et a.b := by
    refine ⟨n1, p2, ?_, ?_, by rw [d1]; exact hvt⟩
    · rw [d1, d2]; show st.pos et false = st.pos a.b true; rw [hpos, he.pt, he.ps]
    · rw [d1, d2]; show st.idx et false = st.idx a.b true
      rw [eix _ _ (by simp), eix _ _ (by simp [hetb.symm]), he.idx]
  have hUne := path_ne h.path
  have hgo : Go st (et, false) a.b a.U false false := by
    refine ⟨hpath, ?_, h.nodup, .inr ⟨et, d1.symm, hjn, hne, rfl, rfl⟩, hvt, ?_⟩
    · have := h.hdU
      unfold Tri.hdU at this
      cases hu : a.U with
      | nil => exact absurd hu hUne
      | cons u U => rw [hu] at this; simp at this; simp [this]
    · rw [h.lastU, d3]
      simp only [Bool.false_eq_true, if_false]
      show st.idx a.t true = none
      rw [eix _ _ (by simp [hett.symm])]; exact hx
  have hpv : posOf st (et, false) = v := by unfold posOf; rw [hpos]; exact he.pt
  have hpp : (pts st a.U).map Prod.fst = lowP s a ++ highP s a := by rw [← pts_pos, hnodes, pts_arm h.ne1 h.ne2]
  have hlow := lowP_eq (s := s) h.ne1
  obtain ⟨A, hA⟩ : ∃ A, A = a.lo.dropLast.map (fun u => posOf s (dst s u.2)) := ⟨_, rfl⟩
  rw [← hA] at hlow
  obtain ⟨s', U', T, f1, f2, f3, f4⟩ := flush_fore (fuel := fuel) hgo (by rw [hpts]; exact he.nd) (by rw [hpv]; exact he.small)
    (by
      intro q hq
      apply hsm
      rw [← hpp]; exact List.mem_map_of_mem hq)
    (by
      rw [hpv, hpp, hlow, List.append_assoc]
      refine chain_of_half (by rw [← hlow]; exact g.lo.up) g.hi.up ?_
      rw [← hlow, g.lo.hd]
      intro hc
      exact lt_ne he0 (Option.some.inj hc)) hk
  rw [hpv, hnodes, nodes_arm h.ne1 h.ne2] at f3
  have hwh := pts_arm (s := s) h.ne1 h.ne2
  rw [nodes_arm h.ne1 h.ne2] at hwh
  have hlo' : (a.lo.dropLast.map (node s) ++ [node s (lastU a.lo)]).map Nd.pos = lowP s a := by
    rw [hlow, hA]; simp [List.map_map]; exact ⟨rfl, rfl⟩
  have hhi' : ((node s (lastU a.lo) :: a.hi.dropLast.map (node s)).map Nd.pos).reverse = (highP s a).reverse ++ [pk s a] := by
    simp [highP, List.map_map]; exact ⟨rfl, rfl⟩
  obtain ⟨w1, w2, w3, w4⟩ := fl_open f3 (e0 := ed a.b false) (t0 := ed a.t false) (t1 := ed a.t true)
    (by rw [hlo', ← he1]; exact g.lo) (by rw [hhi']; exact g.hi) (by rw [hwh]; exact g.refl) g.le he0 ht0 hs
  have hlen := nodes_len w1
  have hU'ne : U' ≠ [] := by rintro rfl; simp at hlen
  have hhd : (hdU U').1 = a.b := by rw [f2.head, h.hdU]
  have hsub : ∀ e ∈ ues U', e ∈ ues a.U := fun e h1 => f2.sub.subset h1
  have hnet : et ∉ ues U' := fun hc => hne (hsub et hc)
  obtain ⟨a', ha'⟩ : ∃ a' : Arm, a' = ⟨[(et, et)], U'⟩ := ⟨_, rfl⟩
  have hab : a'.b = et := by rw [ha']; rfl
  have hat : a'.t = a.t := by
    rw [ha']; show (lastU U').2 = _
    rw [f2.last, h.lastU]
  have hfb := f2.fr.back
  have d1' : dst s' et = (et, false) := by rw [dst_congr hfb, d1]
  have hbn : a.b ∉ [et] := by simp [hetb.symm]
  have haU : a'.U = (et, et) :: U' := by rw [ha']; rfl
  have hues : ues a'.U = et :: ues U' := by rw [haU, ues_cons]; rw [ue_eq rfl]; rfl
  have hAI : AI s' a' := by
    refine ⟨by rw [ha']; simp, by rw [ha']; exact hU'ne, ?_, ?_, ?_, ?_, ?_, ?_, ?_, ?_, ?_⟩
    · rw [haU]
      have hun : Un s' (et, et) := by
        refine ⟨?_, ?_, fun hc => absurd rfl hc⟩
        · show s'.dis et _ = false
          rw [f2.fr.dis _ hne, hdis, hd]
        · show s'.dis et _ = false
          rw [f2.fr.dis _ hne, hdis, hd]
      have hj : Jn s' et (hdU U').1 := by
        rw [hhd]
        refine hjn.congr hfb f2.fr.idx f2.fr.pos f2.fr.points (f2.fr.nxt _ hne) ?_
        have := f2.prv
        rw [h.hdU] at this; exact this
      have := (path_append (s := s') (U := [(et, et)]) (V := U') (by simp) hU'ne).2 ⟨hun, hj, f2.path⟩
      exact this
    · rw [hues, List.nodup_cons]
      exact ⟨hnet, h.nodup.sublist f2.sub⟩
    · rw [hat, hab]
      have := f2.nxt
      rw [h.lastU] at this
      rw [this, n2]
    · rw [hat, hab, f2.fr.prv _ hne, p1]
    · rw [hab, f2.fr.rm, ha']
      show st.rm et = dst s' et
      rw [d1', hst]
      show upd1 (upd1 s.rm et (et, false)) a.t (a.b, true) et = _
      unfold upd1
      rw [if_neg hett, if_pos rfl]
    · rw [hab, hfb, ebt]
    · rw [hat, hfb, ebk _ hett.symm, h.bt]
    · rw [hab, ha']; rfl
    · rw [hat, ha']; show (lastU U').1 = _
      rw [f4 hlen, h.lastU]
  have hlowP : lowP s' a' = [v] := by
    rw [ha']
    show [posOf s' (dst s' et)] = [v]
    rw [d1']
    unfold posOf; rw [f2.fr.pos]
    rw [← hpv]
  have hhighP : highP s' a' = (nodes st U').map Nd.pos := by
    rw [← fr_nodes f2.fr, arm_nodes, ha']; rfl
  have hpk : pk s' a' = v := by
    have := hlowP
    rw [lowP_eq (by rw [ha']; simp), ha'] at this
    simpa [ha'] using this
  have hAG : AG ed s' v a' := by
    refine ⟨?_, ?_, ?_, .inr hpk⟩
    · rw [hlowP, hab, he2]
      exact ⟨by simp, rfl, by simp⟩
    · rw [hhighP, hpk, hat]; exact w3
    · rw [hlowP, hhighP]; exact w4
  have hout : Out s s' (et :: ues a.U) := by
    refine ⟨fun e h1 => ?_, by rw [f2.fr.points, hpts], by rw [f2.fr.last, hst]⟩
    rw [List.mem_cons, not_or] at h1
    have ht : e ≠ a.t := fun hc => h1.2 (hc ▸ h.mem_t)
    have hb : e ≠ a.b := fun hc => h1.2 (hc ▸ h.mem_b)
    refine ⟨by rw [hfb, ebk _ h1.1], by rw [f2.fr.pos, hpos], by rw [f2.fr.dis _ h1.2, hdis], by rw [f2.fr.inner, hinn], ?_,
      by rw [f2.fr.nxt _ h1.2, n3 _ h1.1 ht], by rw [f2.fr.prv _ h1.2, p3 _ h1.1 hb], ?_⟩
    · funext b; rw [f2.fr.idx, eix e b (fun hc => h1.1 (congrArg Prod.fst hc))]
    · rw [f2.fr.rm, hst]
      show upd1 (upd1 s.rm et (et, false)) a.t (a.b, true) e = _
      unfold upd1
      rw [if_neg ht, if_neg h1.1]
  have hnum := path_num h.path
  have hvn : Num s.points (v, ix st (et, false)) := by
    have := vd_num hvt
    rw [hpv, hpts] at this; exact this
  refine ⟨s', a', T, hbend.trans f1, hAI, hAG, hab, hat, ?_, hout, by rw [f2.fr.tree, hst], by rw [f2.fr.new, hst],
    by rw [f2.fr.pos, hpos], by rw [f2.fr.inner, hinn], by rw [hfb, hst], by rw [f2.fr.idx, hst], by rw [f2.tris, hst], ?_, ?_, f2.snd.congr hpos hinn hpts, ?_⟩
  · intro e h1
    rw [hues, List.mem_cons] at h1
    exact h1.imp id (hsub e)
  · exact fl_tris f3 hvn (by rw [← nodes_arm h.ne1 h.ne2]; exact hnum)
  · intro f hf
    rw [fl_sum hf f3 hvn (by rw [← nodes_arm h.ne1 h.ne2]; exact hnum), hwh]
    simp only [Bool.false_eq_true, if_false, one_mul, lsum_open]
    unfold asum
    rw [hlowP, hhighP]
    have hc : ∃ L, lowP s a ++ highP s a = ed a.b false :: L := by
      have := g.lo.hd
      cases hl : lowP s a with
      | nil => rw [hl] at this; simp at this
      | cons x L => rw [hl] at this; simp at this; exact ⟨L ++ highP s a, by rw [this]; rfl⟩
    obtain ⟨L, hL⟩ := hc
    rw [hL, csum_cons]
    rfl
  · intro hq e h1 h2
    refine ((f2.cmp ?_ (by simp)).congr hpos hinn hpts e h1 h2).imp (fun h => by rw [haU]; simp [h]) id
    rw [hpv, hnodes, pts_arm h.ne1 h.ne2]; exact hq

end Hob3l.Tri
