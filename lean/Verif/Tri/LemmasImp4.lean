import Verif.Tri.LemmasImp3

/-!
The case START inside a path: with new edges.
-/

namespace Hob3l.Tri

open Hob3l.Poly (P Vtx Err ass Ins cross3 vec2Cmp treeNext treePrev Small crossI cross3_eq Lt vec2Cmp_lt)

/-- the state with a new edge -/
def withEdge (s : St) (l r : V) (back : Bool) : St := { s with
  new := s.new + 1
  pos := upd (upd s.pos (s.new, false) (posOf s l)) (s.new, true) (posOf s r)
  back := upd1 s.back s.new back
  inner := upd1 s.inner s.new true
  dis := upd (upd s.dis (s.new, false) false) (s.new, true) false
  ring := Ring.init s.ring s.new
  idx := upd (upd s.idx (s.new, false) (idxOf s l)) (s.new, true) (idxOf s r) }

theorem newEdge_ok {s : St} {l r : V} (b : Bool) (h1 : Lt (posOf s l) (posOf s r)) (h2 : idxOf s l ≠ none) (h3 : idxOf s r ≠ none) :
    newEdge s l r b true = .ok (withEdge s l r b, s.new) := by
  unfold newEdge
  rw [ass_ok _ (vec2Cmp_lt.2 h1)]
  simp only [bind_okE]
  rw [ass_ok _ (by unfold upd; simpa using h2), bind_okE, ass_ok _ (by unfold upd; simpa using h3), bind_okE]
  rfl

/-- the fields of the other edges -/
theorem withEdge_old (s : St) (l r : V) (b : Bool) {e : Nat} (he : e ≠ s.new) :
    (withEdge s l r b).back e = s.back e ∧ (withEdge s l r b).pos e = s.pos e ∧ (withEdge s l r b).inner e = s.inner e ∧
    (withEdge s l r b).idx e = s.idx e ∧ (withEdge s l r b).dis e = s.dis e := by
  unfold withEdge upd upd1
  refine ⟨if_neg he, ?_, if_neg he, ?_, ?_⟩ <;> funext c <;> simp [he]

theorem withEdge_new (s : St) (l r : V) (b : Bool) :
    (withEdge s l r b).back s.new = b ∧ (withEdge s l r b).pos s.new false = posOf s l ∧ (withEdge s l r b).pos s.new true = posOf s r ∧
    (withEdge s l r b).inner s.new = true ∧ (withEdge s l r b).idx s.new false = idxOf s l ∧
    (withEdge s l r b).idx s.new true = idxOf s r ∧ (withEdge s l r b).dis s.new = fun _ => false := by
  unfold withEdge upd upd1
  refine ⟨if_pos rfl, by simp, by simp, if_pos rfl, by simp, by simp, ?_⟩
  funext c
  cases c <;> simp

theorem imp_new {st : St} {v : P} {a : Arm} {es et : Nat} (h : Im st v a es et) (hnd : st.points.Nodup) (hp : Lt (pk st a) v) (fuel : Nat) :
    ∃ st' hs ht, startImproper fuel st a.b es et (es, false) (et, false) = flushBoth fuel st' (es, false) (et, false) ∧
      Sp st' es et a.b a.t (a.lo ++ [(hs, hs)]) ((ht, ht) :: a.hi) ∧ Ext st st' (es :: et :: ues a.U) ∧ st'.tris = st.tris ∧
      (nodes st' (a.lo ++ [(hs, hs)])).map Nd.pos = lowP st a ∧ (nodes st' ((ht, ht) :: a.hi)).map Nd.pos = pk st a :: highP st a ∧
      st.new ≤ hs ∧ hs < st'.new ∧ st.new ≤ ht ∧ ht < st'.new ∧ st'.inner hs = true ∧ st'.inner ht = true := by
  obtain ⟨x, hx⟩ : ∃ x, x = (lastU a.lo).2 := ⟨_, rfl⟩
  obtain ⟨y, hy⟩ : ∃ y, y = (hdU a.hi).1 := ⟨_, rfl⟩
  have d := h.df
  rw [← hx, ← hy] at d
  have hj := h.ai.jn
  rw [← hx, ← hy] at hj
  obtain ⟨r1, hr1⟩ : ∃ r, r = Ring.chain st.ring et y := ⟨_, rfl⟩
  obtain ⟨r2, hr2⟩ : ∃ r, r = Ring.chain r1 es a.b := ⟨_, rfl⟩
  obtain ⟨⟨k1, k2⟩, k3, k4⟩ := ring2 h hx hy hr1 hr2
  have hpx : posOf st (dst st x) = pk st a := by rw [hx]; rfl
  have hix : idxOf st (dst st x) ≠ idxOf st (es, false) := by
    intro hc
    have := (vd_idx hnd hj.vd h.vs).1 hc
    rw [hpx] at this
    exact lt_ne hp (this.trans h.ps)
  obtain ⟨ht, hht⟩ : ∃ ht, ht = st.new := ⟨_, rfl⟩
  obtain ⟨hs, hhs⟩ : ∃ hs, hs = st.new + 1 := ⟨_, rfl⟩
  have nle : ∀ {e}, e < st.new → e ≠ ht ∧ e ≠ hs := fun he => by omega
  have xs := nle (h.lu x (mem_lo d.mx))
  have ys := nle (h.lu y (mem_hi d.my))
  have bs := nle (h.lu a.b (mem_lo d.mb))
  have ts := nle (h.lu a.t (mem_hi d.mt))
  have ess := nle h.ls
  have ets := nle h.lt
  have hne : ht ≠ hs := by omega
  -- the first new edge
  obtain ⟨s2, hs2⟩ : ∃ s2 : St, s2 = { st with ring := r2 } := ⟨_, rfl⟩
  obtain ⟨s3, hs3⟩ : ∃ s3, s3 = withEdge s2 (dst st x) (es, false) true := ⟨_, rfl⟩
  have hnew2 : s2.new = ht := by rw [hs2, hht]
  have o3 : ∀ e, e ≠ ht → s3.back e = st.back e ∧ s3.pos e = st.pos e ∧ s3.inner e = st.inner e ∧ s3.idx e = st.idx e ∧ s3.dis e = st.dis e := by
    intro e he
    have := withEdge_old s2 (dst st x) (es, false) true (e := e) (by rw [hnew2]; exact he)
    rw [← hs3] at this
    rw [this.1, this.2.1, this.2.2.1, this.2.2.2.1, this.2.2.2.2, hs2]
    exact ⟨rfl, rfl, rfl, rfl, rfl⟩
  have w3 : s3.back ht = true ∧ s3.pos ht false = pk st a ∧ s3.pos ht true = v ∧ s3.inner ht = true ∧
      s3.idx ht false = idxOf st (dst st x) ∧ s3.idx ht true = idxOf st (es, false) ∧ s3.dis ht = fun _ => false := by
    have := withEdge_new s2 (dst st x) (es, false) true
    rw [hnew2, ← hs3] at this
    obtain ⟨a1, a2, a3, a4, a5, a6, a7⟩ := this
    refine ⟨a1, ?_, ?_, a4, ?_, ?_, a7⟩
    · rw [a2, ← hpx, hs2]
    · rw [a3, ← h.ps, hs2]
    · rw [a5, hs2]
    · rw [a6, hs2]
  have e3 : newEdge s2 (dst st x) (es, false) true true = .ok (s3, ht) := by
    rw [newEdge_ok, ← hs3, hnew2]
    · rw [hs2]
      show Lt (posOf st (dst st x)) (st.pos es false)
      rw [hpx, h.ps]; exact hp
    · rw [hs2]; exact hj.vd.ne
    · rw [hs2]; exact h.vs.ne
  obtain ⟨r3, hr3⟩ : ∃ r, r = Ring.chain s3.ring et ht := ⟨_, rfl⟩
  have n2' : ∀ e, s3.ring.nxt e = if e = ht then ht else r2.nxt e := by
    intro e; rw [hs3]; show (Ring.init s2.ring s2.new).nxt e = _; rw [hnew2, init_nxt, hs2]
  have p2' : ∀ e, s3.ring.prv e = if e = ht then ht else r2.prv e := by
    intro e; rw [hs3]; show (Ring.init s2.ring s2.new).prv e = _; rw [hnew2, init_prv, hs2]
  have g1 : s3.ring.prv ht = ht := by rw [p2', if_pos rfl]
  have g2 : s3.ring.nxt et = y := by
    rw [n2', if_neg ets.1, k3, if_neg d.te, if_neg h.ne.symm, if_neg d.ex, if_pos rfl]
  have n3 : ∀ e, r3.nxt e = if e = ht then y else if e = et then ht else r2.nxt e := by
    intro e; rw [hr3, chain_nxt, g1, g2, n2']
    by_cases he : e = ht
    · rw [if_pos he, if_pos he]
    · rw [if_neg he, if_neg he, if_neg he]
  have p3 : ∀ e, r3.prv e = if e = y then ht else if e = ht then et else r2.prv e := by
    intro e; rw [hr3, chain_prv, g1, g2, p2']
    by_cases he : e = y
    · rw [if_pos he, if_pos he]
    · rw [if_neg he, if_neg he]
      by_cases he' : e = ht
      · rw [if_pos he', if_pos he']
      · rw [if_neg he', if_neg he', if_neg he']
  obtain ⟨s4, hs4⟩ : ∃ s4 : St, s4 = { s3 with ring := r3 } := ⟨_, rfl⟩
  -- the second new edge
  obtain ⟨s5, hs5⟩ : ∃ s5, s5 = withEdge s4 (dst st x) (es, false) false := ⟨_, rfl⟩
  have hnew4 : s4.new = hs := by rw [hs4, hs3]; show s2.new + 1 = hs; omega
  have o5 : ∀ e, e ≠ hs → s5.back e = s3.back e ∧ s5.pos e = s3.pos e ∧ s5.inner e = s3.inner e ∧ s5.idx e = s3.idx e ∧ s5.dis e = s3.dis e := by
    intro e he
    have := withEdge_old s4 (dst st x) (es, false) false (e := e) (by rw [hnew4]; exact he)
    rw [← hs5] at this
    rw [this.1, this.2.1, this.2.2.1, this.2.2.2.1, this.2.2.2.2, hs4]
    exact ⟨rfl, rfl, rfl, rfl, rfl⟩
  have old : ∀ e, e ≠ ht → e ≠ hs → s5.back e = st.back e ∧ s5.pos e = st.pos e ∧ s5.inner e = st.inner e ∧ s5.idx e = st.idx e ∧
      s5.dis e = st.dis e := by
    intro e h1 h2
    obtain ⟨a1, a2, a3, a4, a5⟩ := o5 e h2
    obtain ⟨b1, b2, b3, b4, b5⟩ := o3 e h1
    rw [a1, a2, a3, a4, a5, b1, b2, b3, b4, b5]
    exact ⟨rfl, rfl, rfl, rfl, rfl⟩
  have px4 : posOf s4 (dst st x) = pk st a := by
    rw [← hpx, hs4]; show s3.pos x _ = st.pos x _; rw [(o3 x xs.1).2.1]
  have ps4 : posOf s4 (es, false) = v := by
    rw [← h.ps, hs4]; show s3.pos es _ = st.pos es _; rw [(o3 es ess.1).2.1]
  have ix4 : idxOf s4 (dst st x) = idxOf st (dst st x) := by rw [hs4]; show s3.idx x _ = st.idx x _; rw [(o3 x xs.1).2.2.2.1]
  have is4 : idxOf s4 (es, false) = idxOf st (es, false) := by rw [hs4]; show s3.idx es _ = st.idx es _; rw [(o3 es ess.1).2.2.2.1]
  have w5 : s5.back hs = false ∧ s5.pos hs false = pk st a ∧ s5.pos hs true = v ∧ s5.inner hs = true ∧
      s5.idx hs false = idxOf st (dst st x) ∧ s5.idx hs true = idxOf st (es, false) ∧ s5.dis hs = fun _ => false := by
    have := withEdge_new s4 (dst st x) (es, false) false
    rw [hnew4, ← hs5, px4, ps4, ix4, is4] at this
    exact this
  have e5 : newEdge s4 (dst st x) (es, false) false true = .ok (s5, hs) := by
    rw [newEdge_ok, ← hs5, hnew4]
    · rw [px4, ps4]; exact hp
    · rw [ix4]; exact hj.vd.ne
    · rw [is4]; exact h.vs.ne
  obtain ⟨r4, hr4⟩ : ∃ r, r = Ring.chain s5.ring hs es := ⟨_, rfl⟩
  have n4' : ∀ e, s5.ring.nxt e = if e = hs then hs else r3.nxt e := by
    intro e; rw [hs5]; show (Ring.init s4.ring s4.new).nxt e = _; rw [hnew4, init_nxt, hs4]
  have p4' : ∀ e, s5.ring.prv e = if e = hs then hs else r3.prv e := by
    intro e; rw [hs5]; show (Ring.init s4.ring s4.new).prv e = _; rw [hnew4, init_prv, hs4]
  have g3 : s5.ring.nxt hs = hs := by rw [n4', if_pos rfl]
  have g4 : s5.ring.prv es = x := by
    rw [p4', if_neg ess.2, p3, if_neg d.sy, if_neg ess.1, k4, if_neg h.ne, if_neg d.sb, if_pos rfl]
  have n5 : ∀ e, r4.nxt e = if e = x then hs else if e = hs then es else if e = ht then y else if e = et then ht else r2.nxt e := by
    intro e; rw [hr4, chain_nxt, g3, g4, n4', n3]
    by_cases he : e = x
    · rw [if_pos he, if_pos he]
    · rw [if_neg he, if_neg he]
      by_cases he' : e = hs
      · rw [if_pos he', if_pos he']
      · rw [if_neg he', if_neg he', if_neg he']
  have p5 : ∀ e, r4.prv e = if e = hs then x else if e = es then hs else if e = y then ht else if e = ht then et else r2.prv e := by
    intro e; rw [hr4, chain_prv, g3, g4, p4', p3]
    by_cases he : e = hs
    · rw [if_pos he, if_pos he]
    · rw [if_neg he, if_neg he, if_neg he]
  -- the state before the flush
  obtain ⟨st', hst'⟩ : ∃ st' : St, st' = { s5 with
    ring := r4, rm := upd1 (upd1 (upd1 (upd1 s5.rm a.b (hs, true)) et (et, false)) es (es, false)) a.t (ht, true) } := ⟨_, rfl⟩
  have q2 : r4.prv et = a.t := by
    rw [p5, if_neg ets.2, if_neg h.ne.symm, if_neg d.ey, if_neg ets.1, k4, if_pos rfl]
  have hunx : Un st (lastU a.lo) := path_un h.ai.plo _ (lastU_mem' h.ai.ne1)
  have huny : Un st (hdU a.hi) := path_un h.ai.phi _ (hdU_mem h.ai.ne2)
  have hsE : startEdges s2 es et (dst st x) (src st y) (es, false) (et, false) =
      .ok ({ s5 with ring := r4 }, (hs, true), (ht, true)) := by
    unfold startEdges
    rw [if_pos (by rw [hs2]; exact hix), e3, bind_okE]
    simp only
    unfold listChain
    simp only
    rw [← hr3, ass_ok _ (by rw [n3, if_neg ets.1, if_pos rfl])]
    simp only [bind_okE]
    rw [← hs4]
    have t1 : step s4 (ht, true) true = .ok (et, false) := by
      have e2 : src s4 ht = (ht, true) := by rw [hs4]; show (ht, s3.back ht) = _; rw [w3.1]
      rw [← e2]
      apply step_ok'
      · rw [hs4]; show s3.dis et false = false; rw [(o3 et ets.1).2.2.2.2, h.dt]
      · rw [hs4]; show _ = (r3.prv ht, !s3.back (r3.prv ht))
        rw [p3, if_neg ys.1.symm, if_pos rfl, (o3 et ets.1).1, h.be]; rfl
      · rw [e2, hs4]; show s3.idx ht true ≠ none; rw [w3.2.2.2.2.2.1]; exact h.vs.ne
    rw [t1, bind_okE, ass_ok _ rfl, bind_okE]
    have t2 : step s4 (ht, false) false = .ok (src st y) := by
      have e2 : dst s4 ht = (ht, false) := by rw [hs4]; show (ht, !s3.back ht) = _; rw [w3.1]; rfl
      rw [← e2]
      apply step_ok
      · rw [hs4]; show s3.dis y _ = false; rw [(o3 y ys.1).2.2.2.2]; rw [hy]; exact huny.enS
      · rw [hs4]; show _ = (r3.nxt ht, s3.back (r3.nxt ht))
        rw [n3, if_pos rfl, (o3 y ys.1).1]; rfl
      · rw [e2, hs4]; show s3.idx ht false ≠ none; rw [w3.2.2.2.2.1]; exact hj.vd.ne
    rw [t2, bind_okE, ass_ok _ rfl, bind_okE, e5, bind_okE]
    simp only
    rw [← hr4, ass_ok _ (by rw [n5, if_neg xs.2.symm, if_pos rfl])]
    simp only [bind_okE]
    obtain ⟨s6, hs6⟩ : ∃ s6 : St, s6 = { s5 with ring := r4 } := ⟨_, rfl⟩
    rw [← hs6]
    have t3 : step s6 (hs, true) false = .ok (es, false) := by
      have e2 : dst s6 hs = (hs, true) := by rw [hs6]; show (hs, !s5.back hs) = _; rw [w5.1]; rfl
      rw [← e2]
      apply step_ok
      · rw [hs6]; show s5.dis es false = false; rw [(old es ess.1 ess.2).2.2.2.2, h.ds]
      · rw [hs6]; show _ = (r4.nxt hs, s5.back (r4.nxt hs))
        rw [n5, if_neg xs.2.symm, if_pos rfl, (old es ess.1 ess.2).1, h.bs]
      · rw [e2, hs6]; show s5.idx hs true ≠ none; rw [w5.2.2.2.2.2.1]; exact h.vs.ne
    rw [t3, bind_okE, ass_ok _ rfl, bind_okE]
    have t4 : step s6 (hs, false) true = .ok (dst st x) := by
      have e2 : src s6 hs = (hs, false) := by rw [hs6]; show (hs, s5.back hs) = _; rw [w5.1]
      rw [← e2]
      apply step_ok'
      · rw [hs6]; show s5.dis x _ = false; rw [(old x xs.1 xs.2).2.2.2.2, hx]; exact hunx.enD
      · rw [hs6]; show _ = (r4.prv hs, !s5.back (r4.prv hs))
        rw [p5, if_pos rfl, (old x xs.1 xs.2).1]; rfl
      · rw [e2, hs6]; show s5.idx hs false ≠ none; rw [w5.2.2.2.2.1]; exact hj.vd.ne
    rw [t4, bind_okE, ass_ok _ rfl, bind_okE]
  have heq : startImproper fuel st a.b es et (es, false) (et, false) = flushBoth fuel st' (es, false) (et, false) := by
    rw [imp_pre h fuel hx hy, ← hr1, ← hr2, ← hs2, hsE, bind_okE]
    simp only
    rw [ass_ok _ (by rw [(old _ bs.1 bs.2).1]; exact h.ai.bb), bind_okE, ass_ok _ (by rw [(old _ ets.1 ets.2).1]; exact h.be), bind_okE,
      q2, hst']
  have fb : st'.back = s5.back := by rw [hst']
  have fi : st'.idx = s5.idx := by rw [hst']
  have fp : st'.pos = s5.pos := by rw [hst']
  have fd : st'.dis = s5.dis := by rw [hst']
  have fn : st'.inner = s5.inner := by rw [hst']
  have fr : st'.ring = r4 := by rw [hst']
  have fpt : st'.points = st.points := by rw [hst', hs5, hs4, hs3, hs2]; rfl
  have hes : ∀ e ∈ ues a.U, e ≠ es := fun e he hc => h.s (hc ▸ he)
  have het : ∀ e ∈ ues a.U, e ≠ et := fun e he hc => h.t (hc ▸ he)
  have hnw : ∀ e ∈ ues a.U, e ≠ ht ∧ e ≠ hs := fun e he => nle (h.lu e he)
  have lo_ne : ∀ e ∈ ues a.lo, e ≠ a.t ∧ e ≠ y := fun e he => ⟨fun hc => h.ai.dj e he (hc ▸ d.mt), fun hc => h.ai.dj e he (hc ▸ d.my)⟩
  have hi_ne : ∀ e ∈ ues a.hi, e ≠ a.b ∧ e ≠ x := fun e he => ⟨fun hc => h.ai.dj _ d.mb (hc ▸ he), fun hc => h.ai.dj _ d.mx (hc ▸ he)⟩
  have fo : ∀ e ∈ ues a.U, s5.back e = st.back e ∧ s5.pos e = st.pos e ∧ s5.inner e = st.inner e ∧ s5.idx e = st.idx e ∧
      s5.dis e = st.dis e := fun e he => old e (hnw e he).1 (hnw e he).2
  have l1 : Loc st st' a.lo := by
    refine ⟨fun e he => by rw [fb, (fo e (mem_lo he)).1], fun e he => by rw [fp, (fo e (mem_lo he)).2.1],
      fun e he => by rw [fd, (fo e (mem_lo he)).2.2.2.2], fun e he => by rw [fn, (fo e (mem_lo he)).2.2.1],
      fun e he b _ => by rw [fi, (fo e (mem_lo he)).2.2.2.1], fun e he hne => ?_, fun e he hne => ?_, [], by rw [fpt]; simp⟩
    · rw [← hx] at hne
      rw [fr, n5, if_neg hne, if_neg (hnw e (mem_lo he)).2, if_neg (hnw e (mem_lo he)).1, if_neg (het e (mem_lo he)),
        k3, if_neg (lo_ne e he).1, if_neg (hes e (mem_lo he)), if_neg hne, if_neg (het e (mem_lo he))]
    · have hne' : e ≠ a.b := hne
      rw [fr, p5, if_neg (hnw e (mem_lo he)).2, if_neg (hes e (mem_lo he)), if_neg (lo_ne e he).2, if_neg (hnw e (mem_lo he)).1,
        k4, if_neg (het e (mem_lo he)), if_neg hne', if_neg (hes e (mem_lo he)), if_neg (lo_ne e he).2]
  have l2 : Loc st st' a.hi := by
    refine ⟨fun e he => by rw [fb, (fo e (mem_hi he)).1], fun e he => by rw [fp, (fo e (mem_hi he)).2.1],
      fun e he => by rw [fd, (fo e (mem_hi he)).2.2.2.2], fun e he => by rw [fn, (fo e (mem_hi he)).2.2.1],
      fun e he b _ => by rw [fi, (fo e (mem_hi he)).2.2.2.1], fun e he hne => ?_, fun e he hne => ?_, [], by rw [fpt]; simp⟩
    · have hne' : e ≠ a.t := hne
      rw [fr, n5, if_neg (hi_ne e he).2, if_neg (hnw e (mem_hi he)).2, if_neg (hnw e (mem_hi he)).1, if_neg (het e (mem_hi he)),
        k3, if_neg hne', if_neg (hes e (mem_hi he)), if_neg (hi_ne e he).2, if_neg (het e (mem_hi he))]
    · rw [← hy] at hne
      rw [fr, p5, if_neg (hnw e (mem_hi he)).2, if_neg (hes e (mem_hi he)), if_neg hne, if_neg (hnw e (mem_hi he)).1,
        k4, if_neg (het e (mem_hi he)), if_neg (hi_ne e he).1, if_neg (hes e (mem_hi he)), if_neg hne]
  have c1 : dst st' x = dst st x := by unfold dst; rw [fb, (old x xs.1 xs.2).1]
  have c2 : src st' es = (es, false) := by unfold src; rw [fb, (old es ess.1 ess.2).1, h.bs]
  have c3 : dst st' et = (et, false) := by unfold dst; rw [fb, (old et ets.1 ets.2).1, h.be]; rfl
  have c4 : src st' y = src st y := by unfold src; rw [fb, (old y ys.1 ys.2).1]
  have c5 : src st' hs = (hs, false) := by unfold src; rw [fb, w5.1]
  have c6 : dst st' hs = (hs, true) := by unfold dst; rw [fb, w5.1]; rfl
  have o5t := o5 ht hne
  have c7 : src st' ht = (ht, true) := by unfold src; rw [fb, o5t.1, w3.1]
  have c8 : dst st' ht = (ht, false) := by unfold dst; rw [fb, o5t.1, w3.1]; rfl
  have vdx : Vd st' (dst st x) := by
    refine hj.vd.loc ?_ ?_ ⟨[], by rw [fpt]; simp⟩
    · show st'.pos x = st.pos x; rw [fp, (old x xs.1 xs.2).2.1]
    · intro b _; show st'.idx x b = st.idx x b; rw [fi, (old x xs.1 xs.2).2.2.2.1]
  have vde : Vd st' (es, false) := by
    refine h.vs.loc ?_ ?_ ⟨[], by rw [fpt]; simp⟩
    · show st'.pos es = st.pos es; rw [fp, (old es ess.1 ess.2).2.1]
    · intro b _; show st'.idx es b = st.idx es b; rw [fi, (old es ess.1 ess.2).2.2.2.1]
  have vdt : Vd st' (et, false) := by
    refine h.vt.loc ?_ ?_ ⟨[], by rw [fpt]; simp⟩
    · show st'.pos et = st.pos et; rw [fp, (old et ets.1 ets.2).2.1]
    · intro b _; show st'.idx et b = st.idx et b; rw [fi, (old et ets.1 ets.2).2.2.2.1]
  have ppx : posOf st' (dst st x) = pk st a := by
    rw [← hpx]; show st'.pos x _ = st.pos x _; rw [fp, (old x xs.1 xs.2).2.1]
  have iix : idxOf st' (dst st x) = idxOf st (dst st x) := by show st'.idx x _ = st.idx x _; rw [fi, (old x xs.1 xs.2).2.2.2.1]
  have pps : posOf st' (es, false) = v := by rw [← h.ps]; show st'.pos es _ = st.pos es _; rw [fp, (old es ess.1 ess.2).2.1]
  have iis : idxOf st' (es, false) = idxOf st (es, false) := by show st'.idx es _ = st.idx es _; rw [fi, (old es ess.1 ess.2).2.2.2.1]
  have ppt : posOf st' (et, false) = v := by rw [← h.pt]; show st'.pos et _ = st.pos et _; rw [fp, (old et ets.1 ets.2).2.1]
  have iit : idxOf st' (et, false) = idxOf st (es, false) := by
    show st'.idx et _ = st.idx es _; rw [fi, (old et ets.1 ets.2).2.2.2.1]; exact h.idx.symm
  have ppy : posOf st' (src st y) = pk st a := by
    rw [← hpx, hj.pos]; show st'.pos y _ = st.pos y _; rw [fp, (old y ys.1 ys.2).2.1]
  have iiy : idxOf st' (src st y) = idxOf st (dst st x) := by
    rw [hj.idx]; show st'.idx y _ = st.idx y _; rw [fi, (old y ys.1 ys.2).2.2.2.1]
  have jx : Jn st' x hs := by
    refine ⟨by rw [fr, n5, if_pos rfl], by rw [fr, p5, if_pos rfl], ?_, ?_, by rw [c1]; exact vdx⟩
    · rw [c1, c5, ppx]; show _ = st'.pos hs false; rw [fp, w5.2.1]
    · rw [c1, c5, iix]; show _ = st'.idx hs false; rw [fi, w5.2.2.2.2.1]
  have js : Jn st' hs es := by
    refine ⟨by rw [fr, n5, if_neg xs.2.symm, if_pos rfl], by rw [fr, p5, if_neg ess.2, if_pos rfl], ?_, ?_, ?_⟩
    · rw [c6, c2, pps]; show st'.pos hs true = v; rw [fp, w5.2.2.1]
    · rw [c6, c2, iis]; show st'.idx hs true = _; rw [fi, w5.2.2.2.2.2.1]
    · rw [c6]
      obtain ⟨i, b1, b2⟩ := vde
      refine ⟨i, ?_, ?_⟩
      · show st'.idx hs true = _; rw [fi, w5.2.2.2.2.2.1, ← iis]; exact b1
      · rw [b2, pps]; show _ = some (st'.pos hs true); rw [fp, w5.2.2.1]
  have jt : Jn st' et ht := by
    refine ⟨by rw [fr, n5, if_neg d.ex, if_neg ets.2, if_neg ets.1, if_pos rfl],
      by rw [fr, p5, if_neg hne, if_neg ess.1.symm, if_neg ys.1.symm, if_pos rfl], ?_, ?_, by rw [c3]; exact vdt⟩
    · rw [c3, c7, ppt]; show _ = st'.pos ht true; rw [fp, o5t.2.1, w3.2.2.1]
    · rw [c3, c7, iit]; show _ = st'.idx ht true; rw [fi, o5t.2.2.2.1, w3.2.2.2.2.2.1]
  have jy : Jn st' ht y := by
    refine ⟨by rw [fr, n5, if_neg xs.1.symm, if_neg hne, if_pos rfl],
      by rw [fr, p5, if_neg ys.2, if_neg d.sy.symm, if_pos rfl], ?_, ?_, ?_⟩
    · rw [c8, c4, ppy]; show st'.pos ht false = _; rw [fp, o5t.2.1, w3.2.1]
    · rw [c8, c4, iiy]; show st'.idx ht false = _; rw [fi, o5t.2.2.2.1, w3.2.2.2.2.1]
    · rw [c8]
      obtain ⟨i, b1, b2⟩ := vdx
      refine ⟨i, ?_, ?_⟩
      · show st'.idx ht false = _; rw [fi, o5t.2.2.2.1, w3.2.2.2.2.1, ← iix]; exact b1
      · rw [b2, ppx]; show _ = some (st'.pos ht false); rw [fp, o5t.2.1, w3.2.1]
  have pl := path_loc h.ai.plo h.ai.nd1 l1
  have ph := path_loc h.ai.phi h.ai.nd2 l2
  have us : ues (a.lo ++ [(hs, hs)]) = ues a.lo ++ [hs] := by rw [ues_append, ues_cons, ue_eq rfl]; rfl
  have ut : ues ((ht, ht) :: a.hi) = ht :: ues a.hi := by rw [ues_cons, ue_eq rfl]; rfl
  have nhs : hs ∉ ues a.U := fun hc => (hnw hs hc).2 rfl
  have nht : ht ∉ ues a.U := fun hc => (hnw ht hc).1 rfl
  have fnew : st'.new = st.new + 2 := by
    rw [hst', hs5]; show s4.new + 1 = _; omega
  refine ⟨st', hs, ht, heq, ?_, ?_, by rw [hst', hs5, hs4, hs3, hs2]; rfl, ?_, ?_, by omega, by omega, by omega, by omega,
    by rw [fn]; exact w5.2.2.2.1, by rw [fn, o5t.2.2.1]; exact w3.2.2.2.1⟩
  · refine ⟨?_, ?_, ?_, ?_, ?_, ?_, ?_, ?_, ?_, ?_, ?_, h.ne, ?_, ?_, ?_, ?_, ?_, by rw [fr]; exact q2,
      by rw [fb, (old _ bs.1 bs.2).1]; exact h.ai.bb, by rw [fb, (old _ ts.1 ts.2).1]; exact h.ai.bt,
      by rw [fb, (old _ ess.1 ess.2).1]; exact h.bs, by rw [fb, (old _ ets.1 ets.2).1]; exact h.be, ?_, ?_,
      by rw [fd, (old _ ess.1 ess.2).2.2.2.2]; exact h.ds, by rw [fd, (old _ ets.1 ets.2).2.2.2.2]; exact h.dt,
      by rw [fi, (old _ bs.1 bs.2).2.2.2.1]; exact h.ib, by rw [fi, (old _ ts.1 ts.2).2.2.2.1]; exact h.it⟩
    · refine (path_append h.ai.ne1 (by simp)).2 ⟨pl, ?_, un_single (by rw [fd]; exact w5.2.2.2.2.2.2)⟩
      rw [← hx]; exact jx
    · refine (path_append (U := [(ht, ht)]) (by simp) h.ai.ne2).2 ⟨un_single (by rw [fd, o5t.2.2.2.2]; exact w3.2.2.2.2.2.2), ?_, ph⟩
      show Jn st' ht (hdU a.hi).1
      rw [← hy]; exact jy
    · rw [lastU_append (by simp)]; exact js
    · exact jt
    · rw [us, List.nodup_append]
      refine ⟨h.ai.nd1, by simp, ?_⟩
      intro e he f hf
      rw [List.mem_singleton] at hf
      rw [hf]; rintro rfl; exact nhs (mem_lo he)
    · rw [ut, List.nodup_cons]
      exact ⟨fun hc => nht (mem_hi hc), h.ai.nd2⟩
    · intro e he
      rw [us, List.mem_append, List.mem_singleton] at he
      rw [ut, List.mem_cons, not_or]
      rcases he with he | rfl
      · exact ⟨(hnw e (mem_lo he)).1, h.ai.dj e he⟩
      · exact ⟨hne.symm, fun hc => nhs (mem_hi hc)⟩
    · rw [us, List.mem_append, List.mem_singleton, not_or]
      exact ⟨fun hc => h.s (mem_lo hc), ess.2⟩
    · rw [ut, List.mem_cons, not_or]
      exact ⟨ess.1, fun hc => h.s (mem_hi hc)⟩
    · rw [us, List.mem_append, List.mem_singleton, not_or]
      exact ⟨fun hc => h.t (mem_lo hc), ets.2⟩
    · rw [ut, List.mem_cons, not_or]
      exact ⟨ets.1, fun hc => h.t (mem_hi hc)⟩
    · rw [hdU_append h.ai.ne1]; exact Prod.ext rfl h.ai.hb
    · have : lastU ((ht, ht) :: a.hi) = lastU a.hi := lastU_append (U := [(ht, ht)]) h.ai.ne2
      rw [this]; exact Prod.ext h.ai.ht rfl
    · rw [fr, n5, if_neg d.sx, if_neg ess.2, if_neg ess.1, if_neg h.ne, k3, if_neg d.ts, if_pos rfl]
    · rw [fr, n5, if_neg d.xt.symm, if_neg ts.2, if_neg ts.1, if_neg d.te.symm, k3, if_pos rfl]
    · rw [fr, p5, if_neg bs.2, if_neg d.sb.symm, if_neg d.yb.symm, if_neg bs.1, k4, if_neg d.eb.symm, if_pos rfl]
    · rw [lastU_append (by simp), hst']
      show upd1 _ _ _ _ = dst _ hs
      rw [← hst', c6]
      unfold upd1
      rw [if_neg d.bt, if_neg d.sb.symm, if_neg d.eb.symm, if_pos rfl]
    · rw [hst']
      show upd1 _ _ _ _ = _
      unfold upd1
      rw [if_neg d.te, if_neg h.ne.symm, if_pos rfl]
  · refine ⟨fun e he hn => ?_, fun e hn => ?_, by omega, by rw [hst', hs5, hs4, hs3, hs2]; rfl, by rw [hst', hs5, hs4, hs3, hs2]; rfl, fpt⟩
    · rw [List.mem_cons, List.mem_cons, not_or, not_or] at he
      obtain ⟨h1, h2, h3⟩ := he
      have nb : e ≠ a.b := fun hc => h3 (hc ▸ mem_lo d.mb)
      have nt : e ≠ a.t := fun hc => h3 (hc ▸ mem_hi d.mt)
      have nx : e ≠ x := fun hc => h3 (hc ▸ mem_lo d.mx)
      have ny : e ≠ y := fun hc => h3 (hc ▸ mem_hi d.my)
      have es' := nle hn
      refine ⟨by rw [fd, (old e es'.1 es'.2).2.2.2.2], ?_, ?_, ?_⟩
      · rw [fr, n5, if_neg nx, if_neg es'.2, if_neg es'.1, if_neg h2, k3, if_neg nt, if_neg h1, if_neg nx, if_neg h2]
      · rw [fr, p5, if_neg es'.2, if_neg h1, if_neg ny, if_neg es'.1, k4, if_neg h2, if_neg nb, if_neg h1, if_neg ny]
      · have : s5.rm = st.rm := by rw [hs5, hs4, hs3, hs2]; rfl
        rw [hst']
        show upd1 _ _ _ _ = _
        unfold upd1
        rw [if_neg nt, if_neg h1, if_neg h2, if_neg nb, this]
    · have es' := nle hn
      obtain ⟨b1, b2, b3, b4, -⟩ := old e es'.1 es'.2
      rw [fb, fp, fn, fi, b1, b2, b3, b4]
      exact ⟨rfl, rfl, rfl, rfl⟩
  · rw [map_pos, List.dropLast_append_of_ne_nil (by simp)]
    simp only [List.dropLast_singleton, List.append_nil]
    exact List.map_congr_left (pos_loc l1)
  · rw [map_pos, show ((ht, ht) :: a.hi).dropLast = (ht, ht) :: a.hi.dropLast from List.dropLast_cons_of_ne_nil h.ai.ne2, List.map_cons]
    congr 1
    · show posOf st' (dst st' ht) = _
      rw [c8]; show st'.pos ht false = _; rw [fp, o5t.2.1, w3.2.1]
    · exact List.map_congr_left fun u hu => pos_loc l2 u (List.dropLast_subset _ hu)

end Hob3l.Tri
