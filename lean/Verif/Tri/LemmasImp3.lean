import Verif.Tri.LemmasImp2

/-!
The case START inside a path: without and with new edges.
-/

namespace Hob3l.Tri

open Hob3l.Poly (P Vtx Err ass Ins cross3 vec2Cmp treeNext treePrev Small crossI cross3_eq Lt vec2Cmp_lt)

theorem imp_eq {st : St} {v : P} {a : Arm} {es et : Nat} (h : Im st v a es et) (hnd : st.points.Nodup) (hp : pk st a = v) (fuel : Nat) :
    ∃ st', startImproper fuel st a.b es et (es, false) (et, false) = flushBoth fuel st' (es, false) (et, false) ∧
      Sp st' es et a.b a.t a.lo a.hi ∧ Ext st st' (es :: et :: ues a.U) ∧ st'.tris = st.tris ∧
      nodes st' a.lo = nodes st a.lo ∧ nodes st' a.hi = nodes st a.hi := by
  obtain ⟨x, hx⟩ : ∃ x, x = (lastU a.lo).2 := ⟨_, rfl⟩
  obtain ⟨y, hy⟩ : ∃ y, y = (hdU a.hi).1 := ⟨_, rfl⟩
  have d := h.df
  rw [← hx, ← hy] at d
  have hj := h.ai.jn
  rw [← hx, ← hy] at hj
  obtain ⟨r1, hr1⟩ : ∃ r, r = Ring.chain st.ring et y := ⟨_, rfl⟩
  obtain ⟨r2, hr2⟩ : ∃ r, r = Ring.chain r1 es a.b := ⟨_, rfl⟩
  obtain ⟨⟨k1, k2⟩, k3, k4⟩ := ring2 h hx hy hr1 hr2
  have hpx : posOf st (dst st x) = v := by rw [hx]; exact hp
  have hix : idxOf st (dst st x) = idxOf st (es, false) := (vd_idx hnd hj.vd h.vs).2 (by rw [hpx]; exact h.ps.symm)
  obtain ⟨st', hst'⟩ : ∃ st' : St, st' = { st with
    ring := r2, rm := upd1 (upd1 (upd1 (upd1 st.rm a.b (dst st x)) et (et, false)) es (es, false)) a.t (src st y) } := ⟨_, rfl⟩
  have q2 : r2.prv et = a.t := by rw [k4, if_pos rfl]
  have heq : startImproper fuel st a.b es et (es, false) (et, false) = flushBoth fuel st' (es, false) (et, false) := by
    rw [imp_pre h fuel hx hy, ← hr1, ← hr2]
    unfold startEdges
    have : ({ st with ring := r2 } : St).idx (dst st x).1 (dst st x).2 = ({ st with ring := r2 } : St).idx (es, false).1 (es, false).2 := hix
    rw [if_neg (by rw [this]; simp), bind_okE]
    simp only
    rw [ass_ok _ h.ai.bb, bind_okE, ass_ok _ h.be, bind_okE, q2, hst']
  have fb : st'.back = st.back := by rw [hst']
  have fi : st'.idx = st.idx := by rw [hst']
  have fp : st'.pos = st.pos := by rw [hst']
  have fd : st'.dis = st.dis := by rw [hst']
  have fn : st'.inner = st.inner := by rw [hst']
  have fr : st'.ring = r2 := by rw [hst']
  have fpt : st'.points = st.points := by rw [hst']
  have hes : ∀ e ∈ ues a.U, e ≠ es := fun e he hc => h.s (hc ▸ he)
  have het : ∀ e ∈ ues a.U, e ≠ et := fun e he hc => h.t (hc ▸ he)
  have lo_ne : ∀ e ∈ ues a.lo, e ≠ a.t ∧ e ≠ y := fun e he => ⟨fun hc => h.ai.dj e he (hc ▸ d.mt), fun hc => h.ai.dj e he (hc ▸ d.my)⟩
  have hi_ne : ∀ e ∈ ues a.hi, e ≠ a.b ∧ e ≠ x := fun e he => ⟨fun hc => h.ai.dj _ d.mb (hc ▸ he), fun hc => h.ai.dj _ d.mx (hc ▸ he)⟩
  have l1 : Loc st st' a.lo := by
    refine ⟨fun e _ => by rw [fb], fun e _ => by rw [fp], fun e _ => by rw [fd], fun e _ => by rw [fn], fun e _ b _ => by rw [fi],
      fun e he hne => ?_, fun e he hne => ?_, [], by rw [fpt]; simp⟩
    · rw [← hx] at hne
      rw [fr, k3, if_neg (lo_ne e he).1, if_neg (hes e (mem_lo he)), if_neg hne, if_neg (het e (mem_lo he))]
    · have hne' : e ≠ a.b := hne
      rw [fr, k4, if_neg (het e (mem_lo he)), if_neg hne', if_neg (hes e (mem_lo he)), if_neg (lo_ne e he).2]
  have l2 : Loc st st' a.hi := by
    refine ⟨fun e _ => by rw [fb], fun e _ => by rw [fp], fun e _ => by rw [fd], fun e _ => by rw [fn], fun e _ b _ => by rw [fi],
      fun e he hne => ?_, fun e he hne => ?_, [], by rw [fpt]; simp⟩
    · have hne' : e ≠ a.t := hne
      rw [fr, k3, if_neg hne', if_neg (hes e (mem_hi he)), if_neg (hi_ne e he).2, if_neg (het e (mem_hi he))]
    · rw [← hy] at hne
      rw [fr, k4, if_neg (het e (mem_hi he)), if_neg (hi_ne e he).1, if_neg (hes e (mem_hi he)), if_neg hne]
  have d1 : dst st' x = dst st x := dst_congr fb x
  have d2 : src st' es = (es, false) := by unfold src; rw [fb, h.bs]
  have d3 : dst st' et = (et, false) := by unfold dst; rw [fb, h.be]; rfl
  have d4 : src st' y = src st y := by unfold src; rw [fb]
  have j1 : Jn st' x es := by
    refine ⟨?_, ?_, ?_, ?_, ?_⟩
    · rw [fr, k3, if_neg d.xt, if_neg d.sx.symm, if_pos rfl]
    · rw [fr, k4, if_neg h.ne, if_neg d.sb, if_pos rfl]
    · rw [d1, d2]; unfold posOf at hpx ⊢; rw [fp, hpx]; exact h.ps.symm
    · rw [d1, d2]; unfold idxOf at hix ⊢; rw [fi]; exact hix
    · rw [d1]; exact hj.vd.congr fi fp fpt
  have j2 : Jn st' et y := by
    refine ⟨?_, ?_, ?_, ?_, ?_⟩
    · rw [fr, k3, if_neg d.te, if_neg h.ne.symm, if_neg d.ex, if_pos rfl]
    · rw [fr, k4, if_neg d.ey.symm, if_neg d.yb, if_neg d.sy.symm, if_pos rfl]
    · rw [d3, d4]; unfold posOf; rw [fp]
      have := hj.pos
      unfold posOf at this hpx
      rw [← this, hpx]; exact h.pt
    · rw [d3, d4]; unfold idxOf; rw [fi]
      have := hj.idx
      rw [hix] at this
      unfold idxOf at this
      rw [← this]; exact h.idx.symm
    · rw [d3]; exact h.vt.congr fi fp fpt
  refine ⟨st', heq, ?_, ?_, by rw [hst'], nodes_loc h.ai.plo l1, nodes_loc h.ai.phi l2⟩
  · refine ⟨path_loc h.ai.plo h.ai.nd1 l1, path_loc h.ai.phi h.ai.nd2 l2, by rw [← hx]; exact j1, by rw [← hy]; exact j2, h.ai.nd1, h.ai.nd2,
      h.ai.dj, fun hc => h.s (mem_lo hc), fun hc => h.s (mem_hi hc), fun hc => h.t (mem_lo hc), fun hc => h.t (mem_hi hc), h.ne,
      Prod.ext rfl h.ai.hb, Prod.ext h.ai.ht rfl, ?_, ?_, ?_, by rw [fr]; exact q2, by rw [fb]; exact h.ai.bb, by rw [fb]; exact h.ai.bt,
      by rw [fb]; exact h.bs, by rw [fb]; exact h.be, ?_, ?_, by rw [fd]; exact h.ds, by rw [fd]; exact h.dt, by rw [fi]; exact h.ib,
      by rw [fi]; exact h.it⟩
    · rw [fr, k3, if_neg d.ts, if_pos rfl]
    · rw [fr, k3, if_pos rfl]
    · rw [fr, k4, if_neg d.eb.symm, if_pos rfl]
    · rw [← hx, d1, hst']
      show upd1 _ _ _ _ = _
      unfold upd1
      rw [if_neg d.bt, if_neg d.sb.symm, if_neg d.eb.symm, if_pos rfl]
    · rw [hst']
      show upd1 _ _ _ _ = _
      unfold upd1
      rw [if_neg d.te, if_neg h.ne.symm, if_pos rfl]
  · refine ⟨fun e he _ => ?_, fun e _ => ⟨by rw [fb], by rw [fp], by rw [fn], by rw [fi]⟩, by rw [hst']; simp, by rw [hst'], by rw [hst'], fpt⟩
    rw [List.mem_cons, List.mem_cons, not_or, not_or] at he
    obtain ⟨h1, h2, h3⟩ := he
    have nb : e ≠ a.b := fun hc => h3 (hc ▸ mem_lo d.mb)
    have nt : e ≠ a.t := fun hc => h3 (hc ▸ mem_hi d.mt)
    have nx : e ≠ x := fun hc => h3 (hc ▸ mem_lo d.mx)
    have ny : e ≠ y := fun hc => h3 (hc ▸ mem_hi d.my)
    refine ⟨by rw [fd], ?_, ?_, ?_⟩
    · rw [fr, k3, if_neg nt, if_neg h1, if_neg nx, if_neg h2]
    · rw [fr, k4, if_neg h2, if_neg nb, if_neg h1, if_neg ny]
    · rw [hst']
      show upd1 _ _ _ _ = _
      unfold upd1
      rw [if_neg nt, if_neg h1, if_neg h2, if_neg nb]

end Hob3l.Tri
