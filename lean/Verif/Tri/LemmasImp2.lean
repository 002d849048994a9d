import Verif.Tri.LemmasImp

/-!
The case START inside a path: the links, continued.
-/

namespace Hob3l.Tri

open Hob3l.Poly (P Vtx Err ass Ins cross3 vec2Cmp treeNext treePrev Small crossI cross3_eq Lt)

/-- the edges of an improper START are different -/
structure Df (a : Arm) (es et : Nat) (x y : Nat) : Prop where
  xy : x ≠ y
  xt : x ≠ a.t
  yb : y ≠ a.b
  bt : a.b ≠ a.t
  sb : es ≠ a.b
  ts : es ≠ a.t
  sx : es ≠ x
  sy : es ≠ y
  eb : et ≠ a.b
  te : et ≠ a.t
  ex : et ≠ x
  ey : et ≠ y
  mx : x ∈ ues a.lo
  my : y ∈ ues a.hi
  mb : a.b ∈ ues a.lo
  mt : a.t ∈ ues a.hi

theorem Im.df {st : St} {v : P} {a : Arm} {es et : Nat} (h : Im st v a es et) : Df a es et (lastU a.lo).2 (hdU a.hi).1 := by
  have mx : (lastU a.lo).2 ∈ ues a.lo := mem_ues2 (lastU_mem' h.ai.ne1)
  have my : (hdU a.hi).1 ∈ ues a.hi := mem_ues1 (hdU_mem h.ai.ne2)
  have mb : a.b ∈ ues a.lo := mem_ues1 (hdU_mem h.ai.ne1)
  have mt : a.t ∈ ues a.hi := mem_ues2 (lastU_mem' h.ai.ne2)
  have dj := h.ai.dj
  refine ⟨?_, ?_, ?_, ?_, ?_, ?_, ?_, ?_, ?_, ?_, ?_, ?_, mx, my, mb, mt⟩
  · exact fun hc => dj _ mx (hc ▸ my)
  · exact fun hc => dj _ mx (hc ▸ mt)
  · exact fun hc => dj _ mb (hc ▸ my)
  · exact fun hc => dj _ mb (hc ▸ mt)
  · exact fun hc => h.s (hc ▸ mem_lo mb)
  · exact fun hc => h.s (hc ▸ mem_hi mt)
  · exact fun hc => h.s (hc ▸ mem_lo mx)
  · exact fun hc => h.s (hc ▸ mem_hi my)
  · exact fun hc => h.t (hc ▸ mem_lo mb)
  · exact fun hc => h.t (hc ▸ mem_hi mt)
  · exact fun hc => h.t (hc ▸ mem_lo mx)
  · exact fun hc => h.t (hc ▸ mem_hi my)

/-- the links after the two calls of `list_edge_chain` -/
theorem ring2 {st : St} {v : P} {a : Arm} {es et : Nat} (h : Im st v a es et) {x y : Nat} (hx : x = (lastU a.lo).2) (hy : y = (hdU a.hi).1)
    {r1 r2 : Ring.St} (h1 : r1 = Ring.chain st.ring et y) (h2 : r2 = Ring.chain r1 es a.b) :
    (r1.nxt et = y ∧ r1.prv es = x) ∧
    (∀ e, r2.nxt e = if e = a.t then et else if e = es then a.b else if e = x then es else if e = et then y else st.ring.nxt e) ∧
    (∀ e, r2.prv e = if e = et then a.t else if e = a.b then es else if e = es then x else if e = y then et else st.ring.prv e) := by
  have d := h.df
  rw [← hx, ← hy] at d
  have hj := h.ai.jn
  rw [← hx, ← hy] at hj
  have n1 : ∀ e, r1.nxt e = if e = x then es else if e = et then y else st.ring.nxt e := by
    intro e; rw [h1, chain_nxt, hj.prv, h.nt]
  have p1 : ∀ e, r1.prv e = if e = es then x else if e = y then et else st.ring.prv e := by
    intro e; rw [h1, chain_prv, hj.prv, h.nt]
  have e1 : r1.prv a.b = a.t := by rw [p1, if_neg d.sb.symm, if_neg d.yb.symm]; exact h.ai.prv
  have e2 : r1.nxt es = et := by rw [n1, if_neg d.sx, if_neg h.ne]; exact h.ns
  refine ⟨⟨by rw [n1, if_neg d.ex, if_pos rfl], by rw [p1, if_pos rfl]⟩, ?_, ?_⟩
  · intro e
    rw [h2, chain_nxt, e1, e2, n1]
  · intro e
    rw [h2, chain_prv, e1, e2, p1]

/-- the state before the new edges are made -/
theorem imp_pre {st : St} {v : P} {a : Arm} {es et : Nat} (h : Im st v a es et) (fuel : Nat) {x y : Nat} (hx : x = (lastU a.lo).2)
    (hy : y = (hdU a.hi).1) :
    startImproper fuel st a.b es et (es, false) (et, false) = (do
      let (st, sr, tr) ← startEdges { st with ring := Ring.chain (Ring.chain st.ring et y) es a.b } es et (dst st x) (src st y)
        (es, false) (et, false)
      ass (st.back a.b = true) .other
      ass (st.back et = true) .other
      let st := { st with rm := upd1 (upd1 (upd1 st.rm a.b sr) et (et, false)) es (es, false) }
      let st := { st with rm := upd1 st.rm (st.ring.prv et) tr }
      flushBoth fuel st (es, false) (et, false) : Except Err St) := by
  have d := h.df
  rw [← hx, ← hy] at d
  have hj := h.ai.jn
  rw [← hx, ← hy] at hj
  obtain ⟨r1, hr1⟩ : ∃ r, r = Ring.chain st.ring et y := ⟨_, rfl⟩
  obtain ⟨r2, hr2⟩ : ∃ r, r = Ring.chain r1 es a.b := ⟨_, rfl⟩
  obtain ⟨⟨k1, k2⟩, k3, k4⟩ := ring2 h hx hy hr1 hr2
  have hrm : st.rm a.b = dst st x := by rw [hx]; exact h.ai.rm
  have hnx : st.ring.nxt x = y := hj.nxt
  unfold startImproper
  rw [ass_ok _ h.be, bind_okE]
  simp only [hrm]
  rw [eqBuddy_dst hj]
  simp only
  rw [ass_ok _ (by show st.ring.nxt x = y; exact hnx), bind_okE]
  have e1 : st.ring.nxt (dst st x).1 = y := hnx
  rw [e1]
  unfold listChain
  simp only
  rw [← hr1, ass_ok _ k1]
  simp only [bind_okE]
  have hunx : Un st (lastU a.lo) := path_un h.ai.plo _ (lastU_mem' h.ai.ne1)
  have huny : Un st (hdU a.hi) := path_un h.ai.phi _ (hdU_mem h.ai.ne2)
  have st1 : step { st with ring := r1 } (et, false) false = .ok (src st y) := by
    have e2 : dst { st with ring := r1 } et = (et, false) := by unfold dst; simp only [h.be]; rfl
    rw [← e2]
    apply step_ok
    · rw [hy]; exact huny.enS
    · show src st y = src { st with ring := r1 } (r1.nxt et)
      rw [k1]; rfl
    · rw [e2]
      exact h.vt.ne
  rw [st1, bind_okE, ass_ok _ rfl, bind_okE]
  rw [← hr2, ass_ok _ (by rw [k3, if_neg d.ts, if_pos rfl])]
  simp only [bind_okE]
  have st2 : step { st with ring := r2 } (es, false) true = .ok (dst st x) := by
    have e2 : src { st with ring := r2 } es = (es, false) := by unfold src; simp only [h.bs]
    rw [← e2]
    apply step_ok'
    · rw [hx]; exact hunx.enD
    · show dst st x = dst { st with ring := r2 } (r2.prv es)
      rw [k4, if_neg h.ne, if_neg d.sb, if_pos rfl]; rfl
    · rw [e2]
      exact h.vs.ne
  rw [st2, bind_okE, ass_ok _ rfl, bind_okE]

end Hob3l.Tri
