import Verif.Tri.Spec
import Verif.Tri.LemmasGeo

/-!
The triangles of a flush.
-/

namespace Hob3l.Tri

open Hob3l.Poly (P Vtx Err ass Ins cross3 vec2Cmp treeNext treePrev Small crossI cross3_eq Lt)

/-- the number of a point is correct -/
def Num (pts : List P) (q : P × Nat) : Prop := pts[q.2]? = some q.1

theorem Num.at {pts : List P} {q : P × Nat} (h : Num pts q) : at' pts q.2 = q.1 := by unfold at'; rw [h]; rfl
theorem Num.lt {pts : List P} {q : P × Nat} (h : Num pts q) : q.2 < pts.length := by
  unfold Num at h
  exact (List.getElem?_eq_some_iff.1 h).1
theorem Num.append {pts : List P} {q : P × Nat} (h : Num pts q) (X : List P) : Num (pts ++ X) q := by
  unfold Num
  rw [List.getElem?_append_left h.lt]; exact h

theorem off_pi (n : Nd) : n.off.pi = n.pi := rfl

theorem fl_tris {neg : Bool} {v : P} {vi : Nat} {closed clo : Bool} {L R : List Nd} {T : List Tri} {pts : List P}
    (h : Fl neg v vi closed clo L T R) (hv : Num pts (v, vi)) (hL : ∀ n ∈ L, Num pts n.pi) : ∀ t ∈ T, TriOk pts t := by
  induction h with
  | nil => simp
  | keep q hc => simp
  | last q hc => simp
  | dup q w L T R hw hf ih =>
    refine ih fun n hn => ?_
    obtain ⟨m, hm, e⟩ := offs_mem hn
    rw [← e]; exact hL m (by simp [hm])
  | stop q w L hw hc => simp
  | tri q w L T R hc hw hf ih =>
    intro t ht
    have h1 := hL q (by simp)
    have h2 := hL w (by simp)
    rcases List.mem_cons.1 ht with rfl | ht
    · have a0 : at' pts vi = v := hv.at
      have a1 : at' pts q.ix = q.pos := h1.at
      have a2 : at' pts w.ix = w.pos := h2.at
      unfold cr at hc
      cases neg
      · refine ⟨hv.lt, h1.lt, h2.lt, ?_⟩
        show 0 < area2 (at' pts vi) (at' pts q.ix) (at' pts w.ix)
        rw [a0, a1, a2]; exact hc
      · refine ⟨h1.lt, hv.lt, h2.lt, ?_⟩
        show 0 < area2 (at' pts q.ix) (at' pts vi) (at' pts w.ix)
        rw [a0, a1, a2]
        simp only [if_true] at hc
        unfold crossI at hc
        unfold area2
        nlinarith
    · refine ih (fun n hn => ?_) t ht
      rcases List.mem_cons.1 hn with rfl | hn
      · exact h2
      · exact hL n (by simp [hn])

/-- the sum over a path from `v` -/
def psum (f : P → P → Int) : P → List P → Int
  | _, [] => 0
  | v, q :: L => f v q + psum f q L

/-- the same, back to `v` if the path is closed -/
def lsum (f : P → P → Int) (closed : Bool) (v : P) (L : List P) : Int :=
  psum f v L + if closed then f ((v :: L).getLast?.getD v) v else 0

theorem fl_sum {f : P → P → Int} (hf : ∀ a b, f a b = -f b a) {neg : Bool} {v : P} {vi : Nat} {closed clo : Bool} {L R : List Nd}
    {T : List Tri} {pts : List P} (h : Fl neg v vi closed clo L T R) (hv : Num pts (v, vi)) (hL : ∀ n ∈ L, Num pts n.pi) :
    (T.map (sides f pts)).sum = (if neg then -1 else 1) *
      (lsum f closed v (L.map Nd.pos) - lsum f closed v (R.map Nd.pos)) := by
  have hself : ∀ a, f a a = 0 := fun a => by have := hf a a; omega
  induction h with
  | nil => simp
  | keep q hc => simp
  | last q hc =>
    subst hc
    have := hf v q.pos
    cases neg <;> simp [lsum, psum, hself] <;> omega
  | dup q w L T R hw hfl ih =>
    have hm : (offs L).map Nd.pos = L.map Nd.pos := by rw [pi_pos, offs_pi, ← pi_pos]
    rw [ih fun n hn => by
      obtain ⟨m, hm, e⟩ := offs_mem hn
      rw [← e]; exact hL m (by simp [hm]), hm]
    have e : lsum f closed v ((q :: w :: L).map Nd.pos) = lsum f closed v (L.map Nd.pos) := by
      unfold lsum
      simp only [List.map_cons, psum, hw]
      have := hf v q.pos
      have e2 : (v :: q.pos :: v :: L.map Nd.pos).getLast?.getD v = (v :: L.map Nd.pos).getLast?.getD v := by
        rw [List.getLast?_cons_cons, List.getLast?_cons_cons]
      rw [e2]
      omega
    rw [e]
  | stop q w L hw hc => simp
  | tri q w L T R hc hw hfl ih =>
    have h1 := hL q (by simp)
    have h2 := hL w (by simp)
    rw [List.map_cons, List.sum_cons, ih fun n hn => by
      rcases List.mem_cons.1 hn with rfl | hn
      · exact h2
      · exact hL n (by simp [hn])]
    have a0 : at' pts vi = v := hv.at
    have a1 : at' pts q.ix = q.pos := h1.at
    have a2 : at' pts w.ix = w.pos := h2.at
    have e : lsum f closed v ((q :: w :: L).map Nd.pos) = lsum f closed v ((w.off :: L).map Nd.pos) +
        (f v q.pos + f q.pos w.pos + f w.pos v) := by
      unfold lsum
      simp only [List.map_cons, psum, Nd.off]
      have e2 : (v :: q.pos :: w.pos :: L.map Nd.pos).getLast?.getD v = (v :: w.pos :: L.map Nd.pos).getLast?.getD v := by
        rw [List.getLast?_cons_cons, List.getLast?_cons_cons, List.getLast?_cons_cons]
      rw [e2]
      have := hf v w.pos
      omega
    rw [e]
    have s1 : sides f pts (mk3 neg vi q w (L.isEmpty && clo)) = (if neg then -1 else 1) * (f v q.pos + f q.pos w.pos + f w.pos v) := by
      unfold sides mk3
      cases neg
      · simp only [Bool.false_eq_true, if_false, a0, a1, a2]; ring
      · simp only [if_true, a0, a1, a2]
        have := hf v q.pos
        have := hf q.pos w.pos
        have := hf w.pos v
        omega
    rw [s1]
    cases neg <;> simp <;> ring

end Hob3l.Tri
