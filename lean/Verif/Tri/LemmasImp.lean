import Verif.Tri.LemmasSplit

/-!
The case START inside a path: the links.
-/

namespace Hob3l.Tri

open Hob3l.Poly (P Vtx Err ass Ins cross3 vec2Cmp treeNext treePrev Small crossI cross3_eq Lt)

theorem AI.jn {s : St} {a : Arm} (h : AI s a) : Jn s (Tri.lastU a.lo).2 (Tri.hdU a.hi).1 :=
  ((path_append h.ne1 h.ne2).1 h.path).2.1

theorem AI.plo {s : St} {a : Arm} (h : AI s a) : Path s a.lo := ((path_append h.ne1 h.ne2).1 h.path).1
theorem AI.phi {s : St} {a : Arm} (h : AI s a) : Path s a.hi := ((path_append h.ne1 h.ne2).1 h.path).2.2

theorem AI.dj {s : St} {a : Arm} (h : AI s a) : ∀ e ∈ ues a.lo, e ∉ ues a.hi := by
  have := h.nodup
  unfold Arm.U at this
  rw [ues_append, List.nodup_append] at this
  exact fun e h1 h2 => this.2.2 e h1 e h2 rfl

theorem AI.nd1 {s : St} {a : Arm} (h : AI s a) : (ues a.lo).Nodup := by
  have := h.nodup
  unfold Arm.U at this
  rw [ues_append, List.nodup_append] at this
  exact this.1

theorem AI.nd2 {s : St} {a : Arm} (h : AI s a) : (ues a.hi).Nodup := by
  have := h.nodup
  unfold Arm.U at this
  rw [ues_append, List.nodup_append] at this
  exact this.2.1

theorem mem_lo {a : Arm} {e : Nat} (h : e ∈ ues a.lo) : e ∈ ues a.U := by
  unfold Arm.U; rw [ues_append]; exact List.mem_append_left _ h

theorem mem_hi {a : Arm} {e : Nat} (h : e ∈ ues a.hi) : e ∈ ues a.U := by
  unfold Arm.U; rw [ues_append]; exact List.mem_append_right _ h

theorem path_un {s : St} {U : List (Nat × Nat)} (h : Path s U) : ∀ u ∈ U, Un s u := by
  induction U with
  | nil => simp
  | cons u U ih =>
    intro w hw
    rcases List.mem_cons.1 hw with rfl | hw
    · exact path_head h
    · cases U with
      | nil => simp at hw
      | cons u' U => exact ih h.2.2 w hw

/-- the state at the beginning of an improper START -/
structure Im (st : St) (v : P) (a : Arm) (es et : Nat) : Prop where
  ai : AI st a
  s : es ∉ ues a.U
  t : et ∉ ues a.U
  ne : es ≠ et
  bs : st.back es = false
  be : st.back et = true
  ns : st.ring.nxt es = et
  nt : st.ring.nxt et = es
  qs : st.ring.prv es = et
  qt : st.ring.prv et = es
  ds : st.dis es = fun _ => false
  dt : st.dis et = fun _ => false
  vs : Vd st (es, false)
  vt : Vd st (et, false)
  ps : st.pos es false = v
  pt : st.pos et false = v
  idx : st.idx es false = st.idx et false
  ib : st.idx a.b true = none
  it : st.idx a.t true = none
  ls : es < st.new
  lt : et < st.new
  lu : ∀ e ∈ ues a.U, e < st.new

/-- the state changes for the edges in `S` and for new edges only -/
structure Ext (st st' : St) (S : List Nat) : Prop where
  eq : ∀ e, e ∉ S → e < st.new → st'.dis e = st.dis e ∧ st'.ring.nxt e = st.ring.nxt e ∧ st'.ring.prv e = st.ring.prv e ∧ st'.rm e = st.rm e
  old : ∀ e, e < st.new → st'.back e = st.back e ∧ st'.pos e = st.pos e ∧ st'.inner e = st.inner e ∧ st'.idx e = st.idx e
  new : st.new ≤ st'.new ∧ st'.new ≤ st.new + 2
  tree : st'.tree = st.tree
  last : st'.last = st.last
  points : st'.points = st.points

theorem step_ok {s : St} {x : Nat} {v : V} (h1 : disOf s v = false) (h2 : v = src s (s.ring.nxt x)) (hi : idxOf s (dst s x) ≠ none) :
    step s (dst s x) false = .ok v := by
  subst h2
  exact step_dst rfl h1 hi

theorem step_ok' {s : St} {x : Nat} {v : V} (h1 : disOf s v = false) (h2 : v = dst s (s.ring.prv x)) (hi : idxOf s (src s x) ≠ none) :
    step s (src s x) true = .ok v := by
  subst h2
  have := step_dst (s := mir s) (x := x) (y := s.ring.prv x) rfl h1 (by rw [dst_mir]; exact hi)
  rw [step_mir, dst_mir] at this
  exact this

end Hob3l.Tri
