import Verif.Tri.LemmasRemove
import Verif.Poly.LemmasShear

/-!
The triangles made from a path.
-/

namespace Hob3l.Tri

open Hob3l.Poly (P Vtx Err ass Ins cross3 vec2Cmp treeNext treePrev Small crossI cross3_eq)

/-- a point of a path: its coordinates, its number, and whether the piece of the path that ends there is part of the outline -/
structure Nd where
  pos : P
  ix : Nat
  fl : Bool

def Nd.off (n : Nd) : Nd := { n with fl := false }

/-- the same for the head of a list -/
def offs : List Nd → List Nd
  | [] => []
  | n :: L => n.off :: L

/-- the whole edge is a piece of the path, and it is part of the outline -/
def full (s : St) (u : Nat × Nat) : Bool := decide (u.1 = u.2) && !s.inner u.1

/-- the end of a piece -/
def node (s : St) (u : Nat × Nat) : Nd := ⟨posOf s (dst s u.2), ix s (dst s u.2), full s u⟩

/-- the points inside a path -/
def nodes (s : St) (U : List (Nat × Nat)) : List Nd := U.dropLast.map (node s)

/-- the orientation of a triangle -/
def cr (neg : Bool) (v q w : P) : Int := if neg then -crossI v q w else crossI v q w

/-- a triangle with the point number `vi` -/
def mk3 (neg : Bool) (vi : Nat) (q w : Nd) (c : Bool) : Tri :=
  if neg then ⟨q.ix, vi, w.ix, q.fl, c, w.fl⟩ else ⟨vi, q.ix, w.ix, q.fl, w.fl, c⟩

/-- what `flush_triangle_` does for the point `v` and the points of a path: the triangles, and the points that are left -/
inductive Fl (neg : Bool) (v : P) (vi : Nat) (closed clo : Bool) : List Nd → List Tri → List Nd → Prop where
  | nil : Fl neg v vi closed clo [] [] []
  | keep (q : Nd) : closed = false → Fl neg v vi closed clo [q] [] [q]
  | last (q : Nd) : closed = true → Fl neg v vi closed clo [q] [] []
  | dup (q w : Nd) (L : List Nd) (T : List Tri) (R : List Nd) : w.pos = v → Fl neg v vi closed clo (offs L) T R →
    Fl neg v vi closed clo (q :: w :: L) T R
  | tri (q w : Nd) (L : List Nd) (T : List Tri) (R : List Nd) : 0 < cr neg v q.pos w.pos → w.pos ≠ v →
    Fl neg v vi closed clo (w.off :: L) T R →
    Fl neg v vi closed clo (q :: w :: L) (mk3 neg vi q w (L.isEmpty && clo) :: T) R
  | stop (q w : Nd) (L : List Nd) : w.pos ≠ v → cr neg v q.pos w.pos ≤ 0 → Fl neg v vi closed clo (q :: w :: L) [] (q :: w :: L)

/-- the last piece -/
def lastU (U : List (Nat × Nat)) : Nat × Nat := U.getLast?.getD (0, 0)

/-- the flush starts at a point with number `p` before the path -/
structure Go (s : St) (p : V) (y0 : Nat) (U : List (Nat × Nat)) (closed clo : Bool) : Prop where
  path : Path s U
  head : U.head?.map (·.1) = some y0
  nodup : (ues U).Nodup
  start : (p = src s y0 ∧ s.ring.prv y0 = (lastU U).2 ∧
      clo = (decide (posOf s (dst s (lastU U).2) = posOf s p) && full s (lastU U))) ∨
    ∃ x, p = dst s x ∧ Jn s x y0 ∧ x ∉ ues U ∧ clo = false ∧ closed = false
  vd : Vd s p
  fin : if closed then Vd s (dst s (lastU U).2) ∧ idxOf s (dst s (lastU U).2) = idxOf s p ∧ s.ring.nxt (lastU U).2 = y0
    else idxOf s (dst s (lastU U).2) = none

theorem Un.congr {s s' : St} {u : Nat × Nat} (h : Un s u) (h1 : s'.back = s.back) (h2 : s'.idx = s.idx)
    (hn : s'.ring.nxt u.1 = s.ring.nxt u.1) (hp : s'.ring.prv u.2 = s.ring.prv u.2)
    (hd1 : s'.dis u.1 = s.dis u.1) (hd2 : s'.dis u.2 = s.dis u.2) : Un s' u := by
  obtain ⟨a, b, c⟩ := h
  simp only [disOf, idxOf, src, dst] at a b c
  constructor <;> simp only [disOf, idxOf, src, dst, h1, h2, hn, hp, hd1, hd2]
  · exact a
  · exact b
  · exact c

theorem Vd.congr {s s' : St} {v : V} (h : Vd s v) (h2 : s'.idx = s.idx) (h3 : s'.pos = s.pos) (h4 : s'.points = s.points) :
    Vd s' v := by
  unfold Vd idxOf posOf at *
  rw [h2, h3, h4]; exact h

theorem Jn.congr {s s' : St} {x y : Nat} (h : Jn s x y) (h1 : s'.back = s.back) (h2 : s'.idx = s.idx) (h3 : s'.pos = s.pos)
    (h4 : s'.points = s.points) (hn : s'.ring.nxt x = s.ring.nxt x) (hp : s'.ring.prv y = s.ring.prv y) : Jn s' x y := by
  obtain ⟨a, b, c, d, e⟩ := h
  refine ⟨by rw [hn, a], by rw [hp, b], ?_, ?_, ?_⟩
  · simpa only [posOf, src, dst, h1, h3] using c
  · simpa only [idxOf, src, dst, h1, h2] using d
  · have := e.congr h2 h3 h4
    simpa only [dst, h1] using this

theorem path_head {s : St} {u : Nat × Nat} {U : List (Nat × Nat)} (h : Path s (u :: U)) : Un s u := by
  cases U with
  | nil => exact h
  | cons u' U => exact h.1

/-- a path is not changed by changes elsewhere -/
theorem path_congr {s s' : St} (h1 : s'.back = s.back) (h2 : s'.idx = s.idx) (h3 : s'.pos = s.pos) (h4 : s'.points = s.points) :
    ∀ {U : List (Nat × Nat)}, Path s U → (∀ u ∈ U, s'.dis u.1 = s.dis u.1 ∧ s'.dis u.2 = s.dis u.2 ∧
      s'.ring.nxt u.1 = s.ring.nxt u.1 ∧ s'.ring.prv u.2 = s.ring.prv u.2) →
      (∀ u ∈ U.dropLast, s'.ring.nxt u.2 = s.ring.nxt u.2) → (∀ u ∈ U.tail, s'.ring.prv u.1 = s.ring.prv u.1) → Path s' U
  | [], h, _, _, _ => h
  | [u], h, hd, _, _ => by
    obtain ⟨a, b, c, d⟩ := hd u (by simp)
    exact Un.congr h h1 h2 c d a b
  | u :: u' :: U, h, hd, hn, hp => by
    obtain ⟨g1, g2, g3⟩ := h
    obtain ⟨a, b, c, d⟩ := hd u (by simp)
    refine ⟨g1.congr h1 h2 c d a b, g2.congr h1 h2 h3 h4 (hn u (by simp)) (hp u' (by simp)),
      path_congr h1 h2 h3 h4 g3 (fun x hx => hd x (List.mem_cons_of_mem _ hx)) (fun x hx => hn x ?_) (fun x hx => hp x ?_)⟩
    · rw [List.dropLast_cons_cons]
      exact List.mem_cons_of_mem _ hx
    · exact List.mem_of_mem_tail hx

theorem mem_ues1 {u : Nat × Nat} {U : List (Nat × Nat)} (h : u ∈ U) : u.1 ∈ ues U := List.mem_flatMap.2 ⟨u, h, mem_ue1 u⟩
theorem mem_ues2 {u : Nat × Nat} {U : List (Nat × Nat)} (h : u ∈ U) : u.2 ∈ ues U := List.mem_flatMap.2 ⟨u, h, mem_ue2 u⟩

theorem lastU_cons (u u' : Nat × Nat) (U : List (Nat × Nat)) : lastU (u :: u' :: U) = lastU (u' :: U) := by
  unfold lastU; rw [List.getLast?_cons_cons]

theorem lastU_mem {u : Nat × Nat} {U : List (Nat × Nat)} : lastU (u :: U) ∈ u :: U := by
  unfold lastU
  rw [List.getLast?_eq_getLast_of_ne_nil (by simp)]
  simp only [Option.getD_some]
  exact List.getLast_mem _

theorem ues_cons (u : Nat × Nat) (U : List (Nat × Nat)) : ues (u :: U) = ue u ++ ues U := rfl

theorem ues_merge {u0 u1 : Nat × Nat} {U : List (Nat × Nat)} (nd : (ues (u0 :: u1 :: U)).Nodup) :
    (ues ((u0.1, u1.2) :: U)).Sublist (ues (u0 :: u1 :: U)) ∧ u0.1 ≠ u1.2 := by
  rw [ues_cons, ues_cons, ues_cons, ← List.append_assoc]
  have h2 : u0.1 ≠ u1.2 := by
    intro hc
    rw [ues_cons, ues_cons] at nd
    exact (List.nodup_append.1 nd).2.2 _ (mem_ue1 u0) _ (List.mem_append_left _ (mem_ue2 u1)) hc
  refine ⟨List.Sublist.append ?_ (List.Sublist.refl _), h2⟩
  have e1 : [u0.1].Sublist (ue u0) := List.singleton_sublist.2 (mem_ue1 u0)
  have e2 : [u1.2].Sublist (ue u1) := List.singleton_sublist.2 (mem_ue2 u1)
  have : ue (u0.1, u1.2) = [u0.1] ++ [u1.2] := by unfold ue; simp [h2]
  rw [this]
  exact List.Sublist.append e1 e2

/-- removal of the first point of a path -/
theorem pop_ok {s : St} {p : V} {y0 : Nat} {u0 u1 : Nat × Nat} {U : List (Nat × Nat)} {closed clo : Bool}
    (h : Go s p y0 (u0 :: u1 :: U) closed clo) :
    Path (remove2 s (dst s u0.2)) ((u0.1, u1.2) :: U) ∧ Fr s (remove2 s (dst s u0.2)) (ues (u0 :: u1 :: U)) ∧
    (remove2 s (dst s u0.2)).ring.prv u0.1 = s.ring.prv u0.1 ∧
    (remove2 s (dst s u0.2)).ring.nxt (lastU (u0 :: u1 :: U)).2 = s.ring.nxt (lastU (u0 :: u1 :: U)).2 ∧
    (remove2 s (dst s u0.2)).tris = s.tris := by
  obtain ⟨hu0, hj, hp⟩ := h.path
  have nd := h.nodup
  rw [ues_cons, ues_cons, ← List.append_assoc] at nd
  have nd' := List.nodup_append.1 nd
  obtain ⟨r1, r2, r3, r4, r5⟩ := remove2_ok hu0 hj (path_head hp) nd'.1
  obtain ⟨s', hs'⟩ : ∃ s', s' = remove2 s (dst s u0.2) := ⟨_, rfl⟩
  rw [← hs'] at r1 r2 r3 r4 r5 ⊢
  have out : ∀ e ∈ ues U, e ∉ ue u0 ++ ue u1 := fun e he hc => nd'.2.2 e hc e he rfl
  refine ⟨?_, r2.mono ?_, r3, ?_, r5⟩
  · cases U with
    | nil => exact r1
    | cons u2 U =>
      obtain ⟨-, hj1, hp2⟩ := hp
      refine ⟨r1, hj1.congr r2.back r2.idx r2.pos r2.points r4 (r2.prv _ (out _ (mem_ues1 (by simp)))), ?_⟩
      refine path_congr r2.back r2.idx r2.pos r2.points hp2 (fun u hu => ⟨?_, ?_, ?_, ?_⟩) (fun u hu => ?_) (fun u hu => ?_)
      · exact r2.dis _ (out _ (mem_ues1 hu))
      · exact r2.dis _ (out _ (mem_ues2 hu))
      · exact r2.nxt _ (out _ (mem_ues1 hu))
      · exact r2.prv _ (out _ (mem_ues2 hu))
      · exact r2.nxt _ (out _ (mem_ues2 (List.dropLast_subset _ hu)))
      · exact r2.prv _ (out _ (mem_ues1 (List.mem_of_mem_tail hu)))
  · rw [ues_cons, ues_cons, ← List.append_assoc]
    exact fun x hx => List.mem_append_left _ hx
  · cases U with
    | nil => exact r4
    | cons u2 U =>
      rw [lastU_cons, lastU_cons]
      exact r2.nxt _ (out _ (mem_ues2 lastU_mem))

theorem lastU_merge {u0 u1 : Nat × Nat} {U : List (Nat × Nat)} : (lastU ((u0.1, u1.2) :: U)).2 = (lastU (u0 :: u1 :: U)).2 := by
  cases U with
  | nil => rfl
  | cons u U => rw [lastU_cons, lastU_cons, lastU_cons]

/-- what is needed for the flush is kept -/
theorem Go.step {s s' : St} {p : V} {y0 : Nat} {u0 u1 : Nat × Nat} {U : List (Nat × Nat)} {closed clo clo' : Bool}
    (h : Go s p y0 (u0 :: u1 :: U) closed clo) (hp : Path s' ((u0.1, u1.2) :: U)) (hf : Fr s s' (ues (u0 :: u1 :: U)))
    (h1 : s'.ring.prv u0.1 = s.ring.prv u0.1)
    (h2 : s'.ring.nxt (lastU (u0 :: u1 :: U)).2 = s.ring.nxt (lastU (u0 :: u1 :: U)).2)
    (hc : (U ≠ [] ∧ clo' = clo) ∨ clo' = (clo && !U.isEmpty)) : Go s' p y0 ((u0.1, u1.2) :: U) closed clo' := by
  have hd := h.head
  simp at hd
  subst hd
  have hc' : clo' = (clo && !U.isEmpty) := by
    rcases hc with ⟨hne, rfl⟩ | h
    · cases U with
      | nil => exact absurd rfl hne
      | cons => simp
    · exact h
  have hm := ues_merge h.nodup
  refine ⟨hp, rfl, h.nodup.sublist hm.1, ?_, h.vd.congr hf.idx hf.pos hf.points, ?_⟩
  · rcases h.start with ⟨a, b, c⟩ | ⟨x, a, b, c, d, e⟩
    · left
      refine ⟨by rw [a]; unfold src; rw [hf.back], by rw [h1, b]; exact lastU_merge.symm, ?_⟩
      rw [hc', c, lastU_merge]
      unfold dst posOf
      rw [hf.back, hf.pos]
      cases U with
      | nil =>
        have : full s' (lastU [(u0.1, u1.2)]) = false := by
          unfold lastU full; simp [hm.2]
        rw [this]; simp
      | cons u2 U =>
        simp only [lastU_cons]
        unfold full
        rw [hf.inner]
        simp
    · right
      refine ⟨x, by rw [a]; unfold dst; rw [hf.back], ?_, fun hx => c (hm.1.subset hx), by rw [hc', d]; rfl, e⟩
      exact b.congr hf.back hf.idx hf.pos hf.points (hf.nxt _ c) h1
  · have := h.fin
    rw [lastU_merge]
    cases closed
    · simp only [Bool.false_eq_true, if_false] at this ⊢
      simpa only [idxOf, dst, hf.back, hf.idx] using this
    · simp only [if_true] at this ⊢
      refine ⟨?_, ?_, ?_⟩
      · have := this.1.congr hf.idx hf.pos hf.points
        simpa only [dst, hf.back] using this
      · simpa only [idxOf, dst, hf.back, hf.idx] using this.2.1
      · rw [h2]; exact this.2.2

end Hob3l.Tri
