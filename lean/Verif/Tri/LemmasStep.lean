import Verif.Tri.Model
import Mathlib.Tactic.SplitIfs
import Mathlib.Data.List.Chain

/-!
Paths of edges in the rings of the triangulation.  A unit `(y, x)` is a piece of a path from the source of edge `y` to the target of
edge `x`: either `y = x`, or all vertices between are disabled.
-/

namespace Hob3l.Tri

open Hob3l.Poly (P Vtx Err ass Ins cross3 vec2Cmp treeNext treePrev)

/-- the source of an edge -/
def src (s : St) (e : Nat) : V := (e, s.back e)
/-- the target of an edge -/
def dst (s : St) (e : Nat) : V := (e, !s.back e)

abbrev idxOf (s : St) (v : V) : Option Nat := s.idx v.1 v.2
abbrev posOf (s : St) (v : V) : P := s.pos v.1 v.2
abbrev disOf (s : St) (v : V) : Bool := s.dis v.1 v.2

/-- the vertex has an index, at which its point is found -/
def Vd (s : St) (v : V) : Prop := ∃ i, idxOf s v = some i ∧ s.points[i]? = some (posOf s v)

/-- a piece of a path -/
structure Un (s : St) (u : Nat × Nat) : Prop where
  enS : disOf s (src s u.1) = false
  enD : disOf s (dst s u.2) = false
  link : u.1 ≠ u.2 → s.ring.nxt u.1 = u.2 ∧ s.ring.prv u.2 = u.1 ∧ disOf s (dst s u.1) = true ∧ disOf s (src s u.2) = true ∧
    idxOf s (dst s u.1) ≠ none ∧ idxOf s (src s u.2) ≠ none

/-- the target of `x` is the source of the next edge `y` -/
structure Jn (s : St) (x y : Nat) : Prop where
  nxt : s.ring.nxt x = y
  prv : s.ring.prv y = x
  pos : posOf s (dst s x) = posOf s (src s y)
  idx : idxOf s (dst s x) = idxOf s (src s y)
  vd : Vd s (dst s x)

/-- a path of pieces -/
def Path (s : St) : List (Nat × Nat) → Prop
  | [] => False
  | [u] => Un s u
  | u :: u' :: U => Un s u ∧ Jn s u.2 u'.1 ∧ Path s (u' :: U)

/-- the edges of a piece -/
def ue (u : Nat × Nat) : List Nat := if u.1 = u.2 then [u.1] else [u.1, u.2]
/-- the edges of a path -/
def ues (U : List (Nat × Nat)) : List Nat := U.flatMap ue

theorem mem_ue1 (u : Nat × Nat) : u.1 ∈ ue u := by unfold ue; split_ifs <;> simp
theorem mem_ue2 (u : Nat × Nat) : u.2 ∈ ue u := by unfold ue; split_ifs with h <;> simp [h]
theorem ue_cases {u : Nat × Nat} {e : Nat} (h : e ∈ ue u) : e = u.1 ∨ e = u.2 := by
  unfold ue at h; split_ifs at h <;> simp at h <;> tauto

theorem ass_ok {c : Prop} [Decidable c] (e : Err) (h : c) : ass c e = .ok () := by unfold ass; rw [if_pos h]
theorem bind_okE {α β : Type} (a : α) (f : α → Except Err β) : (Except.ok a >>= f) = f a := rfl

/-! ### steps -/

theorem stepRaw_src (s : St) (e : Nat) : stepRaw s (src s e) false = dst s e := by
  unfold stepRaw src dst; simp

theorem stepRaw_dst (s : St) (e : Nat) : stepRaw s (dst s e) false = src s (s.ring.nxt e) := by
  unfold stepRaw src dst edgeStep; simp

theorem step_src {s : St} {u : Nat × Nat} (h : Un s u) (hi : idxOf s (src s u.1) ≠ none) :
    step s (src s u.1) false = .ok (dst s u.2) := by
  unfold step
  rw [ass_ok _ hi, bind_okE]
  by_cases hc : u.1 = u.2
  · unfold stepLoop
    rw [stepRaw_src, hc]
    have := h.enD
    unfold disOf at this
    simp only [this]
    split_ifs <;> rfl
  · obtain ⟨h1, h2, h3, h4, h5, h6⟩ := h.link hc
    have e1 := h.enS
    have e2 := h.enD
    unfold disOf at *
    unfold idxOf at *
    unfold stepLoop
    simp only [stepRaw_src]
    rw [if_neg h5, if_neg (by rw [h3]; simp), ass_ok _ (by unfold dst; simpa [src] using e1), bind_okE]
    unfold stepLoop
    simp only [stepRaw_dst, h1]
    rw [if_neg h6, if_neg (by rw [h4]; simp), ass_ok _ (by unfold src; simpa [dst] using e2), bind_okE]
    unfold stepLoop
    simp only [stepRaw_src, e2]
    split_ifs <;> rfl

theorem step_dst {s : St} {x y : Nat} (hn : s.ring.nxt x = y) (hd : disOf s (src s y) = false)
    (hi : idxOf s (dst s x) ≠ none) : step s (dst s x) false = .ok (src s y) := by
  unfold step
  rw [ass_ok _ hi, bind_okE]
  unfold stepLoop
  simp only [stepRaw_dst, hn]
  unfold disOf at hd
  simp only [hd]
  split_ifs <;> rfl

theorem Vd.ne {s : St} {v : V} (h : Vd s v) : idxOf s v ≠ none := by
  obtain ⟨i, hi, -⟩ := h; rw [hi]; simp

theorem src_ne_dst {s : St} {a b : Nat} (h : a ≠ b) : src s a ≠ dst s b := by
  intro hc; exact h (congrArg Prod.fst hc)

theorem src_ne_dst' {s : St} {a b : Nat} : src s a ≠ dst s b := by
  intro hc
  unfold src dst at hc
  rw [Prod.mk.injEq] at hc
  obtain ⟨rfl, h⟩ := hc
  cases h2 : s.back a <;> simp [h2] at h

theorem dst_inj {s : St} {a b : Nat} (h : dst s a = dst s b) : a = b := congrArg Prod.fst h
theorem src_inj {s : St} {a b : Nat} (h : src s a = src s b) : a = b := congrArg Prod.fst h

/-- one step to another point -/
theorem stepNeq_src {s : St} {u : Nat × Nat} (h : Un s u) (hi : idxOf s (src s u.1) ≠ none)
    (hne : idxOf s (dst s u.2) ≠ idxOf s (src s u.1)) : stepNeq s (src s u.1) false = .ok (some (dst s u.2)) := by
  unfold stepNeq stepNeqLoop
  rw [step_src h hi, bind_okE]
  simp only
  rw [if_neg src_ne_dst', if_pos hne]

/-- two steps to another point -/
theorem stepNeq_dst {s : St} {x : Nat} {u : Nat × Nat} (hj : Jn s x u.1) (h : Un s u) (hxu : u.2 ≠ x)
    (hne : idxOf s (dst s u.2) ≠ idxOf s (dst s x)) : stepNeq s (dst s x) false = .ok (some (dst s u.2)) := by
  unfold stepNeq stepNeqLoop
  rw [step_dst hj.nxt h.enS hj.vd.ne, bind_okE]
  simp only
  have h1 : s.idx (src s u.1).1 (src s u.1).2 = s.idx (dst s x).1 (dst s x).2 := hj.idx.symm
  rw [if_neg (Ne.symm src_ne_dst'), if_neg (by rw [h1]; simp)]
  unfold stepNeqLoop
  rw [step_src h (by rw [← hj.idx]; exact hj.vd.ne), bind_okE]
  simp only
  rw [if_neg (fun hc => hxu (dst_inj hc).symm), if_pos (fun hc => hne (hc.trans hj.idx.symm))]

/-- around a closed path without other points -/
theorem stepNeq_closed {s : St} {u : Nat × Nat} (h : Un s u) (hi : idxOf s (src s u.1) ≠ none)
    (he : idxOf s (dst s u.2) = idxOf s (src s u.1)) (hn : s.ring.nxt u.2 = u.1) : stepNeq s (src s u.1) false = .ok none := by
  unfold stepNeq stepNeqLoop
  rw [step_src h hi, bind_okE]
  simp only
  have h1 : s.idx (dst s u.2).1 (dst s u.2).2 = s.idx (src s u.1).1 (src s u.1).2 := he
  rw [if_neg src_ne_dst', if_neg (by rw [h1]; simp)]
  unfold stepNeqLoop
  rw [step_dst hn h.enS (by rw [he]; exact hi), bind_okE]
  simp

/-! ### buddies -/

theorem buddy_dst (s : St) (e : Nat) : buddy s (dst s e) = src s (s.ring.nxt e) := by
  unfold buddy dst src edgeStep; simp

theorem buddy_src (s : St) (e : Nat) : buddy s (src s e) = dst s (s.ring.prv e) := by
  unfold buddy dst src edgeStep; simp

theorem eqBuddy_dst {s : St} {x y : Nat} (h : Jn s x y) : eqBuddy s (dst s x) = some (src s y) := by
  unfold eqBuddy
  simp only [buddy_dst, h.nxt]
  rw [if_neg]
  have := h.pos
  unfold posOf at this
  simpa using this

theorem eqBuddy_src {s : St} {x y : Nat} (h : Jn s x y) : eqBuddy s (src s y) = some (dst s x) := by
  unfold eqBuddy
  simp only [buddy_src, h.prv]
  rw [if_neg]
  have := h.pos
  unfold posOf at this
  simpa using this.symm

/-- the edges at a vertex -/
def eb (s : St) (v : V) : List Nat := v.1 :: ((eqBuddy s v).map (·.1)).toList

theorem isOutline_eq {s : St} {p q : V} {e : Nat} (h : ∀ x ∈ eb s p, x ∈ eb s q → x = e) :
    isOutline s p q = (decide (e ∈ eb s p ∧ e ∈ eb s q) && !s.inner e) := by
  unfold isOutline eb at *
  rcases hp : eqBuddy s p with _ | pw <;> rcases hq : eqBuddy s q with _ | qw <;> rw [hp, hq] at h <;> simp at h ⊢ <;>
    repeat' split
  all_goals grind

end Hob3l.Tri
