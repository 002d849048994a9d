import Verif.Tri.LemmasFlush3

/-!
Reversal of the direction of all paths.
-/

namespace Hob3l.Tri

open Hob3l.Poly (P Vtx Err ass Ins cross3 vec2Cmp treeNext treePrev Small crossI cross3_eq)

/-- all paths in the other direction -/
def mir (s : St) : St := { s with ring := ⟨s.ring.prv, s.ring.nxt⟩, back := fun e => !s.back e }

theorem mir_mir (s : St) : mir (mir s) = s := by
  unfold mir; simp

theorem src_mir (s : St) (e : Nat) : src (mir s) e = dst s e := rfl
theorem dst_mir (s : St) (e : Nat) : dst (mir s) e = src s e := by unfold dst src mir; simp

theorem edgeStep_mir (s : St) (e : Nat) (dir : Bool) : edgeStep (mir s) e dir = edgeStep s e (!dir) := by
  unfold edgeStep mir; cases dir <;> simp

theorem stepRaw_mir (s : St) (v : V) (dir : Bool) : stepRaw (mir s) v dir = stepRaw s v (!dir) := by
  unfold stepRaw
  simp only [edgeStep_mir]
  have h : ∀ e, (mir s).back e = !s.back e := fun _ => rfl
  simp only [h]
  cases dir <;> cases v.2 <;> cases s.back v.1 <;> simp

theorem buddy_mir (s : St) (v : V) : buddy (mir s) v = buddy s v := by
  unfold buddy
  simp only [edgeStep_mir]
  have h : ∀ e, (mir s).back e = !s.back e := fun _ => rfl
  simp only [h]
  cases v.2 <;> cases s.back v.1 <;> simp

theorem eqBuddy_mir (s : St) (v : V) : eqBuddy (mir s) v = eqBuddy s v := by
  unfold eqBuddy
  simp only [buddy_mir]
  rfl

theorem isOutline_mir (s : St) (p q : V) : isOutline (mir s) p q = isOutline s p q := by
  unfold isOutline
  simp only [eqBuddy_mir]
  rfl

theorem mkTri_mir (s : St) (neg : Bool) (p q w : V) : mkTri (mir s) neg p q w = mkTri s neg p q w := by
  unfold mkTri
  simp only [isOutline_mir]
  rfl

theorem stepLoop_mir (s : St) (dir : Bool) : ∀ (k : Nat) (v : V), stepLoop (mir s) dir k v = stepLoop s (!dir) k v
  | 0, _ => rfl
  | k + 1, v => by
    unfold stepLoop
    simp only [stepRaw_mir, stepLoop_mir s dir k]
    rfl

theorem step_mir (s : St) (v : V) (dir : Bool) : step (mir s) v dir = step s v (!dir) := by
  unfold step
  simp only [stepLoop_mir]
  rfl

theorem stepNeqLoop_mir (s : St) (dir : Bool) (o : V) : ∀ (k : Nat) (v : V),
    stepNeqLoop (mir s) dir o k v = stepNeqLoop s (!dir) o k v
  | 0, _ => rfl
  | k + 1, v => by
    unfold stepNeqLoop
    simp only [step_mir, stepNeqLoop_mir s dir o k]
    rfl

theorem stepNeq_mir (s : St) (v : V) (dir : Bool) : stepNeq (mir s) v dir = stepNeq s v (!dir) := by
  unfold stepNeq; rw [stepNeqLoop_mir]

theorem ring_ext {r r' : Ring.St} (h1 : ∀ e, r.nxt e = r'.nxt e) (h2 : ∀ e, r.prv e = r'.prv e) : r = r' := by
  cases r; cases r'
  simp only [Ring.St.mk.injEq]
  exact ⟨funext h1, funext h2⟩

theorem remove_mir (s : St) (v : V) : remove (mir s) v = mir (remove s v) := by
  unfold remove
  simp only
  have h : (mir s).dis = s.dis := rfl
  rw [h]
  split_ifs
  · unfold mir
    simp only [St.mk.injEq, true_and, and_true]
    refine ring_ext (fun e => ?_) (fun e => ?_)
    · rw [ring_remove_nxt]; simp only [ring_remove_prv]
    · rw [ring_remove_prv]; simp only [ring_remove_nxt]
  · rfl

theorem remove2_mir (s : St) (v : V) : remove2 (mir s) v = mir (remove2 s v) := by
  unfold remove2
  rw [eqBuddy_mir]
  rcases eqBuddy s v with _ | w
  · exact remove_mir s v
  · simp only [remove_mir]

theorem flushLoop_mir (neg dir : Bool) (p : V) : ∀ (k : Nat) (s : St) (q : V),
    flushLoop neg dir p k (mir s) q = (flushLoop neg (!dir) p k s q).map mir
  | 0, _, _ => rfl
  | k + 1, s, q => by
    unfold flushLoop
    simp only [stepNeq_mir, remove2_mir, step_mir, mkTri_mir]
    rcases stepNeq s q (!dir) with e | w
    · rfl
    rcases w with _ | w
    · rfl
    simp only [bind_okE]
    have e1 : (mir s).idx = s.idx := rfl
    have e2 : (mir s).pos = s.pos := rfl
    rw [e1, e2]
    by_cases h1 : s.idx w.1 w.2 = none
    · rw [if_pos h1, if_pos h1]; rfl
    rw [if_neg h1, if_neg h1]
    rcases cross3 (s.pos p.1 p.2) (s.pos q.1 q.2) (s.pos w.1 w.2) with _ | i
    · rfl
    simp only
    obtain ⟨c, hc⟩ : ∃ c, c = (if neg then -i else i) := ⟨_, rfl⟩
    rw [← hc]
    by_cases hlt : c < 0
    · rw [if_pos hlt, if_pos hlt]; rfl
    rw [if_neg hlt, if_neg hlt]
    by_cases a1 : s.idx p.1 p.2 ≠ s.idx q.1 q.2
    swap
    · unfold ass; rw [if_neg a1]; rfl
    rw [ass_ok _ a1, bind_okE, bind_okE]
    by_cases a2 : s.idx w.1 w.2 ≠ s.idx q.1 q.2
    swap
    · unfold ass; rw [if_neg a2]; rfl
    rw [ass_ok _ a2, bind_okE, bind_okE]
    by_cases h0 : c = 0
    · rw [if_pos h0, if_pos h0]
      by_cases h2 : s.idx p.1 p.2 = s.idx w.1 w.2
      swap
      · rw [if_neg h2, if_neg h2]; rfl
      rw [if_pos h2, if_pos h2]
      rcases step (remove2 s q) w (!dir) with e | q2
      · rfl
      simp only [bind_okE]
      by_cases h3 : q2 = p
      · rw [if_pos h3, if_pos h3]; rfl
      rw [if_neg h3, if_neg h3]
      rcases stepNeq (remove2 (remove2 s q) w) p (!dir) with e | q3
      · rfl
      rcases q3 with _ | q3
      · rfl
      simp only [bind_okE]
      have e3 : (mir (remove2 (remove2 s q) w)).idx = (remove2 (remove2 s q) w).idx := rfl
      rw [e3]
      by_cases h4 : (remove2 (remove2 s q) w).idx q3.1 q3.2 = none
      · rw [if_pos h4, if_pos h4]; rfl
      rw [if_neg h4, if_neg h4]
      exact flushLoop_mir neg dir p k _ _
    · rw [if_neg h0, if_neg h0]
      by_cases a3 : s.idx p.1 p.2 ≠ s.idx w.1 w.2
      swap
      · unfold ass; rw [if_neg a3]; rfl
      rw [ass_ok _ a3, bind_okE, bind_okE, ← flushLoop_mir neg dir p k, ← remove2_mir]
      rfl

theorem flushG_mir (neg dir : Bool) (fuel : Nat) (s : St) (p : V) :
    flushG neg dir fuel (mir s) p = (flushG neg (!dir) fuel s p).map mir := by
  unfold flushG
  rw [stepNeq_mir]
  rcases stepNeq s p (!dir) with e | q
  · rfl
  rcases q with _ | q
  · rfl
  simp only [bind_okE]
  have e1 : (mir s).idx = s.idx := rfl
  rw [e1]
  split_ifs
  · rfl
  · exact flushLoop_mir neg dir p fuel s q

/-- a path in the other direction -/
def revU (U : List (Nat × Nat)) : List (Nat × Nat) := (U.map Prod.swap).reverse

theorem revU_revU (U : List (Nat × Nat)) : revU (revU U) = U := by
  unfold revU
  rw [List.map_reverse, List.reverse_reverse, List.map_map]
  simp

theorem revU_cons (u : Nat × Nat) (U : List (Nat × Nat)) : revU (u :: U) = revU U ++ [u.swap] := by
  unfold revU; simp

theorem revU_append (U V : List (Nat × Nat)) : revU (U ++ V) = revU V ++ revU U := by
  unfold revU; simp

theorem un_mir {s : St} {u : Nat × Nat} (h : Un s u) : Un (mir s) u.swap := by
  refine ⟨?_, ?_, ?_⟩
  · show disOf s (src (mir s) u.2) = false
    rw [src_mir]; exact h.enD
  · show disOf s (dst (mir s) u.1) = false
    rw [dst_mir]; exact h.enS
  · intro hne
    obtain ⟨a, b, c, d, e, f⟩ := h.link (Ne.symm hne)
    refine ⟨b, a, ?_, ?_, ?_, ?_⟩
    · show disOf s (dst (mir s) u.2) = true
      rw [dst_mir]; exact d
    · show disOf s (src (mir s) u.1) = true
      rw [src_mir]; exact c
    · show idxOf s (dst (mir s) u.2) ≠ none
      rw [dst_mir]; exact f
    · show idxOf s (src (mir s) u.1) ≠ none
      rw [src_mir]; exact e

theorem Jn.vd_src {s : St} {x y : Nat} (h : Jn s x y) : Vd s (src s y) := by
  unfold Vd; rw [← h.idx, ← h.pos]; exact h.vd

theorem jn_mir {s : St} {x y : Nat} (h : Jn s x y) : Jn (mir s) y x := by
  refine ⟨h.prv, h.nxt, ?_, ?_, ?_⟩
  · show posOf s (dst (mir s) y) = posOf s (src (mir s) x)
    rw [dst_mir, src_mir]; exact h.pos.symm
  · show idxOf s (dst (mir s) y) = idxOf s (src (mir s) x)
    rw [dst_mir, src_mir]; exact h.idx.symm
  · rw [dst_mir]; exact h.vd_src

theorem path_append {s : St} : ∀ {U : List (Nat × Nat)} {V : List (Nat × Nat)}, U ≠ [] → V ≠ [] →
    (Path s (U ++ V) ↔ Path s U ∧ Jn s (lastU U).2 (V.head?.getD (0, 0)).1 ∧ Path s V)
  | [], _, h, _ => absurd rfl h
  | [u], [], _, h => absurd rfl h
  | [u], v :: V, _, _ => by
    show (Un s u ∧ Jn s u.2 v.1 ∧ Path s (v :: V)) ↔ _
    rfl
  | u :: u' :: U, V, _, hV => by
    have ih := path_append (s := s) (U := u' :: U) (V := V) (by simp) hV
    show (Un s u ∧ Jn s u.2 u'.1 ∧ Path s (u' :: U ++ V)) ↔ (Un s u ∧ Jn s u.2 u'.1 ∧ Path s (u' :: U)) ∧ _
    rw [ih, lastU_cons]
    tauto

theorem path_mir {s : St} : ∀ {U : List (Nat × Nat)}, Path s U → Path (mir s) (revU U)
  | [], h => h.elim
  | [u], h => un_mir h
  | u :: u' :: U, h => by
    obtain ⟨h1, h2, h3⟩ := h
    have ih := path_mir h3
    rw [revU_cons, path_append (by unfold revU; simp) (by simp)]
    refine ⟨ih, ?_, un_mir h1⟩
    rw [revU_cons]
    unfold lastU
    simp only [List.getLast?_append, List.getLast?_singleton, Option.some_or, Option.getD_some, List.head?_cons]
    exact jn_mir h2

theorem mem_revU {u : Nat × Nat} {U : List (Nat × Nat)} : u ∈ revU U ↔ u.swap ∈ U := by
  unfold revU
  rw [List.mem_reverse, List.mem_map]
  constructor
  · rintro ⟨a, ha, rfl⟩; simpa using ha
  · intro h; exact ⟨_, h, by simp⟩

theorem ue_swap (u : Nat × Nat) : (ue u.swap) = (ue u).reverse := by
  unfold ue
  by_cases h : u.1 = u.2
  · simp [h]
  · simp [h, Ne.symm h]

theorem ues_append (U V : List (Nat × Nat)) : ues (U ++ V) = ues U ++ ues V := List.flatMap_append

theorem ues_revU : ∀ (U : List (Nat × Nat)), ues (revU U) = (ues U).reverse
  | [] => rfl
  | u :: U => by
    rw [revU_cons, ues_append, ues_revU U]
    show _ ++ (ue u.swap ++ []) = (ue u ++ ues U).reverse
    rw [List.append_nil, ue_swap, List.reverse_append]

theorem lastU_revU {u : Nat × Nat} {U : List (Nat × Nat)} : lastU (revU (u :: U)) = u.swap := by
  rw [revU_cons]; unfold lastU; simp

theorem head_revU {U : List (Nat × Nat)} (h : U ≠ []) : (revU U).head?.map (·.1) = some (lastU U).2 := by
  unfold revU lastU
  rw [List.head?_reverse, List.getLast?_map, List.getLast?_eq_getLast_of_ne_nil h]
  simp

theorem path_ne {s : St} {U : List (Nat × Nat)} (h : Path s U) : U ≠ [] := by rintro rfl; exact h

theorem head_getD {U : List (Nat × Nat)} {y : Nat} (h : U.head?.map (·.1) = some y) : (U.head?.getD (0, 0)).1 = y := by
  cases U with
  | nil => simp at h
  | cons u U => simpa using h

/-- positions and numbers of the points -/
def Nd.pi (n : Nd) : P × Nat := (n.pos, n.ix)

/-- the points of a path in the other direction -/
theorem nodes_mir {s : St} : ∀ {U : List (Nat × Nat)}, Path s U →
    (nodes (mir s) (revU U)).map Nd.pi = ((nodes s U).map Nd.pi).reverse
  | [], h => h.elim
  | [u], h => rfl
  | u :: u' :: U, h => by
    obtain ⟨h1, h2, h3⟩ := h
    have ih := nodes_mir h3
    rw [nodes_cons, List.map_cons, List.reverse_cons, ← ih, revU_cons]
    unfold nodes
    rw [List.dropLast_append_of_ne_nil (by simp)]
    simp only [List.dropLast_singleton, List.append_nil]
    rw [revU_cons, List.dropLast_append_of_ne_nil (by simp)]
    simp only [List.dropLast_singleton, List.append_nil, List.map_append, List.map_cons, List.map_nil]
    congr 2
    show ((posOf s (dst (mir s) u'.1)), ix s (dst (mir s) u'.1)) = (posOf s (dst s u.2), ix s (dst s u.2))
    rw [dst_mir, h2.pos]
    unfold ix
    rw [show s.idx (dst s u.2).1 (dst s u.2).2 = s.idx (src s u'.1).1 (src s u'.1).2 from h2.idx]

end Hob3l.Tri
