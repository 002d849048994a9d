import Verif.Tri.LemmasSum

/-!
Paths that are between two edges on the sweep line.
-/

namespace Hob3l.Tri

open Hob3l.Poly (P Vtx Err ass Ins cross3 vec2Cmp treeNext treePrev Small crossI cross3_eq Lt)

/-- the path `U` is not changed from `s` to `s'` -/
structure Loc (s s' : St) (U : List (Nat × Nat)) : Prop where
  back : ∀ e ∈ ues U, s'.back e = s.back e
  pos : ∀ e ∈ ues U, s'.pos e = s.pos e
  dis : ∀ e ∈ ues U, s'.dis e = s.dis e
  inner : ∀ e ∈ ues U, s'.inner e = s.inner e
  idx : ∀ e ∈ ues U, ∀ b, s.idx e b ≠ none → s'.idx e b = s.idx e b
  nxt : ∀ e ∈ ues U, e ≠ (lastU U).2 → s'.ring.nxt e = s.ring.nxt e
  prv : ∀ e ∈ ues U, e ≠ (hdU U).1 → s'.ring.prv e = s.ring.prv e
  points : ∃ X, s'.points = s.points ++ X

theorem Vd.loc {s s' : St} {v : V} (h : Vd s v) (h1 : s'.pos v.1 = s.pos v.1)
    (h2 : ∀ b, s.idx v.1 b ≠ none → s'.idx v.1 b = s.idx v.1 b) (h3 : ∃ X, s'.points = s.points ++ X) : Vd s' v := by
  obtain ⟨i, hi, hp⟩ := h
  obtain ⟨X, hX⟩ := h3
  refine ⟨i, ?_, ?_⟩
  · show s'.idx v.1 v.2 = some i
    rw [h2 v.2 (by show idxOf s v ≠ none; rw [hi]; simp)]; exact hi
  · rw [hX, List.getElem?_append_left (List.getElem?_eq_some_iff.1 hp).1, hp]
    show some (s.pos v.1 v.2) = some (s'.pos v.1 v.2)
    rw [h1]

theorem hdU_cons (u : Nat × Nat) (U : List (Nat × Nat)) : hdU (u :: U) = u := rfl

theorem Loc.tail {s s' : St} {u u' : Nat × Nat} {U : List (Nat × Nat)} (h : Loc s s' (u :: u' :: U)) (nd : (ues (u :: u' :: U)).Nodup) :
    Loc s s' (u' :: U) := by
  have hm : ∀ e ∈ ues (u' :: U), e ∈ ues (u :: u' :: U) := fun e he => by rw [ues_cons]; exact List.mem_append_right _ he
  refine ⟨fun e he => h.back e (hm e he), fun e he => h.pos e (hm e he), fun e he => h.dis e (hm e he),
    fun e he => h.inner e (hm e he), fun e he => h.idx e (hm e he), fun e he hne => h.nxt e (hm e he) (by rw [lastU_cons]; exact hne),
    fun e he _ => h.prv e (hm e he) ?_, h.points⟩
  rw [hdU_cons]
  rintro rfl
  obtain ⟨w, hw, hx⟩ := List.mem_flatMap.1 he
  exact not_mem_tail nd (mem_ue1 u) w hw hx

theorem Un.loc {s s' : St} {u : Nat × Nat} {U : List (Nat × Nat)} (h : Un s u) (hl : Loc s s' (u :: U)) (nd : (ues (u :: U)).Nodup) :
    Un s' u := by
  have m1 : u.1 ∈ ues (u :: U) := mem_ues1 (by simp)
  have m2 : u.2 ∈ ues (u :: U) := mem_ues2 (by simp)
  have b1 := hl.back _ m1
  have b2 := hl.back _ m2
  have d1 := hl.dis _ m1
  have d2 := hl.dis _ m2
  have s1 : ∀ {x}, x = u.1 ∨ x = u.2 → src s' x = src s x ∧ dst s' x = dst s x := by
    rintro x (rfl | rfl)
    · unfold src dst; rw [b1]; exact ⟨rfl, rfl⟩
    · unfold src dst; rw [b2]; exact ⟨rfl, rfl⟩
  refine ⟨?_, ?_, ?_⟩
  · rw [(s1 (.inl rfl)).1]
    show s'.dis u.1 _ = _
    rw [d1]; exact h.enS
  · rw [(s1 (.inr rfl)).2]
    show s'.dis u.2 _ = _
    rw [d2]; exact h.enD
  · intro hne
    obtain ⟨a1, a2, a3, a4, a5, a6⟩ := h.link hne
    have hlast : u.1 ≠ (lastU (u :: U)).2 := by
      cases U with
      | nil => exact hne
      | cons u' U =>
        rw [lastU_cons]
        intro hc
        exact not_mem_tail nd (mem_ue1 u) _ lastU_mem (hc ▸ mem_ue2 _)
    refine ⟨by rw [hl.nxt _ m1 hlast]; exact a1, by rw [hl.prv _ m2 (by rw [hdU_cons]; exact hne.symm)]; exact a2, ?_, ?_, ?_, ?_⟩
    · rw [(s1 (.inl rfl)).2]; show s'.dis u.1 _ = _; rw [d1]; exact a3
    · rw [(s1 (.inr rfl)).1]; show s'.dis u.2 _ = _; rw [d2]; exact a4
    · rw [(s1 (.inl rfl)).2]; show s'.idx u.1 _ ≠ _; rw [hl.idx _ m1 _ a5]; exact a5
    · rw [(s1 (.inr rfl)).1]; show s'.idx u.2 _ ≠ _; rw [hl.idx _ m2 _ a6]; exact a6

theorem Jn.loc {s s' : St} {x y : Nat} (h : Jn s x y) (b1 : s'.back x = s.back x) (b2 : s'.back y = s.back y)
    (p1 : s'.pos x = s.pos x) (p2 : s'.pos y = s.pos y) (i1 : ∀ b, s.idx x b ≠ none → s'.idx x b = s.idx x b)
    (i2 : ∀ b, s.idx y b ≠ none → s'.idx y b = s.idx y b) (n : s'.ring.nxt x = s.ring.nxt x) (p : s'.ring.prv y = s.ring.prv y)
    (hp : ∃ X, s'.points = s.points ++ X) : Jn s' x y := by
  have e1 : dst s' x = dst s x := by unfold dst; rw [b1]
  have e2 : src s' y = src s y := by unfold src; rw [b2]
  have hv := h.vd
  have hv2 := h.vd_src
  refine ⟨n.trans h.nxt, p.trans h.prv, ?_, ?_, ?_⟩
  · rw [e1, e2]; show s'.pos x _ = s'.pos y _; rw [p1, p2]; exact h.pos
  · rw [e1, e2]; show s'.idx x _ = s'.idx y _; rw [i1 _ hv.ne, i2 _ hv2.ne]; exact h.idx
  · rw [e1]; exact hv.loc p1 i1 hp

theorem path_loc {s s' : St} : ∀ {U : List (Nat × Nat)}, Path s U → (ues U).Nodup → Loc s s' U → Path s' U
  | [], h, _, _ => h
  | [u], h, nd, hl => Un.loc h hl nd
  | u :: u' :: U, h, nd, hl => by
    obtain ⟨h1, h2, h3⟩ := h
    have nd' : (ues (u' :: U)).Nodup := by rw [ues_cons] at nd; exact (List.nodup_append.1 nd).2.1
    have m1 : u.2 ∈ ues (u :: u' :: U) := mem_ues2 (by simp)
    have m2 : u'.1 ∈ ues (u :: u' :: U) := mem_ues1 (by simp)
    refine ⟨h1.loc hl nd, h2.loc (hl.back _ m1) (hl.back _ m2) (hl.pos _ m1) (hl.pos _ m2) (hl.idx _ m1) (hl.idx _ m2)
      (hl.nxt _ m1 ?_) (hl.prv _ m2 ?_) hl.points, path_loc h3 nd' (hl.tail nd)⟩
    · rw [lastU_cons]
      intro hc
      exact not_mem_tail nd (mem_ue2 u) _ lastU_mem (hc ▸ mem_ue2 _)
    · rw [hdU_cons]
      intro hc
      exact not_mem_tail nd (mem_ue1 u) u' (by simp) (hc ▸ mem_ue1 u')

theorem node_loc {s s' : St} {u : Nat × Nat} {U : List (Nat × Nat)} (hu : u ∈ U) (hl : Loc s s' U)
    (hi : idxOf s (dst s u.2) ≠ none) : node s' u = node s u := by
  have m1 : u.1 ∈ ues U := mem_ues1 hu
  have m2 : u.2 ∈ ues U := mem_ues2 hu
  have e : dst s' u.2 = dst s u.2 := by unfold dst; rw [hl.back _ m2]
  have h1 : posOf s' (dst s u.2) = posOf s (dst s u.2) := by unfold posOf; rw [show s'.pos (dst s u.2).1 = _ from hl.pos _ m2]
  have h2 : ix s' (dst s u.2) = ix s (dst s u.2) := by
    unfold ix
    rw [show s'.idx (dst s u.2).1 (dst s u.2).2 = s.idx (dst s u.2).1 (dst s u.2).2 from hl.idx _ m2 _ hi]
  have h3 : full s' u = full s u := by unfold full; rw [hl.inner _ m1]
  unfold node
  rw [e, h1, h2, h3]

theorem path_vd {s : St} : ∀ {U : List (Nat × Nat)}, Path s U → ∀ u ∈ U.dropLast, Vd s (dst s u.2)
  | [], h, _, _ => h.elim
  | [_], _, u, hu => by simp at hu
  | u :: u' :: U, h, w, hw => by
    rw [List.dropLast_cons_cons] at hw
    rcases List.mem_cons.1 hw with rfl | hw
    · exact h.2.1.vd
    · exact path_vd h.2.2 w hw

theorem nodes_loc {s s' : St} {U : List (Nat × Nat)} (h : Path s U) (hl : Loc s s' U) : nodes s' U = nodes s U := by
  unfold nodes
  apply List.map_congr_left
  intro u hu
  exact node_loc (List.dropLast_subset _ hu) hl (path_vd h u hu).ne

theorem path_num {s : St} {U : List (Nat × Nat)} (h : Path s U) : ∀ n ∈ nodes s U, Num s.points n.pi := by
  intro n hn
  obtain ⟨u, hu, rfl⟩ := List.mem_map.1 hn
  obtain ⟨i, h1, h2⟩ := path_vd h u hu
  have : ix s (dst s u.2) = i := by unfold ix; rw [show s.idx (dst s u.2).1 (dst s u.2).2 = some i from h1]; rfl
  show s.points[ix s (dst s u.2)]? = some (posOf s (dst s u.2))
  rw [this]; exact h2

/-- a path between two edges on the sweep line: the part up to the rightmost point, and the other part -/
structure Arm where
  lo : List (Nat × Nat)
  hi : List (Nat × Nat)

def Arm.U (a : Arm) : List (Nat × Nat) := a.lo ++ a.hi
/-- the lower edge -/
def Arm.b (a : Arm) : Nat := (hdU a.lo).1
/-- the upper edge -/
def Arm.t (a : Arm) : Nat := (lastU a.hi).2

/-- the links -/
structure AI (s : St) (a : Arm) : Prop where
  ne1 : a.lo ≠ []
  ne2 : a.hi ≠ []
  path : Path s a.U
  nodup : (ues a.U).Nodup
  nxt : s.ring.nxt a.t = a.b
  prv : s.ring.prv a.b = a.t
  rm : s.rm a.b = dst s (lastU a.lo).2
  bb : s.back a.b = true
  bt : s.back a.t = false
  hb : (hdU a.lo).2 = a.b
  ht : (lastU a.hi).1 = a.t

theorem hdU_append {U V : List (Nat × Nat)} (h : U ≠ []) : hdU (U ++ V) = hdU U := by
  cases U with
  | nil => exact absurd rfl h
  | cons u U => rfl

theorem lastU_append {U V : List (Nat × Nat)} (h : V ≠ []) : lastU (U ++ V) = lastU V := by
  unfold lastU
  rw [List.getLast?_append]
  cases hv : V.getLast? with
  | none => rw [List.getLast?_eq_none_iff] at hv; exact absurd hv h
  | some v => rfl

theorem hdU_mem {U : List (Nat × Nat)} (h : U ≠ []) : hdU U ∈ U := by
  cases U with
  | nil => exact absurd rfl h
  | cons u U => simp [hdU]

theorem lastU_mem' {U : List (Nat × Nat)} (h : U ≠ []) : lastU U ∈ U := by
  cases U with
  | nil => exact absurd rfl h
  | cons u U => exact lastU_mem

theorem AI.hdU {s : St} {a : Arm} (h : AI s a) : Tri.hdU a.U = (a.b, a.b) := by
  unfold Arm.U
  rw [hdU_append h.ne1]
  exact Prod.ext rfl h.hb

theorem AI.lastU {s : St} {a : Arm} (h : AI s a) : Tri.lastU a.U = (a.t, a.t) := by
  unfold Arm.U
  rw [lastU_append h.ne2]
  exact Prod.ext h.ht rfl

theorem AI.mem_b {s : St} {a : Arm} (h : AI s a) : a.b ∈ ues a.U := by
  have := mem_ues1 (hdU_mem (U := a.U) (path_ne h.path))
  rwa [h.hdU] at this

theorem AI.mem_t {s : St} {a : Arm} (h : AI s a) : a.t ∈ ues a.U := by
  have := mem_ues2 (lastU_mem' (U := a.U) (path_ne h.path))
  rwa [h.lastU] at this

theorem AI.loc {s s' : St} {a : Arm} (h : AI s a) (hl : Loc s s' a.U) (h1 : s'.ring.nxt a.t = s.ring.nxt a.t)
    (h2 : s'.ring.prv a.b = s.ring.prv a.b) (h3 : s'.rm a.b = s.rm a.b) : AI s' a := by
  have hm : (Tri.lastU a.lo).2 ∈ ues a.U := mem_ues2 (List.mem_append_left _ (lastU_mem' h.ne1))
  refine ⟨h.ne1, h.ne2, path_loc h.path h.nodup hl, h.nodup, h1.trans h.nxt, h2.trans h.prv, ?_, ?_, ?_, h.hb, h.ht⟩
  · rw [h3, h.rm]; unfold dst; rw [hl.back _ hm]
  · rw [hl.back _ h.mem_b]; exact h.bb
  · rw [hl.back _ h.mem_t]; exact h.bt

/-- the points up to the rightmost point -/
def lowP (s : St) (a : Arm) : List P := a.lo.map fun u => posOf s (dst s u.2)
/-- the points after the rightmost point -/
def highP (s : St) (a : Arm) : List P := a.hi.dropLast.map fun u => posOf s (dst s u.2)
/-- the rightmost point -/
def pk (s : St) (a : Arm) : P := posOf s (dst s (lastU a.lo).2)

/-- the shape of the path -/
structure AG (ed : Nat → Bool → P) (s : St) (v : P) (a : Arm) : Prop where
  lo : Half false (ed a.b false) (ed a.b true) (lowP s a)
  hi : Half true (ed a.t false) (ed a.t true) ((highP s a).reverse ++ [pk s a])
  refl : Refl false (lowP s a ++ highP s a)
  le : Lt (pk s a) v ∨ pk s a = v

theorem lowP_eq {s : St} {a : Arm} (h : a.lo ≠ []) : lowP s a = a.lo.dropLast.map (fun u => posOf s (dst s u.2)) ++ [pk s a] := by
  unfold lowP pk
  conv_lhs => rw [← List.dropLast_append_getLast h]
  rw [List.map_append]
  unfold lastU
  rw [List.getLast?_eq_getLast_of_ne_nil h]
  rfl

theorem nodes_arm {s : St} {a : Arm} (h1 : a.lo ≠ []) (h2 : a.hi ≠ []) :
    nodes s a.U = a.lo.dropLast.map (node s) ++ node s (lastU a.lo) :: a.hi.dropLast.map (node s) := by
  unfold nodes Arm.U
  rw [List.dropLast_append_of_ne_nil h2, List.map_append]
  conv_lhs => rw [← List.dropLast_append_getLast h1]
  rw [List.map_append]
  unfold lastU
  rw [List.getLast?_eq_getLast_of_ne_nil h1]
  simp

theorem pts_arm {s : St} {a : Arm} (h1 : a.lo ≠ []) (h2 : a.hi ≠ []) :
    (nodes s a.U).map Nd.pos = lowP s a ++ highP s a := by
  rw [nodes_arm h1 h2, lowP_eq h1]
  simp [highP, List.map_map, pk]
  rfl

theorem pos_loc {s s' : St} {U : List (Nat × Nat)} (hl : Loc s s' U) : ∀ u ∈ U, posOf s' (dst s' u.2) = posOf s (dst s u.2) := by
  intro u hu
  have m2 : u.2 ∈ ues U := mem_ues2 hu
  unfold posOf dst
  rw [hl.back _ m2]
  show s'.pos u.2 _ = s.pos u.2 _
  rw [hl.pos _ m2]

theorem AG.loc {ed : Nat → Bool → P} {s s' : St} {v v' : P} {a : Arm} (h : AG ed s v a) (hl : Loc s s' a.U) (hne : a.lo ≠ [])
    (hv : Lt v v' ∨ v = v') : AG ed s' v' a := by
  have hp := pos_loc hl
  have e1 : lowP s' a = lowP s a := by
    unfold lowP
    exact List.map_congr_left fun u hu => hp u (List.mem_append_left _ hu)
  have e2 : highP s' a = highP s a := by
    unfold highP
    exact List.map_congr_left fun u hu => hp u (List.mem_append_right _ (List.dropLast_subset _ hu))
  have e3 : pk s' a = pk s a := hp _ (List.mem_append_left _ (lastU_mem' hne))
  refine ⟨by rw [e1]; exact h.lo, by rw [e2, e3]; exact h.hi, by rw [e1, e2]; exact h.refl, ?_⟩
  rw [e3]
  rcases hv with hv | rfl
  · rcases h.le with h | h
    · exact .inl (lt_trans' h hv)
    · rw [h]; exact .inl hv
  · exact h.le

end Hob3l.Tri
