import Mathlib.Data.List.Perm.Subperm
import Verif.Poly.LemmasStart

/-!
END events and the main loop.
-/

namespace Hob3l.Poly

open Hob3l.Ring (IsRing Link)

/-! ### the output of a path -/

theorem walkLoop_ok {st : St} {vi b first f : Nat} {base : List (List Nat)} {pts : List P} (hvi : vi = base.length)
    (h3 : 3 ≤ st.offs) (hf : st.ring.nxt f = b) (hfirst : endPt st f true = first) :
    ∀ (m : List Nat) (k n cnt : Nat) (r : Res) (wk v : List Nat) (ws : List (List Nat)),
      PInv base st.offs pts r wk v ws → m.length < k → (m ++ [f]).head? = some n → (m ++ [f]).IsChain (Link st.ring) →
      b ∉ m ++ [f] → (∀ x ∈ m, endPt st x true < pts.length) → st.offs + wk.length + m.length < M →
      ∃ r' v' ws', walkLoop st vi b first k n cnt r = .ok (cnt + m.length, r') ∧
        PInv base st.offs pts r' (wk ++ m.map fun x => endPt st x true) v' ws'
  | [], k, n, cnt, r, wk, v, ws, h, hk, hn, _, hb, _, _ => by
    simp at hn; subst hn
    obtain ⟨k, rfl⟩ : ∃ k', k = k' + 1 := ⟨k - 1, by simp at hk; omega⟩
    refine ⟨r, v, ws, ?_, by simpa using h⟩
    unfold walkLoop
    simp [hf, hfirst, ass, bind_ok]
  | x :: m, k, n, cnt, r, wk, v, ws, h, hk, hn, hc, hb, hlt, hM => by
    simp at hn; subst hn
    obtain ⟨k, rfl⟩ : ∃ k', k = k' + 1 := ⟨k - 1, by simp at hk; omega⟩
    simp at hk hM
    obtain ⟨y, hy⟩ : ∃ y, (m ++ [f]).head? = some y := by cases m <;> exact ⟨_, rfl⟩
    have hlink : Link st.ring x y := by
      cases m with
      | nil =>
        simp at hy; subst hy
        simp at hc
        exact hc
      | cons z m =>
        simp at hy; subst hy
        simp only [List.cons_append, List.isChain_cons_cons] at hc
        exact hc.1
    have hyb : y ≠ b := by
      rintro rfl
      exact hb (List.mem_cons_of_mem _ (List.mem_of_head? hy))
    obtain ⟨r', v', ws', e1, hP⟩ := append_ok h h3 (by omega) (hlt x (by simp))
    obtain ⟨r2, v2, ws2, e2, hP2⟩ := walkLoop_ok hvi h3 hf hfirst m k y (cnt + 1) r' (wk ++ [endPt st x true]) v' ws' hP (by omega) hy
      (by rw [List.cons_append] at hc; exact hc.tail) (fun hc' => hb (List.mem_cons_of_mem _ hc'))
      (fun z hz => hlt z (List.mem_cons_of_mem _ hz)) (by simp; omega)
    refine ⟨r2, v2, ws2, ?_, by simpa using hP2⟩
    unfold walkLoop
    rw [hlink.1]
    simp only [if_neg hyb, hvi, e1, bind_ok]
    rw [← hvi, e2]
    simp; omega

theorem cyc_map {α β : Type} (g : α → β) (p : List α) : (cyc p).map (Prod.map g g) = cyc (p.map g) := by
  unfold cyc
  rw [← List.zip_map, List.map_append, List.map_tail, List.head?_map]
  congr 1
  cases p <;> rfl

theorem openE_arm {src tgt : Nat → Option P} : ∀ (x : Nat) (xs : List Nat), (x :: xs).IsChain (fun a b => tgt a = src b) →
    openE (src x :: (x :: xs).map tgt) = (x :: xs).map fun e => (src e, tgt e)
  | x, [], _ => rfl
  | x, y :: xs, h => by
    rw [List.isChain_cons_cons] at h
    have := openE_arm y xs h.2
    simp only [List.map_cons, openE] at this ⊢
    rw [h.1]
    rw [this]

/-- the coordinates of the edges of the walk -/
theorem walk_coords {l : List Vtx} {back : Nat → Bool} {pts : List P} {b f : Nat} {m wk : List Nat}
    (hwk : wk.map (fun i => pts[i]?) = some (co l b (back b)) :: (b :: m).map fun x => some (co l x (!back x)))
    (hch : (b :: m ++ [f]).IsChain fun x y => co l x (!back x) = co l y (back y)) (hcl : co l f (!back f) = co l b (back b)) :
    (cyc wk).map (cpair pts) = (b :: m ++ [f]).map (dirOf l back) := by
  have e1 : (cyc wk).map (cpair pts) = cyc (wk.map fun i => pts[i]?) := by
    rw [← cyc_map]; rfl
  rw [e1, hwk, cyc_cons]
  have := openE_arm (src := fun x => some (co l x (back x))) (tgt := fun x => some (co l x (!back x))) b (m ++ [f]) (by
    refine List.IsChain.imp ?_ hch
    intro x y h
    exact congrArg some h)
  rw [show (b :: m ++ [f]).map (dirOf l back) = (b :: (m ++ [f])).map fun e => (some (co l e (back e)), some (co l e (!back e))) from rfl,
    ← this]
  simp [hcl]

theorem output_ok {l : List Vtx} {st : St} {es et b f : Nat} {m : List Nat} {D : List Nat} {fuel : Nat}
    (hst : (es = b ∧ et = f) ∨ (es = f ∧ et = b)) (hring : IsRing st.ring (b :: m ++ [f])) (hbb : st.back b = true)
    (hfb : st.back f = false) (hch : (b :: m ++ [f]).IsChain fun x y => co l x (!st.back x) = co l y (st.back y))
    (hcl : co l f true = co l b true) (hpt : st.pt f true = st.pt b true)
    (hco : ∀ x ∈ b :: m ++ [f], ∀ r, st.res.points[st.pt x r]? = some (co l x r))
    (hfuel : m.length < fuel) (haux : st.res.aux.length = st.res.points.length)
    (hauxLt : ∀ a ∈ st.res.aux, a ≤ st.offs + 1) (hM : st.offs + m.length + 5 < M) (hnd : ∀ p ∈ st.res.paths, p.Nodup ∧ p ≠ [])
    (hperm : ((st.res.paths.flatMap cyc).map (cpair st.res.points)).Perm (D.map (dirOf l st.back))) :
    ∃ st', output fuel st es et = .ok st' ∧ st'.ring = st.ring ∧ st'.back = st.back ∧ st'.tree = st.tree ∧ st'.pt = st.pt ∧
      st'.last = st.last ∧ st'.offs = st.offs + 3 + m.length ∧ st'.res.points = st.res.points ∧
      st'.res.aux.length = st.res.points.length ∧ (∀ p ∈ st'.res.paths, p.Nodup ∧ p ≠ []) ∧
      (∀ a ∈ st'.res.aux, a ≤ st'.offs + 1) ∧
      ((st'.res.paths.flatMap cyc).map (cpair st'.res.points)).Perm ((D ++ (b :: m ++ [f])).map (dirOf l st.back)) := by
  have hbf : b ≠ f := by rintro rfl; rw [hbb] at hfb; simp at hfb
  have hofs : (st.offs + 3) % M = st.offs + 3 := Nat.mod_eq_of_lt (by omega)
  have he : (if st.back es then es else et) = b := by
    rcases hst with ⟨rfl, rfl⟩ | ⟨rfl, rfl⟩
    · simp [hbb]
    · simp [hfb]
  have hlt : ∀ x ∈ b :: m ++ [f], ∀ r, st.pt x r < st.res.points.length := fun x hx r =>
    (List.getElem?_eq_some_iff.1 (hco x hx r)).1
  obtain ⟨n, hn⟩ : ∃ n, (m ++ [f]).head? = some n := by cases m <;> exact ⟨_, rfl⟩
  have hlink : Link st.ring b n := by
    cases m with
    | nil => simp at hn; subst hn; exact Ring.ring_nxt_head hring
    | cons x m => simp at hn; subst hn; exact Ring.ring_nxt_head hring
  have hbn : b ∉ m ++ [f] := (List.nodup_cons.1 hring.2.1).1
  have hne : b ≠ n := by rintro rfl; exact hbn (List.mem_of_head? hn)
  -- the path
  let s1 : St := { st with offs := st.offs + 3 }
  let r0 : Res := { st.res with paths := st.res.paths ++ [[]] }
  have hP0 : PInv st.res.paths s1.offs st.res.points r0 [] [] [] := by
    refine ⟨rfl, rfl, haux, by simp, by simp, rfl, rfl, by simp, by simp, by simp, ?_⟩
    intro i a _ ha
    have := hauxLt a (List.mem_of_getElem? ha)
    change a < st.offs + 3
    omega
  have hs1 : s1.offs = st.offs + 3 := rfl
  obtain ⟨r1, v1, w1, e1, hP1⟩ := append_ok hP0 (by omega) (by simp; omega) (hlt b (by simp) true)
  obtain ⟨r2, v2, w2, e2, hP2⟩ := append_ok hP1 (by omega) (by simp; omega) (hlt b (by simp) false)
  have hlastf : (b :: m ++ [f]).getLast? = some f := List.getLast?_concat
  obtain ⟨r3, v3, w3, e3, hP3⟩ := walkLoop_ok (st := s1) (vi := st.res.paths.length) (b := b) (first := st.pt b true) (f := f) rfl
    (by omega) (hring.2.2.2 f hlastf b rfl).1 (by change st.pt f (st.back f != true) = _; rw [hfb]; exact hpt)
    m fuel n 0 r2 _ v2 w2 hP2 hfuel hn (by have := hring.2.2.1; rw [List.cons_append] at this; exact this.tail) hbn
    (fun x hx => hlt x (by simp [hx]) _) (by simp; omega)
  have hofs2 : (st.offs + 3 + m.length) % M = st.offs + 3 + m.length := Nat.mod_eq_of_lt (by omega)
  refine ⟨{ s1 with offs := st.offs + 3 + m.length, res := r3 }, ?_, rfl, rfl, rfl, rfl, rfl, rfl, hP3.points, hP3.len, ?_, ?_, ?_⟩
  · unfold output
    simp only [hofs, he, ass, hbb, if_true, bind_ok]
    rw [show append { points := st.res.points, aux := st.res.aux, paths := st.res.paths ++ [[]] } st.res.paths.length
      (st.offs + 3) (st.pt b true) = .ok r1 from e1, bind_ok]
    rw [show append r1 st.res.paths.length (st.offs + 3) (st.pt b false) = .ok r2 from e2, bind_ok]
    simp only [hlink.1, if_pos hne, bind_ok]
    change (walkLoop s1 st.res.paths.length b (st.pt b true) fuel n 0 r2 >>= _) = _
    rw [e3, bind_ok]
    simp only [Nat.zero_add, hofs2]
    rfl
  · intro p hp
    change p ∈ r3.paths at hp
    rw [hP3.paths] at hp
    rcases List.mem_append.1 hp with hp | hp
    · exact hnd p hp
    · rcases List.mem_cons.1 hp with rfl | hp
      · exact ⟨hP3.vnd, (hP3.closed (by simp)).1⟩
      · exact hP3.wnd p hp
  · intro a ha
    change a ∈ r3.aux at ha
    change a ≤ st.offs + 3 + m.length + 1
    obtain ⟨i, hi⟩ := List.mem_iff_getElem?.1 ha
    by_cases hiv : i ∈ v3
    · obtain ⟨j, hj⟩ := List.mem_iff_getElem?.1 hiv
      have h1 := hP3.auxIn j i hj
      rw [hi] at h1
      have h1 := Option.some.inj h1
      have h2 := (List.getElem?_eq_some_iff.1 hj).1
      have h3 := hP3.vlen
      simp at h3
      omega
    · have := hP3.auxOut i a hiv hi
      omega
  · change ((r3.paths.flatMap cyc).map (cpair r3.points)).Perm _
    rw [hP3.paths, hP3.points, List.flatMap_append, List.map_append, List.map_append]
    refine hperm.append ?_
    have h1 := ((hP3.closed (by simp)).2).map (cpair st.res.points)
    refine h1.trans ?_
    rw [walk_coords (l := l) (back := st.back) (b := b) (f := f) (m := m) ?_ hch (by rw [hfb, hbb]; exact hcl)]
    simp only [List.nil_append, List.cons_append, List.map_cons, List.map_map]
    rw [hco b (by simp) true, hco b (by simp) false, hbb]
    simp only [Bool.not_true, List.cons.injEq, true_and]
    apply List.map_congr_left
    intro x hx
    change st.res.points[st.pt x (st.back x != true)]? = _
    rw [hco x (by simp [hx])]
    cases st.back x <;> rfl

/-! ### END -/

theorem tree_remove2 {A B : List Nat} {s t : Nat} (h : (A ++ t :: s :: B).Nodup) :
    ((A ++ t :: s :: B).erase s).erase t = A ++ B := by
  obtain ⟨n1, n2, n3⟩ := List.nodup_append'.1 h
  have n4 := List.nodup_cons.1 n2
  have sA : s ∉ A := fun hc => n3 hc (by simp)
  have tA : t ∉ A := fun hc => n3 hc (by simp)
  have hts : t ≠ s := fun e => n4.1 (by simp [e])
  rw [List.erase_append_right _ sA, List.erase_cons_tail (by simpa using hts), List.erase_cons_head,
    List.erase_append_right _ tA, List.erase_cons_head]

set_option maxHeartbeats 1000000 in
/-- END keeps the invariants -/
theorem finish_ok {l pre rest : List Vtx} {st : St} {s t : Vtx} {fuel : Nat} {D : List Nat} {R : List Arm} (hl : Proper l)
    (hpre : l = pre ++ s :: t :: rest) (hpos : s.pos = t.pos) (hne : s.edge ≠ t.edge) (hs : s.rigt = true) (hr : t.rigt = true)
    (hp : PtInv (pre ++ [s, t]) st) (hpt : st.pt s.edge true = st.pt t.edge true) (ht : st.TI l pre D R)
    (hfuel : l.length ≤ fuel) (hM : 2 * l.length + 2 < M) :
    Fine (finish fuel st s t) fun st' => PtInv (pre ++ [s, t]) st' ∧
      ∃ D' R', st'.TI l (pre ++ [s, t]) D' R' := by
  have hl1 : Proper (pre ++ s :: (t :: rest)) := hpre ▸ hl
  have hl2 : Proper ((pre ++ [s]) ++ t :: rest) := by rw [List.append_assoc]; exact hpre ▸ hl
  obtain ⟨sS, sE⟩ := (proper_next hl1).2 hs
  obtain ⟨tS, tE⟩ := (proper_next hl2).2 hr
  rw [started_snoc] at tS
  have tS : Started pre t.edge := by
    rcases tS with h | h
    · exact h
    · rw [hs] at h; simp at h
  rw [ended_snoc, not_or] at tE
  have hst : s.edge ∈ st.tree := (ht.treeIff _).2 ⟨sS, sE⟩
  have htt : t.edge ∈ st.tree := (ht.treeIff _).2 ⟨tS, tE.1⟩
  have hcs : co l s.edge true = s.pos := by rw [← hs]; exact co_mem hl (by rw [hpre]; simp)
  have hct : co l t.edge true = t.pos := by rw [← hr]; exact co_mem hl (by rw [hpre]; simp)
  -- the number of edges
  have hD : (D ++ flat R).length ≤ l.length := by
    have hsub : (D ++ flat R) ⊆ l.map (·.edge) := by
      intro e he
      obtain ⟨v, hv, h1, -⟩ := (ht.all e).1 he
      exact List.mem_map.2 ⟨v, by rw [hpre]; simp [hv], h1⟩
    have := (List.Nodup.subperm ht.nd hsub).length_le
    simpa using this
  unfold finish
  refine (Fine.ass (.inr hs)).bind fun _ _ => ?_
  refine (Fine.ass (.inl rfl)).bind fun _ _ => ?_
  refine (Fine.ass (.inl rfl)).bind fun _ hnext => ?_
  obtain ⟨A, B, hAB⟩ := treeNext_split hnext
  have hnd := ht.treeNd
  rw [hAB] at hnd
  have halt := ht.alt
  rw [hAB] at halt
  obtain ⟨halt', hbst⟩ := alt_remove halt
  have hrem := tree_remove2 hnd
  have hmemT : ∀ x, x ∈ A ++ B ↔ x ∈ st.tree ∧ x ≠ s.edge ∧ x ≠ t.edge := by
    intro x
    obtain ⟨n1, n2, n3⟩ := List.nodup_append'.1 hnd
    have n4 := List.nodup_cons.1 n2
    have n5 := List.nodup_cons.1 n4.2
    rw [hAB]
    simp only [List.mem_append, List.mem_cons]
    constructor
    · rintro (h | h)
      · exact ⟨.inl h, fun e => n3 h (by simp [e]), fun e => n3 h (by simp [e])⟩
      · exact ⟨.inr (.inr (.inr h)), fun e => n5.1 (e ▸ h), fun e => n4.1 (by rw [← e]; simp [h])⟩
    · rintro ⟨h | h | h | h, h1, h2⟩
      · exact .inl h
      · exact absurd h h2
      · exact absurd h h1
      · exact .inr h
  have hr1 : treeRemove st s.edge = .ok { st with tree := st.tree.erase s.edge } := by
    unfold treeRemove
    simp only [ass, if_pos hst]; rfl
  have htt2 : t.edge ∈ st.tree.erase s.edge := (List.mem_erase_of_ne (fun e => hne e.symm)).2 htt
  have hr2 : treeRemove { st with tree := st.tree.erase s.edge } t.edge = .ok { st with tree := A ++ B } := by
    unfold treeRemove
    simp only [ass, if_pos htt2, ← hrem, ← hAB]; rfl
  have hndAB : (A ++ B).Nodup := by
    have := ht.treeNd.erase s.edge
    have := this.erase t.edge
    rwa [hAB, hrem] at this
  have htreeIff : ∀ e, e ∈ A ++ B ↔ Started (pre ++ [s, t]) e ∧ ¬ Ended (pre ++ [s, t]) e := by
    intro e
    rw [hmemT, ht.treeIff, show pre ++ [s, t] = (pre ++ [s]) ++ [t] by simp]
    simp only [started_snoc, ended_snoc, hs, hr, and_true]
    constructor
    · rintro ⟨⟨h1, h2⟩, h3, h4⟩
      refine ⟨.inl (.inl h1), ?_⟩
      rintro ((h | h) | h)
      · exact h2 h
      · exact h3 h.symm
      · exact h4 h.symm
    · rintro ⟨(h1 | h1) | h1, h2⟩
      · exact ⟨⟨h1, fun h => h2 (.inl (.inl h))⟩, fun h => h2 (.inl (.inr h.symm)), fun h => h2 (.inr h.symm)⟩
      · simp at h1
      · simp at h1
  have hstart : ∀ e, Started (pre ++ [s, t]) e ↔ Started pre e := by
    intro e
    rw [show pre ++ [s, t] = (pre ++ [s]) ++ [t] by simp, started_snoc, started_snoc, hs, hr]
    simp
  -- the ring of the backward edge and the one of the forward edge
  obtain ⟨bk, fw, hbf, hbk, hfw⟩ : ∃ bk fw, ((bk = s.edge ∧ fw = t.edge) ∨ (bk = t.edge ∧ fw = s.edge)) ∧
      st.back bk = true ∧ st.back fw = false := by
    cases hb : st.back t.edge with
    | true => exact ⟨t.edge, s.edge, .inr ⟨rfl, rfl⟩, hb, by rw [hbst, hb]; rfl⟩
    | false => exact ⟨s.edge, t.edge, .inl ⟨rfl, rfl⟩, by rw [hbst, hb]; rfl, hb⟩
  have hbkT : bk ∈ st.tree := by rcases hbf with ⟨rfl, -⟩ | ⟨rfl, -⟩ <;> assumption
  have hfwT : fw ∈ st.tree := by rcases hbf with ⟨-, rfl⟩ | ⟨-, rfl⟩ <;> assumption
  have hbfne : bk ≠ fw := by rintro rfl; rw [hbk] at hfw; simp at hfw
  have hclose : co l fw true = co l bk true := by
    rcases hbf with ⟨rfl, rfl⟩ | ⟨rfl, rfl⟩
    · rw [hcs, hct, hpos]
    · rw [hcs, hct, hpos]
  have hbfpt : st.pt fw true = st.pt bk true := by
    rcases hbf with ⟨rfl, rfl⟩ | ⟨rfl, rfl⟩
    · exact hpt.symm
    · exact hpt
  have hstbf : ∀ x, (x ≠ s.edge ∧ x ≠ t.edge) ↔ (x ≠ bk ∧ x ≠ fw) := by
    intro x
    rcases hbf with ⟨rfl, rfl⟩ | ⟨rfl, rfl⟩
    · exact Iff.rfl
    · exact and_comm
  obtain ⟨r1, hr1R, hr1b, -⟩ := ht.find hbkT
  have hr1b := hr1b hbk
  obtain ⟨r2, hr2R, -, hr2f⟩ := ht.find hfwT
  have hr2f := hr2f hfw
  have hc1 : (if st.back t.edge then st.ring.prv t.edge else st.ring.nxt t.edge) = s.edge ↔ st.ring.prv bk = fw := by
    have ok1 := (ring_links (ht.arms r1 hr1R).ring (x := bk) (by rw [hr1b]; simp [Arm.list])).2
    have ok2 := (ring_links (ht.arms r2 hr2R).ring (x := fw) (by rw [hr2f]; simp [Arm.list])).1
    rcases hbf with ⟨rfl, rfl⟩ | ⟨rfl, rfl⟩
    · simp only [hfw, Bool.false_eq_true, if_false]
      constructor
      · intro h; rw [h] at ok2; exact ok2
      · intro h; rw [h] at ok1; exact ok1
    · simp only [hbk, if_true]
  have hc2 : st.ring.prv bk = fw → (if st.back s.edge then st.ring.prv s.edge else st.ring.nxt s.edge) = t.edge := by
    have ok1 := (ring_links (ht.arms r1 hr1R).ring (x := bk) (by rw [hr1b]; simp [Arm.list])).2
    intro h
    rcases hbf with ⟨rfl, rfl⟩ | ⟨rfl, rfl⟩
    · simp only [hbk, if_true]; exact h
    · simp only [hfw, Bool.false_eq_true, if_false]
      rw [h] at ok1; exact ok1
  obtain ⟨b1, m1, f1⟩ := r1
  simp only at hr1b
  subst hr1b
  have ok1 := ht.arms _ hr1R
  have hprv : st.ring.prv bk = f1 := by
    have hlast : (Arm.list (bk, m1, f1)).getLast? = some f1 := List.getLast?_concat
    exact (ok1.ring.2.2.2 f1 hlast bk rfl).2
  by_cases hcond : st.ring.prv bk = fw
  · -- the ring is closed
    have hf1 : f1 = fw := hprv.symm.trans hcond
    subst hf1
    rw [if_pos (hc1.2 hcond)]
    simp only [hr1, hr2, bind_ok, ass, if_pos (hc2 hcond)]
    obtain ⟨R', hperm⟩ : ∃ R', R.Perm ((bk, m1, f1) :: R') := ⟨R.erase _, List.perm_cons_erase hr1R⟩
    have ht := ht.permR hperm
    have hlenR : (D ++ flat ((bk, m1, f1) :: R')).length ≤ l.length := by
      rw [← ((flat_perm hperm).append_left D).length_eq]; exact hD
    have hlen2 : D.length + (m1.length + 2) ≤ l.length := by
      simp [flat, Arm.list] at hlenR; omega
    have hoffs := ht.offsLe
    have hendpre : ∀ x ∈ bk :: m1 ++ [f1], ∀ r, st.res.points[st.pt x r]? = some (co l x r) := by
      intro x hx r
      have hS : Started pre x := (ht.all x).1 (List.mem_append_right _ (mem_flat (r := (bk, m1, f1)) (by simp) hx))
      have hv : ∃ v ∈ pre ++ [s, t], v.edge = x ∧ v.rigt = r := by
        cases r with
        | false =>
          obtain ⟨v, hv, h1, h2⟩ := hS
          exact ⟨v, by simp [hv], h1, h2⟩
        | true =>
          by_cases hxt : x ∈ st.tree
          · have hxx : x = bk ∨ x = f1 := by
              rcases List.mem_append.1 hx with h | h
              · rcases List.mem_cons.1 h with h | h
                · exact .inl h
                · exact absurd hxt (ok1.mt x h)
              · simp at h; exact .inr h
            have hxx : x = s.edge ∨ x = t.edge := by
              rcases hbf with ⟨h1, h2⟩ | ⟨h1, h2⟩
              · rcases hxx with h | h
                · exact .inl (h.trans h1)
                · exact .inr (h.trans h2)
              · rcases hxx with h | h
                · exact .inr (h.trans h1)
                · exact .inl (h.trans h2)
            rcases hxx with h | h
            · exact ⟨s, by simp, h.symm, hs⟩
            · exact ⟨t, by simp, h.symm, hr⟩
          · have : Ended pre x := by
              by_contra hc
              exact hxt ((ht.treeIff x).2 ⟨hS, hc⟩)
            obtain ⟨v, hv, h1, h2⟩ := this
            exact ⟨v, by simp [hv], h1, h2⟩
      obtain ⟨v, hv, rfl, rfl⟩ := hv
      have hvl : v ∈ l := by
        rw [hpre, show pre ++ s :: t :: rest = (pre ++ [s, t]) ++ rest by simp]
        exact List.mem_append_left _ hv
      rw [co_mem hl hvl]
      exact hp.ptOk v hv
    obtain ⟨st', e, g1, g2, g3, g4, g5, g6, g7, g8, g9, g10, g11⟩ := output_ok (st := { st with tree := A ++ B }) (l := l)
      (es := s.edge) (et := t.edge) (b := bk) (f := f1) (m := m1) (D := D) (fuel := fuel)
      (by rcases hbf with ⟨h1, h2⟩ | ⟨h1, h2⟩ <;> [exact .inl ⟨h1.symm, h2.symm⟩; exact .inr ⟨h2.symm, h1.symm⟩])
      ok1.ring hbk hfw ok1.chain hclose hbfpt hendpre (by omega) hp.auxLen ht.auxLt (by simp only; omega) ht.pathsNd ht.perm
    rw [e]
    refine Fine.ok ⟨⟨?_, ?_, ?_, ?_⟩, D ++ (bk :: m1 ++ [f1]), R', ?_⟩
    · rw [g7, g4]; exact hp.ptOk
    · rw [g7, g5]; exact hp.lastOk
    · rw [g7]; exact hp.ptsLen
    · rw [g8, g7]
    · have hfl : D ++ (bk :: m1 ++ [f1]) ++ flat R' = D ++ flat ((bk, m1, f1) :: R') := by
        simp [flat, Arm.list]
      unfold St.TI
      rw [g1, g2, g3]
      refine ⟨hndAB, htreeIff, halt', ?_, ?_, ?_, ?_, g9, g11, g10, ?_⟩
      · intro q hq
        have okq := ht.arms q (List.mem_cons_of_mem _ hq)
        refine okq.frame okq.ring (fun _ _ => rfl) ?_
        intro x hx
        rw [hmemT, hstbf]
        refine ⟨fun h => h.1, fun h => ⟨h, ?_, ?_⟩⟩
        · rintro rfl
          exact arm_disj ht.nd hq hx (by simp [Arm.list])
        · rintro rfl
          exact arm_disj ht.nd hq hx (by simp [Arm.list])
      · rw [hfl]; exact ht.nd
      · intro e; rw [hfl, ht.all, hstart]
      · intro e he
        have h := (hmemT e).1 he
        have h2 := (hstbf e).1 h.2
        have := ht.treeR e h.1
        unfold flat at this
        rw [List.flatMap_cons] at this
        rcases List.mem_append.1 this with h3 | h3
        · exfalso
          rcases List.mem_append.1 h3 with h4 | h4
          · rcases List.mem_cons.1 h4 with h5 | h5
            · exact h2.1 h5
            · exact ok1.mt e h5 h.1
          · simp at h4; exact h2.2 h4
        · exact h3
      · rw [g6]
        simp
        change st.offs + 3 + m1.length ≤ _
        omega
  · -- two rings are joined
    rw [if_neg (fun h => hcond (hc1.1 h))]
    simp only [hr1, hr2, bind_ok]
    obtain ⟨b2, m2, f2⟩ := r2
    simp only at hr2f
    subst hr2f
    have hf1 : f1 ≠ fw := fun h => hcond (hprv.trans h)
    have hrne : ((bk, m1, f1) : Arm) ≠ (b2, m2, fw) := by
      intro h; simp at h; exact hf1 h.2.2
    obtain ⟨R', hperm⟩ : ∃ R', R.Perm ((b2, m2, fw) :: (bk, m1, f1) :: R') := by
      have h1 := List.perm_cons_erase hr2R
      have h2 : ((bk, m1, f1) : Arm) ∈ R.erase (b2, m2, fw) := (List.mem_erase_of_ne hrne).2 hr1R
      exact ⟨_, h1.trans ((List.perm_cons_erase h2).cons _)⟩
    have ht := ht.permR hperm
    have ok2 := ht.arms (b2, m2, fw) (by simp)
    have hdisj : (Arm.list (b2, m2, fw)).Disjoint (Arm.list (bk, m1, f1)) := arm_pair_disj ht.nd (by simp)
    have hfwm : fw ∈ Arm.list (b2, m2, fw) := by simp [Arm.list]
    have hbkm : bk ∈ Arm.list (bk, m1, f1) := by simp [Arm.list]
    have hb2fw : b2 ≠ fw := by
      intro h
      have h1 := ok2.bb
      simp only at h1
      rw [h, hfw] at h1; simp at h1
    have hbkf1 : bk ≠ f1 := by
      intro h
      have h1 := ok1.fb
      simp only at h1
      rw [← h, hbk] at h1; simp at h1
    obtain ⟨p1, p2⟩ := ring_two (r := (b2, m2, fw)) ok2.ring hb2fw fw hfwm
    obtain ⟨p3, p4⟩ := ring_two (r := (bk, m1, f1)) ok1.ring hbkf1 bk hbkm
    have hrot : IsRing st.ring (fw :: (b2 :: m2)) := by
      have := Ring.ring_rot (A := b2 :: m2) (B := [fw]) ok2.ring
      simpa using this
    have hj := Ring.C38_join (p := fw) (P := b2 :: m2) (n := bk) (N := m1 ++ [f1]) hrot ok1.ring (by
      intro x hx hx'
      refine hdisj ?_ hx'
      simp [Arm.list] at hx ⊢
      tauto)
    have hlink := Ring.ring_nxt_head hj
    have hmerge : listMerge { st with tree := A ++ B } t.edge s.edge =
        .ok { st with tree := A ++ B, ring := Ring.chain st.ring fw bk } := by
      unfold listMerge
      rcases hbf with ⟨h1, h2⟩ | ⟨h1, h2⟩
      · rw [h1] at p3 p4 hlink hbk ⊢
        rw [h2] at p1 p2 hlink hfw ⊢
        simp only [ass, if_pos p1, if_pos p2, if_pos p3, if_pos p4, hbk, hfw, bind_ok, if_pos hlink.1]
        rfl
      · rw [h1] at p3 p4 hlink hbk ⊢
        rw [h2] at p1 p2 hlink hfw ⊢
        simp only [ass, if_pos p1, if_pos p2, if_pos p3, if_pos p4, hbk, hfw, bind_ok, if_pos hlink.2, if_true]
        rfl
    rw [hmerge]
    refine Fine.ok ⟨⟨hp.ptOk, hp.lastOk, hp.ptsLen, hp.auxLen⟩, D, (b2, m2 ++ fw :: bk :: m1, f1) :: R', ?_⟩
    have hlist : Arm.list (b2, m2 ++ fw :: bk :: m1, f1) = Arm.list (b2, m2, fw) ++ Arm.list (bk, m1, f1) := by
      simp [Arm.list]
    have hflat : flat ((b2, m2 ++ fw :: bk :: m1, f1) :: R') = flat ((b2, m2, fw) :: (bk, m1, f1) :: R') := by
      unfold flat
      rw [List.flatMap_cons, List.flatMap_cons, List.flatMap_cons, hlist, List.append_assoc]
    have hotherdisj : ∀ q ∈ R', ∀ x ∈ q.list, x ≠ bk ∧ x ≠ fw := by
      intro q hq x hx
      constructor
      · rintro rfl
        have h1 : (flat ((b2, m2, fw) :: (x, m1, f1) :: R')).Nodup := (List.nodup_append'.1 ht.nd).2.1
        unfold flat at h1
        rw [List.flatMap_cons] at h1
        exact arm_disj (D := []) (r := (x, m1, f1)) (R := R') (by simpa [flat] using (List.nodup_append'.1 h1).2.1) hq hx hbkm
      · rintro rfl
        exact arm_disj ht.nd (List.mem_cons_of_mem _ hq) hx hfwm
    refine ⟨hndAB, htreeIff, halt', ?_, ?_, ?_, ?_, ht.pathsNd, ht.perm, ht.auxLt, ht.offsLe⟩
    · intro q hq
      rcases List.mem_cons.1 hq with rfl | hq
      · refine ⟨?_, ?_, ?_, ?_, ok2.bb, ok1.fb, ?_⟩
        · have := Ring.ring_rot (A := fw :: bk :: (m1 ++ [f1])) (B := b2 :: m2) (by simpa using hj)
          simpa [Arm.list] using this
        · refine (hmemT _).2 ⟨ok2.bt, (hstbf _).2 ⟨?_, hb2fw⟩⟩
          intro h
          simp only at h
          exact hdisj (a := bk) (by simp [Arm.list, h]) hbkm
        · refine (hmemT _).2 ⟨ok1.ft, (hstbf _).2 ⟨fun h => hbkf1 h.symm, hf1⟩⟩
        · intro x hx hc
          have hc' := (hmemT x).1 hc
          have hc2 := (hstbf x).1 hc'.2
          simp at hx
          rcases hx with h | h | h | h
          · exact ok2.mt x h hc'.1
          · exact hc2.2 h
          · exact hc2.1 h
          · exact ok1.mt x h hc'.1
        · rw [hlist, List.isChain_append]
          refine ⟨ok2.chain, ok1.chain, ?_⟩
          intro x hx y hy
          have hl2 : (Arm.list (b2, m2, fw)).getLast? = some fw := List.getLast?_concat
          rw [hl2] at hx
          simp [Arm.list] at hx hy
          subst hx; subst hy
          change co l fw (!st.back fw) = co l bk (st.back bk)
          rw [hfw, hbk]
          exact hclose
      · have okq := ht.arms q (by simp [hq])
        have hd := hotherdisj q hq
        refine okq.frame ?_ (fun _ _ => rfl) ?_
        · exact frame_chain okq.ring (fun h => (hd fw h).2 rfl) (fun h => (hd bk h).1 rfl) ok2.ring hfwm ok1.ring hbkm
        · intro x hx
          rw [hmemT, hstbf]
          exact ⟨fun h => h.1, fun h => ⟨h, hd x hx⟩⟩
    · rw [hflat]; exact ht.nd
    · intro e; rw [hflat, ht.all, hstart]
    · intro e he
      rw [hflat]
      exact ht.treeR e ((hmemT e).1 he).1

end Hob3l.Poly
