import Verif.Poly.LemmasRing

/-!
The steps of `cq_sweep_poly`.
-/

namespace Hob3l.Poly

open Hob3l.Ring (IsRing Link)

theorem mem_flat {R : List Arm} {r : Arm} (hr : r ∈ R) {x : Nat} (hx : x ∈ r.list) : x ∈ flat R :=
  List.mem_flatMap.2 ⟨r, hr, hx⟩

/-- chaining two edges does not change the other rings -/
theorem frame_chain {ring : Ring.St} {p n : Nat} {L Lp Ln : List Nat} (h : IsRing ring L) (hp : p ∉ L) (hn : n ∉ L)
    (h1 : IsRing ring Lp) (m1 : p ∈ Lp) (h2 : IsRing ring Ln) (m2 : n ∈ Ln) : IsRing (Ring.chain ring p n) L :=
  Ring.C38_frame h hp hn ⟨(ring_links h1 m1).1, (ring_links h2 m2).2⟩

theorem arm_disj {D : List Nat} {r : Arm} {R : List Arm} (h : (D ++ flat (r :: R)).Nodup) {r' : Arm} (hr : r' ∈ R) {x : Nat}
    (hx : x ∈ r'.list) : x ∉ r.list := by
  have h1 := (List.nodup_append'.1 h).2.1
  unfold flat at h1
  rw [List.flatMap_cons] at h1
  intro hc
  exact (List.nodup_append'.1 h1).2.2 hc (mem_flat hr hx)

theorem arm_pair_disj {D : List Nat} {r : Arm} {R : List Arm} (h : (D ++ flat (r :: R)).Nodup) {r' : Arm} (hr : r' ∈ R) :
    r.list.Disjoint r'.list := fun _ hx hx' => arm_disj h hr hx' hx

/-- edges of the paths have been started and ended -/
theorem TInv.not_done {l pre : List Vtx} {ring : Ring.St} {back : Nat → Bool} {tree : List Nat} {offs : Nat} {res : Res}
    {D : List Nat} {R : List Arm} (h : TInv l pre ring back tree offs res D R) {e : Nat} (he : e ∈ tree) : e ∉ D := fun hc =>
  (List.nodup_append'.1 h.nd).2.2 hc (h.treeR e he)

theorem dirOf_congr {l : List Vtx} {back back' : Nat → Bool} {D : List Nat} (h : ∀ e ∈ D, back' e = back e) :
    D.map (dirOf l back') = D.map (dirOf l back) := by
  apply List.map_congr_left
  intro e he
  simp only [dirOf, h e he]

theorem ring_two {ring : Ring.St} {r : Arm} (h : IsRing ring r.list) (hne : r.1 ≠ r.2.2) :
    ∀ x ∈ r.list, ring.nxt x ≠ x ∧ ring.prv x ≠ x := by
  intro x hx
  have hL : 2 ≤ r.list.length := by simp [Arm.list]
  obtain ⟨A, B, hAB⟩ := List.append_of_mem hx
  rw [hAB] at h hL
  have h' := Ring.ring_rot h
  rw [List.cons_append] at h'
  have hne : B ++ A ≠ [] := by
    intro e; simp at e; rw [e.1, e.2] at hL; simp at hL
  have hm := (Ring.C38_is_member h').2 hne
  simp [Ring.isMember] at hm
  refine ⟨fun e => hm e.symm, fun e => ?_⟩
  have := (ring_links h' (x := x) (by simp)).2
  rw [e] at this
  exact hm this.symm

/-! ### BEND -/

theorem mem_replace {tree : List Nat} {a b x : Nat} (ha : a ∈ tree) :
    (x ∈ tree.map fun y => if y = a then b else y) ↔ (x ∈ tree ∧ x ≠ a) ∨ x = b := by
  rw [List.mem_map]
  constructor
  · rintro ⟨y, hy, rfl⟩
    split_ifs with h
    · exact .inr rfl
    · exact .inl ⟨hy, h⟩
  · rintro (⟨h1, h2⟩ | rfl)
    · exact ⟨x, h1, if_neg h2⟩
    · exact ⟨a, ha, if_pos rfl⟩

theorem nodup_replace {a b : Nat} : ∀ {tree : List Nat}, tree.Nodup → b ∉ tree →
    (tree.map fun y => if y = a then b else y).Nodup
  | [], _, _ => by simp
  | x :: tree, h, hb => by
    simp at hb
    have h' := List.nodup_cons.1 h
    rw [List.map_cons, List.nodup_cons]
    refine ⟨?_, nodup_replace h'.2 hb.2⟩
    rw [List.mem_map]
    rintro ⟨y, hy, e⟩
    split_ifs at e with h1 h2 h2
    · rw [h1, ← h2] at hy; exact h'.1 hy
    · rw [← e] at hb; exact hb.1 rfl
    · rw [e] at hy; exact hb.2 hy
    · rw [e] at hy; exact h'.1 hy

theorem bend_ok {l pre rest : List Vtx} {st : St} {s t : Vtx} {D : List Nat} {R : List Arm} (hl : Proper l)
    (hpre : l = pre ++ s :: t :: rest) (hpos : s.pos = t.pos) (hne : s.edge ≠ t.edge) (ht : st.TI l pre D R) :
    Fine (bend st s t) fun st' => st'.pt = st.pt ∧ st'.res = st.res ∧ st'.last = st.last ∧
      ∃ R', st'.TI l (pre ++ [s, t]) D R' := by
  unfold bend
  refine (Fine.ass (.inl rfl)).bind fun _ hs => ?_
  refine (Fine.ass (.inl rfl)).bind fun _ hr => ?_
  have hl1 : Proper (pre ++ s :: (t :: rest)) := hpre ▸ hl
  have hl2 : Proper ((pre ++ [s]) ++ t :: rest) := by rw [List.append_assoc]; exact hpre ▸ hl
  obtain ⟨sS, sE⟩ := (proper_next hl1).2 hs
  obtain ⟨tS, tE⟩ := (proper_next hl2).1 hr
  rw [started_snoc, not_or] at tS
  rw [ended_snoc, not_or] at tE
  have hst : s.edge ∈ st.tree := (ht.treeIff _).2 ⟨sS, sE⟩
  have htt : t.edge ∉ st.tree := fun hc => tS.1 ((ht.treeIff _).1 hc).1
  have htall : t.edge ∉ D ++ flat R := fun hc => tS.1 ((ht.all _).1 hc)
  have htD : t.edge ∉ D := fun hc => htall (List.mem_append_left _ hc)
  have htF : t.edge ∉ flat R := fun hc => htall (List.mem_append_right _ hc)
  have hcs : co l s.edge true = s.pos := by rw [← hs]; exact co_mem hl (by rw [hpre]; simp)
  have hct : co l t.edge false = t.pos := by rw [← hr]; exact co_mem hl (by rw [hpre]; simp)
  -- the tree
  have hTr : treeReplace st s.edge t.edge = .ok { st with tree := st.tree.map fun x => if x = s.edge then t.edge else x } := by
    unfold treeReplace
    simp only [ass, if_pos hne, if_pos hst, if_pos htt]; rfl
  rw [hTr, bind_ok]
  -- the ring of s
  obtain ⟨r, hrR, hb1, hb2⟩ := ht.find hst
  obtain ⟨R', hp⟩ : ∃ R', R.Perm (r :: R') := ⟨R.erase r, List.perm_cons_erase hrR⟩
  have ht := ht.permR hp
  have htF : t.edge ∉ flat (r :: R') := fun hc => htF ((flat_perm hp).mem_iff.2 hc)
  obtain ⟨b, m, f⟩ := r
  simp only at hb1 hb2
  have ok := ht.arms (b, m, f) (by simp)
  have hring := ok.ring
  have htr : t.edge ∉ Arm.list (b, m, f) := fun hc => htF (mem_flat (by simp) hc)
  have hring1 : IsRing (Ring.init st.ring t.edge) (Arm.list (b, m, f)) := (Ring.C38_init _ _).2 _ hring htr
  have hringt : IsRing (Ring.init st.ring t.edge) [t.edge] := (Ring.C38_init _ _).1
  have hsr : s.edge ∈ Arm.list (b, m, f) := by
    cases hb : st.back s.edge with
    | true => rw [hb1 hb]; simp [Arm.list]
    | false => rw [hb2 hb]; simp [Arm.list]
  have hbf : b ≠ f := by
    intro e
    have h1 := ok.bb
    have h2 := ok.fb
    simp only at h1 h2
    rw [e, h2] at h1; simp at h1
  obtain ⟨n1, n2⟩ := ring_two (r := (b, m, f)) hring1 hbf _ hsr
  obtain ⟨n3, n4⟩ := Ring.ring_single hringt
  -- the new state, apart from the ring
  have hset : ∀ (ring' : Ring.St) (r' : Arm),
      ArmOk l ring' (fun x => if x = t.edge then st.back s.edge else st.back x)
        (st.tree.map fun x => if x = s.edge then t.edge else x) r' →
      r'.list.Perm (t.edge :: Arm.list (b, m, f)) →
      (∀ L, IsRing st.ring L → s.edge ∉ L → t.edge ∉ L → IsRing ring' L) →
      TInv l (pre ++ [s, t]) ring' (fun x => if x = t.edge then st.back s.edge else st.back x)
        (st.tree.map fun x => if x = s.edge then t.edge else x) st.offs st.res D (r' :: R') := by
    intro ring' r' hr' hperm hother
    have hflat : (D ++ flat (r' :: R')).Perm (t.edge :: (D ++ flat ((b, m, f) :: R'))) := by
      unfold flat
      rw [List.flatMap_cons, List.flatMap_cons]
      refine ((hperm.append_right _).append_left D).trans ?_
      rw [List.cons_append]
      exact List.perm_middle
    have hbe : ∀ x, x ≠ t.edge → (if x = t.edge then st.back s.edge else st.back x) = st.back x := fun x hx => if_neg hx
    refine ⟨nodup_replace ht.treeNd htt, ?_, ?_, ?_, ?_, ?_, ?_, ht.pathsNd, ?_, ht.auxLt, ht.offsLe⟩
    · intro e
      rw [mem_replace hst, ht.treeIff, show pre ++ [s, t] = (pre ++ [s]) ++ [t] by simp]
      simp only [started_snoc, ended_snoc, hs, hr]
      constructor
      · rintro (⟨⟨h1, h2⟩, h3⟩ | rfl)
        · refine ⟨.inl (.inl h1), ?_⟩
          rintro ((h | h) | h)
          · exact h2 h
          · exact h3 h.1.symm
          · simp at h
        · refine ⟨.inr ⟨rfl, trivial⟩, ?_⟩
          rintro ((h | h) | h)
          · exact tE.1 h
          · exact hne h.1
          · simp at h
      · rintro ⟨(h1 | h1) | h1, h2⟩
        · left
          refine ⟨⟨h1, fun h => h2 (.inl (.inl h))⟩, fun h => h2 (.inl (.inr ⟨h.symm, trivial⟩))⟩
        · simp at h1
        · right; exact h1.1.symm
    · intro i e hi
      rw [List.getElem?_map] at hi
      cases hx : st.tree[i]? with
      | none => rw [hx] at hi; simp at hi
      | some x =>
        rw [hx] at hi
        simp at hi
        have hax := ht.alt i x hx
        split_ifs at hi with h1
        · rw [← hi, if_pos rfl, ← h1]; exact hax
        · rw [← hi, hbe x (fun e => htt (e ▸ List.mem_of_getElem? hx))]; exact hax
    · intro q hq
      rcases List.mem_cons.1 hq with rfl | hq
      · exact hr'
      · have okq := ht.arms q (List.mem_cons_of_mem _ hq)
        have hsq : s.edge ∉ q.list := fun hc => arm_disj ht.nd hq hc hsr
        have htq : t.edge ∉ q.list := fun hc => htF (mem_flat (List.mem_cons_of_mem _ hq) hc)
        refine okq.frame (hother _ okq.ring hsq htq) (fun x hx => hbe x (fun e => htq (e ▸ hx))) ?_
        intro x hx
        rw [mem_replace hst]
        constructor
        · rintro (h | h)
          · exact h.1
          · exact absurd (h ▸ hx) htq
        · intro h; exact .inl ⟨h, fun e => hsq (e ▸ hx)⟩
    · rw [hflat.nodup_iff, List.nodup_cons]
      refine ⟨fun hc => ?_, ht.nd⟩
      exact tS.1 ((ht.all _).1 hc)
    · intro e
      rw [hflat.mem_iff, List.mem_cons, ht.all, show pre ++ [s, t] = (pre ++ [s]) ++ [t] by simp]
      simp only [started_snoc, hs, hr]
      constructor
      · rintro (rfl | h)
        · exact .inr ⟨rfl, trivial⟩
        · exact .inl (.inl h)
      · rintro ((h | h) | h)
        · exact .inr h
        · simp at h
        · exact .inl h.1.symm
    · intro e he
      have hm : e ∈ flat (r' :: R') ↔ e ∈ t.edge :: flat ((b, m, f) :: R') := by
        have : (flat (r' :: R')).Perm (t.edge :: flat ((b, m, f) :: R')) := by
          unfold flat
          rw [List.flatMap_cons, List.flatMap_cons]
          exact hperm.append_right _
        exact this.mem_iff
      rw [hm]
      rcases (mem_replace hst).1 he with h | h
      · exact List.mem_cons_of_mem _ (ht.treeR e h.1)
      · rw [h]; simp
    · rw [dirOf_congr (fun e he => hbe e (fun h => htD (h ▸ he)))]
      exact ht.perm
  have hother : ∀ (p n : Nat), (p = s.edge ∧ n = t.edge) ∨ (p = t.edge ∧ n = s.edge) → ∀ L, IsRing st.ring L → s.edge ∉ L →
      t.edge ∉ L → IsRing (Ring.chain (Ring.init st.ring t.edge) p n) L := by
    intro p n hpn L hL hsL htL
    have hL1 : IsRing (Ring.init st.ring t.edge) L := (Ring.C38_init _ _).2 _ hL htL
    rcases hpn with ⟨rfl, rfl⟩ | ⟨rfl, rfl⟩
    · exact frame_chain hL1 hsL htL hring1 hsr hringt (by simp)
    · exact frame_chain hL1 htL hsL hringt (by simp) hring1 hsr
  have hbackst : ∀ x ∈ Arm.list (b, m, f), (if x = t.edge then st.back s.edge else st.back x) = st.back x :=
    fun x hx => if_neg (by rintro rfl; exact htr hx)
  have hchain1 : (Arm.list (b, m, f)).IsChain fun x y =>
      co l x (!(if x = t.edge then st.back s.edge else st.back x)) = co l y (if y = t.edge then st.back s.edge else st.back y) := by
    refine List.IsChain.imp_of_mem_imp ?_ ok.chain
    intro x y hx hy e
    rw [hbackst x hx, hbackst y hy]; exact e
  unfold listInsert
  simp only [ass, if_pos n1, if_pos n2, if_pos n3, if_pos n4, bind_ok, if_neg hne, if_true]
  cases hb : st.back s.edge with
  | true =>
    simp only [if_true]
    have hsb := hb1 hb
    have hj := Ring.C38_join (p := t.edge) (P := []) (n := b) (N := m ++ [f]) hringt hring1 (by
      intro x hx hx'
      simp at hx; subst hx
      exact htr hx')
    rw [← hsb] at hj
    have hprv : (Ring.chain (Ring.init st.ring t.edge) t.edge s.edge).prv s.edge = t.edge := by
      have := Ring.ring_nxt_head hj
      exact this.2
    simp only [if_pos hprv, bind_ok]
    refine Fine.ok ⟨rfl, rfl, rfl, (t.edge, b :: m, f) :: R', ?_⟩
    rw [← hb]
    refine hset _ _ ?_ (by simp [Arm.list]) (hother _ _ (.inr ⟨rfl, rfl⟩))
    refine ⟨?_, ?_, ?_, ?_, ?_, ?_, ?_⟩
    · simp only [Arm.list, List.cons_append]
      rw [← hsb]; simpa using hj
    · exact (mem_replace hst).2 (.inr rfl)
    · refine (mem_replace hst).2 (.inl ⟨ok.ft, ?_⟩)
      intro e; simp only at e; rw [hsb] at e; exact hbf e.symm
    · intro x hx hc
      simp only at hx
      rcases (mem_replace hst).1 hc with h | h
      · rcases List.mem_cons.1 hx with h' | h'
        · exact h.2 (h'.trans hsb.symm)
        · exact ok.mt x h' h.1
      · refine htr (h ▸ ?_)
        rcases List.mem_cons.1 hx with h' | h' <;> simp [Arm.list, h']
    · simp [hb]
    · have := ok.fb
      have hf : f ≠ t.edge := fun e => htr (e ▸ by simp [Arm.list])
      simp only [if_neg hf]; exact this
    · simp only [Arm.list, List.cons_append] at hchain1 ⊢
      rw [List.isChain_cons_cons]
      refine ⟨?_, hchain1⟩
      have hbt : b ≠ t.edge := fun e => htr (e ▸ by simp [Arm.list])
      rw [if_pos rfl, if_neg hbt, ← hsb, hb]
      simp only [Bool.not_true]
      rw [hct, hcs, hpos]
  | false =>
    simp only [Bool.false_eq_true, if_false]
    have hsf := hb2 hb
    have hrot : IsRing (Ring.init st.ring t.edge) (f :: (b :: m)) := by
      have := Ring.ring_rot (A := b :: m) (B := [f]) hring1
      simpa using this
    have hj := Ring.C38_join (p := f) (P := b :: m) (n := t.edge) (N := []) hrot hringt (by
      intro x hx hx'
      simp at hx'; subst hx'
      exact htr (by simp at hx; simp [Arm.list]; tauto))
    rw [← hsf] at hj
    have hnxt : (Ring.chain (Ring.init st.ring t.edge) s.edge t.edge).nxt s.edge = t.edge := by
      have := Ring.ring_nxt_head hj
      exact this.1
    simp only [if_pos hnxt, bind_ok]
    refine Fine.ok ⟨rfl, rfl, rfl, (b, m ++ [f], t.edge) :: R', ?_⟩
    rw [← hb]
    refine hset _ _ ?_ ?_ (hother _ _ (.inl ⟨rfl, rfl⟩))
    · refine ⟨?_, ?_, ?_, ?_, ?_, ?_, ?_⟩
      · have := Ring.ring_rot (A := [s.edge, t.edge]) (B := b :: m) (by simpa using hj)
        simp only [Arm.list]
        rw [← hsf]; simpa using this
      · refine (mem_replace hst).2 (.inl ⟨ok.bt, ?_⟩)
        intro e; simp only at e; rw [hsf] at e; exact hbf e
      · exact (mem_replace hst).2 (.inr rfl)
      · intro x hx hc
        simp only at hx
        rcases (mem_replace hst).1 hc with h | h
        · rcases List.mem_append.1 hx with h' | h'
          · exact ok.mt x h' h.1
          · simp at h'; exact h.2 (h'.trans hsf.symm)
        · refine htr (h ▸ ?_)
          simp at hx
          rcases hx with h' | h' <;> simp [Arm.list, h']
      · have := ok.bb
        have hf : b ≠ t.edge := fun e => htr (e ▸ by simp [Arm.list])
        simp only [if_neg hf]; exact this
      · simp [hb]
      · have e1 : Arm.list (b, m ++ [f], t.edge) = Arm.list (b, m, f) ++ [t.edge] := by simp [Arm.list]
        rw [e1, List.isChain_append]
        refine ⟨hchain1, by simp, ?_⟩
        intro x hx y hy
        have hlast : (Arm.list (b, m, f)).getLast? = some f := List.getLast?_concat
        rw [hlast] at hx
        simp at hx hy
        subst hx; subst hy
        have hft : f ≠ t.edge := fun e => htr (e ▸ by simp [Arm.list])
        rw [if_pos rfl, if_neg hft, ← hsf, hb]
        simp only [Bool.not_false]
        rw [hct, hcs, hpos]
    · have e1 : Arm.list (b, m ++ [f], t.edge) = Arm.list (b, m, f) ++ [t.edge] := by simp [Arm.list]
      rw [e1]
      exact List.perm_append_comm

end Hob3l.Poly
