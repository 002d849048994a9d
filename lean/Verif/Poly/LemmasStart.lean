import Verif.Poly.LemmasStep

/-!
START events.
-/

namespace Hob3l.Poly

open Hob3l.Ring (IsRing Link)

theorem treeNext_split {y x : Nat} : ∀ {L : List Nat}, treeNext L x = some y → ∃ A B, L = A ++ x :: y :: B
  | [], h => by simp [treeNext] at h
  | [a], h => by simp [treeNext] at h
  | a :: b :: L, h => by
    unfold treeNext at h
    split_ifs at h with hc
    · simp at h
      exact ⟨[], L, by simp [hc, h]⟩
    · obtain ⟨A, B, e⟩ := treeNext_split h
      exact ⟨a :: A, B, by rw [e]; rfl⟩

theorem treePrev_none {x : Nat} : ∀ (L : List Nat) (a : Nat), x ∉ L → treePrev (a :: L) x = none
  | [], a, _ => rfl
  | b :: L, a, h => by
    simp at h
    unfold treePrev
    rw [if_neg (fun e => h.1 e.symm)]
    exact treePrev_none L b h.2

theorem treePrev_split {x : Nat} {B : List Nat} (hB : x ∉ B) : ∀ {A : List Nat}, x ∉ A → treePrev (A ++ x :: B) x = A.getLast?
  | [], _ => treePrev_none B x hB
  | [a], h => by
    simp at h
    simp [treePrev]
  | a :: b :: A, h => by
    simp at h
    have := treePrev_split (x := x) hB (A := b :: A) (by simp; exact ⟨h.2.1, h.2.2⟩)
    simp only [List.cons_append] at this ⊢
    unfold treePrev
    rw [if_neg (fun e => h.2.1 e.symm), this]
    simp

theorem insert_filter {T A B : List Nat} {ks kt s t : Nat} (hs : s ∉ T) (ht : t ∉ T) (hne : s ≠ t) (hnd : T.Nodup)
    (h : (T.take ks ++ s :: T.drop ks).take kt ++ t :: (T.take ks ++ s :: T.drop ks).drop kt = A ++ s :: t :: B) :
    T = A ++ B ∧ s ∉ A ∧ s ∉ t :: B ∧ t ∉ A ∧ t ∉ B := by
  have h1 : (T.take ks ++ s :: T.drop ks).Perm (s :: T) := by
    conv_rhs => rw [← List.take_append_drop ks T]
    exact List.perm_middle
  have h2 : (A ++ s :: t :: B).Perm (t :: s :: T) := by
    rw [← h]
    refine List.perm_middle.trans ?_
    rw [List.take_append_drop]
    exact h1.cons t
  have hnd2 : (t :: s :: T).Nodup := by simp [hnd, hs, ht]; exact fun e => hne e.symm
  have hnd3 : (A ++ s :: t :: B).Nodup := h2.nodup_iff.2 hnd2
  obtain ⟨n1, n2, n3⟩ := List.nodup_append'.1 hnd3
  have n4 := List.nodup_cons.1 n2
  have n5 := List.nodup_cons.1 n4.2
  have sA : s ∉ A := fun hc => n3 hc (by simp)
  have tA : t ∉ A := fun hc => n3 hc (by simp)
  refine ⟨?_, sA, n4.1, tA, n5.1⟩
  have sB : s ∉ B := fun hc => n4.1 (List.mem_cons_of_mem _ hc)
  have keep : ∀ L : List Nat, s ∉ L → t ∉ L → L.filter (fun x => x ≠ s ∧ x ≠ t) = L := by
    intro L h1 h2
    rw [List.filter_eq_self]
    intro a ha
    simp
    exact ⟨fun e => h1 (e ▸ ha), fun e => h2 (e ▸ ha)⟩
  have e1 : (A ++ s :: t :: B).filter (fun x => x ≠ s ∧ x ≠ t) = A ++ B := by
    rw [List.filter_append, keep A sA tA, List.filter_cons_of_neg (by simp), List.filter_cons_of_neg (by simp), keep B sB n5.1]
  have e2 : (T.take ks ++ s :: T.drop ks).filter (fun x => x ≠ s ∧ x ≠ t) = T := by
    rw [List.filter_append, List.filter_cons_of_neg (by simp), ← List.filter_append, List.take_append_drop]
    exact keep T hs ht
  have e3 : ((T.take ks ++ s :: T.drop ks).take kt ++ t :: (T.take ks ++ s :: T.drop ks).drop kt).filter
      (fun x => x ≠ s ∧ x ≠ t) = T := by
    rw [List.filter_append, List.filter_cons_of_neg (by simp), ← List.filter_append, List.take_append_drop]
    exact e2
  rw [h, e1] at e3
  exact e3.symm

/-- two adjacent edges more or less do not change the parity of the others -/
theorem alt_insert {back back' : Nat → Bool} {A B : List Nat} {s t : Nat}
    (h : ∀ (i e : Nat), (A ++ B)[i]? = some e → back e = decide (i % 2 = 0)) (hb : ∀ x, x ∈ A ++ B → back' x = back x)
    (hs : back' s = decide (A.length % 2 = 0)) (ht : back' t = !back' s) :
    ∀ (i e : Nat), (A ++ s :: t :: B)[i]? = some e → back' e = decide (i % 2 = 0) := by
  intro i e hi
  by_cases h1 : i < A.length
  · rw [List.getElem?_append_left h1] at hi
    rw [hb e (List.mem_append_left _ (List.mem_of_getElem? hi))]
    exact h i e (by rw [List.getElem?_append_left h1]; exact hi)
  · rw [List.getElem?_append_right (by omega)] at hi
    obtain ⟨k, rfl⟩ : ∃ k, i = A.length + k := ⟨i - A.length, by omega⟩
    rw [Nat.add_sub_cancel_left] at hi
    match k, hi with
    | 0, hi => simp at hi; subst hi; simpa using hs
    | 1, hi =>
      simp at hi; subst hi
      rw [ht, hs]
      rcases Nat.mod_two_eq_zero_or_one A.length with h | h <;> simp [h, Nat.add_mod]
    | k + 2, hi =>
      simp at hi
      rw [hb e (List.mem_append_right _ (List.mem_of_getElem? hi)), h (A.length + k) e (by
        rw [List.getElem?_append_right (by omega), Nat.add_sub_cancel_left]; exact hi)]
      congr 1
      apply propext
      omega

theorem alt_remove {back : Nat → Bool} {A B : List Nat} {s t : Nat}
    (h : ∀ (i e : Nat), (A ++ s :: t :: B)[i]? = some e → back e = decide (i % 2 = 0)) :
    (∀ (i e : Nat), (A ++ B)[i]? = some e → back e = decide (i % 2 = 0)) ∧ back t = !back s := by
  constructor
  · intro i e hi
    by_cases h1 : i < A.length
    · rw [List.getElem?_append_left h1] at hi
      exact h i e (by rw [List.getElem?_append_left h1]; exact hi)
    · rw [List.getElem?_append_right (by omega)] at hi
      rw [h (i + 2) e (by
        rw [List.getElem?_append_right (by omega), show i + 2 - A.length = (i - A.length) + 2 by omega]
        simpa using hi)]
      congr 1
      apply propext
      omega
  · have h1 := h A.length s (by simp)
    have h2 := h (A.length + 1) t (by simp)
    rw [h1, h2]
    rcases Nat.mod_two_eq_zero_or_one A.length with h | h <;> simp [h, Nat.add_mod]

theorem start_ok {l pre rest : List Vtx} {st : St} {s t : Vtx} {ins : Ins} {D : List Nat} {R : List Arm} (hl : Proper l)
    (hpre : l = pre ++ s :: t :: rest) (hpos : s.pos = t.pos) (hne : s.edge ≠ t.edge) (hs : s.rigt = false) (hr : t.rigt = false)
    (ht : st.TI l pre D R) :
    Fine (start ins st s t) fun st' => st'.pt = st.pt ∧ st'.res = st.res ∧ st'.last = st.last ∧
      ∃ R', st'.TI l (pre ++ [s, t]) D R' := by
  have hl1 : Proper (pre ++ s :: (t :: rest)) := hpre ▸ hl
  have hl2 : Proper ((pre ++ [s]) ++ t :: rest) := by rw [List.append_assoc]; exact hpre ▸ hl
  obtain ⟨sS, sE⟩ := (proper_next hl1).1 hs
  obtain ⟨tS, tE⟩ := (proper_next hl2).1 hr
  rw [started_snoc, not_or] at tS
  rw [ended_snoc, not_or] at tE
  have hst : s.edge ∉ st.tree := fun hc => sS ((ht.treeIff _).1 hc).1
  have htt : t.edge ∉ st.tree := fun hc => tS.1 ((ht.treeIff _).1 hc).1
  have hsall : s.edge ∉ D ++ flat R := fun hc => sS ((ht.all _).1 hc)
  have htall : t.edge ∉ D ++ flat R := fun hc => tS.1 ((ht.all _).1 hc)
  have hcs : co l s.edge false = s.pos := by rw [← hs]; exact co_mem hl (by rw [hpre]; simp)
  have hct : co l t.edge false = t.pos := by rw [← hr]; exact co_mem hl (by rw [hpre]; simp)
  unfold start
  cases hks : ins st.tree s with
  | none => exact .inl (by unfold treeInsert; simp only [ass, if_pos hst]; rfl)
  | some ks =>
  have h1 : treeInsert st (some ks) s.edge = .ok { st with tree := st.tree.take ks ++ s.edge :: st.tree.drop ks } := by
    unfold treeInsert
    simp only [ass, if_pos hst]; rfl
  rw [h1, bind_ok]
  have htt1 : t.edge ∉ st.tree.take ks ++ s.edge :: st.tree.drop ks := by
    intro hc
    rcases List.mem_append.1 hc with hc | hc
    · exact htt (List.mem_of_mem_take hc)
    · rcases List.mem_cons.1 hc with hc | hc
      · exact hne hc.symm
      · exact htt (List.mem_of_mem_drop hc)
  simp only
  cases hkt : ins (st.tree.take ks ++ s.edge :: st.tree.drop ks) t with
  | none => exact .inl (by unfold treeInsert; simp only [ass, if_pos htt1]; rfl)
  | some kt =>
  have h2 : treeInsert { st with tree := st.tree.take ks ++ s.edge :: st.tree.drop ks } (some kt) t.edge = .ok { st with
      tree := (st.tree.take ks ++ s.edge :: st.tree.drop ks).take kt ++
        t.edge :: (st.tree.take ks ++ s.edge :: st.tree.drop ks).drop kt } := by
    unfold treeInsert
    simp only [ass, if_pos htt1]; rfl
  rw [h2, bind_ok]
  refine (Fine.ass (.inl rfl)).bind fun _ hnext => ?_
  obtain ⟨A, B, hAB⟩ := treeNext_split hnext
  simp only at hAB
  obtain ⟨hT, sA, sB, tA, tB⟩ := insert_filter hst htt hne ht.treeNd hAB
  have hprev := treePrev_split (x := s.edge) (B := t.edge :: B) sB sA
  simp only [hAB, hprev]
  generalize hb : (match A.getLast? with | some er => !st.back er | none => true) = b
  have hbpar : b = decide (A.length % 2 = 0) := by
    rw [← hb]
    cases hlast : A.getLast? with
    | none =>
      have : A = [] := by simpa using hlast
      rw [this]; rfl
    | some er =>
      obtain ⟨A', rfl⟩ := List.getLast?_eq_some_iff.1 hlast
      have := ht.alt A'.length er (by rw [hT]; simp)
      simp only [this, List.length_append, List.length_singleton]
      rcases Nat.mod_two_eq_zero_or_one A'.length with h | h <;> simp [h, Nat.add_mod]
  have hts : t.edge ≠ s.edge := fun e => hne e.symm
  have hset : ∀ back' : Nat → Bool, back' s.edge = b → back' t.edge = !b → (∀ x, x ≠ s.edge → x ≠ t.edge → back' x = st.back x) →
      ∃ R', TInv l (pre ++ [s, t]) (Ring.chain (Ring.init (Ring.init st.ring s.edge) t.edge) s.edge t.edge) back'
        (A ++ s.edge :: t.edge :: B) st.offs st.res D R' := by
    intro back' b1 b2 b3
    have hin : ∀ L, IsRing st.ring L → s.edge ∉ L → t.edge ∉ L →
        IsRing (Ring.init (Ring.init st.ring s.edge) t.edge) L := fun L hL h1 h2 =>
      (Ring.C38_init _ _).2 _ ((Ring.C38_init _ _).2 _ hL h1) h2
    have hrs : IsRing (Ring.init (Ring.init st.ring s.edge) t.edge) [s.edge] :=
      (Ring.C38_init _ _).2 _ (Ring.C38_init _ _).1 (by simpa using hts)
    have hrt : IsRing (Ring.init (Ring.init st.ring s.edge) t.edge) [t.edge] := (Ring.C38_init _ _).1
    have hj := Ring.C38_join (P := []) (N := []) hrs hrt (by simpa using hts)
    simp only [List.append_nil] at hj
    have hmemT : ∀ x, x ∈ A ++ s.edge :: t.edge :: B ↔ x ∈ st.tree ∨ x = s.edge ∨ x = t.edge := by
      intro x; rw [hT]; simp; tauto
    -- the new ring
    obtain ⟨r, hrl, hrok⟩ : ∃ r : Arm, r.list.Perm [s.edge, t.edge] ∧
        ArmOk l (Ring.chain (Ring.init (Ring.init st.ring s.edge) t.edge) s.edge t.edge) back' (A ++ s.edge :: t.edge :: B) r := by
      cases hbv : b with
      | true =>
        rw [hbv] at b1 b2
        refine ⟨(s.edge, [], t.edge), by simp [Arm.list], by simpa [Arm.list] using hj, by simp, by simp, by simp, b1, by simpa using b2, ?_⟩
        simp only [Arm.list, List.cons_append, List.nil_append, List.isChain_cons_cons, List.isChain_singleton, and_true]
        rw [b1, b2]
        simp only [Bool.not_true]
        rw [hcs, hct, hpos]
      | false =>
        rw [hbv] at b1 b2
        refine ⟨(t.edge, [], s.edge), ?_, ?_, by simp, by simp, by simp, by simpa using b2, b1, ?_⟩
        · simp only [Arm.list, List.cons_append, List.nil_append]
          exact List.Perm.swap _ _ _
        · simp only [Arm.list, List.cons_append, List.nil_append]
          exact Ring.ring_rot (A := [s.edge]) (B := [t.edge]) hj
        · simp only [Arm.list, List.cons_append, List.nil_append, List.isChain_cons_cons, List.isChain_singleton, and_true]
          rw [b1, b2]
          simp only [Bool.not_false, Bool.not_true]
          rw [hcs, hct, hpos]
    have hflat : (flat (r :: R)).Perm (s.edge :: t.edge :: flat R) := by
      unfold flat
      rw [List.flatMap_cons]
      exact hrl.append_right _
    have hflatD : (D ++ flat (r :: R)).Perm (s.edge :: t.edge :: (D ++ flat R)) := by
      refine (hflat.append_left D).trans ?_
      refine List.perm_middle.trans ?_
      exact List.perm_middle.cons _
    refine ⟨r :: R, ?_, ?_, ?_, ?_, ?_, ?_, ?_, ht.pathsNd, ?_, ht.auxLt, ht.offsLe⟩
    · have h := ht.treeNd
      rw [hT] at h
      obtain ⟨n1, n2, n3⟩ := List.nodup_append'.1 h
      refine List.nodup_append'.2 ⟨n1, List.nodup_cons.2 ⟨sB, List.nodup_cons.2 ⟨tB, n2⟩⟩, ?_⟩
      intro x hx hx'
      rcases List.mem_cons.1 hx' with rfl | hx'
      · exact sA hx
      · rcases List.mem_cons.1 hx' with rfl | hx'
        · exact tA hx
        · exact n3 hx hx'
    · intro e
      rw [hmemT, ht.treeIff, show pre ++ [s, t] = (pre ++ [s]) ++ [t] by simp]
      simp only [started_snoc, ended_snoc, hs, hr]
      constructor
      · rintro (⟨h1, h2⟩ | rfl | rfl)
        · exact ⟨.inl (.inl h1), by simpa using h2⟩
        · exact ⟨.inl (.inr ⟨rfl, trivial⟩), by simpa using sE⟩
        · exact ⟨.inr ⟨rfl, trivial⟩, by simpa using tE.1⟩
      · rintro ⟨(h1 | h1) | h1, h2⟩
        · exact .inl ⟨h1, by simpa using h2⟩
        · exact .inr (.inl h1.1.symm)
        · exact .inr (.inr h1.1.symm)
    · refine alt_insert (back := st.back) (hT ▸ ht.alt) ?_ (by rw [b1, hbpar]) (by rw [b1, b2])
      intro x hx
      rw [← hT] at hx
      exact b3 x (fun e => hst (e ▸ hx)) (fun e => htt (e ▸ hx))
    · intro q hq
      rcases List.mem_cons.1 hq with rfl | hq
      · exact hrok
      · have okq := ht.arms q hq
        have hsq : s.edge ∉ q.list := fun hc => hsall (List.mem_append_right _ (mem_flat hq hc))
        have htq : t.edge ∉ q.list := fun hc => htall (List.mem_append_right _ (mem_flat hq hc))
        refine okq.frame ?_ (fun x hx => b3 x (fun e => hsq (e ▸ hx)) (fun e => htq (e ▸ hx))) ?_
        · exact frame_chain (hin _ okq.ring hsq htq) hsq htq hrs (by simp) hrt (by simp)
        · intro x hx
          rw [hmemT]
          constructor
          · rintro (h | h | h)
            · exact h
            · exact absurd (h ▸ hx) hsq
            · exact absurd (h ▸ hx) htq
          · exact .inl
    · rw [hflatD.nodup_iff, List.nodup_cons, List.nodup_cons]
      refine ⟨?_, htall, ht.nd⟩
      intro hc
      rcases List.mem_cons.1 hc with hc | hc
      · exact hne hc
      · exact hsall hc
    · intro e
      rw [hflatD.mem_iff, List.mem_cons, List.mem_cons, ht.all, show pre ++ [s, t] = (pre ++ [s]) ++ [t] by simp]
      simp only [started_snoc, hs, hr, and_true]
      constructor
      · rintro (rfl | rfl | h)
        · exact .inl (.inr rfl)
        · exact .inr rfl
        · exact .inl (.inl h)
      · rintro ((h | h) | h)
        · exact .inr (.inr h)
        · exact .inl h.symm
        · exact .inr (.inl h.symm)
    · intro e he
      rw [hflat.mem_iff]
      rcases (hmemT e).1 he with h | h | h
      · simp [ht.treeR e h]
      · simp [h]
      · simp [h]
    · rw [dirOf_congr (fun e he => b3 e (fun h => hsall (List.mem_append_left _ (h ▸ he)))
        (fun h => htall (List.mem_append_left _ (h ▸ he))))]
      exact ht.perm
  unfold listInit2
  refine (Fine.ass (.inr ?_)).bind fun _ _ => Fine.ok ⟨rfl, rfl, rfl, ?_⟩
  · simp [hne]
  · refine hset _ ?_ ?_ ?_
    · simp [hne]; exact hb
    · simp; exact hb
    · intro x hx hx'
      simp [hx, hx']

end Hob3l.Poly
