import Verif.Poly.LemmasLoop
import Verif.Poly.LemmasOrder

/-!
The assertions about the order in the plane.
-/

namespace Hob3l.Poly

/-- no assertion about the order fails, and the result is good -/
def Good {α : Type} (x : Except Err α) (Q : α → Prop) : Prop := x ≠ .error .order ∧ ∀ a, x = .ok a → Q a

theorem Good.bind {α β : Type} {x : Except Err α} {f : α → Except Err β} {Q : α → Prop} {Q' : β → Prop} (h : Good x Q)
    (hf : ∀ a, Q a → Good (f a) Q') : Good (x >>= f) Q' := by
  cases x with
  | error e =>
    have he : (Except.error e >>= f : Except Err β) = .error e := rfl
    rw [he]
    refine ⟨fun hc => h.1 ?_, fun a ha => by cases ha⟩
    rw [Except.error.inj hc]
  | ok a => exact hf a (h.2 a rfl)

theorem Good.ok {α : Type} {a : α} {Q : α → Prop} (h : Q a) : Good (.ok a) Q := by
  refine ⟨fun hc => ?_, fun b hb => ?_⟩
  · cases hc
  · cases hb; exact h

theorem Good.ass {c : Prop} [Decidable c] {e : Err} (h : e = .other ∨ c) : Good (Poly.ass c e) fun _ => c := by
  unfold Poly.ass
  split_ifs with hc
  · exact Good.ok hc
  · rcases h with rfl | h
    · exact ⟨fun hc => by simp at hc, fun a ha => by cases ha⟩
    · exact absurd h hc

theorem Good.look {α : Type} (o : Option α) : Good (Poly.look o) fun _ => True := by
  unfold Poly.look
  split
  · exact Good.ok trivial
  · exact ⟨fun hc => by simp at hc, fun _ _ => trivial⟩

theorem Good.mono {α : Type} {x : Except Err α} {Q Q' : α → Prop} (h : Good x Q) (hq : ∀ a, Q a → Q' a) : Good x Q' :=
  ⟨h.1, fun a ha => hq a (h.2 a ha)⟩

theorem clearAux_good (val : Nat) : ∀ (is aux : List Nat), Good (clearAux aux val is) fun _ => True
  | [], _ => Good.ok trivial
  | i :: is, aux => by
    unfold clearAux
    exact (Good.ass (.inl rfl)).bind fun _ _ => clearAux_good val is _

theorem append_good (r : Res) (vi offs idx : Nat) : Good (append r vi offs idx) fun _ => True := by
  unfold append
  refine (Good.look _).bind fun v _ => ?_
  refine (Good.look _).bind fun a _ => ?_
  simp only
  split_ifs
  · exact Good.ok trivial
  · refine (Good.ass (.inl rfl)).bind fun _ _ => ?_
    refine (clearAux_good _ _ _).bind fun _ _ => ?_
    refine (Good.ass (.inl rfl)).bind fun _ _ => ?_
    exact (Good.ass (.inl rfl)).bind fun _ _ => Good.ok trivial

theorem walkLoop_good (s : St) (vi e first : Nat) : ∀ (k n cnt : Nat) (r : Res),
    Good (walkLoop s vi e first k n cnt r) fun _ => True
  | 0, _, _, _ => ⟨fun hc => by simp [walkLoop] at hc, fun _ _ => trivial⟩
  | k + 1, n, cnt, r => by
    unfold walkLoop
    simp only
    split_ifs
    · exact (Good.ass (.inl rfl)).bind fun _ _ => Good.ok trivial
    · exact (append_good _ _ _ _).bind fun _ _ => walkLoop_good s vi e first k _ _ _

theorem output_good (fuel : Nat) (s : St) (es et : Nat) : Good (output fuel s es et) fun s' => s'.tree = s.tree := by
  unfold output
  refine (Good.ass (.inl rfl)).bind fun _ _ => ?_
  refine (append_good _ _ _ _).bind fun _ _ => ?_
  refine (append_good _ _ _ _).bind fun _ _ => ?_
  refine (Good.ass (.inl rfl)).bind fun _ _ => ?_
  exact (walkLoop_good _ _ _ _ _ _ _ _).bind fun _ _ => Good.ok rfl

theorem listInit2_good (s : St) (a b : Nat) : Good (listInit2 s a b) fun s' => s'.tree = s.tree := by
  unfold listInit2
  exact (Good.ass (.inl rfl)).bind fun _ _ => Good.ok rfl

theorem listInsert_good (s : St) (a b : Nat) : Good (listInsert s a b) fun s' => s'.tree = s.tree := by
  unfold listInsert
  refine (Good.ass (.inl rfl)).bind fun _ _ => ?_
  refine (Good.ass (.inl rfl)).bind fun _ _ => ?_
  refine (Good.ass (.inl rfl)).bind fun _ _ => ?_
  refine (Good.ass (.inl rfl)).bind fun _ _ => ?_
  refine (Good.ass (.inl rfl)).bind fun _ _ => ?_
  split_ifs
  · exact (Good.ass (.inl rfl)).bind fun _ _ => Good.ok rfl
  · exact (Good.ass (.inl rfl)).bind fun _ _ => Good.ok rfl

theorem listMerge_good (s : St) (a b : Nat) : Good (listMerge s a b) fun s' => s'.tree = s.tree := by
  unfold listMerge
  refine (Good.ass (.inl rfl)).bind fun _ _ => ?_
  refine (Good.ass (.inl rfl)).bind fun _ _ => ?_
  refine (Good.ass (.inl rfl)).bind fun _ _ => ?_
  refine (Good.ass (.inl rfl)).bind fun _ _ => ?_
  refine (Good.ass (.inl rfl)).bind fun _ _ => ?_
  split_ifs
  · exact (Good.ass (.inl rfl)).bind fun _ _ => Good.ok rfl
  · exact (Good.ass (.inl rfl)).bind fun _ _ => Good.ok rfl

theorem treeRemove_good (s : St) (a : Nat) : Good (treeRemove s a) fun s' => s'.tree = s.tree.erase a := by
  unfold treeRemove
  exact (Good.ass (.inl rfl)).bind fun _ _ => Good.ok rfl

theorem treeNext_of {x y : Nat} {B : List Nat} : ∀ {A : List Nat}, x ∉ A → treeNext (A ++ x :: y :: B) x = some y
  | [], _ => by simp [treeNext]
  | [a], h => by
    have : a ≠ x := fun hc => h (by simp [hc])
    simp [treeNext, this]
  | a :: b :: A, h => by
    have : a ≠ x := fun hc => h (by simp [hc])
    have ih := treeNext_of (x := x) (y := y) (B := B) (A := b :: A) (fun hc => h (List.mem_cons_of_mem _ hc))
    show treeNext (a :: b :: (A ++ x :: y :: B)) x = some y
    rw [treeNext, if_neg this]
    exact ih

section
variable {ed : Nat → Bool → P} {l : List Vtx}

/-- one step -/
theorem step_good (hl : Proper l) (ha : Arranged ed l) {ins : Ins} (hins : IsSearch ed ins) {fuel : Nat} {pre rest : List Vtx}
    {s t : Vtx} {st : St} {D : List Nat} {R : List Arm} (h : l = pre ++ s :: t :: rest) (hpos : s.pos = t.pos)
    (hne : s.edge ≠ t.edge) (ht : st.TI l pre D R) (hb : st.tree.Pairwise fun e f => Below (sg ed e) (sg ed f)) :
    Good (step ins fuel st s t) fun st' => st'.tree.Pairwise fun e f => Below (sg ed e) (sg ed f) := by
  have hl1 : Proper (pre ++ s :: (t :: rest)) := h ▸ hl
  have hl2 : Proper ((pre ++ [s]) ++ t :: rest) := by rw [List.append_assoc]; exact h ▸ hl
  have hord := before_of hl ha (A := pre ++ [s]) (B := t :: rest) (by rw [h]; simp) (by simp : s ∈ _) (List.mem_cons_self)
  unfold step
  split_ifs with h1 h2
  · -- BEND
    have hs : s.rigt = true ∧ t.rigt = false := by
      rcases hord with hc | ⟨-, hc | hc⟩
      · rw [hpos] at hc; exact absurd hc Lt.irrefl
      · exact hc
      · exact absurd hc.1 h1
    unfold bend
    refine (Good.ass (.inr hs.1)).bind fun _ _ => ?_
    refine (Good.ass (.inr hs.2)).bind fun _ _ => ?_
    have hrep : Good (treeReplace st s.edge t.edge) fun s' => s'.tree = st.tree.map fun x => if x = s.edge then t.edge else x := by
      unfold treeReplace
      refine (Good.ass (.inl rfl)).bind fun _ _ => ?_
      refine (Good.ass (.inl rfl)).bind fun _ _ => ?_
      exact (Good.ass (.inl rfl)).bind fun _ _ => Good.ok rfl
    refine hrep.bind fun s1 e1 => ?_
    refine (listInsert_good _ _ _).mono fun s2 e2 => ?_
    rw [e2]
    show s1.tree.Pairwise _
    rw [e1, List.pairwise_map]
    have hnd : st.tree.Pairwise fun a b => a ≠ b := ht.treeNd
    refine List.Pairwise.imp_of_mem ?_ (hb.and hnd)
    rintro e f he hf ⟨hef, hneq⟩
    have be := fun (x : Nat) (hx : x ∈ st.tree) (hxs : x ≠ s.edge) => bend_below hl ha h hpos hs.1 hs.2 ((ht.treeIff x).1 hx).1 ((ht.treeIff x).1 hx).2 hxs
    by_cases h3 : e = s.edge
    · rw [if_pos h3, if_neg (fun hc => hneq (by rw [h3, hc]))]
      rw [h3] at hef
      exact (be f hf (fun hc => hneq (by rw [h3, hc]))).2 hef
    · rw [if_neg h3]
      by_cases h4 : f = s.edge
      · rw [if_pos h4]
        rw [h4] at hef
        exact (be e he h3).1 hef
      · rw [if_neg h4]; exact hef
  · -- START
    have hr : t.rigt = false := by
      have : s.rigt = t.rigt := not_not.1 h1
      rw [← this]; exact h2
    obtain ⟨A, B, e, i1, i2, hp⟩ := start_place hl ha hins h hpos hne h2 hr ht.treeIff hb
    unfold start
    have g1 : Good (treeInsert st (ins st.tree s) s.edge) fun s1 => s1.tree = A ++ s.edge :: B := by
      unfold treeInsert
      refine (Good.ass (.inl rfl)).bind fun _ _ => ?_
      rw [i1]
      refine Good.ok ?_
      show st.tree.take A.length ++ s.edge :: st.tree.drop A.length = _
      rw [e]; simp
    refine g1.bind fun s1 e1 => ?_
    have g2 : Good (treeInsert s1 (ins s1.tree t) t.edge) fun s2 => s2.tree = A ++ s.edge :: t.edge :: B := by
      unfold treeInsert
      refine (Good.ass (.inl rfl)).bind fun _ _ => ?_
      rw [e1, i2]
      refine Good.ok ?_
      show (A ++ s.edge :: B).take (A.length + 1) ++ t.edge :: (A ++ s.edge :: B).drop (A.length + 1) = _
      have : A ++ s.edge :: B = (A ++ [s.edge]) ++ B := by simp
      rw [this]
      have hlen : A.length + 1 = (A ++ [s.edge]).length := by simp
      rw [hlen, List.take_left, List.drop_left]
      simp
    refine g2.bind fun s2 e2 => ?_
    have sS := ((proper_next hl1).1 h2).1
    have hsA : s.edge ∉ A := fun hc => sS ((ht.treeIff _).1 (by rw [e]; simp [hc])).1
    refine (Good.ass (.inr (by rw [e2]; exact treeNext_of hsA))).bind fun _ _ => ?_
    refine (listInit2_good _ _ _).mono fun s3 e3 => ?_
    rw [e3]
    show s2.tree.Pairwise _
    rw [e2]
    exact hp
  · -- END
    have hs : s.rigt = true := by simpa using h2
    have hr : t.rigt = true := by
      have : s.rigt = t.rigt := not_not.1 h1
      rw [← this]; exact hs
    obtain ⟨sS, sE⟩ := (proper_next hl1).2 hs
    obtain ⟨tS, tE⟩ := (proper_next hl2).2 hr
    rw [started_snoc] at tS
    have tS : Started pre t.edge := by
      rcases tS with h | h
      · exact h
      · rw [hs] at h; simp at h
    rw [ended_snoc, not_or] at tE
    have hst : s.edge ∈ st.tree := (ht.treeIff _).2 ⟨sS, sE⟩
    have htt : t.edge ∈ st.tree := (ht.treeIff _).2 ⟨tS, tE.1⟩
    obtain ⟨A, B, e⟩ := end_adjacent hl ha h hpos hne hs hr ht.treeNd ht.treeIff hb hst htt
    have hback : st.back s.edge = !st.back t.edge := by
      have b1 := ht.alt A.length t.edge (by rw [e]; simp)
      have b2 := ht.alt (A.length + 1) s.edge (by rw [e]; simp)
      rw [b1, b2]
      rcases Nat.mod_two_eq_zero_or_one A.length with h | h <;> simp [h, Nat.add_mod]
    have htA : t.edge ∉ A := by
      have := ht.treeNd
      rw [e, List.nodup_append] at this
      exact fun hc => this.2.2 _ hc _ (List.mem_cons_self) rfl
    unfold finish
    refine (Good.ass (.inl rfl)).bind fun _ _ => ?_
    refine (Good.ass (.inr hback)).bind fun _ _ => ?_
    refine (Good.ass (.inr (by rw [e]; exact treeNext_of htA))).bind fun _ _ => ?_
    have hsub : ∀ T, T = (st.tree.erase s.edge).erase t.edge → T.Pairwise fun e f => Below (sg ed e) (sg ed f) := by
      rintro T rfl
      exact hb.sublist (List.erase_sublist.trans List.erase_sublist)
    generalize (if st.back t.edge = true then st.ring.prv t.edge else st.ring.nxt t.edge) = q
    split_ifs
    · refine (treeRemove_good _ _).bind fun s1 e1 => ?_
      refine (treeRemove_good _ _).bind fun s2 e2 => ?_
      refine (Good.ass (.inl rfl)).bind fun _ _ => ?_
      refine (output_good _ _ _ _).mono fun s3 e3 => ?_
      exact hsub _ (by rw [e3, e2, e1])
    · refine (treeRemove_good _ _).bind fun s1 e1 => ?_
      refine (treeRemove_good _ _).bind fun s2 e2 => ?_
      refine (listMerge_good _ _ _).mono fun s3 e3 => ?_
      exact hsub _ (by rw [e3, e2, e1])

/-- the loop over a part of the vertices -/
theorem loop_good {suf : List Vtx} {ins : Ins} {fuel : Nat} (hl : Proper l) (ha : Arranged ed l) (hins : IsSearch ed ins)
    (hfuel : l.length ≤ fuel) (hM : 2 * l.length + 2 < M) :
    ∀ {rest : List Vtx} {pre : List Vtx} {st : St} {D : List Nat} {R : List Arm},
    l = pre ++ (rest ++ suf) → (suf = [] ∨ rest.length % 2 = 0) → PtInv pre st → st.TI l pre D R →
    (st.tree.Pairwise fun e f => Below (sg ed e) (sg ed f)) →
    Good (loop ins fuel rest st) fun r => r.1 = true → r.2.tree.Pairwise fun e f => Below (sg ed e) (sg ed f)
  | [], pre, st, D, R, _, _, hp, ht, hb => Good.ok fun _ => hb
  | [s], pre, st, D, R, hpre, hev, hp, ht, hb => by
    rcases hev with rfl | h
    · exact (not_alone hl hpre ht).elim
    · simp at h
  | s :: t :: rest', pre, st, D, R, hpre0, hev, hp, ht, hb => by
    have hpre : l = pre ++ s :: t :: (rest' ++ suf) := by rw [hpre0]; rfl
    obtain ⟨st2, t2, e2, h1, h2⟩ := loop_two (ins := ins) hl hfuel hM rest' hpre hp ht
    by_cases hpos : s.pos = t.pos
    · obtain ⟨hne, h3, h4⟩ := h2 hpos
      rw [h3]
      have hg := step_good hl ha hins (fuel := fuel) hpre hpos hne t2 (by rw [e2]; exact hb)
      rcases h4 with h4 | ⟨st3, h4, p3, D', R', t3⟩
      · exact absurd h4 hg.1
      · rw [h4, bind_ok]
        exact loop_good (rest := rest') (pre := pre ++ [s, t]) hl ha hins hfuel hM (by rw [hpre]; simp)
          (hev.imp_right fun h => by simp only [List.length_cons] at h; omega) p3 t3 (hg.2 _ h4)
    · rw [h1 hpos]
      exact Good.ok fun h => by simp at h

end

end Hob3l.Poly
