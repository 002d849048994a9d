import Verif.Sweep.LemmasReduceGeo
import Verif.Dict.Props

/-
Events of the reduction: insertion into and removal from the tree, annotation of the edges.
-/

namespace Hob3l.Sweep

open Hob3l.Matq

theorem treeAll_iff (p : Edge → Bool) (t : Dict.Tree Edge) : treeAll p t = true ↔ ∀ e ∈ Dict.toList t, p e = true := by
  induction t with
  | leaf => simp [treeAll, Dict.toList]
  | node l e s r ihl ihr =>
    simp only [treeAll, Bool.and_eq_true, ihl, ihr, Dict.toList, List.mem_append, List.mem_cons]
    constructor
    · rintro ⟨⟨h1, h2⟩, h3⟩ x (h | rfl | h)
      · exact h1 x h
      · exact h2
      · exact h3 x h
    · intro h
      exact ⟨⟨fun x hx => h x (Or.inl hx), h e (Or.inr (Or.inl rfl))⟩, fun x hx => h x (Or.inr (Or.inr hx))⟩

theorem stateInsert_ok {e : Edge} {t : Dict.Tree Edge} {A C : List Edge} (hv : Dict.Valid t)
    (hl : Dict.toList t = A ++ C) (he : e ∉ A ++ C)
    (hA : ∀ a ∈ A, ∃ i, treeVertexEdgeCmp e.left e.rigt a.left a.rigt = some i ∧ 0 < i)
    (hC : ∀ a ∈ C, ∃ i, treeVertexEdgeCmp e.left e.rigt a.left a.rigt = some i ∧ i < 0) :
    ∃ t', stateInsert e t = some (none, t') ∧ Dict.Valid t' ∧ Dict.toList t' = A ++ e :: C := by
  obtain ⟨cmp, hcmp⟩ : ∃ cmp : Edge → Int, cmp = fun o => (treeVertexEdgeCmp e.left e.rigt o.left o.rigt).getD 0 := ⟨_, rfl⟩
  have cA : ∀ a ∈ A, 0 < cmp a := by
    intro a ha
    obtain ⟨i, h1, h2⟩ := hA a ha
    rw [hcmp]; simp only [h1, Option.getD_some]; exact h2
  have cC : ∀ a ∈ C, cmp a < 0 := by
    intro a ha
    obtain ⟨i, h1, h2⟩ := hC a ha
    rw [hcmp]; simp only [h1, Option.getD_some]; exact h2
  have hs : Dict.Sorted cmp (Dict.toList t) := by
    unfold Dict.Sorted
    rw [hl, List.pairwise_append]
    refine ⟨?_, ?_, ?_⟩
    · refine List.Pairwise.imp_of_mem (R := fun _ _ => True) ?_ (List.pairwise_of_forall (fun _ _ => trivial))
      intro a b ha hb _
      have := cA a ha
      constructor <;> intro _ <;> omega
    · refine List.Pairwise.imp_of_mem (R := fun _ _ => True) ?_ (List.pairwise_of_forall (fun _ _ => trivial))
      intro a b ha hb _
      have := cC b hb
      constructor <;> intro _ <;> omega
    · intro a ha b hb
      have := cC b hb
      constructor <;> intro _ <;> omega
  have hnone : Dict.findRet cmp 0 t = none := by
    refine (Dict.C30_lookup t cmp hs).2 ?_
    intro a ha
    rw [hl] at ha
    rcases List.mem_append.mp ha with h | h
    · have := cA a h; omega
    · have := cC a h; omega
  obtain ⟨t', h1, h2, h3⟩ := (Dict.C30_insert_by t hv e (by rw [hl]; exact he) cmp 0 hs).2 hnone
  have hins : ∃ r, Dict.insertRef e (Dict.findRef cmp 0 t).p (Dict.findRef cmp 0 t).i t = some (t', r) := by
    unfold Dict.insertUpdateBy at h1
    rw [hnone] at h1
    simp only [Option.bind_eq_bind] at h1
    cases hr : Dict.insertRef e (Dict.findRef cmp 0 t).p (Dict.findRef cmp 0 t).i t with
    | none => rw [hr] at h1; simp at h1
    | some r =>
      rw [hr] at h1
      simp only [Option.bind_some, Option.some.injEq, Dict.Inserted.mk.injEq, true_and] at h1
      exact ⟨r.2, by rw [← h1.1]⟩
  obtain ⟨r, hr⟩ := hins
  refine ⟨t', ?_, h2, ?_⟩
  · unfold stateInsert
    have m1 : Dict.mem e t = false := by
      rw [← Bool.not_eq_true, Dict.mem_iff, hl]; exact he
    have m2 : treeAll (fun o => (treeVertexEdgeCmp e.left e.rigt o.left o.rigt).isSome) t = true := by
      rw [treeAll_iff]
      intro a ha
      rw [hl] at ha
      rcases List.mem_append.mp ha with h | h
      · obtain ⟨i, h1, -⟩ := hA a h; simp [h1]
      · obtain ⟨i, h1, -⟩ := hC a h; simp [h1]
    rw [ass_true m1, ass_true m2, ← hcmp]
    unfold Dict.insertUpdateBy
    rw [hnone]
    simp only [hr, Option.bind_eq_bind, Option.bind_some, Option.pure_def]
  · rw [h3, hl, List.filter_append, List.filter_append]
    have f1 : A.filter (fun a => decide (cmp a > 0 ∨ cmp a = 0 ∧ (0:Int) > 0)) = A := by
      rw [List.filter_eq_self]; intro a ha; have := cA a ha; simp; omega
    have f2 : C.filter (fun a => decide (cmp a > 0 ∨ cmp a = 0 ∧ (0:Int) > 0)) = [] := by
      rw [List.filter_eq_nil_iff]; intro a ha; have := cC a ha; simp; omega
    have f3 : A.filter (fun a => decide (cmp a < 0 ∨ cmp a = 0 ∧ ¬ (0:Int) > 0)) = [] := by
      rw [List.filter_eq_nil_iff]; intro a ha; have := cA a ha; simp; omega
    have f4 : C.filter (fun a => decide (cmp a < 0 ∨ cmp a = 0 ∧ ¬ (0:Int) > 0)) = C := by
      rw [List.filter_eq_self]; intro a ha; have := cC a ha; simp; omega
    rw [f1, f2, f3, f4]; simp

theorem stateRemove_ok {e : Edge} {t : Dict.Tree Edge} {A C : List Edge} (hv : Dict.Valid t)
    (hl : Dict.toList t = A ++ e :: C) :
    ∃ t', stateRemove e t = some t' ∧ Dict.Valid t' ∧ Dict.toList t' = A ++ C := by
  obtain ⟨t', h1, h2, h3⟩ := Dict.C29_remove t hv e A C hl
  refine ⟨t', ?_, h2, h3⟩
  unfold stateRemove
  rw [ass_true ((Dict.mem_iff e t).mpr (by rw [hl]; simp)), h1]
  rfl

theorem edgePrev_ok {e : Edge} {t : Dict.Tree Edge} {A C : List Edge} (hv : Dict.Valid t)
    (hl : Dict.toList t = A ++ e :: C) : edgePrev e t = some A.getLast? := by
  obtain ⟨q, h1, -, h3⟩ := Dict.C32_step t hv.2 A C e hl
  unfold edgePrev
  rw [h1, ← h3]
  rfl

/-- an edge with its annotation -/
def rho (s : RS) (e : Edge) : REdge := ⟨e.member, s.below e, s.keep e⟩

/-- the Boolean function -/
def bfun (comb : Bitmap.Mem) : BitVec 64 → Bool := fun i => comb.getLsbD i.toNat

def masks (L : List Edge) : List (BitVec 64) := L.map Edge.member

theorem masks_append (A B : List Edge) : masks (A ++ B) = masks A ++ masks B := List.map_append

theorem annot_prev {f : BitVec 64 → Bool} {s : RS} {A : List Edge} (h : A.map (rho s) = annot f 0 (masks A)) :
    maskOver s A.getLast? = xorAll (masks A) := by
  rcases List.eq_nil_or_concat A with rfl | ⟨A', p, rfl⟩
  · rfl
  · rw [List.concat_eq_append] at h ⊢
    rw [List.getLast?_append, List.getLast?_singleton]
    simp only [Option.some_or, maskOver]
    rw [masks_append, annot_append, List.map_append] at h
    have h2 := (List.append_inj h (by rw [annot_length]; simp [masks])).2
    simp only [masks, List.map_cons, List.map_nil, annot, List.cons.injEq, and_true, rho, REdge.mk.injEq, true_and] at h2
    rw [h2.1, masks_append, xorAll_append]
    simp [masks, xorAll]

section
variable {comb : Bitmap.Mem} {n : Nat} (hn : n ≤ 10)
include hn

theorem leftEvent_ok {e : Edge} {s : RS} {A C : List Edge} (hv : Dict.Valid s.tree)
    (hl : Dict.toList s.tree = A ++ C) (he : e ∉ A ++ C)
    (hA : ∀ a ∈ A, ∃ i, treeVertexEdgeCmp e.left e.rigt a.left a.rigt = some i ∧ 0 < i)
    (hC : ∀ a ∈ C, ∃ i, treeVertexEdgeCmp e.left e.rigt a.left a.rigt = some i ∧ i < 0)
    (hm : ∀ a ∈ A, a.member.toNat < 2 ^ n) (hme : e.member.toNat < 2 ^ n)
    (ann : A.map (rho s) = annot (bfun comb) 0 (masks A)) :
    ∃ s', leftEvent comb (2 ^ n) s e = some (s', s'.keep e) ∧ Dict.Valid s'.tree ∧ Dict.toList s'.tree = A ++ e :: C ∧
      (A ++ [e]).map (rho s') = annot (bfun comb) 0 (masks (A ++ [e])) ∧
      ∀ o, o ≠ e → s'.below o = s.below o ∧ s'.keep o = s.keep o := by
  obtain ⟨t', h1, h2, h3⟩ := stateInsert_ok hv hl he hA hC
  have hp := edgePrev_ok h2 h3
  have hb := annot_prev ann
  have l1 : (xorAll (masks A)).toNat < 2 ^ n := xorAll_lt n (by omega) (by
    intro m hm'
    obtain ⟨a, ha, rfl⟩ := List.mem_map.mp hm'
    exact hm a ha)
  have l2 : (xorAll (masks A) ^^^ e.member).toNat < 2 ^ n := xor_lt n (by omega) l1 hme
  obtain ⟨s', hs'⟩ : ∃ s' : RS, s' = ⟨t', Function.update s.below e (xorAll (masks A)),
    Function.update s.keep e (bfun comb (xorAll (masks A)) != bfun comb (xorAll (masks A) ^^^ e.member))⟩ := ⟨_, rfl⟩
  refine ⟨s', ?_, by rw [hs']; exact h2, by rw [hs']; exact h3, ?_, ?_⟩
  · unfold leftEvent
    simp only [h1, hp, Option.bind_eq_bind, Option.bind_some, Option.pure_def]
    rw [show ass True = some () from rfl, Option.bind_some, hb, combEval_some hn l1, Option.bind_some, combEval_some hn l2, Option.bind_some, hs']
    simp only [Function.update_self, bfun]
  · rw [List.map_append, masks_append, annot_append, BitVec.ofNat_eq_ofNat, BitVec.zero_xor]
    congr 1
    · rw [BitVec.ofNat_eq_ofNat] at ann
      rw [← ann]
      apply List.map_congr_left
      intro a ha
      have : a ≠ e := by rintro rfl; exact he (by simp [ha])
      rw [hs']
      simp only [rho, Function.update_of_ne this]
    · rw [hs']
      simp [rho, masks, annot]
  · intro o ho
    rw [hs']
    simp only [Function.update_of_ne ho, and_self]

theorem inserts_ok {q : Vec2} {A C : List Edge}
    (hA : ∀ a ∈ A, ∀ w : Vec2, w.InRange → LexLt q w → ∃ i, treeVertexEdgeCmp q w a.left a.rigt = some i ∧ 0 < i)
    (hC : ∀ a ∈ C, ∀ w : Vec2, w.InRange → LexLt q w → ∃ i, treeVertexEdgeCmp q w a.left a.rigt = some i ∧ i < 0)
    (hmA : ∀ a ∈ A, a.member.toNat < 2 ^ n) (hq : q.InRange) :
    ∀ (T S : List Edge) (s : RS), Dict.Valid s.tree → Dict.toList s.tree = A ++ S ++ C →
      (∀ e ∈ S ++ T, e.left = q ∧ LexLt q e.rigt ∧ e.rigt.InRange ∧ e.member.toNat < 2 ^ n) →
      (S ++ T).Pairwise (fun e f => side f.rigt q e.rigt < 0) →
      (∀ e ∈ T, e ∉ A ++ S ++ C) → T.Nodup →
      (A ++ S).map (rho s) = annot (bfun comb) 0 (masks (A ++ S)) →
      ∃ s', reduceLoop comb (2 ^ n) s (T.map (fun e => ⟨e, false⟩)) =
          some (s', (T.filter s'.keep).map (fun e => ⟨e, false⟩)) ∧
        Dict.Valid s'.tree ∧ Dict.toList s'.tree = A ++ (S ++ T) ++ C ∧
        (A ++ (S ++ T)).map (rho s') = annot (bfun comb) 0 (masks (A ++ (S ++ T))) ∧
        ∀ o, o ∉ T → s'.below o = s.below o ∧ s'.keep o = s.keep o := by
  intro T
  induction T with
  | nil =>
    intro S s hv hl _ _ _ _ ann
    refine ⟨s, rfl, hv, by simpa using hl, by simpa using ann, fun _ _ => ⟨rfl, rfl⟩⟩
  | cons e T ih =>
    intro S s hv hl hST hp hd hnd ann
    obtain ⟨e1, e2, e3, e4⟩ := hST e (by simp)
    have cmpA : ∀ a ∈ A ++ S, ∃ i, treeVertexEdgeCmp e.left e.rigt a.left a.rigt = some i ∧ 0 < i := by
      intro a ha
      rw [e1]
      rcases List.mem_append.mp ha with h | h
      · exact hA a h _ e3 e2
      · obtain ⟨a1, a2, a3, a4⟩ := hST a (by simp [h])
        have hs : side e.rigt q a.rigt < 0 := by
          rw [List.pairwise_append] at hp
          exact hp.2.2 a h e (by simp)
        have hz : side q a.rigt a.left = 0 := by rw [a1]; unfold side; ring
        have hw : 0 < side a.rigt q e.rigt := by rw [side_swap e.rigt q]; omega
        refine ⟨1, ?_, by decide⟩
        unfold treeVertexEdgeCmp
        rw [a1] at hz ⊢
        rw [cross3_some hq a3 hq, cross3_some a3 hq e3]
        simp only [hz, Option.bind_eq_bind, Option.bind_some]
        rw [if_neg (by decide)]
        have : cpSign (side a.rigt q e.rigt) = 1 := by
          unfold cpSign; rw [if_neg (by omega), if_pos (by omega)]
        rw [this]; rfl
    have cmpC : ∀ a ∈ C, ∃ i, treeVertexEdgeCmp e.left e.rigt a.left a.rigt = some i ∧ i < 0 := by
      intro a ha; rw [e1]; exact hC a ha _ e3 e2
    obtain ⟨s1, h1, h2, h3, h4, h5⟩ := leftEvent_ok (comb := comb) hn hv hl (hd e (by simp)) cmpA cmpC (by
      intro a ha
      rcases List.mem_append.mp ha with h | h
      · exact hmA a h
      · exact (hST a (by simp [h])).2.2.2) e4 ann
    have hnd' := List.nodup_cons.mp hnd
    obtain ⟨s', g1, g2, g3, g4, g5⟩ := ih (S ++ [e]) s1 h2 (by rw [h3]; simp) (by
        intro o ho; exact hST o (by simpa using ho)) (by simpa using hp) (by
        intro o ho
        have := hd o (by simp [ho])
        have hne : o ≠ e := by rintro rfl; exact hnd'.1 ho
        simp only [List.mem_append, List.mem_singleton, not_or] at this ⊢
        exact ⟨⟨this.1.1, this.1.2, hne⟩, this.2⟩) hnd'.2 (by simpa using h4)
    refine ⟨s', ?_, g2, by simpa using g3, by simpa using g4, ?_⟩
    · rw [List.map_cons, reduceLoop]
      simp only [reduceEvent, h1, g1, Option.bind_eq_bind, Option.bind_some, Option.pure_def, Bool.false_eq_true, if_false]
      rw [← (g5 e hnd'.1).2, List.filter_cons]
      split_ifs <;> rfl
    · intro o ho
      simp only [List.mem_cons, not_or] at ho
      obtain ⟨a1, a2⟩ := g5 o ho.2
      obtain ⟨b1, b2⟩ := h5 o ho.1
      exact ⟨a1.trans b1, a2.trans b2⟩

end

theorem removes_ok {comb : Bitmap.Mem} {N : Nat} : ∀ (T : List Edge) (s : RS), Dict.Valid s.tree →
    (∀ e ∈ T, e ∈ Dict.toList s.tree) → T.Nodup →
    ∃ t', reduceLoop comb N s (T.map (fun e => ⟨e, true⟩)) =
        some (⟨t', s.below, s.keep⟩, (T.filter s.keep).map (fun e => ⟨e, true⟩)) ∧
      Dict.Valid t' ∧ Dict.toList t' = (Dict.toList s.tree).filter (fun e => e ∉ T) := by
  intro T
  induction T with
  | nil => intro s hv _ _; exact ⟨s.tree, rfl, hv, by simp⟩
  | cons e T ih =>
    intro s hv hT hnd
    obtain ⟨A, C, hl⟩ := List.append_of_mem (hT e (by simp))
    obtain ⟨t1, h1, h2, h3⟩ := stateRemove_ok hv hl
    have hnd' := List.nodup_cons.mp hnd
    have hLnd := hv.2
    rw [hl] at hLnd
    have hec : e ∉ A ++ C := by
      have := List.nodup_middle.mp hLnd
      exact (List.nodup_cons.mp this).1
    obtain ⟨t', g1, g2, g3⟩ := ih ⟨t1, s.below, s.keep⟩ h2 (by
      intro o ho
      have := hT o (by simp [ho])
      rw [hl] at this
      have hne : o ≠ e := by rintro rfl; exact hnd'.1 ho
      show o ∈ Dict.toList t1
      rw [h3]
      simp only [List.mem_append, List.mem_cons] at this ⊢
      tauto) hnd'.2
    refine ⟨t', ?_, g2, ?_⟩
    · rw [List.map_cons, reduceLoop]
      simp only [reduceEvent, rigtEvent, h1, g1, Option.bind_eq_bind, Option.bind_some, Option.pure_def, if_true]
      rw [List.filter_cons]
      split_ifs <;> rfl
    · rw [g3]
      show (Dict.toList t1).filter _ = _
      rw [h3, hl, List.filter_append, List.filter_append, List.filter_cons]
      simp only [List.mem_cons, true_or, not_true_eq_false, decide_false, Bool.false_eq_true, if_false]
      congr 1
      · apply List.filter_congr
        intro a ha
        have : a ≠ e := by rintro rfl; exact hec (by simp [ha])
        simp [this]
      · apply List.filter_congr
        intro a ha
        have : a ≠ e := by rintro rfl; exact hec (by simp [ha])
        simp [this]

theorem reduceLoop_append {comb : Bitmap.Mem} {N : Nat} {a b : List RV} {s s1 s2 : RS} {o1 o2 : List RV}
    (h1 : reduceLoop comb N s a = some (s1, o1)) (h2 : reduceLoop comb N s1 b = some (s2, o2)) :
    reduceLoop comb N s (a ++ b) = some (s2, o1 ++ o2) := by
  induction a generalizing s o1 with
  | nil =>
    simp only [reduceLoop, Option.some.injEq, Prod.mk.injEq] at h1
    obtain ⟨rfl, rfl⟩ := h1
    exact h2
  | cons v a ih =>
    rw [List.cons_append, reduceLoop]
    rw [reduceLoop] at h1
    cases hr : reduceEvent comb N s v with
    | none => rw [hr] at h1; simp at h1
    | some r =>
      rw [hr] at h1
      simp only [Option.bind_eq_bind, Option.bind_some, Option.pure_def] at h1 ⊢
      cases hq : reduceLoop comb N r.1 a with
      | none => rw [hq] at h1; simp at h1
      | some q =>
        rw [hq] at h1
        simp only [Option.bind_some, Option.some.injEq, Prod.mk.injEq] at h1
        obtain ⟨h1, h1'⟩ := h1
        have := ih (s := r.1) (o1 := q.2) (by rw [hq, ← h1])
        rw [this]
        simp only [Option.bind_some, Option.some.injEq, Prod.mk.injEq, true_and]
        rw [← h1']
        split_ifs <;> rfl

theorem reduceLoop_keep {comb : Bitmap.Mem} {N : Nat} {l : List RV} {s s' : RS} {o : List RV}
    (h : reduceLoop comb N s l = some (s', o)) (e : Edge) (he : (⟨e, false⟩ : RV) ∉ l) : s'.keep e = s.keep e := by
  induction l generalizing s o with
  | nil =>
    simp only [reduceLoop, Option.some.injEq, Prod.mk.injEq] at h
    rw [h.1]
  | cons v l ih =>
    rw [reduceLoop] at h
    cases hr : reduceEvent comb N s v with
    | none => rw [hr] at h; simp at h
    | some r =>
      rw [hr] at h
      simp only [Option.bind_eq_bind, Option.bind_some, Option.pure_def] at h
      cases hq : reduceLoop comb N r.1 l with
      | none => rw [hq] at h; simp at h
      | some q =>
        rw [hq] at h
        simp only [Option.bind_some, Option.some.injEq, Prod.mk.injEq] at h
        have h1 := ih (s := r.1) (o := q.2) (by rw [hq, ← h.1]) (fun h' => he (List.mem_cons_of_mem _ h'))
        rw [h1]
        unfold reduceEvent at hr
        obtain ⟨v1, v2⟩ := v
        cases v2 with
        | true =>
          simp only [if_true, rigtEvent, Option.bind_eq_bind, Option.pure_def] at hr
          cases ht : stateRemove v1 s.tree with
          | none => rw [ht] at hr; simp at hr
          | some t => rw [ht] at hr; simp only [Option.bind_some, Option.some.injEq] at hr; rw [← hr]
        | false =>
          have hne : e ≠ v1 := by rintro rfl; exact he (by simp)
          simp only [Bool.false_eq_true, if_false, leftEvent, Option.bind_eq_bind, Option.pure_def] at hr
          obtain ⟨r1, -, hr⟩ := Option.bind_eq_some_iff.mp hr
          obtain ⟨r2, -, hr⟩ := Option.bind_eq_some_iff.mp hr
          obtain ⟨r3, -, hr⟩ := Option.bind_eq_some_iff.mp hr
          obtain ⟨r4, -, hr⟩ := Option.bind_eq_some_iff.mp hr
          obtain ⟨r5, -, hr⟩ := Option.bind_eq_some_iff.mp hr
          simp only [Option.some.injEq] at hr
          rw [← hr]
          simp only [Function.update_of_ne hne]

theorem reduceLoop_below {comb : Bitmap.Mem} {N : Nat} {l : List RV} {s s' : RS} {o : List RV}
    (h : reduceLoop comb N s l = some (s', o)) (e : Edge) (he : (⟨e, false⟩ : RV) ∉ l) : s'.below e = s.below e := by
  induction l generalizing s o with
  | nil =>
    simp only [reduceLoop, Option.some.injEq, Prod.mk.injEq] at h
    rw [h.1]
  | cons v l ih =>
    rw [reduceLoop] at h
    cases hr : reduceEvent comb N s v with
    | none => rw [hr] at h; simp at h
    | some r =>
      rw [hr] at h
      simp only [Option.bind_eq_bind, Option.bind_some, Option.pure_def] at h
      cases hq : reduceLoop comb N r.1 l with
      | none => rw [hq] at h; simp at h
      | some q =>
        rw [hq] at h
        simp only [Option.bind_some, Option.some.injEq, Prod.mk.injEq] at h
        have h1 := ih (s := r.1) (o := q.2) (by rw [hq, ← h.1]) (fun h' => he (List.mem_cons_of_mem _ h'))
        rw [h1]
        unfold reduceEvent at hr
        obtain ⟨v1, v2⟩ := v
        cases v2 with
        | true =>
          simp only [if_true, rigtEvent, Option.bind_eq_bind, Option.pure_def] at hr
          cases ht : stateRemove v1 s.tree with
          | none => rw [ht] at hr; simp at hr
          | some t => rw [ht] at hr; simp only [Option.bind_some, Option.some.injEq] at hr; rw [← hr]
        | false =>
          have hne : e ≠ v1 := by rintro rfl; exact he (by simp)
          simp only [Bool.false_eq_true, if_false, leftEvent, Option.bind_eq_bind, Option.pure_def] at hr
          obtain ⟨r1, -, hr⟩ := Option.bind_eq_some_iff.mp hr
          obtain ⟨r2, -, hr⟩ := Option.bind_eq_some_iff.mp hr
          obtain ⟨r3, -, hr⟩ := Option.bind_eq_some_iff.mp hr
          obtain ⟨r4, -, hr⟩ := Option.bind_eq_some_iff.mp hr
          obtain ⟨r5, -, hr⟩ := Option.bind_eq_some_iff.mp hr
          simp only [Option.some.injEq] at hr
          rw [← hr]
          simp only [Function.update_of_ne hne]

end Hob3l.Sweep
