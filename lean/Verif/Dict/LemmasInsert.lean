import Verif.Dict.Lemmas

namespace Hob3l.Dict

open Tree
open Hob3l.Matq (ass)

variable {α : Type}

/-- valid except that a red root may have red children -/
def Near (t : Tree α) : Prop :=
  ∃ l a s r c d h, t = node l a s r ∧ RB l c h ∧ RB r d h ∧ (s = 2 * h + 1 ∨ s = 2 * h + 2)

theorem near_mk {i : Bool} {x y : Tree α} {a : α} {c d : Bool} {h s : Nat} (h1 : RB x c h) (h2 : RB y d h)
    (hs : s = 2 * h + 1 ∨ s = 2 * h + 2) : Near (mkNode i x a s y) := by
  cases i
  · exact ⟨_, _, _, _, _, _, _, rfl, h1, h2, hs⟩
  · exact ⟨_, _, _, _, _, _, _, rfl, h2, h1, hs⟩

theorem RB.near {t : Tree α} {c : Bool} {h : Nat} (H : RB t c h) (hl : t ≠ Tree.leaf) : Near t := by
  cases H with
  | leaf => exact absurd rfl hl
  | red h1 h2 => exact ⟨_, _, _, _, _, _, _, rfl, h1, h2, Or.inl rfl⟩
  | black h1 h2 => exact ⟨_, _, _, _, _, _, _, rfl, h1, h2, Or.inr rfl⟩

theorem Near.ensureBlack {t : Tree α} (H : Near t) :
    ∃ t' h, ensureBlack t = some t' ∧ RB t' false h ∧ toList t' = toList t ∧ rootId t' = rootId t := by
  obtain ⟨l, a, s, r, c, d, h, rfl, h1, h2, rfl | rfl⟩ := H
  · refine ⟨node l a (2 * h + 2) r, h + 1, ?_, RB.black h1 h2, rfl, rfl⟩
    simp [Dict.ensureBlack, Dict.red, mapStat, incSetBlack, ass]
  · refine ⟨node l a (2 * h + 2) r, h + 1, ?_, RB.black h1 h2, rfl, rfl⟩
    simp [Dict.ensureBlack, Dict.red]

theorem mkNode_ne (i : Bool) (x : Tree α) (a : α) (s : Nat) (y : Tree α) : mkNode i x a s y ≠ leaf := by
  cases i <;> simp [mkNode]

theorem plug_ne {t : Tree α} (h : t ≠ leaf) (p : Path α) : plug t p ≠ leaf := by
  induction p generalizing t with
  | nil => exact h
  | cons f p ih => exact ih (mkNode_ne _ _ _ _ _)

theorem mapStat_red {t : Tree α} {h : Nat} (H : RB t true h) :
    ∃ t', mapStat incSetBlack t = some t' ∧ RB t' false (h + 1) ∧ toList t' = toList t ∧ rootId t' = rootId t := by
  obtain ⟨l, a, r, rfl, h1, h2⟩ := H.isRed
  exact ⟨node l a (2 * h + 2) r, by simp [mapStat, incSetBlack, ass], RB.black h1 h2, rfl, rfl⟩

theorem rootId_plug_nil_or (t u : Tree α) (p : Path α) :
    (if p.isEmpty then rootId t else rootId (plug u p)) = rootId (plug t p) := by
  cases p with
  | nil => rfl
  | cons f p => simpa using rootId_plug_cons_congr u t f p

variable [DecidableEq α]

/-- the last case of `_balance_insert` -/
theorem insert_rotate {x y z : Tree α} {h : Nat} {fi gi : Bool} {fa ga : α} (hx : RB x true h) (hz : RB z false h)
    (hy : RB y false h) :
    ∃ pt t', innerRotate (decide (fi = !gi)) gi (mkNode fi x fa (2 * h + 1) z) = some pt ∧
      (∃ pt', mapStat incSetBlack pt = some pt' ∧ rotate (!gi) (mkNode gi pt' ga (2 * h + 1) y) = some t') ∧
      RB t' false (h + 1) ∧ toList t' = toList (mkNode gi (mkNode fi x fa (2 * h + 1) z) ga (2 * h + 2) y) := by
  obtain ⟨l, a, r, rfl, h1, h2⟩ := hx.isRed
  cases fi <;> cases gi <;>
    (simp [mkNode, innerRotate, rotate, mapStat, incSetBlack, ass]
     try constructor
     · exact RB.black (RB.red (by assumption) (by assumption)) (RB.red (by assumption) (by assumption))
     · simp [toList])

theorem balanceInsert_ok (rv : Option α) : ∀ (p : Path α) (x : Tree α) (h : Nat), RB x true h → Ctx p false h →
    rv = rootId (plug x p) → (toList (plug x p)).Nodup →
    ∃ t, balanceInsert rv x p = some (t, rootId t) ∧ toList t = toList (plug x p) ∧ Near t
  | [], x, h, hx, _, hrv, _ => by
    simp only [plug] at hrv
    obtain ⟨l, a, r, rfl, h1, h2⟩ := hx.isRed
    exact ⟨_, by simp [balanceInsert, ass, hrv]; exact ⟨rfl, rfl⟩, rfl, hx.near (by simp)⟩
  | [f], x, h, hx, hc, hrv, _ => by
    refine ⟨plug1 f x, by simp [balanceInsert, hrv, plug], rfl, ?_⟩
    rcases hc with ⟨hs, _, h1, _⟩ | ⟨hs, ⟨d, h1⟩, _⟩
    · exact near_mk hx h1 (Or.inl hs)
    · exact near_mk hx h1 (Or.inr hs)
  | f :: g :: p, x, h, hx, hc, hrv, hn => by
    have hxne : x ≠ leaf := by rintro rfl; cases hx
    have hne := rootId_ne hn hxne
    rw [← hrv] at hne
    rw [balanceInsert]
    rcases hc with ⟨hs, _, h1, h2⟩ | ⟨hs, ⟨d, h1⟩, h2⟩
    · have hodd : ¬ (rootId x = rv ∨ f.s % 2 = 0) := by
        intro hh
        rcases hh with hh | hh
        · exact hne hh
        · omega
      rw [if_neg hodd]
      rcases h2 with ⟨_, hf, _⟩ | ⟨hgs, ⟨d, h3⟩, h4⟩
      · cases hf
      · simp only [ass_true hx.red_eq, Option.bind_eq_bind, Option.bind_some]
        cases d with
        | true =>
          rw [if_pos h3.red_eq]
          obtain ⟨y, hy1, hy2, hy3, hy4⟩ := mapStat_red h3
          have hfs : incSetBlack f.s = some (2 * h + 2) := by simp [incSetBlack, ass, hs]
          simp only [hfs, hy1, Option.bind_some]
          have hgs' : setRed g.s = 2 * (h + 1) + 1 := by simp [setRed, hgs]; omega
          have hx' : RB (plug1 { g with s := setRed g.s, sib := y } (plug1 { f with s := 2 * h + 2 } x)) true (h + 1) :=
            rb_mk_red (rb_mk_black hx h1 rfl) hy2 hgs'
          have htl : toList (plug1 { g with s := setRed g.s, sib := y } (plug1 { f with s := 2 * h + 2 } x)) =
              toList (plug1 g (plug1 f x)) := by
            obtain ⟨fi, fa, fs, fsib⟩ := f
            obtain ⟨gi, ga, gs, gsib⟩ := g
            cases fi <;> cases gi <;> simp [plug1, mkNode, toList] <;> simpa using hy3
          have hroot : rootId (plug1 { g with s := setRed g.s, sib := y } (plug1 { f with s := 2 * h + 2 } x)) =
              rootId (plug1 g (plug1 f x)) := by
            obtain ⟨gi, ga, gs, gsib⟩ := g
            cases gi <;> rfl
          obtain ⟨t, ht1, ht2, ht3⟩ := balanceInsert_ok rv p _ (h + 1) hx' h4
            (by rw [hrv]; simp only [plug]; exact rootId_plug_congr hroot.symm p)
            (by
              rw [toList_plug, htl]
              simp only [plug] at hn
              rw [toList_plug] at hn
              exact hn)
          refine ⟨t, ht1, ?_, ht3⟩
          rw [ht2, toList_plug, htl]
          simp only [plug]
          rw [toList_plug]
        | false =>
          rw [if_neg (by rw [h3.red_eq]; simp)]
          obtain ⟨fi, fa, fs, fsib⟩ := f
          obtain ⟨gi, ga, gs, gsib⟩ := g
          simp only at hs h1 hgs h3
          subst hs; subst hgs
          obtain ⟨pt, t', e1, ⟨pt', e2, e3⟩, e4, e5⟩ := insert_rotate (fi := fi) (gi := gi) (fa := fa) (ga := ga) hx h1 h3
          have hdec : decSetRedIfBlack (2 * h + 2) = some (2 * h + 1) := by
            simp [decSetRedIfBlack, decSetRed, ass]
          simp only [plug1, e1, e2, hdec, Option.bind_some, rbRotate, Option.bind_eq_bind, e3]
          rw [ass_true (by simp [e4.red_eq])]
          simp only [Option.bind_some]
          refine ⟨plug t' p, ?_, ?_, ?_⟩
          · rw [hrv]
            simp only [plug]
            rw [rootId_plug_nil_or]
          · simp only [plug, plug1]
            rw [toList_plug, toList_plug, e5]
          · obtain ⟨c', h', hh⟩ := rb_plug e4 h4
            exact hh.near (plug_ne (by rintro rfl; cases e4) p)
    · rw [if_pos (Or.inr (by omega))]
      refine ⟨_, by rw [hrv], rfl, ?_⟩
      obtain ⟨c', h', hh⟩ := rb_plug (p := f :: g :: p) hx (Or.inr ⟨hs, ⟨d, h1⟩, h2⟩)
      exact hh.near (plug_ne hxne _)

theorem edge_leaf_at {t : Tree α} {p : Path α} {A B : List α} {a : α} (h : At t p A a B) (i : Bool) :
    ∃ e, edge t i = some e ∧ (isLeaf e = true →
      ∃ f, emptyEdge t i = some f ∧ (∀ x, toList (plug x (f :: p)) =
        if i then A ++ a :: toList x ++ B else A ++ toList x ++ a :: B) ∧ plug leaf (f :: p) = plug t p) := by
  obtain ⟨l, s, r, rfl, rfl, rfl⟩ := h
  cases i
  · refine ⟨l, rfl, fun he => ⟨⟨false, a, s, r⟩, ?_, ?_, ?_⟩⟩
    · simp [emptyEdge, edge, ass, he, rootId]
    · intro x
      rw [isLeaf_iff] at he
      subst he
      simp [toList_plug, pre, post, toList]
    · rw [isLeaf_iff] at he
      subst he; rfl
  · refine ⟨r, rfl, fun he => ⟨⟨true, a, s, l⟩, ?_, ?_, ?_⟩⟩
    · simp [emptyEdge, edge, ass, he, rootId]
    · intro x
      rw [isLeaf_iff] at he
      subst he
      simp [toList_plug, pre, post, toList]
    · rw [isLeaf_iff] at he
      subst he; rfl

/-- the place where the new node is linked -/
def LocOk (t : Tree α) (L : List α → List α) (o : Option ((Tree α × Path α) × Bool)) : Prop :=
  ∃ q f, o = some q ∧ emptyEdge q.1.1 q.2 = some f ∧ plug leaf (f :: q.1.2) = t ∧
    ∀ x, toList (plug x (f :: q.1.2)) = L (toList x)

theorem insertLoc_aux {t : Tree α} {q : Tree α × Path α} {A B : List α} {a : α} (hq : plug q.1 q.2 = t)
    (h : At q.1 q.2 A a B) (i : Bool) :
    LocOk t (fun x => if i then A ++ a :: x ++ B else A ++ x ++ a :: B) (do
      let e ← edge q.1 i
      if isLeaf e then some (q, i)
      else
        let q' ← stepLoc (!i) q.1 q.2
        some (q', !i)) := by
  obtain ⟨e, he, hf⟩ := edge_leaf_at h i
  simp only [he, Option.bind_eq_bind, Option.bind_some]
  by_cases hl : isLeaf e = true
  · obtain ⟨f, h1, h2, h3⟩ := hf hl
    rw [if_pos hl]
    exact ⟨(q, i), f, rfl, h1, h3.trans hq, h2⟩
  · rw [if_neg hl]
    cases i
    · -- the left child exists: the predecessor has no right child
      obtain ⟨l, s, r, hnode, rfl, rfl⟩ := h
      rw [hnode] at he
      simp only [edge, Option.some.injEq] at he
      subst he
      simp only [stepLoc, hnode, Bool.not_false, if_neg hl]
      cases hs : startLoc true l (⟨false, a, s, r⟩ :: q.2) with
      | none => rw [startLoc_none] at hs; exact absurd (isLeaf_iff.mpr hs) hl
      | some q' =>
        obtain ⟨h1, b, s', l', h2, h3⟩ := startLoc_true _ _ hs
        have h4 : plug q'.1 q'.2 = t := by rw [h1, ← hq, hnode]; rfl
        obtain ⟨e, he, hf⟩ := edge_leaf_at (t := q'.1) (p := q'.2) (i := true) ⟨l', s', leaf, h2, rfl, rfl⟩
        have hel : e = leaf := by rw [h2] at he; simpa [edge] using he.symm
        obtain ⟨f, g1, g2, g3⟩ := hf (by rw [hel]; rfl)
        refine ⟨(q', true), f, rfl, g1, g3.trans h4, ?_⟩
        intro x
        rw [g2 x, h3]
        have h5 := toList_plug q'.1 q'.2
        rw [h1, h2, h3, toList_plug] at h5
        simp [toList, pre, post] at h5
        have h6 : (pre q.2 ++ toList l) ++ (a :: (toList r ++ post q.2)) =
          (pre q'.2 ++ (toList l' ++ [b])) ++ (a :: (toList r ++ post q.2)) := by simpa using h5
        have h7 := List.append_cancel_right h6
        have h8 : pre q.2 ++ (toList l ++ (toList x ++ a :: (toList r ++ post q.2))) =
          (pre q.2 ++ toList l) ++ (toList x ++ a :: (toList r ++ post q.2)) := by simp
        simp [post, toList, h8, h7]
    · obtain ⟨l, s, r, hnode, rfl, rfl⟩ := h
      rw [hnode] at he
      simp only [edge, Option.some.injEq] at he
      subst he
      simp only [stepLoc, hnode, Bool.not_true, if_neg hl]
      cases hs : startLoc false r (⟨true, a, s, l⟩ :: q.2) with
      | none => rw [startLoc_none] at hs; exact absurd (isLeaf_iff.mpr hs) hl
      | some q' =>
        obtain ⟨h1, b, s', r', h2, h3⟩ := startLoc_false _ _ hs
        have h4 : plug q'.1 q'.2 = t := by rw [h1, ← hq, hnode]; rfl
        obtain ⟨e, he, hf⟩ := edge_leaf_at (t := q'.1) (p := q'.2) (i := false) ⟨leaf, s', r', h2, rfl, rfl⟩
        have hel : e = leaf := by rw [h2] at he; simpa [edge] using he.symm
        obtain ⟨f, g1, g2, g3⟩ := hf (by rw [hel]; rfl)
        refine ⟨(q', false), f, rfl, g1, g3.trans h4, ?_⟩
        intro x
        rw [g2 x, h3]
        have h5 := toList_plug q'.1 q'.2
        rw [h1, h2, h3, toList_plug] at h5
        simp [toList, pre, post] at h5
        simp [pre, toList, h5]

/-- what an insertion does, given its place -/
theorem insertRef_of_loc {t : Tree α} {x : α} {ref : Option α} {i : Bool} {L : List α → List α}
    (ht : t ≠ leaf) (hv : Valid t) (hx : x ∉ toList t) (hl : LocOk t L (insertLoc t ref i)) :
    ∃ t', insertRef x ref i t = some (t', rootId t') ∧ Valid t' ∧ toList t' = L [x] := by
  obtain ⟨q, f, h1, h2, h3, h4⟩ := hl
  obtain ⟨⟨c, h, hrb⟩, hn⟩ := hv
  rw [← h3] at hrb
  obtain ⟨c', h', hleaf, hctx⟩ := rb_unplug hrb
  cases hleaf
  have hnode : RB (node leaf x 1 leaf) true 0 := RB.red RB.leaf RB.leaf
  have hnd : (toList (plug (node leaf x 1 leaf) (f :: q.1.2))).Nodup := by
    have e1 := toList_plug leaf (f :: q.1.2)
    rw [h3] at e1
    simp only [toList, List.append_nil] at e1
    rw [toList_plug]
    rw [e1] at hn hx
    simp only [toList, List.nil_append, List.nodup_append, List.mem_append, List.nodup_cons, List.mem_singleton] at *
    grind
  obtain ⟨r, hr1, hr2, hr3⟩ := balanceInsert_ok (rootId t) (f :: q.1.2) _ 0 hnode hctx
    (by rw [← h3]; exact rootId_plug_cons_congr _ _ _ _) hnd
  obtain ⟨t', h'', e1, e2, e3, e4⟩ := hr3.ensureBlack
  have htl : toList t' = L [x] := by rw [e3, hr2, h4]; rfl
  refine ⟨t', ?_, ⟨⟨_, _, e2⟩, by rw [e3, hr2]; exact hnd⟩, htl⟩
  have hmem : mem x t = false := by
    rw [← Bool.not_eq_true, mem_iff]; exact hx
  cases t with
  | leaf => exact absurd rfl ht
  | node l a s rr =>
    simp only [insertRef, hmem, Bool.not_false, ass_true, h1, h2, hr1, e1, Option.bind_eq_bind, Option.bind_some,
      e2.veryGood, e4]

theorem insertRef_at {t : Tree α} {x a : α} {A B : List α} (i : Bool) (hv : Valid t) (hx : x ∉ toList t)
    (h : toList t = A ++ a :: B) :
    ∃ t', insertRef x (some a) i t = some (t', rootId t') ∧ Valid t' ∧
      toList t' = if i then A ++ a :: x :: B else A ++ x :: a :: B := by
  have ht : t ≠ leaf := by rintro rfl; simp [toList] at h
  obtain ⟨q, h1, h2, h3⟩ := locate_at h hv.2
  have := insertLoc_aux h2 h3 i
  obtain ⟨t', e1, e2, e3⟩ := insertRef_of_loc (ref := some a) (i := i) ht hv hx (by
    simp only [insertLoc, h1, Option.bind_eq_bind, Option.bind_some, Option.isSome_some, if_true]
    simpa only [Option.bind_eq_bind] using this)
  refine ⟨t', e1, e2, ?_⟩
  rw [e3]
  cases i <;> simp

theorem insertRef_null {t : Tree α} {x : α} (i : Bool) (hv : Valid t) (hx : x ∉ toList t) :
    ∃ t', insertRef x none i t = some (t', rootId t') ∧ Valid t' ∧
      toList t' = if i then x :: toList t else toList t ++ [x] := by
  by_cases ht : t = leaf
  · subst ht
    have : RB (node leaf x 1 leaf) true 0 := RB.red RB.leaf RB.leaf
    refine ⟨node leaf x 1 leaf, ?_, ⟨⟨_, _, this⟩, by simp [toList]⟩, by cases i <;> simp [toList]⟩
    simp [insertRef, ass, this.veryGood, rootId]
  · cases hq : startLoc (!i) t [] with
    | none => rw [startLoc_none] at hq; exact absurd hq ht
    | some q =>
      obtain ⟨h2, A, a, B, h3, h4⟩ := startLoc_at hq
      have := insertLoc_aux h2 h3 (!i)
      obtain ⟨t', e1, e2, e3⟩ := insertRef_of_loc (ref := none) (i := i) ht hv hx (by
        simp only [insertLoc, hq, Option.bind_eq_bind, Option.bind_some, Option.isSome_none, Bool.false_eq_true, if_false]
        simpa only [Option.bind_eq_bind] using this)
      refine ⟨t', e1, e2, ?_⟩
      have h5 := h3.toList_eq
      rw [h2] at h5
      rw [e3, h5]
      cases i <;> simp at h4 <;> simp [h4]

end Hob3l.Dict
