import Verif.Dict.LemmasRemove2

namespace Hob3l.Dict

open Tree
open Hob3l.Matq (ass)

variable {α : Type}

theorem joinDesc_ok (i : Bool) {hr : Nat} (c : Tree α) (p : Path α) {cc : Bool} {hc : Nat} (H : RB c cc hc)
    (C : Ctx p cc hc) (hle : hr ≤ hc) (hp : p ≠ []) (hf : ∀ f ∈ p, f.i = !i) :
    plug (joinDesc i (2 * hr) c p).1 (joinDesc i (2 * hr) c p).2 = plug c p ∧
    RB (joinDesc i (2 * hr) c p).1 false hr ∧ Ctx (joinDesc i (2 * hr) c p).2 false hr ∧
    (joinDesc i (2 * hr) c p).2 ≠ [] ∧ ∀ f ∈ (joinDesc i (2 * hr) c p).2, f.i = !i := by
  induction c generalizing p cc hc with
  | leaf =>
    cases H
    have : hr = 0 := by omega
    subst this
    exact ⟨rfl, RB.leaf, C, hp, hf⟩
  | node l a s r ih1 ih2 =>
    simp only [joinDesc]
    rw [H.red_eq, H.height2_eq]
    by_cases hcond : cc = true ∨ 2 * hc > 2 * hr
    · rw [if_pos hcond]
      have key : ∀ j : Bool, ∃ cc' hc', RB (match j with | false => l | true => r) cc' hc' ∧
          Ctx ((⟨j, a, s, match j with | false => r | true => l⟩ : Frame α) :: p) cc' hc' ∧ hr ≤ hc' := by
        intro j
        cases H with
        | red h1 h2 =>
          cases j
          · exact ⟨_, _, h1, Or.inl ⟨rfl, rfl, h2, C⟩, hle⟩
          · exact ⟨_, _, h2, Or.inl ⟨rfl, rfl, h1, C⟩, hle⟩
        | black h1 h2 =>
          have : ¬ (false = true) := by simp
          have hlt := hcond.resolve_left this
          cases j
          · exact ⟨_, _, h1, Or.inr ⟨rfl, ⟨_, h2⟩, C⟩, by omega⟩
          · exact ⟨_, _, h2, Or.inr ⟨rfl, ⟨_, h1⟩, C⟩, by omega⟩
      cases i
      · obtain ⟨cc', hc', k1, k2, k3⟩ := key true
        have := ih2 _ k1 k2 k3 (by simp) (by
          intro f hf'
          rcases List.mem_cons.mp hf' with rfl | h
          · rfl
          · exact hf f h)
        exact ⟨this.1, this.2⟩
      · obtain ⟨cc', hc', k1, k2, k3⟩ := key false
        have := ih1 _ k1 k2 k3 (by simp) (by
          intro f hf'
          rcases List.mem_cons.mp hf' with rfl | h
          · rfl
          · exact hf f h)
        exact ⟨this.1, this.2⟩
    · rw [if_neg hcond]
      simp only [not_or, Bool.not_eq_true] at hcond
      obtain ⟨rfl, h2⟩ := hcond
      have : hc = hr := by omega
      subst this
      exact ⟨rfl, H, C, hp, hf⟩

theorem incIfNeeded_red {i : Bool} {x y : Tree α} {a : α} {c d : Bool} {h : Nat} (h1 : RB x c h) (h2 : RB y d h) :
    ∃ t, incSetBlackIfNeeded (mkNode i x a (2 * h + 1) y) = some t ∧ (∃ c h, RB t c h) ∧
      toList t = toList (mkNode i x a (2 * h + 1) y) ∧ rootId t = some a := by
  by_cases hcd : c = false ∧ d = false
  · obtain ⟨rfl, rfl⟩ := hcd
    refine ⟨mkNode i x a (2 * h + 1) y, ?_, ⟨_, _, rb_mk_red h1 h2 rfl⟩, rfl, by cases i <;> rfl⟩
    cases i <;> simp [incSetBlackIfNeeded, mkNode, h1.red_eq, h2.red_eq]
  · refine ⟨mkNode i x a (2 * h + 2) y, ?_, ⟨_, _, rb_mk_black h1 h2 rfl⟩, by cases i <;> rfl, by cases i <;> rfl⟩
    have : (c || d) = true ∧ (d || c) = true := by cases c <;> cases d <;> simp_all
    cases i <;> simp [incSetBlackIfNeeded, mkNode, h1.red_eq, h2.red_eq, red_node, mapStat, incSetBlack, ass, this]

theorem incIfNeeded_rb {t : Tree α} {c : Bool} {h : Nat} (H : RB t c h) : incSetBlackIfNeeded t = some t := by
  cases H with
  | leaf => rfl
  | red h1 h2 => simp [incSetBlackIfNeeded, h1.red_eq, h2.red_eq]
  | black h1 h2 => simp [incSetBlackIfNeeded, red_node]

theorem joinUp_ok (i : Bool) : ∀ (p : Path α) (rv : Option α) (t : Tree α) (h : Nat), RB t true h → Ctx p false h →
    p ≠ [] → (∀ f ∈ p, f.i = !i) → rv = rootId (plug t p) →
    ∃ t', joinUp i rv t p = some (t', rootId t') ∧ toList t' = toList (plug t p) ∧ ∃ c h, RB t' c h
  | [], _, _, _, _, _, hp, _, _ => absurd rfl hp
  | [f], rv, t, h, ht, hc, _, _, hrv => by
    rcases hc with ⟨hs, _, h1, _⟩ | ⟨hs, ⟨d, h1⟩, _⟩
    · obtain ⟨t', e1, e2, e3, e4⟩ := incIfNeeded_red (i := f.i) (a := f.a) ht h1
      refine ⟨t', ?_, ?_, e2⟩
      · have : plug1 f t = mkNode f.i t f.a (2 * h + 1) f.sib := by rw [← hs]; rfl
        simp only [joinUp, this, e1, Option.bind_eq_bind, Option.bind_some, hrv, e4]
        obtain ⟨fi, fa, fs, fsib⟩ := f
        cases fi <;> rfl
      · rw [e3, ← hs]; rfl
    · have := rb_mk_black (i := f.i) (a := f.a) ht h1 hs
      refine ⟨plug1 f t, ?_, rfl, ⟨_, _, this⟩⟩
      simp only [joinUp, plug1, incIfNeeded_rb this, Option.bind_eq_bind, Option.bind_some, hrv, plug]
  | f :: g :: p, rv, t, h, ht, hc, _, hf, hrv => by
    rw [joinUp.eq_3]
    rcases hc with ⟨hs, _, h1, h2⟩ | ⟨hs, ⟨d, h1⟩, h2⟩
    · rcases h2 with ⟨_, hc, _⟩ | ⟨hgs, ⟨d, h3⟩, h4⟩
      · cases hc
      · rw [if_pos ⟨by omega, ht.red_eq⟩, ass_true (by omega)]
        have hfi : f.i = !i := hf f (by simp)
        have hgi : g.i = !i := hf g (by simp)
        obtain ⟨r, r1, r2, r3, r4⟩ := mapStat_red ht
        simp only [Option.bind_eq_bind, Option.bind_some, r1]
        obtain ⟨fi, fa, fs, fsib⟩ := f
        obtain ⟨gi, ga, gs, gsib⟩ := g
        simp only at hfi hgi hs hgs h1 h3
        subst hfi; subst hgi; subst hs; subst hgs
        have hrot : rotate i (plug1 ⟨!i, ga, 2 * h + 2, gsib⟩ (plug1 ⟨!i, fa, 2 * h + 1 + 2, fsib⟩ r)) =
            some (mkNode (!i) r fa (2 * h + 1 + 2) (mkNode (!i) fsib ga (2 * h + 2) gsib)) := by
          cases i <;> simp [rotate, plug1, mkNode]
        have hin : RB (mkNode (!i) fsib ga (2 * h + 2) gsib) false (h + 1) := rb_mk_black h1 h3 rfl
        have hout : RB (mkNode (!i) r fa (2 * h + 1 + 2) (mkNode (!i) fsib ga (2 * h + 2) gsib)) true (h + 1) :=
          rb_mk_red r2 hin (by omega)
        have htl : toList (mkNode (!i) r fa (2 * h + 1 + 2) (mkNode (!i) fsib ga (2 * h + 2) gsib)) =
            toList (plug1 (⟨!i, ga, 2 * h + 2, gsib⟩ : Frame α) (plug1 ⟨!i, fa, 2 * h + 1, fsib⟩ t)) := by
          cases i <;> simp [mkNode, plug1, toList, r3]
        simp only [rbRotate, hrot, Option.bind_eq_bind, Option.bind_some]
        cases p with
        | nil =>
          simp only [incIfNeeded_rb hout, Option.bind_some]
          exact ⟨_, rfl, htl, _, _, hout⟩
        | cons k p =>
          obtain ⟨t', e1, e2, e3⟩ := joinUp_ok i (k :: p) rv _ (h + 1) hout h4 (by simp)
            (fun f hf' => hf f (by simp [List.mem_cons.mp hf'])) (by
              rw [hrv]
              simp only [plug]
              exact rootId_plug_cons_congr _ _ _ _)
          refine ⟨t', by simpa using e1, ?_, e3⟩
          rw [e2, toList_plug, htl]
          rw [plug, plug, toList_plug]
    · rw [if_neg (by omega)]
      have hb := rb_mk_black (i := f.i) (a := f.a) ht h1 hs
      have : plug1 f t = mkNode f.i t f.a f.s f.sib := rfl
      rw [this, incIfNeeded_rb hb]
      refine ⟨_, by rw [hrv]; rfl, rfl, ?_⟩
      exact rb_plug (p := g :: p) hb h2

theorem post_pre_frames {p : Path α} (i : Bool) (hf : ∀ f ∈ p, f.i = !i) :
    (match i with | false => post p | true => pre p) = [] := by
  induction p with
  | nil => cases i <;> rfl
  | cons f p ih =>
    have h1 := ih (fun f hf' => hf f (by simp [hf']))
    have h2 := hf f (by simp)
    cases i <;> simp [pre, post, h2] <;> simpa using h1

variable [DecidableEq α]

theorem join3Ordered_ok (i : Bool) {l r : Tree α} {m : α} {cl cr : Bool} {hl hr : Nat} (Hl : RB l cl hl)
    (Hr : RB r cr hr) (hle : hr ≤ hl) :
    ∃ t', join3Ordered i l m r = some (t', rootId t') ∧ (∃ c h, RB t' c h) ∧
      toList t' = if i then toList r ++ m :: toList l else toList l ++ m :: toList r := by
  have hbl : ∃ r' cr' hr', joinBlacken l r = some r' ∧ RB r' cr' hr' ∧ toList r' = toList r ∧ hr' ≤ hl ∧
      (hr' < hl → cr' = false) := by
    unfold joinBlacken
    rw [Hl.height2_eq, Hr.height2_eq, Hr.red_eq]
    by_cases hc : 2 * hl > 2 * hr ∧ cr = true
    · rw [if_pos hc]
      obtain ⟨h1, rfl⟩ := hc
      obtain ⟨r', e1, e2, e3, _⟩ := mapStat_red Hr
      exact ⟨r', _, _, e1, e2, e3, by omega, fun _ => rfl⟩
    · rw [if_neg hc]
      refine ⟨r, cr, hr, rfl, Hr, rfl, hle, fun h => ?_⟩
      cases cr with
      | false => rfl
      | true => exact absurd ⟨by omega, rfl⟩ hc
  obtain ⟨r', cr', hr', b1, b2, b3, b4, b5⟩ := hbl
  simp only [join3Ordered, b1, Option.bind_eq_bind, Option.bind_some, Hl.height2_eq, b2.height2_eq]
  by_cases heq : 2 * hl = 2 * hr'
  · have : hr' = hl := by omega
    subst this
    rw [if_pos rfl]
    obtain ⟨t', e1, ⟨c, h, e2⟩, e3, e4⟩ := incIfNeeded_red (i := i) (a := m) Hl b2
    refine ⟨t', ?_, ⟨c, h, e2⟩, ?_⟩
    · simp only [e1, Option.bind_some, e2.veryGood, ass_true, e4]
    · rw [e3]; cases i <;> simp [mkNode, toList, b3]
  · rw [if_neg heq]
    have hlt : hr' < hl := by omega
    have := b5 hlt
    subst this
    have hne : l ≠ leaf := by rintro rfl; cases Hl; omega
    have hd : ∃ c f cc hc, down (!i) l = some (c, f) ∧ plug1 f c = l ∧ RB c cc hc ∧ Ctx [f] cc hc ∧ hr' ≤ hc ∧ f.i = !i := by
      cases Hl with
      | leaf => exact absurd rfl hne
      | red h1 h2 =>
        cases i
        · exact ⟨_, _, _, _, rfl, rfl, h2, Or.inl ⟨rfl, rfl, h1, trivial⟩, by omega, rfl⟩
        · exact ⟨_, _, _, _, rfl, rfl, h1, Or.inl ⟨rfl, rfl, h2, trivial⟩, by omega, rfl⟩
      | black h1 h2 =>
        cases i
        · exact ⟨_, _, _, _, rfl, rfl, h2, Or.inr ⟨rfl, ⟨_, h1⟩, trivial⟩, by omega, rfl⟩
        · exact ⟨_, _, _, _, rfl, rfl, h1, Or.inr ⟨rfl, ⟨_, h2⟩, trivial⟩, by omega, rfl⟩
    obtain ⟨c, f, cc, hc, d1, d2, d3, d4, d5, d6⟩ := hd
    obtain ⟨j1, j2, j3, j4, j5⟩ := joinDesc_ok i (hr := hr') c [f] d3 d4 d5 (by simp) (by simpa using d6)
    have hgt : 2 * hl > 2 * hr' := by omega
    have hm : RB (mkNode i (joinDesc i (2 * hr') c [f]).1 m (height2 (joinDesc i (2 * hr') c [f]).1 + 1) r') true hr' :=
      rb_mk_red j2 b2 (by rw [j2.height2_eq])
    have hpl : plug (joinDesc i (2 * hr') c [f]).1 (joinDesc i (2 * hr') c [f]).2 = l := by
      rw [j1]; exact d2
    obtain ⟨t', e1, e2, ⟨c', h', e3⟩⟩ := joinUp_ok i _ (rootId l) _ hr' hm j3 j4 j5 (by
      cases hq : (joinDesc i (2 * hr') c [f]).2 with
      | nil => exact absurd hq j4
      | cons g p =>
        rw [hq] at hpl
        rw [← hpl]
        exact rootId_plug_cons_congr _ _ _ _)
    refine ⟨t', ?_, ⟨_, _, e3⟩, ?_⟩
    · simp only [b2.red_eq, Bool.not_false, ass_true, ass_true hgt, Option.bind_some, d1, hm.goodTree, e1, e3.veryGood]
    · rw [e2, toList_plug]
      have h1 := toList_plug (joinDesc i (2 * hr') c [f]).1 (joinDesc i (2 * hr') c [f]).2
      rw [hpl] at h1
      have h2 := post_pre_frames i j5
      cases i
      · simp only at h2
        rw [h2] at h1 ⊢
        simp [h1, mkNode, toList, b3]
      · simp only at h2
        rw [h2] at h1 ⊢
        simp [h1, mkNode, toList, b3]

theorem join3_ok {l r : Tree α} {m : α} (Hl : ∃ c h, RB l c h) (Hr : ∃ c h, RB r c h) :
    ∃ t', join3 l m r = some (t', rootId t') ∧ (∃ c h, RB t' c h) ∧ toList t' = toList l ++ m :: toList r := by
  obtain ⟨cl, hl, Hl⟩ := Hl
  obtain ⟨cr, hr, Hr⟩ := Hr
  unfold join3
  rw [Hl.height2_eq, Hr.height2_eq]
  by_cases h : 2 * hl < 2 * hr
  · rw [if_pos h]
    simpa using join3Ordered_ok (m := m) true Hr Hl (by omega)
  · rw [if_neg h]
    simpa using join3Ordered_ok (m := m) false Hl Hr (by omega)

theorem extractStart_ok (d : Bool) {t : Tree α} (hv : Valid t) (ht : t ≠ leaf) :
    ∃ a t', extractStart d t = some (some a, t', rootId t') ∧ Valid t' ∧
      toList t = if d then toList t' ++ [a] else a :: toList t' := by
  unfold extractStart
  cases hq : startLoc d t [] with
  | none => rw [startLoc_none] at hq; exact absurd hq ht
  | some q =>
    obtain ⟨h1, A, a, B, h2, h3⟩ := startLoc_at hq
    have h4 := h2.toList_eq
    rw [h1] at h4
    obtain ⟨t', e1, e2, e3⟩ := remove_ok hv h4
    obtain ⟨l, s, r, g1, _, _⟩ := h2
    refine ⟨a, t', ?_, e2, ?_⟩
    · simp [g1, rootId, e1]
    · rw [h4, e3]
      cases d <;> simp at h3 <;> simp [h3]

theorem join2_ok {l r : Tree α} (Hl : ∃ c h, RB l c h) (Hr : Valid r) :
    ∃ t', join2 l r = some (t', rootId t') ∧ (∃ c h, RB t' c h) ∧ toList t' = toList l ++ toList r := by
  unfold join2
  by_cases h1 : l = leaf
  · subst h1
    exact ⟨r, by simp [isLeaf], Hr.1, by simp [toList]⟩
  · simp only [isLeaf_false.mpr h1, Bool.false_eq_true, if_false]
    by_cases h2 : r = leaf
    · subst h2
      exact ⟨l, by simp [isLeaf], Hl, by simp [toList]⟩
    · simp only [isLeaf_false.mpr h2, Bool.false_eq_true, if_false]
      obtain ⟨a, t', e1, e2, e3⟩ := extractStart_ok false Hr h2
      simp only [e1, Option.bind_eq_bind, Option.bind_some, ass_true]
      obtain ⟨t'', g1, g2, g3⟩ := join3_ok (m := a) Hl e2.1
      exact ⟨t'', g1, g2, by rw [g3, e3]; simp⟩

theorem split_ok (cmp : α → Int) (back : Bool) {t : Tree α} (H : ∃ c h, RB t c h)
    (hs : Sorted cmp (toList t)) :
    ∃ l r, split cmp back t = some (l, r) ∧ (∃ c h, RB l c h) ∧ (∃ c h, RB r c h) ∧ toList t = toList l ++ toList r ∧
      (∀ a ∈ toList l, cmp a ≥ if back then 1 else 0) ∧ (∀ a ∈ toList r, ¬ cmp a ≥ if back then 1 else 0) := by
  induction t with
  | leaf => exact ⟨leaf, leaf, rfl, H, H, rfl, by simp [toList], by simp [toList]⟩
  | node nl n s nr ih1 ih2 =>
    have hsub : (∃ c h, RB nl c h) ∧ (∃ c h, RB nr c h) := by
      obtain ⟨c, h, H⟩ := H
      cases H with
      | red h1 h2 => exact ⟨⟨_, _, h1⟩, ⟨_, _, h2⟩⟩
      | black h1 h2 => exact ⟨⟨_, _, h1⟩, ⟨_, _, h2⟩⟩
    simp only [toList, Sorted, List.pairwise_append, List.pairwise_cons, List.mem_cons] at hs
    obtain ⟨s1, ⟨s2, s3⟩, s4⟩ := hs
    simp only [split]
    by_cases hc : cmp n ≥ if back then 1 else 0
    · rw [if_pos hc]
      obtain ⟨l, r, e1, e2, e3, e4, e5, e6⟩ := ih2 hsub.2 s3
      obtain ⟨l', g1, g2, g3⟩ := join3_ok (m := n) hsub.1 e2
      refine ⟨l', r, ?_, g2, e3, ?_, ?_, e6⟩
      · simp only [e1, g1, Option.bind_eq_bind, Option.bind_some, ass_true]
      · rw [g3]; simp [toList, e4]
      · intro a ha
        rw [g3] at ha
        simp only [List.mem_append, List.mem_cons] at ha
        rcases ha with ha | rfl | ha
        · have := s4 a ha n (Or.inl rfl)
          cases back <;> simp at hc ⊢ <;> omega
        · exact hc
        · exact e5 a ha
    · rw [if_neg hc]
      obtain ⟨l, r, e1, e2, e3, e4, e5, e6⟩ := ih1 hsub.1 s1
      obtain ⟨r', g1, g2, g3⟩ := join3_ok (m := n) e3 hsub.2
      refine ⟨l, r', ?_, e2, g2, ?_, e5, ?_⟩
      · simp only [e1, g1, Option.bind_eq_bind, Option.bind_some, ass_true]
      · rw [g3]; simp [toList, e4]
      · intro a ha
        rw [g3] at ha
        simp only [List.mem_append, List.mem_cons] at ha
        rcases ha with ha | rfl | ha
        · exact e6 a ha
        · exact hc
        · have := s2 a ha
          cases back <;> simp at hc ⊢ <;> omega

end Hob3l.Dict
