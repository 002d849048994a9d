import Verif.Dict.LemmasInsert

namespace Hob3l.Dict

open Tree
open Hob3l.Matq (ass)

variable {α : Type} [DecidableEq α]

theorem outer_ok {w : Tree α} {h : Nat} (i : Bool) (hw : RB w false (h + 1)) (hb : blackChildren w = false) :
    ∃ n wa o c, removeOuter i w = some (mkNode i n wa (2 * h + 2) o) ∧ RB n c h ∧ RB o true h ∧
      toList (mkNode i n wa (2 * h + 2) o) = toList w := by
  obtain ⟨l, a, r, c, d, rfl, h1, h2⟩ := hw.isBlack
  cases i
  · cases d with
    | true =>
      exact ⟨l, a, r, c, by simp [removeOuter, edge, h2.red_eq, mkNode], h1, h2, rfl⟩
    | false =>
      cases c with
      | false => simp [blackChildren, h1.red_eq, h2.red_eq] at hb
      | true =>
        obtain ⟨ll, la, lr, rfl, h3, h4⟩ := h1.isRed
        have hg : RB (node lr a (2 * h + 1) r) true h := RB.red h4 h2
        refine ⟨ll, la, node lr a (2 * h + 1) r, false, ?_, h3, hg, by simp [mkNode, toList]⟩
        simp [removeOuter, edge, h2.red_eq, mapStat, incSetBlack, ass, rootId, decSetRed, mkNode, rotate, hg.goodTree]
  · cases c with
    | true =>
      exact ⟨r, a, l, d, by simp [removeOuter, edge, h1.red_eq, mkNode], h2, h1, rfl⟩
    | false =>
      cases d with
      | false => simp [blackChildren, h1.red_eq, h2.red_eq] at hb
      | true =>
        obtain ⟨rl, ra, rr, rfl, h3, h4⟩ := h2.isRed
        have hg : RB (node l a (2 * h + 1) rl) true h := RB.red h1 h3
        refine ⟨rr, ra, node l a (2 * h + 1) rl, false, ?_, h4, hg, by simp [mkNode, toList]⟩
        simp [removeOuter, edge, h1.red_eq, mapStat, incSetBlack, ass, rootId, decSetRed, mkNode, rotate, hg.goodTree]

theorem final_ok {x n o sib : Tree α} {wa fa : α} {c d e : Bool} {h : Nat} (rv : Option α) (i : Bool) (p : Path α)
    (hx : RB x c h) (hn : RB n d h) (ho : RB o true h) :
    ∃ t, removeFinal rv x (mkNode i n wa (2 * h + 2) o) ⟨i, fa, if e then 2 * h + 3 else 2 * h + 4, sib⟩ p =
        some (plug t p, if p.isEmpty then rootId t else rv) ∧
      (if e then RB t true (h + 1) else RB t false (h + 2)) ∧
      toList t = toList (mkNode i x fa 0 (mkNode i n wa (2 * h + 2) o)) := by
  obtain ⟨l, a, r, rfl, h1, h2⟩ := ho.isRed
  have hp : ∀ i, RB (mkNode i x fa (2 * h + 2) n) false (h + 1) := fun i => rb_mk_black hx hn rfl
  have ho' : RB (node l a (2 * h + 2) r) false (h + 1) := RB.black h1 h2
  cases e
  · have ht : RB (mkNode i (mkNode i x fa (2 * h + 2) n) wa (2 * h + 4) (node l a (2 * h + 2) r)) false (h + 2) :=
      rb_mk_black (hp i) ho' (by omega)
    refine ⟨_, ?_, ht, ?_⟩
    · cases i <;> simp only [mkNode] at ht <;>
        simp [removeFinal, mkNode, removeStats, ass, dec, edge, mapStat, incSetBlack, rbRotate, plug1, rotate, ht.goodTree]
    · cases i <;> simp [mkNode, toList]
  · have ht : RB (mkNode i (mkNode i x fa (2 * h + 2) n) wa (2 * h + 3) (node l a (2 * h + 2) r)) true (h + 1) :=
      rb_mk_red (hp i) ho' (by omega)
    have e1 : (2 * h + 3) % 2 = 1 := by omega
    have e2 : setBlack (2 * h + 3) = 2 * h + 2 := by simp [setBlack]
    have e3 : setRed (2 * h + 2) = 2 * h + 3 := by simp [setRed]
    refine ⟨_, ?_, ht, ?_⟩
    · cases i <;> simp only [mkNode] at ht <;>
        simp [removeFinal, mkNode, removeStats, ass, edge, mapStat, incSetBlack, rbRotate, plug1, rotate, e2, e3,
          ht.goodTree]
    · cases i <;> simp [mkNode, toList]

/-- leaving the loop at a red node -/
theorem balanceRemove_red {n : Nat} {rv : Option α} {x : Tree α} {l r : Tree α} {a : α} {c d : Bool} {h : Nat}
    {p : Path α} {i : Bool} (hx : x = mkNode i l a (2 * h + 1) r) (h1 : RB l c h) (h2 : RB r d h)
    (hc : Ctx p false (h + 1)) :
    ∃ t, balanceRemove (n + 1) rv x p = some (t, rv) ∧ toList t = toList (plug x p) ∧ (∃ c h, RB t c h) ∧
      rootId t = rootId (plug x p) := by
  have hx' : RB (mkNode i l a (2 * h + 2) r) false (h + 1) := rb_mk_black h1 h2 rfl
  have hr : removeEnd rv x p = some (plug (mkNode i l a (2 * h + 2) r) p, rv) := by
    subst hx
    cases i <;> simp [removeEnd, mkNode, red, mapStat, incSetBlack, ass]
  refine ⟨plug (mkNode i l a (2 * h + 2) r) p, ?_, ?_, rb_plug hx' hc, ?_⟩
  · cases p with
    | nil => simp [balanceRemove, hr]
    | cons f p =>
      have : red x = true := by subst hx; cases i <;> simp [mkNode, red]
      simp [balanceRemove, this, hr]
  · rw [toList_plug, toList_plug, hx]; cases i <;> simp [mkNode, toList]
  · exact rootId_plug_congr (by rw [hx]; cases i <;> rfl) p

theorem mapStat_black {w : Tree α} {h : Nat} (hw : RB w false (h + 1)) (hb : blackChildren w = true) :
    ∃ w', mapStat decSetRed w = some w' ∧ RB w' true h ∧ toList w' = toList w := by
  obtain ⟨l, a, r, c, d, rfl, h1, h2⟩ := hw.isBlack
  simp only [blackChildren, h1.red_eq, h2.red_eq, Bool.and_eq_true, Bool.not_eq_true'] at hb
  obtain ⟨rfl, rfl⟩ := hb
  exact ⟨node l a (2 * h + 1) r, by simp [mapStat, decSetRed, ass], RB.red h1 h2, rfl⟩

/-- what `balance_remove` is to establish -/
def RemOk (rv : Option α) (x : Tree α) (p : Path α) (o : Option (Tree α × Option α)) : Prop :=
  ∃ t r, o = some (t, r) ∧ toList t = toList (plug x p) ∧ (∃ c h, RB t c h) ∧
    (r = rootId t ∨ (r = rv ∧ rootId t = rootId (plug x p)))

theorem RemOk.congr {rv : Option α} {x x' : Tree α} {p p' : Path α} {o : Option (Tree α × Option α)}
    (H : RemOk rv x p o) (h1 : toList (plug x p) = toList (plug x' p')) (h2 : rootId (plug x p) = rootId (plug x' p')) :
    RemOk rv x' p' o := by
  obtain ⟨t, r, e1, e2, e3, e4⟩ := H
  exact ⟨t, r, e1, by rw [e2, h1], e3, by rw [← h2]; exact e4⟩

/-- the part of the loop body behind the rotation of a red sibling -/
def removeTail (n : Nat) (rv : Option α) (x : Tree α) (f : Frame α) (p : Path α) : Option (Tree α × Option α) :=
  if isLeaf f.sib then balanceRemove n rv (plug1 f x) p
  else do
    ass (!red f.sib)
    if blackChildren f.sib then
      let w ← mapStat decSetRed f.sib
      let fs ← dec f.s
      ass (goodTree false (plug1 { f with s := fs, sib := w } x))
      balanceRemove n rv (plug1 { f with s := fs, sib := w } x) p
    else
      let w ← removeOuter f.i f.sib
      removeFinal rv x w f p

theorem balanceRemove_cons (n : Nat) (rv : Option α) (x : Tree α) (f : Frame α) (p : Path α) (hx : red x = false)
    (hg : goodTree true x = true) (hg' : goodTree true f.sib = true) :
    balanceRemove (n + 1) rv x (f :: p) = (do
      let q ← removeRedSib rv x f p
      removeTail n q.2.2 x q.1 q.2.1) := by
  simp only [balanceRemove, hx, hg, hg', Bool.and_self, ass_true, Option.bind_eq_bind, Option.bind_some, removeTail,
    Bool.false_eq_true, if_false]

/-- `p` is red -/
theorem tail_red {n : Nat} {rv : Option α} {x sib : Tree α} {i : Bool} {a : α} {p : Path α} {c : Bool} {h : Nat}
    (hx : RB x c h) (hs : RB sib false (h + 1)) (hc : Ctx p true (h + 1)) :
    RemOk rv x (⟨i, a, 2 * h + 3, sib⟩ :: p) (removeTail (n + 1) rv x ⟨i, a, 2 * h + 3, sib⟩ p) := by
  have hl : isLeaf sib = false := by
    cases hs; rfl
  simp only [removeTail, hl, hs.red_eq, Bool.not_false, ass_true, Option.bind_eq_bind, Option.bind_some,
    Bool.false_eq_true, if_false]
  by_cases hb : blackChildren sib = true
  · obtain ⟨w, w1, w2, w3⟩ := mapStat_black hs hb
    have hd : dec (2 * h + 3) = some (2 * h + 1) := by simp [dec, ass]
    have hg : goodTree false (mkNode i x a (2 * h + 1) w) = true := by
      have : ∀ h, 2 * h + 1 - (2 * h + 1) % 2 = 2 * h := by intro h; omega
      cases i <;> simp [goodTree, mkNode, red_node, height2_node, hx.height2_eq, w2.height2_eq, this]
    simp only [hb, if_true, w1, hd, Option.bind_some, plug1, hg, ass_true]
    obtain ⟨t, e1, e2, e3, e4⟩ := balanceRemove_red (n := n) (rv := rv) (p := p) rfl hx w2 hc.mono
    refine ⟨t, rv, e1, ?_, e3, Or.inr ⟨rfl, ?_⟩⟩
    · rw [e2, toList_plug]; simp only [plug]; rw [toList_plug]
      cases i <;> simp [plug1, mkNode, toList, w3]
    · rw [e4]; simp only [plug]; exact rootId_plug_congr (by cases i <;> rfl) p
  · rw [if_neg hb]
    obtain ⟨k, wa, o, d, o1, o2, o3, o4⟩ := outer_ok i hs (by simpa using hb)
    simp only [o1, Option.bind_some]
    obtain ⟨t, e1, e2, e3⟩ := final_ok (e := true) (fa := a) (sib := sib) (wa := wa) rv i p hx o2 o3
    simp only [if_true] at e1 e2
    refine ⟨plug t p, _, e1, ?_, rb_plug e2 hc, ?_⟩
    · rw [toList_plug]; simp only [plug]; rw [toList_plug, e3]
      cases i <;> simp [plug1, mkNode, toList] <;> simp [mkNode, toList] at o4 <;> simp [← o4]
    · cases p with
      | nil => exact Or.inl rfl
      | cons g p => exact Or.inr ⟨rfl, by simp only [plug]; exact rootId_plug_cons_congr _ _ _ _⟩

theorem balanceRemove_ok : ∀ (n : Nat) (rv : Option α) (p : Path α) (x : Tree α) (c : Bool) (h : Nat), RB x c h →
    Ctx p false (h + 1) → p.length + 1 ≤ n → RemOk rv x p (balanceRemove n rv x p)
  | 0, rv, p, x, c, h, hx, hc, hn => by omega
  | n + 1, rv, p, x, true, h, hx, hc, hn => by
    obtain ⟨l, a, r, rfl, h1, h2⟩ := hx.isRed
    obtain ⟨t, e1, e2, e3, e4⟩ := balanceRemove_red (i := false) (n := n) (rv := rv) (p := p) rfl h1 h2 hc
    exact ⟨t, rv, e1, e2, e3, Or.inr ⟨rfl, e4⟩⟩
  | n + 1, rv, [], x, false, h, hx, hc, hn => by
    refine ⟨x, rv, ?_, rfl, ⟨_, _, hx⟩, Or.inr ⟨rfl, rfl⟩⟩
    simp [balanceRemove, removeEnd, hx.red_eq, plug]
  | n + 1, rv, ⟨i, a, s, sib⟩ :: p, x, false, h, hx, hc, hn => by
    obtain ⟨m, rfl⟩ : ∃ m, n = m + 1 := ⟨n - 1, by simp at hn; omega⟩
    rcases hc with ⟨hs, _, h1, h2⟩ | ⟨hs, ⟨d, h1⟩, h2⟩
    · simp only at hs h1 h2
      subst hs
      rw [balanceRemove_cons _ _ _ _ _ hx.red_eq (hx.goodTree _) (h1.goodTree _)]
      simp only [removeRedSib, h1.red_eq, Bool.false_eq_true, if_false, Option.bind_eq_bind, Option.bind_some]
      exact tail_red hx h1 h2
    · simp only at hs h1 h2
      subst hs
      rw [balanceRemove_cons _ _ _ _ _ hx.red_eq (hx.goodTree _) (h1.goodTree _)]
      cases d with
      | true =>
        obtain ⟨wl, wa, wr, rfl, h3, h4⟩ := h1.isRed
        simp only [removeRedSib, h1.red_eq, if_true, Option.bind_eq_bind]
        have hd : decSetRed (2 * (h + 1) + 2) = some (2 * h + 3) := by simp [decSetRed, ass]; omega
        simp only [mapStat, incSetBlack, ass, hd, Option.bind_eq_bind, Option.bind_some]
        cases i
        · simp only [rbRotate, plug1, mkNode, rotate, down, Option.bind_eq_bind, Option.bind_some]
          have hmod : (2 * (h + 1) + 1) % 2 = 1 := by omega
          simp only [hmod, if_true, Option.bind_some]
          have hc' : Ctx ((⟨false, wa, 2 * (h + 1) + 1 + 1, wr⟩ : Frame α) :: p) true (h + 1) :=
            Or.inr ⟨rfl, ⟨_, h4⟩, h2⟩
          obtain ⟨t, r, e1, e2, e3, e4⟩ := tail_red (n := m) (i := false) (a := a)
            (rv := if p.isEmpty then some wa else rv) hx h3 hc'
          refine ⟨t, r, e1, ?_, e3, ?_⟩
          · rw [e2]; simp [toList_plug, pre, post, toList]
          · cases p with
            | nil =>
              rcases e4 with e4 | ⟨e4, e5⟩
              · exact Or.inl e4
              · left
                rw [e5, e4]; simp [plug, plug1, mkNode, rootId]
            | cons g p =>
              rcases e4 with e4 | ⟨e4, e5⟩
              · exact Or.inl e4
              · right
                refine ⟨by simpa using e4, ?_⟩
                rw [e5]; simp only [plug]; exact rootId_plug_cons_congr _ _ _ _
        · simp only [rbRotate, plug1, mkNode, rotate, down, Option.bind_eq_bind, Option.bind_some]
          have hmod : (2 * (h + 1) + 1) % 2 = 1 := by omega
          simp only [hmod, if_true, Option.bind_some]
          have hc' : Ctx ((⟨true, wa, 2 * (h + 1) + 1 + 1, wl⟩ : Frame α) :: p) true (h + 1) :=
            Or.inr ⟨rfl, ⟨_, h3⟩, h2⟩
          obtain ⟨t, r, e1, e2, e3, e4⟩ := tail_red (n := m) (i := true) (a := a)
            (rv := if p.isEmpty then some wa else rv) hx h4 hc'
          refine ⟨t, r, e1, ?_, e3, ?_⟩
          · rw [e2]; simp [toList_plug, pre, post, toList]
          · cases p with
            | nil =>
              rcases e4 with e4 | ⟨e4, e5⟩
              · exact Or.inl e4
              · left
                rw [e5, e4]; simp [plug, plug1, mkNode, rootId]
            | cons g p =>
              rcases e4 with e4 | ⟨e4, e5⟩
              · exact Or.inl e4
              · right
                refine ⟨by simpa using e4, ?_⟩
                rw [e5]; simp only [plug]; exact rootId_plug_cons_congr _ _ _ _
      | false =>
        simp only [removeRedSib, h1.red_eq, Bool.false_eq_true, if_false, Option.bind_eq_bind, Option.bind_some]
        have hl : isLeaf sib = false := by
          cases h1; rfl
        simp only [removeTail, hl, h1.red_eq, Bool.not_false, ass_true, Option.bind_eq_bind, Option.bind_some,
          Bool.false_eq_true, if_false]
        by_cases hb : blackChildren sib = true
        · obtain ⟨w, w1, w2, w3⟩ := mapStat_black h1 hb
          have hd : dec (2 * (h + 1) + 2) = some (2 * h + 2) := by simp [dec, ass]; omega
          have hx' : RB (mkNode i x a (2 * h + 2) w) false (h + 1) := rb_mk_black hx w2 rfl
          simp only [hb, if_true, w1, hd, Option.bind_some, plug1, hx'.goodTree, ass_true]
          refine (balanceRemove_ok (m + 1) rv p _ false (h + 1) hx' h2 (by simp at hn; omega)).congr ?_ ?_
          · simp only [plug]
            rw [toList_plug, toList_plug]
            cases i <;> simp [plug1, mkNode, toList, w3]
          · simp only [plug]; exact rootId_plug_congr (by cases i <;> rfl) p
        · rw [if_neg hb]
          obtain ⟨k, wa, o, d, o1, o2, o3, o4⟩ := outer_ok i h1 (by simpa using hb)
          simp only [o1, Option.bind_some]
          obtain ⟨t, e1, e2, e3⟩ := final_ok (e := false) (fa := a) (sib := sib) (wa := wa) rv i p hx o2 o3
          simp only [Bool.false_eq_true, if_false] at e1 e2
          refine ⟨plug t p, _, e1, ?_, rb_plug e2 h2, ?_⟩
          · rw [toList_plug]; simp only [plug]; rw [toList_plug, e3]
            cases i <;> simp [plug1, mkNode, toList] <;> simp [mkNode, toList] at o4 <;> simp [← o4]
          · cases p with
            | nil => exact Or.inl rfl
            | cons g p => exact Or.inr ⟨rfl, by simp only [plug]; exact rootId_plug_cons_congr _ _ _ _⟩

end Hob3l.Dict
