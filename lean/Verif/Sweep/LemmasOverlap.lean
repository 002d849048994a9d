import Verif.Sweep.Lemmas
import Verif.Sweep.LoopSpec
import Mathlib.Tactic.SplitIfs

namespace Hob3l.Sweep

open Hob3l.Matq

/-- status flags of an edge occupying `[u, v)` while the sweep line is at parameter `s` -/
def Status (x : Edge) (u v s : ℚ) : Prop :=
  (x.inState = false ∧ x.agL = false ∧ x.agR = false ∧ v ≤ s) ∨
  (x.inState = true ∧ x.agL = false ∧ x.agR = true ∧ u ≤ s ∧ s < v) ∨
  (x.inState = false ∧ x.agL = true ∧ x.agR = true ∧ s < u)

/-- what is to be shown for the edges resulting from an overlap, in terms of line parameters -/
structure Good (p d : Pt) (s : ℚ) (e o : Edge) (t : ℚ) (L : List (Edge × ℚ × ℚ)) : Prop where
  on : ∀ x ∈ L, OnLine p d x.1 x.2.1 x.2.2
  dis : L.Pairwise (fun x y => x.2.2 ≤ y.2.1)
  st : ∀ x ∈ L, Status x.1 x.2.1 x.2.2 s
  cov : ∀ r, (L.map fun x => cov x.2.1 x.2.2 x.1.member r).foldr (· ^^^ ·) 0 = cov s t e.member r ^^^ cov 0 1 o.member r
  sub : ∀ x ∈ L, (0 ≤ x.2.1 ∧ x.2.2 ≤ 1) ∨ (s ≤ x.2.1 ∧ x.2.2 ≤ t)
  ends : ∀ v, endXor v (L.map Prod.fst) = endMask v e ^^^ endMask v o

/-- closes the field `sub` of `Good` for an explicit list -/
macro "good_sub" : tactic => `(tactic| (
  simp only [List.mem_cons, List.not_mem_nil, or_false, forall_eq_or_imp, forall_eq]
  repeat' first
    | exact Or.inl ⟨by linarith, by linarith⟩
    | exact Or.inr ⟨by linarith, by linarith⟩
    | apply And.intro))

/-- closes the field `ends` of `Good` for an explicit list -/
macro "good_ends" em:ident om:ident : tactic => `(tactic| (
  intro v
  simp only [List.map_cons, List.map_nil, endXor, endMask]
  ext i hi
  split_ifs <;> simp only [BitVec.getElem_xor, BitVec.getElem_zero, BitVec.ofNat_eq_ofNat] <;>
    cases ($em)[i] <;> cases ($om)[i] <;> rfl))

theorem overlap_core {p d : Pt} (hd : LexPos d) {e o : Edge} {s t : ℚ} (he : OnLine p d e s t)
    (ho : OnLine p d o 0 1) (h0 : 0 ≤ s) (h1 : s < 1)
    (hel : e.left.InRange) (her : e.rigt.InRange) (hor : o.rigt.InRange)
    (fo : o.inState = true ∧ o.agL = false ∧ o.agR = true) (fe : e.inState = false ∧ e.agL = false ∧ e.agR = true) :
    ∃ L : List (Edge × ℚ × ℚ), overlap e o = some (L.map Prod.fst) ∧ Good p d s e o t L := by
  obtain ⟨eL, eR, em, es, eaL, eaR⟩ := e
  obtain ⟨oL, oR, om, os, oaL, oaR⟩ := o
  obtain ⟨rfl, rfl, rfl⟩ := fo
  obtain ⟨rfl, rfl, rfl⟩ := fe
  obtain ⟨he1, he2, hst⟩ := he
  obtain ⟨ho1, ho2, -⟩ := ho
  simp only at *
  have hdd : 0 < d.1 * d.1 + d.2 * d.2 := by
    rcases hd.ne with h | h
    · have := mul_self_pos.mpr h; nlinarith [mul_self_nonneg d.2]
    · have := mul_self_pos.mpr h; nlinarith [mul_self_nonneg d.1]
  unfold overlap
  simp only [ass_true, Option.bind_eq_bind, Option.bind_some, sqrDist_some hel her, sqrDist_some hel hor]
  have q1 := sqrDist_LP he1 he2
  have q2 := sqrDist_LP he1 ho2
  generalize (eL.x - eR.x) * (eL.x - eR.x) + (eL.y - eR.y) * (eL.y - eR.y) = A at q1 ⊢
  generalize (eL.x - oR.x) * (eL.x - oR.x) + (eL.y - oR.y) * (eL.y - oR.y) = B at q2 ⊢
  have hleft : oL = eL ↔ 0 = s := eq_LP hd ho1 he1
  have hlt : A < B ↔ t < 1 := by
    rw [← Int.cast_lt (R := ℚ), q1, q2, mul_lt_mul_iff_left₀ hdd]
    constructor
    · intro h; nlinarith
    · intro h; nlinarith
  have hgt : B < A ↔ 1 < t := by
    rw [← Int.cast_lt (R := ℚ), q1, q2, mul_lt_mul_iff_left₀ hdd]
    constructor
    · intro h; nlinarith
    · intro h; nlinarith
  have l_oe : 0 < s → LexLt oL eL := fun h => (lexLt_LP hd ho1 he1).mpr h
  rcases lt_trichotomy t 1 with ht | ht | ht
  · have hi : cpCmp A B = -1 := by unfold cpCmp; rw [if_pos (hlt.mpr ht)]
    rw [hi, if_neg (by decide), if_neg (by decide)]
    have l_er : LexLt eR oR := (lexLt_LP hd he2 ho2).mpr ht
    by_cases hl : oL = eL
    · rw [if_pos hl]
      have hs : 0 = s := hleft.mp hl
      subst hl
      subst hs
      have l_or : LexLt oL eR := (lexLt_LP hd ho1 he2).mpr hst
      refine ⟨[(⟨oL, eR, om ^^^ em, true, false, true⟩, 0, t), (⟨eR, oR, om, false, true, true⟩, t, 1)], ?_, ?_⟩
      · unfold overlapQO insL updR
        simp only [assLR_some l_er, assLR_some l_or, ass_true, Option.bind_eq_bind, Option.bind_some,
          Option.pure_def, List.map_cons, List.map_nil]
      · constructor
        · simp only [List.mem_cons, List.not_mem_nil, or_false, forall_eq_or_imp, forall_eq]
          exact ⟨⟨ho1, he2, hst⟩, ⟨he2, ho2, ht⟩⟩
        · simp
        · simp [Status]; linarith
        · intro r
          simp only [List.map_cons, List.map_nil, List.foldr_cons, List.foldr_nil, BitVec.xor_zero]
          rw [cov_xor, ← cov_cut hst.le ht.le om r]
          ac_rfl
        · good_sub
        · good_ends em om
    · rw [if_neg hl]
      have hs : 0 < s := lt_of_le_of_ne h0 (fun h => hl (hleft.mpr h))
      refine ⟨[(⟨oL, eL, om, false, false, false⟩, 0, s), (⟨eL, eR, em ^^^ om, true, false, true⟩, s, t),
        (⟨eR, oR, om, false, true, true⟩, t, 1)], ?_, ?_⟩
      · unfold overlapOO insL insR remR replaceState
        simp only [assLR_some (l_oe hs), edgeNew_some _ l_er, ass_true, Option.bind_eq_bind, Option.bind_some,
          Option.pure_def, List.map_cons, List.map_nil]
      · constructor
        · simp only [List.mem_cons, List.not_mem_nil, or_false, forall_eq_or_imp, forall_eq]
          exact ⟨⟨ho1, he1, hs⟩, ⟨he1, he2, hst⟩, ⟨he2, ho2, ht⟩⟩
        · simp; exact hst.le
        · simp [Status]; exact hst
        · intro r
          simp only [List.map_cons, List.map_nil, List.foldr_cons, List.foldr_nil, BitVec.xor_zero]
          rw [cov_xor, ← cov_cut h0 h1.le om r, ← cov_cut hst.le ht.le om r]
          ac_rfl
        · good_sub
        · good_ends em om
  · subst ht
    have hi : cpCmp A B = 0 := by
      unfold cpCmp; rw [if_neg (by rw [hlt]; exact lt_irrefl _), if_neg (by rw [hgt]; exact lt_irrefl _)]
    rw [hi, if_pos rfl]
    have hRR : eR = oR := (eq_LP hd he2 ho2).mpr rfl
    subst hRR
    by_cases hl : oL = eL
    · rw [if_pos hl]
      have hs : 0 = s := hleft.mp hl
      subst hl; subst hs
      refine ⟨[(⟨oL, eR, om ^^^ em, true, false, true⟩, 0, 1)], ?_, ?_⟩
      · unfold overlapQQ edgeDelete remR
        simp only [ass_true, Option.bind_eq_bind, Option.bind_some, Option.pure_def, List.map_cons, List.map_nil]
      · constructor
        · simp only [List.mem_cons, List.not_mem_nil, or_false, forall_eq]
          exact ⟨ho1, he2, hst⟩
        · simp
        · simp [Status]
        · intro r
          simp only [List.map_cons, List.map_nil, List.foldr_cons, List.foldr_nil, BitVec.xor_zero]
          rw [cov_xor]
          ac_rfl
        · good_sub
        · good_ends em om
    · rw [if_neg hl]
      have hs : 0 < s := lt_of_le_of_ne h0 (fun h => hl (hleft.mpr h))
      refine ⟨[(⟨oL, eL, om, false, false, false⟩, 0, s), (⟨eL, eR, em ^^^ om, true, false, true⟩, s, 1)], ?_, ?_⟩
      · unfold overlapOQ remR replaceState
        simp only [assLR_some (l_oe hs), ass_true, Option.bind_eq_bind, Option.bind_some,
          Option.pure_def, List.map_cons, List.map_nil]
      · constructor
        · simp only [List.mem_cons, List.not_mem_nil, or_false, forall_eq_or_imp, forall_eq]
          exact ⟨⟨ho1, he1, hs⟩, ⟨he1, he2, hst⟩⟩
        · simp
        · simp [Status]; exact hst
        · intro r
          simp only [List.map_cons, List.map_nil, List.foldr_cons, List.foldr_nil, BitVec.xor_zero]
          rw [cov_xor, ← cov_cut h0 h1.le om r]
          ac_rfl
        · good_sub
        · good_ends em om
  · have hi : cpCmp A B = 1 := by
      unfold cpCmp; rw [if_neg (by rw [hlt]; linarith), if_pos (hgt.mpr ht)]
    rw [hi, if_neg (by decide), if_pos (by decide)]
    have l_re : LexLt oR eR := (lexLt_LP hd ho2 he2).mpr ht
    have l_eo : LexLt eL oR := (lexLt_LP hd he1 ho2).mpr h1
    by_cases hl : oL = eL
    · rw [if_pos hl]
      have hs : 0 = s := hleft.mp hl
      subst hl; subst hs
      refine ⟨[(⟨oL, oR, om ^^^ em, true, false, true⟩, 0, 1), (⟨oR, eR, em, false, true, true⟩, 1, t)], ?_, ?_⟩
      · unfold overlapQN insL
        simp only [assLR_some l_re, ass_true, Option.bind_eq_bind, Option.bind_some,
          Option.pure_def, List.map_cons, List.map_nil]
      · constructor
        · simp only [List.mem_cons, List.not_mem_nil, or_false, forall_eq_or_imp, forall_eq]
          exact ⟨⟨ho1, ho2, by norm_num⟩, ⟨ho2, he2, ht⟩⟩
        · simp
        · simp [Status]
        · intro r
          simp only [List.map_cons, List.map_nil, List.foldr_cons, List.foldr_nil, BitVec.xor_zero]
          rw [cov_xor, ← cov_cut (show (0:ℚ) ≤ 1 by norm_num) ht.le em r]
          ac_rfl
        · good_sub
        · good_ends em om
    · rw [if_neg hl]
      have hs : 0 < s := lt_of_le_of_ne h0 (fun h => hl (hleft.mpr h))
      refine ⟨[(⟨oL, eL, om, false, false, false⟩, 0, s), (⟨eL, oR, em ^^^ om, true, false, true⟩, s, 1),
        (⟨oR, eR, em, false, true, true⟩, 1, t)], ?_, ?_⟩
      · unfold overlapON insL insR remR updR replaceState
        simp only [assLR_some (l_oe hs), assLR_some l_eo, edgeNew_some _ l_re, ass_true, Option.bind_eq_bind,
          Option.bind_some, Option.pure_def, List.map_cons, List.map_nil]
      · constructor
        · simp only [List.mem_cons, List.not_mem_nil, or_false, forall_eq_or_imp, forall_eq]
          exact ⟨⟨ho1, he1, hs⟩, ⟨he1, ho2, h1⟩, ⟨ho2, he2, ht⟩⟩
        · simp; exact h1.le
        · simp [Status]; exact h1
        · intro r
          simp only [List.map_cons, List.map_nil, List.foldr_cons, List.foldr_nil, BitVec.xor_zero]
          rw [cov_xor, ← cov_cut h0 h1.le om r, ← cov_cut h1.le ht.le em r]
          ac_rfl
        · good_sub
        · good_ends em om

/-- translation of `Good` to points -/
theorem Good.out {p d : Pt} (hd : LexPos d) {e o : Edge} {s t : ℚ} {L : List (Edge × ℚ × ℚ)} (g : Good p d s e o t L)
    (he : OnLine p d e s t) (ho : OnLine p d o 0 1) :
    (∀ X, coverAll (L.map Prod.fst) X = e.cover X ^^^ o.cover X) ∧
    (∀ x ∈ L.map Prod.fst, LexLt x.left x.rigt) ∧ Disjoint (L.map Prod.fst) ∧
    (∀ x ∈ L.map Prod.fst, x.Done e.left ∨ x.Active e.left ∨ x.Pending e.left) := by
  refine ⟨fun X => ?_, ?_, ?_, ?_⟩
  · have := coverAll_LP L [(e, s, t), (o, 0, 1)] hd g.on (by
      simp only [List.mem_cons, List.not_mem_nil, or_false, forall_eq_or_imp, forall_eq]
      exact ⟨he, ho⟩) (by
      intro r; rw [g.cov]; simp) X
    rw [this]
    simp [coverAll]
  · intro x hx
    obtain ⟨y, hy, rfl⟩ := List.mem_map.mp hx
    have := g.on y hy
    exact (lexLt_LP hd this.l this.r).mpr this.lt
  · unfold Disjoint
    rw [List.pairwise_map]
    refine List.Pairwise.imp_of_mem ?_ g.dis
    intro a b ha hb h X
    exact disjoint_LP hd (g.on a ha) (g.on b hb) h X
  · intro x hx
    obtain ⟨y, hy, rfl⟩ := List.mem_map.mp hx
    have hon := g.on y hy
    have l1 := lexLt_LP hd he.l hon.l
    have l2 := lexLt_LP hd he.l hon.r
    unfold Edge.Done Edge.Active Edge.Pending
    rw [l1, l2, not_lt, not_lt]
    exact g.st y hy

theorem onSeg_LP {p d : Pt} {u v u' v' : ℚ} {X : Pt} (h : OnSeg (LP p d u) (LP p d v) X) (huv : u ≤ v) (h1 : u' ≤ u)
    (h2 : v ≤ v') : OnSeg (LP p d u') (LP p d v') X := by
  obtain ⟨r, r0, r1, hx, hy⟩ := h
  simp only [LP] at hx hy
  rcases (h1.trans (huv.trans h2)).lt_or_eq with h | h
  · have hne : v' - u' ≠ 0 := by linarith
    refine ⟨(u + r * (v - u) - u') / (v' - u'), ?_, ?_, ?_, ?_⟩
    · exact div_nonneg (by nlinarith) (by linarith)
    · rw [div_le_one (by linarith)]; nlinarith
    · rw [hx]; simp only [LP]; field_simp; ring
    · rw [hy]; simp only [LP]; field_simp; ring
  · have e1 : u = u' := by linarith
    have e2 : v = u' := by linarith
    subst e1; subst e2; subst h
    exact ⟨0, le_rfl, by norm_num, by rw [hx]; simp only [LP]; ring, by rw [hy]; simp only [LP]; ring⟩

/-- the pieces lie within the two edges -/
theorem Good.within {p d : Pt} {e o : Edge} {s t : ℚ} {L : List (Edge × ℚ × ℚ)} (g : Good p d s e o t L)
    (he : OnLine p d e s t) (ho : OnLine p d o 0 1) : ∀ x ∈ L.map Prod.fst, x.Within e ∨ x.Within o := by
  intro x hx
  obtain ⟨y, hy, rfl⟩ := List.mem_map.mp hx
  have hon := g.on y hy
  rcases g.sub y hy with ⟨h1, h2⟩ | ⟨h1, h2⟩
  · right
    intro X hX
    rw [hon.l, hon.r] at hX
    rw [ho.l, ho.r]
    exact onSeg_LP hX hon.lt.le h1 h2
  · left
    intro X hX
    rw [hon.l, hon.r] at hX
    rw [he.l, he.r]
    exact onSeg_LP hX hon.lt.le h1 h2

/-- parameters of an edge on the line of `o` -/
theorem onLine_of {e o : Edge} (ho : LexLt o.left o.rigt) (he : LexLt e.left e.rigt)
    (hp : Parallel o.left.pt o.rigt.pt e.left.pt e.rigt.pt) (hs : HalfOpen o.left.pt o.rigt.pt e.left.pt) :
    ∃ s t, OnLine o.left.pt (o.rigt.pt.1 - o.left.pt.1, o.rigt.pt.2 - o.left.pt.2) e s t ∧ 0 ≤ s ∧ s < 1 := by
  obtain ⟨hd, hol⟩ := line_of o ho
  have hs' : HalfOpen (LP o.left.pt (o.rigt.pt.1 - o.left.pt.1, o.rigt.pt.2 - o.left.pt.2) 0)
      (LP o.left.pt (o.rigt.pt.1 - o.left.pt.1, o.rigt.pt.2 - o.left.pt.2) 1) e.left.pt := by
    rw [← hol.l, ← hol.r]; exact hs
  obtain ⟨s, hs1, hs0, hs2⟩ := (halfOpen_LP hd.ne hol.lt).mp hs'
  clear hs'
  generalize hD : ((o.rigt.pt.1 - o.left.pt.1, o.rigt.pt.2 - o.left.pt.2) : Pt) = D at *
  have hp' : D.1 * (e.rigt.pt.2 - e.left.pt.2) = D.2 * (e.rigt.pt.1 - e.left.pt.1) := by
    rw [← hD]; exact hp
  -- parameter of the right end
  obtain ⟨t, ht⟩ : ∃ t, e.rigt.pt = LP o.left.pt D t := by
    have h1 := congrArg Prod.fst hs1
    have h2 := congrArg Prod.snd hs1
    simp only [LP] at h1 h2
    rcases hd.ne with h | h
    · refine ⟨s + (e.rigt.pt.1 - e.left.pt.1) / D.1, ?_⟩
      apply Prod.ext
      · simp only [LP]; field_simp; linarith
      · simp only [LP]; field_simp; linear_combination hp' + D.1 * h2
    · refine ⟨s + (e.rigt.pt.2 - e.left.pt.2) / D.2, ?_⟩
      apply Prod.ext
      · simp only [LP]; field_simp; linear_combination -hp' + D.2 * h1
      · simp only [LP]; field_simp; linarith
  exact ⟨s, t, ⟨hs1, ht, (lexLt_LP hd hs1 ht).mp he⟩, hs0, hs2⟩

theorem split_core {p d : Pt} (hd : LexPos d) {i : Vec2} {o : Edge} {s : ℚ} (hi : i.pt = LP p d s)
    (ho : OnLine p d o 0 1) (h0 : 0 < s) (h1 : s < 1) (fo : o.agR = true) :
    split i o = some [{ o with rigt := i }, ⟨i, o.rigt, o.member, false, true, true⟩] := by
  obtain ⟨oL, oR, om, os, oaL, oaR⟩ := o
  simp only at fo; subst fo
  have l1 : LexLt i oR := (lexLt_LP hd hi ho.r).mpr h1
  have l2 : LexLt oL i := (lexLt_LP hd ho.l hi).mpr h0
  unfold split insL insR updR
  simp only [assLR_some l2, edgeNew_some _ l1, ass_true, Option.bind_eq_bind, Option.bind_some, Option.pure_def]

end Hob3l.Sweep
