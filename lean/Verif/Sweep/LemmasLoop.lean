import Verif.Sweep.LoopModel
import Verif.Sweep.LoopSpec
import Verif.Sweep.LemmasPair
import Verif.Sweep.LemmasTree
import Mathlib.Data.List.Perm.Basic

namespace Hob3l.Sweep

open Hob3l.Matq

/-! XOR over lists -/

theorem endXor_append (v : Vec2) (a b : List Edge) : endXor v (a ++ b) = endXor v a ^^^ endXor v b := by
  induction a with
  | nil => simp [endXor]
  | cons x xs ih => simp only [List.cons_append, endXor, ih, BitVec.xor_assoc]

theorem coverAll_append (a b : List Edge) (X : Pt) : coverAll (a ++ b) X = coverAll a X ^^^ coverAll b X := by
  induction a with
  | nil => simp [coverAll]
  | cons x xs ih => simp only [List.cons_append, coverAll, ih, BitVec.xor_assoc]

theorem endXor_perm (v : Vec2) {a b : List Edge} (h : a.Perm b) : endXor v a = endXor v b := by
  induction h with
  | nil => rfl
  | cons x _ ih => simp only [endXor, ih]
  | swap x y l => simp only [endXor]; ac_rfl
  | trans _ _ ih1 ih2 => exact ih1.trans ih2

theorem coverAll_perm (X : Pt) {a b : List Edge} (h : a.Perm b) : coverAll a X = coverAll b X := by
  induction h with
  | nil => rfl
  | cons x _ ih => simp only [coverAll, ih]
  | swap x y l => simp only [coverAll]; ac_rfl
  | trans _ _ ih1 ih2 => exact ih1.trans ih2

/-! ranges -/

theorem inRange_onSeg {a b i : Vec2} (ha : a.InRange) (hb : b.InRange) (h : OnSeg a.pt b.pt i.pt) : i.InRange := by
  obtain ⟨s, s0, s1, hx, hy⟩ := h
  obtain ⟨⟨a1, a2⟩, a3, a4⟩ := ha
  obtain ⟨⟨b1, b2⟩, b3, b4⟩ := hb
  simp only [Vec2.pt] at hx hy
  have q : ∀ {u w m : ℤ} {lo hi : ℤ}, lo ≤ u → u ≤ hi → lo ≤ w → w ≤ hi → (m : ℚ) = u + s * (w - u) →
      lo ≤ m ∧ m ≤ hi := by
    intro u w m lo hi h1 h2 h3 h4 e
    have h1 : (lo : ℚ) ≤ u := by exact_mod_cast h1
    have h2 : (u : ℚ) ≤ hi := by exact_mod_cast h2
    have h3 : (lo : ℚ) ≤ w := by exact_mod_cast h3
    have h4 : (w : ℚ) ≤ hi := by exact_mod_cast h4
    constructor
    · have : (lo : ℚ) ≤ m := by rw [e]; nlinarith
      exact_mod_cast this
    · have : (m : ℚ) ≤ hi := by rw [e]; nlinarith
      exact_mod_cast this
  exact ⟨q a1 a2 b1 b2 hx, q a3 a4 b3 b4 hy⟩

/-! what `split` and `pair` do -/

theorem ass_some {c : Prop} [Decidable c] {u : Unit} (h : ass c = some u) : c := by
  unfold ass at h; split_ifs at h with hc; exact hc

theorem split_char {i : Vec2} {o : Edge} {l : List Edge} (h : split i o = some l) :
    l = [{ o with rigt := i }, ⟨i, o.rigt, o.member, false, true, true⟩] ∧ LexLt o.left i ∧ LexLt i o.rigt ∧
      o.agR = true := by
  unfold split edgeNew assLR updR insL insR at h
  simp only [Option.bind_eq_bind, Option.pure_def, Option.bind_eq_some_iff, Option.some.injEq] at h
  obtain ⟨_, ⟨_, h1, rfl⟩, _, h2, _, ⟨_, h3, rfl⟩, _, ⟨_, _, rfl⟩, _, ⟨_, _, rfl⟩, rfl⟩ := h
  exact ⟨rfl, vec2Cmp_lt.mp (ass_some h2), vec2Cmp_lt.mp (ass_some h1), ass_some h3⟩

/-- `l` is `o`, or `o` cut at an inner point -/
def Cut (l : List Edge) (o : Edge) : Prop :=
  l = [o] ∨ ∃ i : Vec2, OnSeg o.left.pt o.rigt.pt i.pt ∧ LexLt o.left i ∧ LexLt i o.rigt ∧ o.agR = true ∧
    l = [{ o with rigt := i }, ⟨i, o.rigt, o.member, false, true, true⟩]

theorem cut_of_split {i : Vec2} {o : Edge} {l : List Edge} (h : split i o = some l)
    (hi : OnSeg o.left.pt o.rigt.pt i.pt) : Cut l o := by
  obtain ⟨h1, h2, h3, h4⟩ := split_char h
  exact Or.inr ⟨i, hi, h2, h3, h4, h1⟩

theorem pair_char {debug : Bool} {cur : Vec2if} {prev next : Edge} {r : PairRes}
    (r1 : prev.left.InRange) (r2 : prev.rigt.InRange) (r3 : next.left.InRange) (r4 : next.rigt.InRange)
    (h : pair debug cur prev next = some r) :
    Cut r.prev prev ∧ Cut r.next next ∧
      ∀ P, r.xing = some P → P.Valid ∧ OnSeg prev.left.pt prev.rigt.pt P.pt ∧ OnSeg next.left.pt next.rigt.pt P.pt := by
  obtain ⟨code, pt, hres, hcase⟩ := intersect_main debug prev.left prev.rigt next.left next.rigt r1 r2 r3 r4
  have hunf : pair debug cur prev next = pairSwitch cur prev next code pt := by
    unfold pair; rw [hres]; rfl
  rw [hunf] at h
  rcases hcase with ⟨rfl, rfl, hpar⟩ | ⟨rfl, rfl, hpar, hno⟩ | ⟨hpar, P, rfl, hPv, hX, hcode⟩
  · simp only [pairSwitch] at h
    norm_num at h
    subst h
    exact ⟨Or.inl rfl, Or.inl rfl, by simp⟩
  · simp only [pairSwitch] at h
    norm_num at h
    subst h
    exact ⟨Or.inl rfl, Or.inl rfl, by simp⟩
  · have hPP := (hX P.pt).mpr rfl
    unfold pairSwitch at h
    by_cases c1 : code = 1 + 2
    · have e : P.pt = prev.left.pt := by
        by_contra e; rw [if_neg e] at hcode; split_ifs at hcode <;> omega
      rw [if_pos c1] at h
      simp only [Option.bind_eq_bind, Option.pure_def, Option.bind_eq_some_iff, Option.some.injEq] at h
      obtain ⟨l, hl, rfl⟩ := h
      exact ⟨Or.inl rfl, cut_of_split hl (e ▸ hPP.2), by simp⟩
    rw [if_neg c1] at h
    by_cases c2 : code = 1 + 4
    · have e : P.pt = prev.rigt.pt := by
        by_contra e; rw [if_neg e] at hcode; split_ifs at hcode <;> omega
      rw [if_pos c2] at h
      simp only [Option.bind_eq_bind, Option.pure_def, Option.bind_eq_some_iff, Option.some.injEq] at h
      obtain ⟨l, hl, rfl⟩ := h
      exact ⟨Or.inl rfl, cut_of_split hl (e ▸ hPP.2), by simp⟩
    rw [if_neg c2] at h
    by_cases c3 : code = 1 + 8
    · have e : P.pt = next.left.pt := by
        by_contra e; rw [if_neg e] at hcode; split_ifs at hcode <;> omega
      rw [if_pos c3] at h
      simp only [Option.bind_eq_bind, Option.pure_def, Option.bind_eq_some_iff, Option.some.injEq] at h
      obtain ⟨l, hl, rfl⟩ := h
      exact ⟨cut_of_split hl (e ▸ hPP.1), Or.inl rfl, by simp⟩
    rw [if_neg c3] at h
    by_cases c4 : code = 1 + 16
    · have e : P.pt = next.rigt.pt := by
        by_contra e; rw [if_neg e] at hcode; split_ifs at hcode <;> omega
      rw [if_pos c4] at h
      simp only [Option.bind_eq_bind, Option.pure_def, Option.bind_eq_some_iff, Option.some.injEq] at h
      obtain ⟨l, hl, rfl⟩ := h
      exact ⟨cut_of_split hl (e ▸ hPP.1), Or.inl rfl, by simp⟩
    rw [if_neg c4] at h
    by_cases c5 : code = 1
    · rw [if_pos c5] at h
      simp only [pairCross] at h
      by_cases g : vec2ifCmp P cur > 0
      · rw [if_pos g] at h
        by_cases hint : P.x.n = 0 ∧ P.y.n = 0
        · rw [if_pos hint] at h
          have hpt := pt_of_integer hint.1 hint.2
          simp only [Option.bind_eq_bind, Option.pure_def, Option.bind_eq_some_iff, Option.some.injEq] at h
          obtain ⟨l, hl, l', hl', rfl⟩ := h
          rw [hpt] at hPP
          exact ⟨cut_of_split hl hPP.1, cut_of_split hl' hPP.2, by simp⟩
        · rw [if_neg hint, Option.some.injEq] at h
          subst h
          refine ⟨Or.inl rfl, Or.inl rfl, ?_⟩
          intro Q hQ
          obtain rfl := Option.some.inj hQ
          exact ⟨hPv, hPP⟩
      · rw [if_neg g, Option.some.injEq] at h
        subst h
        exact ⟨Or.inl rfl, Or.inl rfl, by simp⟩
    · rw [if_neg c5, Option.some.injEq] at h
      subst h
      exact ⟨Or.inl rfl, Or.inl rfl, by simp⟩

/-! invariants -/

/-- edges that have been finished, that are in the state, that are waiting -/
def Edge.Flags (x : Edge) : Prop :=
  (x.inState = false ∧ x.agL = false ∧ x.agR = false) ∨ (x.inState = true ∧ x.agL = false ∧ x.agR = true) ∨
  (x.inState = false ∧ x.agL = true ∧ x.agR = true)

/-- a proper edge that is a part of an edge of `E` -/
structure EdgeOk (E : List Edge) (x : Edge) : Prop where
  lt : LexLt x.left x.rigt
  rl : x.left.InRange
  rr : x.rigt.InRange
  fl : x.Flags
  src : ∃ y ∈ E, x.Within y

theorem Edge.Within.trans {x y z : Edge} (h : x.Within y) (h' : y.Within z) : x.Within z := fun X hX => h' X (h X hX)
theorem Edge.Within.refl (x : Edge) : x.Within x := fun _ h => h

theorem Cut.ends {l : List Edge} {o : Edge} (h : Cut l o) (v : Vec2) : endXor v l = endMask v o := by
  rcases h with rfl | ⟨i, -, -, -, -, rfl⟩
  · simp [endXor]
  · simp only [endXor, endMask]
    ext k hk
    split_ifs <;> simp only [BitVec.getElem_xor, BitVec.getElem_zero, BitVec.ofNat_eq_ofNat] <;>
      cases (o.member)[k] <;> rfl

theorem Cut.cover {l : List Edge} {o : Edge} (h : Cut l o) (ho : LexLt o.left o.rigt) (X : Pt) :
    coverAll l X = o.cover X := by
  rcases h with rfl | ⟨i, hi, h1, h2, h3, rfl⟩
  · exact coverAll_single o X
  · exact (split_spec ho hi (fun h => h1.ne (pt_inj h).symm) (fun h => h2.ne (pt_inj h)) h3).2.1 X

theorem Cut.ok {E l : List Edge} {o : Edge} (h : Cut l o) (ho : EdgeOk E o) : ∀ x ∈ l, EdgeOk E x := by
  rcases h with rfl | ⟨i, hi, h1, h2, h3, rfl⟩
  · intro x hx; rw [List.mem_singleton] at hx; rw [hx]; exact ho
  · intro x hx
    have hr := inRange_onSeg ho.rl ho.rr hi
    obtain ⟨y, hy, hw⟩ := ho.src
    simp only [List.mem_cons, List.not_mem_nil, or_false] at hx
    rcases hx with rfl | rfl
    · exact ⟨h1, ho.rl, hr, ho.fl, y, hy, fun X hX => hw X (onSeg_sub_left hi hX)⟩
    · exact ⟨h2, hr, ho.rr, Or.inr (Or.inr ⟨rfl, rfl, rfl⟩), y, hy, fun X hX => hw X (onSeg_sub_right hi hX)⟩

/-- a crossing found: a point of an edge of `E` -/
def XingOk (E : List Edge) (P : Vec2if) : Prop := P.Valid ∧ ∃ y ∈ E, OnSeg y.left.pt y.rigt.pt P.pt

/-- invariant of phase 1 started with the edges `E` -/
structure Inv1 (E : List Edge) (s : S1) : Prop where
  ok : ∀ x ∈ s.edges, EdgeOk E x
  cov : ∀ X, coverAll s.edges X = coverAll E X
  ends : ∀ v, endXor v s.edges = endXor v E
  xi : ∀ P ∈ s.xings, XingOk E P
  fo : ∀ P ∈ s.found, XingOk E P

theorem Inv1.addXing {E : List Edge} {s : S1} (h : Inv1 E s) {x : Option Vec2if} (hx : ∀ P, x = some P → XingOk E P) :
    Inv1 E (addXing s x) := by
  unfold Hob3l.Sweep.addXing
  cases x with
  | none => exact h
  | some P =>
    simp only
    split_ifs
    · exact h
    · refine ⟨h.ok, h.cov, h.ends, ?_, ?_⟩
      · intro Q hQ
        rcases List.mem_cons.mp hQ with rfl | hQ
        · exact hx _ rfl
        · exact h.xi Q hQ
      · intro Q hQ
        rcases List.mem_append.mp hQ with hQ | hQ
        · exact h.fo Q hQ
        · rw [List.mem_singleton] at hQ; rw [hQ]; exact hx _ rfl

/-- replacing some edges by others that cover the same -/
theorem Inv1.replace {E : List Edge} {s : S1} (h : Inv1 E s) {a b rest : List Edge} (hp : s.edges.Perm (a ++ rest))
    (hok : ∀ x ∈ b, EdgeOk E x) (hcov : ∀ X, coverAll b X = coverAll a X) (hend : ∀ v, endXor v b = endXor v a) :
    Inv1 E { s with edges := b ++ rest } := by
  refine ⟨?_, ?_, ?_, h.xi, h.fo⟩
  · intro x hx
    rcases List.mem_append.mp hx with hx | hx
    · exact hok x hx
    · exact h.ok x (hp.mem_iff.mpr (List.mem_append_right _ hx))
  · intro X
    rw [← h.cov, coverAll_perm X hp, coverAll_append, coverAll_append, hcov]
  · intro v
    rw [← h.ends, endXor_perm v hp, endXor_append, endXor_append, hend]

theorem PairStep.inv {E : List Edge} {debug : Bool} {cur : Vec2if} {s s' : S1} (hs : PairStep debug cur s s')
    (h : Inv1 E s) : Inv1 E s' := by
  cases hs with
  | null => exact h
  | pair a b rest r hp ha hb hr =>
    have oa := h.ok a (hp.mem_iff.mpr (by simp))
    have ob := h.ok b (hp.mem_iff.mpr (by simp))
    obtain ⟨c1, c2, c3⟩ := pair_char oa.rl oa.rr ob.rl ob.rr hr
    have h' : Inv1 E { s with edges := (r.prev ++ r.next) ++ rest } := by
      refine h.replace (a := [a, b]) hp ?_ ?_ ?_
      · intro x hx
        rcases List.mem_append.mp hx with hx | hx
        · exact c1.ok oa x hx
        · exact c2.ok ob x hx
      · intro X; rw [coverAll_append, c1.cover oa.lt, c2.cover ob.lt]; simp [coverAll]
      · intro v; rw [endXor_append, c1.ends, c2.ends]; simp [endXor]
    refine h'.addXing ?_
    intro P hP
    obtain ⟨v, o1, -⟩ := c3 P hP
    obtain ⟨y, hy, hw⟩ := oa.src
    exact ⟨v, y, hy, hw _ o1⟩

/-- two edges that compare equal lie on one line -/
theorem tree_zero {v w l r : Vec2} (hv : v.InRange) (hw : w.InRange) (hl : l.InRange) (hr : r.InRange)
    (h : treeVertexEdgeCmp v w l r = some 0) : side v r l = 0 ∧ side r v w = 0 := by
  unfold treeVertexEdgeCmp at h
  rw [cross3_some hv hr hl, cross3_some hr hv hw] at h
  simp only [Option.bind_eq_bind, Option.bind_some, Option.pure_def] at h
  by_cases h1 : cpSign (side v r l) = 0
  · rw [if_neg (by simpa using h1)] at h
    by_cases h2 : cpSign (side r v w) = 0
    · exact ⟨cpSign_sign.2.2.mp h1, cpSign_sign.2.2.mp h2⟩
    · rw [if_pos h2] at h; exact absurd (Option.some.inj h) h2
  · rw [if_pos h1] at h; exact absurd (Option.some.inj h) h1

/-- a point on the line of `o`, not left of it, and left of its right end, is on `o` -/
theorem halfOpen_of_side {o : Edge} {v : Vec2} (ho : LexLt o.left o.rigt) (hs : side v o.rigt o.left = 0)
    (h1 : ¬ LexLt v o.left) (h2 : LexLt v o.rigt) : o.Has v.pt := by
  obtain ⟨hd, hol⟩ := line_of o ho
  have hq : ((v.x : ℚ) - o.rigt.x) * (o.left.y - o.rigt.y) - (v.y - o.rigt.y) * (o.left.x - o.rigt.x) = 0 := by
    unfold side at hs; exact_mod_cast hs
  obtain ⟨s, hs⟩ : ∃ s, v.pt = LP o.left.pt (o.rigt.pt.1 - o.left.pt.1, o.rigt.pt.2 - o.left.pt.2) s := by
    rcases hd.ne with h | h
    · simp only [Vec2.pt] at h
      refine ⟨((v.x : ℚ) - o.left.x) / (o.rigt.x - o.left.x), ?_⟩
      apply Prod.ext
      · simp only [LP, Vec2.pt]; field_simp; ring
      · simp only [LP, Vec2.pt]; field_simp; linear_combination hq
    · simp only [Vec2.pt] at h
      refine ⟨((v.y : ℚ) - o.left.y) / (o.rigt.y - o.left.y), ?_⟩
      apply Prod.ext
      · simp only [LP, Vec2.pt]; field_simp; linear_combination -hq
      · simp only [LP, Vec2.pt]; field_simp; ring
  have s0 : 0 ≤ s := by
    by_contra hc; push Not at hc; exact h1 ((lexLt_LP hd hs hol.l).mpr hc)
  have s1 : s < 1 := (lexLt_LP hd hs hol.r).mp h2
  unfold Edge.Has
  have hh := (halfOpen_LP (a := o.left.pt) hd.ne (show (0 : ℚ) < 1 by norm_num) (X := v.pt)).mpr ⟨s, hs, s0, s1⟩
  rw [← hol.l, ← hol.r] at hh
  exact hh

theorem parallel_of_side {o e : Edge} (hne : LexLt e.left o.rigt) (h1 : side e.left o.rigt o.left = 0)
    (h2 : side o.rigt e.left e.rigt = 0) : Parallel o.left.pt o.rigt.pt e.left.pt e.rigt.pt := by
  have q1 : ((e.left.x : ℚ) - o.rigt.x) * (o.left.y - o.rigt.y) - (e.left.y - o.rigt.y) * (o.left.x - o.rigt.x) = 0 := by
    unfold side at h1; exact_mod_cast h1
  have q2 : ((o.rigt.x : ℚ) - e.left.x) * (e.rigt.y - e.left.y) - (o.rigt.y - e.left.y) * (e.rigt.x - e.left.x) = 0 := by
    unfold side at h2; exact_mod_cast h2
  unfold Parallel Vec2.pt
  simp only
  rcases hne with h | ⟨h, h'⟩
  · have hx : ((o.rigt.x : ℚ) - e.left.x) ≠ 0 := by
      have : (e.left.x : ℚ) < o.rigt.x := by exact_mod_cast h
      linarith
    apply mul_left_cancel₀ hx
    linear_combination ((o.rigt.x : ℚ) - o.left.x) * q2 - (e.rigt.x - e.left.x) * q1
  · have hy : ((o.rigt.y : ℚ) - e.left.y) ≠ 0 := by
      have : (e.left.y : ℚ) < o.rigt.y := by exact_mod_cast h'
      linarith
    apply mul_left_cancel₀ hy
    linear_combination ((o.rigt.y : ℚ) - o.left.y) * q2 - (e.rigt.y - e.left.y) * q1

/-- `overlap` succeeds only if `o` does not start right of `e` -/
theorem overlap_left {e o : Edge} {L : List Edge} (h : overlap e o = some L) : ¬ LexLt e.left o.left := by
  intro hc
  have hne : o.left ≠ e.left := fun h => hc.ne h.symm
  have hno : vec2Cmp o.left e.left < 0 → False := fun h => hc.asymm (vec2Cmp_lt.mp h)
  unfold overlap at h
  rw [if_neg hne, if_neg hne, if_neg hne] at h
  simp only [Option.bind_eq_bind, Option.bind_eq_some_iff] at h
  obtain ⟨_, _, _, _, _, _, _, _, _, _, _, _, le, _, lo, _, h⟩ := h
  by_cases c1 : cpCmp le lo = 0
  · rw [if_pos c1] at h
    unfold overlapOQ assLR at h
    simp only [Option.bind_eq_bind, Option.bind_eq_some_iff] at h
    obtain ⟨_, h, _⟩ := h
    exact hno (ass_some h)
  · rw [if_neg c1] at h
    by_cases c2 : cpCmp le lo > 0
    · rw [if_pos c2] at h
      unfold overlapON assLR at h
      simp only [Option.bind_eq_bind, Option.bind_eq_some_iff] at h
      obtain ⟨_, _, _, _, _, h, _⟩ := h
      exact hno (ass_some h)
    · rw [if_neg c2] at h
      unfold overlapOO assLR at h
      simp only [Option.bind_eq_bind, Option.bind_eq_some_iff] at h
      obtain ⟨_, _, _, h, _⟩ := h
      exact hno (ass_some h)

theorem within_inRange {x y : Edge} (h : x.Within y) (h1 : y.left.InRange) (h2 : y.rigt.InRange) :
    x.left.InRange ∧ x.rigt.InRange :=
  ⟨inRange_onSeg h1 h2 (h _ (onSeg_left _ _)), inRange_onSeg h1 h2 (h _ (onSeg_right _ _))⟩

/-- the effect of `overlap` -/
theorem overlap_inv {E : List Edge} {e o : Edge} {L : List Edge} (he : LexLt e.left e.rigt) (h1 : e.left.InRange)
    (h2 : e.rigt.InRange) (se : ∃ y ∈ E, e.Within y) (ho : EdgeOk E o)
    (fo : o.inState = true ∧ o.agL = false ∧ o.agR = true) (fe : e.inState = false ∧ e.agL = false ∧ e.agR = true)
    (hc : treeVertexEdgeCmp e.left e.rigt o.left o.rigt = some 0) (hlt : LexLt e.left o.rigt)
    (h : overlap e o = some L) :
    (∀ x ∈ L, EdgeOk E x) ∧ (∀ X, coverAll L X = coverAll [e, o] X) ∧ ∀ v, endXor v L = endXor v [e, o] := by
  obtain ⟨c1, c2⟩ := tree_zero h1 h2 ho.rl ho.rr hc
  have hon := halfOpen_of_side ho.lt c1 (overlap_left h) hlt
  have hpar := parallel_of_side hlt c1 c2
  obtain ⟨hd, hol⟩ := line_of o ho.lt
  obtain ⟨s, t, hel, h0, h3⟩ := onLine_of ho.lt he hpar hon
  obtain ⟨L', hL, g⟩ := overlap_core hd hel hol h0 h3 h1 h2 ho.rr fo fe
  obtain rfl : L = L'.map Prod.fst := by rw [h] at hL; exact Option.some.inj hL
  obtain ⟨g1, g2, -, g4⟩ := g.out hd hel hol
  have g5 := g.within hel hol
  refine ⟨?_, ?_, ?_⟩
  · intro x hx
    have hin : x.left.InRange ∧ x.rigt.InRange := by
      rcases g5 x hx with w | w
      · exact within_inRange w h1 h2
      · exact within_inRange w ho.rl ho.rr
    refine ⟨g2 x hx, hin.1, hin.2, ?_, ?_⟩
    · rcases g4 x hx with f | f | f
      · exact Or.inl ⟨f.1, f.2.1, f.2.2.1⟩
      · exact Or.inr (Or.inl ⟨f.1, f.2.1, f.2.2.1⟩)
      · exact Or.inr (Or.inr ⟨f.1, f.2.1, f.2.2.1⟩)
    · rcases g5 x hx with w | w
      · obtain ⟨y, hy, w'⟩ := se; exact ⟨y, hy, w.trans w'⟩
      · obtain ⟨y, hy, w'⟩ := ho.src; exact ⟨y, hy, w.trans w'⟩
  · intro X; rw [g1]; simp [coverAll]
  · intro v; rw [g.ends]; simp [endXor]

theorem phase1Cmp_le {a b : Vertex} {i : Int} (h : phase1Cmp a b = some i) (hi : i ≤ 0) : ¬ LexLt b.p a.p := by
  intro hc
  have hgt := vec2Cmp_gt.mpr hc
  unfold phase1Cmp at h
  simp only at h
  rw [if_pos (by omega)] at h
  have := Option.some.inj h
  omega

/-- changing only flags -/
theorem Inv1.flags {E : List Edge} {s : S1} (h : Inv1 E s) {e e' : Edge} {rest : List Edge} (hp : s.edges.Perm (e :: rest))
    (h1 : e'.left = e.left) (h2 : e'.rigt = e.rigt) (h3 : e'.member = e.member) (hf : e'.Flags) :
    Inv1 E { s with edges := e' :: rest } := by
  have oe := h.ok e (hp.mem_iff.mpr (by simp))
  refine h.replace (a := [e]) (b := [e']) hp ?_ ?_ ?_
  · intro x hx
    rw [List.mem_singleton] at hx
    subst hx
    refine ⟨by rw [h1, h2]; exact oe.lt, h1 ▸ oe.rl, h2 ▸ oe.rr, hf, ?_⟩
    obtain ⟨y, hy, w⟩ := oe.src
    refine ⟨y, hy, ?_⟩
    unfold Edge.Within; rw [h1, h2]; exact w
  · intro X
    obtain ⟨_, _, _, _, _, _⟩ := e
    obtain ⟨_, _, _, _, _, _⟩ := e'
    simp only at h1 h2 h3
    subst h1 h2 h3
    rfl
  · intro v; simp only [endXor, endMask, h1, h2, h3]

theorem Step1.inv {E : List Edge} {debug : Bool} {s s' : S1} (hs : Step1 debug s s') (h : Inv1 E s) : Inv1 E s' := by
  cases hs with
  | overlap e o rest L hp ha hf hi ho hc hne hL =>
    have oe := h.ok e (hp.mem_iff.mpr (by simp))
    have oo := h.ok o (hp.mem_iff.mpr (by simp))
    have fe : e.inState = false ∧ e.agL = true ∧ e.agR = true := by
      rcases oe.fl with f | f | f
      · rw [f.2.1] at ha; exact absurd ha (by decide)
      · rw [f.2.1] at ha; exact absurd ha (by decide)
      · exact f
    have fo : o.inState = true ∧ o.agL = false ∧ o.agR = true := by
      rcases oo.fl with f | f | f
      · rw [f.1] at ho; exact absurd ho (by decide)
      · exact f
      · rw [f.1] at ho; exact absurd ho (by decide)
    have hlt : LexLt e.left o.rigt := by
      have hany := hf.1 o (hp.mem_iff.mpr (by simp)) ⟨o.rigt, o.left, 1⟩ (by
        unfold Edge.agenda; rw [fo.2.2]; simp)
      have : ¬ LexLt o.rigt e.left := by
        cases hph : phase1Cmp ⟨e.left, e.rigt, 0⟩ ⟨o.rigt, o.left, 1⟩ with
        | none => rw [hph] at hany; simp at hany
        | some i => rw [hph] at hany; exact phase1Cmp_le hph (by simpa using hany)
      rcases LexLt.total (a := e.left) (b := o.rigt) with c | c | c
      · exact absurd (vec2Cmp_eq.mpr c) hne
      · exact c
      · exact absurd c this
    obtain ⟨k1, k2, k3⟩ := overlap_inv (E := E) (e := { e with agL := false }) oe.lt oe.rl oe.rr oe.src oo fo
      ⟨fe.1, rfl, fe.2.2⟩ hc hlt hL
    refine h.replace (a := [e, o]) (b := L) hp k1 ?_ ?_
    · intro X; rw [k2]; rfl
    · intro v; rw [k3]; rfl
  | left s1 _ e rest hp ha hf hi p1 p2 =>
    have oe := h.ok e (hp.mem_iff.mpr (by simp))
    have fe : e.inState = false ∧ e.agL = true ∧ e.agR = true := by
      rcases oe.fl with f | f | f
      · rw [f.2.1] at ha; exact absurd ha (by decide)
      · rw [f.2.1] at ha; exact absurd ha (by decide)
      · exact f
    exact p2.inv (p1.inv (h.flags hp rfl rfl rfl (Or.inr (Or.inl ⟨rfl, rfl, fe.2.2⟩))))
  | rigt _ e rest hp ha hf hi p1 =>
    have oe := h.ok e (hp.mem_iff.mpr (by simp))
    have fe : e.inState = true ∧ e.agL = false ∧ e.agR = true := by
      rcases oe.fl with f | f | f
      · rw [f.1] at hi; exact absurd hi (by decide)
      · exact f
      · rw [f.1] at hi; exact absurd hi (by decide)
    exact p1.inv (h.flags hp rfl rfl rfl (Or.inl ⟨rfl, fe.2.1, rfl⟩))
  | cross s1 _ x xs hp hf p1 p2 =>
    refine p2.inv (p1.inv ⟨h.ok, h.cov, h.ends, ?_, h.fo⟩)
    intro P hP
    exact h.xi P (hp.mem_iff.mpr (List.mem_cons_of_mem _ hP))

theorem Phase1.inv {E : List Edge} {debug : Bool} {s s' : S1} (hs : Phase1 debug s s') (h : Inv1 E s) :
    Inv1 E s' ∧ (∀ e ∈ s'.edges, e.agenda = []) := by
  induction hs with
  | done s h1 h2 => exact ⟨h, h1⟩
  | step s s1 s2 st _ ih => exact ih (st.inv h)

theorem inv1_init {E : List Edge} (h : Fresh E) : Inv1 E ⟨E, [], []⟩ where
  ok x hx := by
    obtain ⟨h1, h2, h3, h4⟩ := h x hx
    exact ⟨h1, h2, h3, Or.inr (Or.inr h4), x, hx, Edge.Within.refl x⟩
  cov _ := rfl
  ends _ := rfl
  xi _ h := absurd h (by simp)
  fo _ h := absurd h (by simp)

end Hob3l.Sweep
