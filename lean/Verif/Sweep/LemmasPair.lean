import Verif.Sweep.LemmasOverlap
import Verif.Matq.LemmasGeo

namespace Hob3l.Sweep

open Hob3l.Matq

/-- parameter of an interior point -/
theorem interior_param {o : Edge} {X : Pt} (hi : OnSeg o.left.pt o.rigt.pt X)
    (hl : X ≠ o.left.pt) (hr : X ≠ o.rigt.pt) :
    ∃ s, 0 < s ∧ s < 1 ∧ X = LP o.left.pt (o.rigt.pt.1 - o.left.pt.1, o.rigt.pt.2 - o.left.pt.2) s := by
  obtain ⟨s, h0, h1, hx, hy⟩ := hi
  refine ⟨s, ?_, ?_, Prod.ext hx hy⟩
  · rcases h0.lt_or_eq with h | h
    · exact h
    · subst h; exfalso; apply hl; apply Prod.ext
      · rw [hx]; ring
      · rw [hy]; ring
  · rcases h1.lt_or_eq with h | h
    · exact h
    · subst h; exfalso; apply hr; apply Prod.ext
      · rw [hx]; ring
      · rw [hy]; ring

/-- `split` at an interior point -/
theorem split_spec {i : Vec2} {o : Edge} (ho : LexLt o.left o.rigt) (hi : OnSeg o.left.pt o.rigt.pt i.pt)
    (hl : i.pt ≠ o.left.pt) (hr : i.pt ≠ o.rigt.pt) (fo : o.agR = true) :
    split i o = some [{ o with rigt := i }, ⟨i, o.rigt, o.member, false, true, true⟩] ∧
    (∀ X, coverAll [{ o with rigt := i }, ⟨i, o.rigt, o.member, false, true, true⟩] X = o.cover X) ∧
    LexLt o.left i ∧ LexLt i o.rigt ∧
    Disjoint [{ o with rigt := i }, ⟨i, o.rigt, o.member, false, true, true⟩] := by
  obtain ⟨hd, hol⟩ := line_of o ho
  obtain ⟨s, h0, h1, hs⟩ := interior_param hi hl hr
  have a1 : OnLine o.left.pt (o.rigt.pt.1 - o.left.pt.1, o.rigt.pt.2 - o.left.pt.2) { o with rigt := i } 0 s :=
    ⟨hol.l, hs, h0⟩
  have a2 : OnLine o.left.pt (o.rigt.pt.1 - o.left.pt.1, o.rigt.pt.2 - o.left.pt.2)
      ⟨i, o.rigt, o.member, false, true, true⟩ s 1 := ⟨hs, hol.r, h1⟩
  refine ⟨split_core hd hs hol h0 h1 fo, ?_, (lexLt_LP hd hol.l hs).mpr h0, (lexLt_LP hd hs hol.r).mpr h1, ?_⟩
  · intro X
    have := coverAll_LP [({ o with rigt := i }, 0, s), (⟨i, o.rigt, o.member, false, true, true⟩, s, 1)] [(o, 0, 1)] hd
      (by simp only [List.mem_cons, List.not_mem_nil, or_false, forall_eq_or_imp, forall_eq]; exact ⟨a1, a2⟩)
      (by simp only [List.mem_cons, List.not_mem_nil, or_false, forall_eq]; exact hol)
      (by intro r
          simp only [List.map_cons, List.map_nil, List.foldr_cons, List.foldr_nil, BitVec.xor_zero]
          simp only [BitVec.ofNat_eq_ofNat, BitVec.xor_zero]
          exact cov_cut h0.le h1.le _ _) X
    simp only [List.map_cons, List.map_nil] at this
    rw [this]
    simp [coverAll]
  · unfold Disjoint
    simp only [List.pairwise_cons, List.mem_cons, List.not_mem_nil, or_false, forall_eq, List.Pairwise.nil, and_true,
      IsEmpty.forall_iff, implies_true]
    exact disjoint_LP hd a1 a2 le_rfl

theorem onSeg_sub_left {a b i X : Pt} (hi : OnSeg a b i) (h : OnSeg a i X) : OnSeg a b X := by
  obtain ⟨s, s0, s1, sx, sy⟩ := hi
  obtain ⟨t, t0, t1, tx, ty⟩ := h
  refine ⟨t * s, mul_nonneg t0 s0, by nlinarith, ?_, ?_⟩
  · rw [tx, sx]; ring
  · rw [ty, sy]; ring

theorem onSeg_sub_right {a b i X : Pt} (hi : OnSeg a b i) (h : OnSeg i b X) : OnSeg a b X := by
  obtain ⟨s, s0, s1, sx, sy⟩ := hi
  obtain ⟨t, t0, t1, tx, ty⟩ := h
  refine ⟨s + t * (1 - s), by nlinarith, by nlinarith, ?_, ?_⟩
  · rw [tx, sx]; ring
  · rw [ty, sy]; ring

/-- every piece of `l` lies within `o`, and has `X` at one of its ends if at all -/
def Pieces (l : List Edge) (o : Edge) (X : Pt) : Prop :=
  ∀ a ∈ l, (∀ Y, OnSeg a.left.pt a.rigt.pt Y → OnSeg o.left.pt o.rigt.pt Y) ∧
    (OnSeg a.left.pt a.rigt.pt X → X = a.left.pt ∨ X = a.rigt.pt)

theorem pieces_self {o : Edge} {X : Pt} (h : X = o.left.pt ∨ X = o.rigt.pt) : Pieces [o] o X := by
  intro a ha
  rw [List.mem_singleton] at ha
  subst ha
  exact ⟨fun _ h => h, fun _ => h⟩

theorem pieces_split {i : Vec2} {o : Edge} (hi : OnSeg o.left.pt o.rigt.pt i.pt) (m : BitVec 64) (a b c : Bool) :
    Pieces [{ o with rigt := i }, ⟨i, o.rigt, m, a, b, c⟩] o i.pt := by
  intro x hx
  simp only [List.mem_cons, List.not_mem_nil, or_false] at hx
  rcases hx with rfl | rfl
  · exact ⟨fun _ h => onSeg_sub_left hi h, fun _ => Or.inr rfl⟩
  · exact ⟨fun _ h => onSeg_sub_right hi h, fun _ => Or.inl rfl⟩

theorem onSeg_left (a b : Pt) : OnSeg a b a := ⟨0, le_rfl, by norm_num, by ring, by ring⟩
theorem onSeg_right (a b : Pt) : OnSeg a b b := ⟨1, by norm_num, le_rfl, by ring, by ring⟩

/-- the edges still meet only at end points -/
def Clean (l l' : List Edge) : Prop := ∀ a ∈ l, ∀ b ∈ l', ∀ X, OnSeg a.left.pt a.rigt.pt X → OnSeg b.left.pt b.rigt.pt X →
  (X = a.left.pt ∨ X = a.rigt.pt) ∧ (X = b.left.pt ∨ X = b.rigt.pt)

theorem clean_of {l l' : List Edge} {o o' : Edge} {X : Pt} (h : Pieces l o X) (h' : Pieces l' o' X)
    (hu : ∀ Y, OnSeg o.left.pt o.rigt.pt Y ∧ OnSeg o'.left.pt o'.rigt.pt Y → Y = X) : Clean l l' := by
  intro a ha b hb Y hY hY'
  obtain ⟨h1, h2⟩ := h a ha
  obtain ⟨h3, h4⟩ := h' b hb
  have := hu Y ⟨h1 Y hY, h3 Y hY'⟩
  subst this
  exact ⟨h2 hY, h4 hY'⟩

theorem coverAll_single (o : Edge) (X : Pt) : coverAll [o] X = o.cover X := by simp [coverAll]

theorem pt_of_integer {P : Vec2if} (hx : P.x.n = 0) (hy : P.y.n = 0) : P.pt = Vec2.pt ⟨P.x.i, P.y.i⟩ := by
  simp [Vec2if.pt, Dimif.val, Vec2.pt, hx, hy]

theorem pair_spec (debug : Bool) (cur : Vec2if) (prev next : Edge) (hc : cur.Valid)
    (r1 : prev.left.InRange) (r2 : prev.rigt.InRange) (r3 : next.left.InRange) (r4 : next.rigt.InRange)
    (hp : LexLt prev.left prev.rigt) (hn : LexLt next.left next.rigt) (fp : prev.agR = true) (fn : next.agR = true) :
    ∃ r, pair debug cur prev next = some r ∧
      (∀ X, coverAll r.prev X = prev.cover X) ∧ (∀ X, coverAll r.next X = next.cover X) ∧
      (∀ x ∈ r.prev ++ r.next, LexLt x.left x.rigt) ∧ Disjoint r.prev ∧ Disjoint r.next ∧
      (Parallel prev.left.pt prev.rigt.pt next.left.pt next.rigt.pt → r.prev = [prev] ∧ r.next = [next] ∧ r.xing = none) ∧
      (¬ Parallel prev.left.pt prev.rigt.pt next.left.pt next.rigt.pt →
        (r.xing = none ∧ Clean r.prev r.next) ∨
        (∃ P : Vec2if, (∀ X, OnSeg prev.left.pt prev.rigt.pt X ∧ OnSeg next.left.pt next.rigt.pt X ↔ X = P.pt) ∧
          r.prev = [prev] ∧ r.next = [next] ∧
          ((0 < cmpPt P.pt cur.pt ∧ r.xing = some P) ∨ (cmpPt P.pt cur.pt ≤ 0 ∧ r.xing = none)))) := by
  obtain ⟨code, pt, hres, hcase⟩ := intersect_main debug prev.left prev.rigt next.left next.rigt r1 r2 r3 r4
  have hplain : ∀ x : Option Vec2if, (∀ X, coverAll (PairRes.mk [prev] [next] x).prev X = prev.cover X) ∧
      (∀ X, coverAll (PairRes.mk [prev] [next] x).next X = next.cover X) ∧
      (∀ y ∈ (PairRes.mk [prev] [next] x).prev ++ (PairRes.mk [prev] [next] x).next, LexLt y.left y.rigt) ∧
      Disjoint (PairRes.mk [prev] [next] x).prev ∧ Disjoint (PairRes.mk [prev] [next] x).next := by
    intro x
    refine ⟨coverAll_single prev, coverAll_single next, ?_, ?_, ?_⟩
    · simp only [List.cons_append, List.nil_append, List.mem_cons, List.not_mem_nil, or_false, forall_eq_or_imp,
        forall_eq]
      exact ⟨hp, hn⟩
    · simp [Disjoint]
    · simp [Disjoint]
  have hunf : pair debug cur prev next = pairSwitch cur prev next code pt := by
    unfold pair; rw [hres]; rfl
  rw [hunf]
  rcases hcase with ⟨rfl, rfl, hpar⟩ | ⟨rfl, rfl, hpar, hno⟩ | ⟨hpar, P, rfl, hPv, hX, hcode⟩
  · refine ⟨⟨[prev], [next], none⟩, ?_, (hplain none).1, (hplain none).2.1, (hplain none).2.2.1, (hplain none).2.2.2.1,
      (hplain none).2.2.2.2, fun _ => ⟨rfl, rfl, rfl⟩, fun h => absurd hpar h⟩
    simp [pairSwitch]
  · refine ⟨⟨[prev], [next], none⟩, ?_, (hplain none).1, (hplain none).2.1, (hplain none).2.2.1, (hplain none).2.2.2.1,
      (hplain none).2.2.2.2, fun h => absurd h hpar, fun _ => Or.inl ⟨rfl, ?_⟩⟩
    · simp [pairSwitch]
    · intro a ha b hb X h1 h2
      simp only [List.mem_singleton] at ha hb
      subst ha; subst hb
      exact absurd ⟨X, h1, h2⟩ hno
  · have hPP := (hX P.pt).mpr rfl
    have hnp := pt_inj.mt hp.ne
    have hnn := pt_inj.mt hn.ne
    -- which ends are the common point
    by_cases e1 : P.pt = prev.left.pt
    · have e2 : P.pt ≠ prev.rigt.pt := fun h => hnp (e1.symm.trans h)
      by_cases e34 : P.pt = next.left.pt ∨ P.pt = next.rigt.pt
      · have hres' : pairSwitch cur prev next code (some P) = some ⟨[prev], [next], none⟩ := by
          rcases e34 with e3 | e4
          · have e4 : P.pt ≠ next.rigt.pt := fun h => hnn (e3.symm.trans h)
            rw [if_pos e1, if_neg e2, if_pos e3, if_neg e4] at hcode
            subst hcode; simp [pairSwitch]
          · have e3 : P.pt ≠ next.left.pt := fun h => hnn (h.symm.trans e4)
            rw [if_pos e1, if_neg e2, if_neg e3, if_pos e4] at hcode
            subst hcode; simp [pairSwitch]
        refine ⟨_, hres', (hplain none).1, (hplain none).2.1, (hplain none).2.2.1, (hplain none).2.2.2.1,
          (hplain none).2.2.2.2, fun h => absurd h hpar, fun _ => Or.inl ⟨rfl, ?_⟩⟩
        exact clean_of (pieces_self (Or.inl e1)) (pieces_self e34) (fun Y => (hX Y).mp)
      · push Not at e34
        rw [if_pos e1, if_neg e2, if_neg e34.1, if_neg e34.2] at hcode
        have hs := split_spec (i := prev.left) hn (e1 ▸ hPP.2) (e1 ▸ e34.1) (e1 ▸ e34.2) fn
        refine ⟨⟨[prev], [{ next with rigt := prev.left }, ⟨prev.left, next.rigt, next.member, false, true, true⟩], none⟩,
          ?_, coverAll_single prev, hs.2.1, ?_, by simp [Disjoint], hs.2.2.2.2, fun h => absurd h hpar,
          fun _ => Or.inl ⟨rfl, ?_⟩⟩
        · subst hcode
          simp only [pairSwitch, hs.1]; rfl
        · simp only [List.cons_append, List.nil_append, List.mem_cons, List.not_mem_nil, or_false, forall_eq_or_imp,
            forall_eq]
          exact ⟨hp, hs.2.2.1, hs.2.2.2.1⟩
        · exact clean_of (X := P.pt) (pieces_self (Or.inl e1)) (e1 ▸ pieces_split (e1 ▸ hPP.2) _ _ _ _)
            (fun Y => (hX Y).mp)
    · by_cases e2 : P.pt = prev.rigt.pt
      · by_cases e34 : P.pt = next.left.pt ∨ P.pt = next.rigt.pt
        · have hres' : pairSwitch cur prev next code (some P) = some ⟨[prev], [next], none⟩ := by
            rcases e34 with e3 | e4
            · have e4 : P.pt ≠ next.rigt.pt := fun h => hnn (e3.symm.trans h)
              rw [if_neg e1, if_pos e2, if_pos e3, if_neg e4] at hcode
              subst hcode; simp [pairSwitch]
            · have e3 : P.pt ≠ next.left.pt := fun h => hnn (h.symm.trans e4)
              rw [if_neg e1, if_pos e2, if_neg e3, if_pos e4] at hcode
              subst hcode; simp [pairSwitch]
          refine ⟨_, hres', (hplain none).1, (hplain none).2.1, (hplain none).2.2.1, (hplain none).2.2.2.1,
            (hplain none).2.2.2.2, fun h => absurd h hpar, fun _ => Or.inl ⟨rfl, ?_⟩⟩
          exact clean_of (pieces_self (Or.inr e2)) (pieces_self e34) (fun Y => (hX Y).mp)
        · push Not at e34
          rw [if_neg e1, if_pos e2, if_neg e34.1, if_neg e34.2] at hcode
          have hs := split_spec (i := prev.rigt) hn (e2 ▸ hPP.2) (e2 ▸ e34.1) (e2 ▸ e34.2) fn
          refine ⟨⟨[prev], [{ next with rigt := prev.rigt }, ⟨prev.rigt, next.rigt, next.member, false, true, true⟩], none⟩,
            ?_, coverAll_single prev, hs.2.1, ?_, by simp [Disjoint], hs.2.2.2.2, fun h => absurd h hpar,
            fun _ => Or.inl ⟨rfl, ?_⟩⟩
          · subst hcode
            simp only [pairSwitch, hs.1]; rfl
          · simp only [List.cons_append, List.nil_append, List.mem_cons, List.not_mem_nil, or_false, forall_eq_or_imp,
              forall_eq]
            exact ⟨hp, hs.2.2.1, hs.2.2.2.1⟩
          · exact clean_of (X := P.pt) (pieces_self (Or.inr e2)) (e2 ▸ pieces_split (e2 ▸ hPP.2) _ _ _ _)
              (fun Y => (hX Y).mp)
      · by_cases e3 : P.pt = next.left.pt
        · have e4 : P.pt ≠ next.rigt.pt := fun h => hnn (e3.symm.trans h)
          rw [if_neg e1, if_neg e2, if_pos e3, if_neg e4] at hcode
          have hs := split_spec (i := next.left) hp (e3 ▸ hPP.1) (e3 ▸ e1) (e3 ▸ e2) fp
          refine ⟨⟨[{ prev with rigt := next.left }, ⟨next.left, prev.rigt, prev.member, false, true, true⟩], [next], none⟩,
            ?_, hs.2.1, coverAll_single next, ?_, hs.2.2.2.2, by simp [Disjoint], fun h => absurd h hpar,
            fun _ => Or.inl ⟨rfl, ?_⟩⟩
          · subst hcode
            simp only [pairSwitch, hs.1]; rfl
          · simp only [List.cons_append, List.nil_append, List.mem_cons, List.not_mem_nil, or_false, forall_eq_or_imp,
              forall_eq]
            exact ⟨hs.2.2.1, hs.2.2.2.1, hn⟩
          · exact clean_of (X := P.pt) (e3 ▸ pieces_split (e3 ▸ hPP.1) _ _ _ _) (pieces_self (Or.inl e3))
              (fun Y => (hX Y).mp)
        · by_cases e4 : P.pt = next.rigt.pt
          · rw [if_neg e1, if_neg e2, if_neg e3, if_pos e4] at hcode
            have hs := split_spec (i := next.rigt) hp (e4 ▸ hPP.1) (e4 ▸ e1) (e4 ▸ e2) fp
            refine ⟨⟨[{ prev with rigt := next.rigt }, ⟨next.rigt, prev.rigt, prev.member, false, true, true⟩], [next], none⟩,
              ?_, hs.2.1, coverAll_single next, ?_, hs.2.2.2.2, by simp [Disjoint], fun h => absurd h hpar,
              fun _ => Or.inl ⟨rfl, ?_⟩⟩
            · subst hcode
              simp only [pairSwitch, hs.1]; rfl
            · simp only [List.cons_append, List.nil_append, List.mem_cons, List.not_mem_nil, or_false, forall_eq_or_imp,
                forall_eq]
              exact ⟨hs.2.2.1, hs.2.2.2.1, hn⟩
            · exact clean_of (X := P.pt) (e4 ▸ pieces_split (e4 ▸ hPP.1) _ _ _ _) (pieces_self (Or.inr e4))
                (fun Y => (hX Y).mp)
          · rw [if_neg e1, if_neg e2, if_neg e3, if_neg e4] at hcode
            subst hcode
            have hsw : pairSwitch cur prev next (1 + 0 + 0 + 0 + 0) (some P) = pairCross cur P prev next := by
              simp [pairSwitch]
            rw [hsw]
            unfold pairCross
            rw [vec2ifCmp_eq P cur hPv hc]
            by_cases hgt : cmpPt P.pt cur.pt > 0
            · rw [if_pos hgt]
              by_cases hint : P.x.n = 0 ∧ P.y.n = 0
              · rw [if_pos hint]
                have hpt := pt_of_integer hint.1 hint.2
                rw [hpt] at e1 e2 e3 e4 hPP
                have s1 := split_spec hp hPP.1 e1 e2 fp
                have s2 := split_spec hn hPP.2 e3 e4 fn
                rw [s1.1, s2.1]
                refine ⟨_, rfl, s1.2.1, s2.2.1, ?_, s1.2.2.2.2, s2.2.2.2.2, fun h => absurd h hpar,
                  fun _ => Or.inl ⟨rfl, ?_⟩⟩
                · simp only [List.cons_append, List.nil_append, List.mem_cons, List.not_mem_nil, or_false,
                    forall_eq_or_imp, forall_eq]
                  exact ⟨s1.2.2.1, s1.2.2.2.1, s2.2.2.1, s2.2.2.2.1⟩
                · exact clean_of (X := P.pt) (hpt ▸ pieces_split hPP.1 _ _ _ _) (hpt ▸ pieces_split hPP.2 _ _ _ _)
                    (fun Y => (hX Y).mp)
              · rw [if_neg hint]
                exact ⟨_, rfl, (hplain (some P)).1, (hplain (some P)).2.1, (hplain (some P)).2.2.1,
                  (hplain (some P)).2.2.2.1, (hplain (some P)).2.2.2.2, fun h => absurd h hpar,
                  fun _ => Or.inr ⟨P, hX, rfl, rfl, Or.inl ⟨hgt, rfl⟩⟩⟩
            · rw [if_neg hgt]
              exact ⟨_, rfl, (hplain none).1, (hplain none).2.1, (hplain none).2.2.1,
                (hplain none).2.2.2.1, (hplain none).2.2.2.2, fun h => absurd h hpar,
                fun _ => Or.inr ⟨P, hX, rfl, rfl, Or.inr ⟨by omega, rfl⟩⟩⟩

end Hob3l.Sweep
