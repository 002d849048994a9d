import Mathlib.Data.List.Nodup
import Verif.Swap.Spec
import Mathlib.Tactic.SplitIfs

namespace Hob3l.Swap

open Hob3l.Matq (ass)
open Hob3l.Dict
open Hob3l.Dict.Tree

variable {α M : Type} [DecidableEq α]

section ex
variable {a b : α}

theorem exch_exch (x : α) : exch a b (exch a b x) = x := by
  simp only [exch]
  split_ifs <;> simp_all

theorem exch_left : exch a b a = b := by simp [exch]
theorem exch_right : exch a b b = a := by
  simp only [exch]
  split_ifs with h
  · exact h.symm ▸ rfl
  · rfl
theorem exch_other {x : α} (h1 : x ≠ a) (h2 : x ≠ b) : exch a b x = x := by simp [exch, h1, h2]
theorem exch_inj {x y : α} (h : exch a b x = exch a b y) : x = y := by
  rw [← exch_exch (a := a) (b := b) x, h, exch_exch]
theorem exch_eq_iff {x y : α} : exch a b x = y ↔ x = exch a b y :=
  ⟨fun h => by rw [← h, exch_exch], fun h => by rw [h, exch_exch]⟩

/-- the same for pointers -/
theorem map_exch_exch (o : Option α) : (o.map (exch a b)).map (exch a b) = o := by
  cases o with
  | none => rfl
  | some x => simp [exch_exch]

theorem map_exch_eq {o : Option α} {y : α} : o.map (exch a b) = some y ↔ o = some (exch a b y) := by
  cases o with
  | none => simp
  | some x => simp [exch_eq_iff]
end ex

/-- parent and child pointers of the nodes in `D` fit -/
structure Cons (h : Heap α M) (D : α → Prop) : Prop where
  child : ∀ x i c, D x → h.ed x i = some c → D c ∧ h.par c = some x
  parent : ∀ x p, D x → h.par x = some p → D p ∧ ∃ i, h.ed p i = some x
  uniq : ∀ x i j c, D x → h.ed x i = some c → h.ed x j = some c → i = j
  irr : ∀ x, D x → h.par x ≠ some x

/-- the memory with the names `a` and `b` exchanged, for the nodes in `D` -/
def Conj (a b : α) (D : α → Prop) (h h' : Heap α M) : Prop :=
  ∀ x, D x → h'.par x = (h.par (exch a b x)).map (exch a b) ∧
    (∀ i, h'.ed x i = (h.ed (exch a b x) i).map (exch a b)) ∧ h'.st x = h.st (exch a b x)

/-- nothing changed outside of `D` -/
def Frame (D : α → Prop) (h h' : Heap α M) : Prop :=
  (∀ x, ¬ D x → h'.par x = h.par x ∧ h'.ed x = h.ed x ∧ h'.st x = h.st x) ∧ h'.sm = h.sm

theorem idx_some {h : Heap α M} {p c : α} {i : Bool} (hi : h.ed p i = some c) (hu : ∀ j, h.ed p j = some c → i = j) :
    idx h p c = some i := by
  rw [idx]
  have : h.ed p false = some c ∨ h.ed p true = some c := by
    cases i
    · exact Or.inl hi
    · exact Or.inr hi
  simp only [ass, this, if_true, Option.bind_eq_bind, Option.bind_some, Option.some.injEq]
  cases i with
  | false =>
    rw [decide_eq_false_iff_not]
    intro h'
    exact absurd (hu true h') (by decide)
  | true => simpa using hi

section main
variable {a b : α} {h : Heap α M} {D : α → Prop}

theorem swapCells_par (hab : a ≠ b) (x : α) : (swapCells a b h).par x = h.par (exch a b x) := by
  simp only [swapCells, exch]
  split_ifs <;> rfl
theorem swapCells_ed (x : α) : (swapCells a b h).ed x = h.ed (exch a b x) := by
  simp only [swapCells, exch]
  split_ifs <;> rfl
theorem swapCells_st (x : α) : (swapCells a b h).st x = h.st (exch a b x) := by
  simp only [swapCells, exch]
  split_ifs <;> rfl

theorem exch_mem (ha : D a) (hb : D b) {x : α} (hx : D x) : D (exch a b x) := by
  simp only [exch]
  split_ifs
  · exact hb
  · exact ha
  · exact hx

/-- the state after the child pointers have been repaired -/
structure Mid (a b : α) (D : α → Prop) (h h2 : Heap α M) : Prop where
  ed : ∀ x i, D x → h2.ed x i = (h.ed (exch a b x) i).map (exch a b)
  pa : h2.par a = (h.par b).map (exch a b)
  pb : h2.par b = (h.par a).map (exch a b)
  po : ∀ x, x ≠ a → x ≠ b → h2.par x = h.par x
  st : h2.st = (swapCells a b h).st
  out : ∀ x, ¬ D x → h2.ed x = h.ed x
  sm : h2.sm = h.sm

theorem mid_siblings (hc : Cons h D) (ha : D a) (hb : D b) (hab : a ≠ b) {p : α} (h1 : h.par b = some p) (h2 : h.par a = some p) :
    ∃ h', swapSiblings p a b (swapCells a b h) = some h' ∧ Mid a b D h h' := by
  have hpa : p ≠ a := fun e => hc.irr a ha (e ▸ h2)
  have hpb : p ≠ b := fun e => hc.irr b hb (e ▸ h1)
  obtain ⟨hp, i, hi⟩ := hc.parent a p ha h2
  obtain ⟨-, j, hj⟩ := hc.parent b p hb h1
  have hij : j = !i := by
    cases i <;> cases j <;> simp_all
  subst hij
  have hep : exch a b p = p := exch_other hpa hpb
  have e : (swapCells a b h).ed p = h.ed p := by rw [swapCells_ed, hep]
  have q1 : (swapCells a b h).par a ≠ some a := by
    rw [swapCells_par hab, exch_left, h1]
    simpa using hpa
  have q2 : (swapCells a b h).par b ≠ some b := by
    rw [swapCells_par hab, exch_right, h2]
    simpa using hpb
  refine ⟨setEd (setEd (swapCells a b h) p false (h.ed p true)) p true (h.ed p false), ?_, ?_⟩
  · simp only [swapSiblings, e]
    have w1 : h.ed p false = some a ∨ h.ed p false = some b := by
      cases i
      · exact Or.inl hi
      · exact Or.inr hj
    have w2 : h.ed p true = some a ∨ h.ed p true = some b := by
      cases i
      · exact Or.inr hj
      · exact Or.inl hi
    simp only [ass, w1, w2, q1, q2, if_true, ne_eq, not_false_eq_true, Option.bind_eq_bind, Option.bind_some]
  · refine ⟨?_, ?_, ?_, ?_, rfl, ?_, rfl⟩
    · intro x k hx
      by_cases hxp : x = p
      · subst hxp
        rw [hep]
        cases i <;> cases k <;> simp_all [setEd, exch_left, exch_right]
      · have : (setEd (setEd (swapCells a b h) p false (h.ed p true)) p true (h.ed p false)).ed x k = (swapCells a b h).ed x k := by
          simp [setEd, hxp]
        rw [this, swapCells_ed]
        have hx' := exch_mem ha hb hx
        cases e : h.ed (exch a b x) k with
        | none => rfl
        | some c =>
          obtain ⟨-, e2⟩ := hc.child _ _ _ hx' e
          have : exch a b x ≠ p := fun e => hxp (by rw [← exch_exch (a := a) (b := b) x, e, hep])
          have c1 : c ≠ a := fun e => this (by rw [e, h2] at e2; exact (Option.some.inj e2).symm)
          have c2 : c ≠ b := fun e => this (by rw [e, h1] at e2; exact (Option.some.inj e2).symm)
          rw [Option.map_some, exch_other c1 c2]
    · show (swapCells a b h).par a = _
      rw [swapCells_par hab, exch_left, h1, Option.map_some, hep]
    · show (swapCells a b h).par b = _
      rw [swapCells_par hab, exch_right, h2, Option.map_some, hep]
    · intro x x1 x2
      show (swapCells a b h).par x = _
      rw [swapCells_par hab, exch_other x1 x2]
    · intro x hx
      have hxp : x ≠ p := fun e => hx (e ▸ hp)
      have xa : x ≠ a := fun e => hx (e ▸ ha)
      have xb : x ≠ b := fun e => hx (e ▸ hb)
      funext k
      simp [setEd, hxp, swapCells_ed, exch_other xa xb]

/-- what the two tests for a node that is its own parent do -/
theorem swapChild_spec (hc : Cons h D) (ha : D a) (hb : D b) (hab : a ≠ b) :
    (swapChild a b (swapCells a b h)).par a = (h.par b).map (exch a b) ∧
    (swapChild a b (swapCells a b h)).par b = (h.par a).map (exch a b) ∧
    (∀ x, x ≠ a → x ≠ b → (swapChild a b (swapCells a b h)).par x = h.par x) ∧
    (swapChild a b (swapCells a b h)).ed = (swapCells a b h).ed ∧
    (swapChild a b (swapCells a b h)).st = (swapCells a b h).st ∧
    (swapChild a b (swapCells a b h)).sm = h.sm := by
  have ia := hc.irr a ha
  have ib := hc.irr b hb
  have hba : b ≠ a := fun e => hab e.symm
  have g1 : (swapCells a b h).par a = h.par b := by rw [swapCells_par hab, exch_left]
  have g2 : (swapCells a b h).par b = h.par a := by rw [swapCells_par hab, exch_right]
  have g3 : ∀ x, x ≠ a → x ≠ b → (swapCells a b h).par x = h.par x := fun x x1 x2 => by
    rw [swapCells_par hab, exch_other x1 x2]
  have k1 : (h.par b).map (exch a b) = if h.par b = some a then some b else h.par b := by
    cases e : h.par b with
    | none => simp
    | some q =>
      have : q ≠ b := fun e' => ib (by rw [e, e'])
      by_cases hq : q = a
      · simp [hq, exch_left]
      · simp [hq, exch_other hq this]
  have k2 : (h.par a).map (exch a b) = if h.par a = some b then some a else h.par a := by
    cases e : h.par a with
    | none => simp
    | some q =>
      have : q ≠ a := fun e' => ia (by rw [e, e'])
      by_cases hq : q = b
      · simp [hq, exch_right]
      · simp [hq, exch_other this hq]
  have n1 : (if (swapCells a b h).par a = some a then setPar (swapCells a b h) a (some b) else swapCells a b h).par b = h.par a := by
    split_ifs
    · simp [setPar, hba, g2]
    · exact g2
  refine ⟨?_, ?_, ?_, ?_, ?_, ?_⟩
  · rw [k1, ← g1]
    simp only [swapChild]
    split_ifs <;> simp [setPar, hab]
  · rw [k2, ← n1]
    simp only [swapChild]
    split_ifs <;> simp_all [setPar]
  · intro x x1 x2
    rw [← g3 x x1 x2]
    simp only [swapChild]
    split_ifs <;> simp [setPar, x1, x2]
  all_goals
    simp only [swapChild]
    split_ifs <;> rfl

/-- repairing the child pointer to `a` -/
theorem updateChild_spec {k : Heap α M} (ha : ∀ p, k.par a = some p → ∃ i, k.ed p i = some b ∧ ∀ j, k.ed p j = some b → i = j) :
    ∃ k', swapUpdateChild a b k = some k' ∧ k'.par = k.par ∧ k'.st = k.st ∧ k'.sm = k.sm ∧
      (∀ x i, k'.ed x i = if k.par a = some x ∧ k.ed x i = some b then some a else k.ed x i) := by
  cases e : k.par a with
  | none => exact ⟨k, by rw [swapUpdateChild, e], rfl, rfl, rfl, fun x i => by simp⟩
  | some p =>
    obtain ⟨i, h1, h2⟩ := ha p e
    refine ⟨setEd k p i (some a), ?_, rfl, rfl, rfl, ?_⟩
    · rw [swapUpdateChild, e]
      simp only [idx_some h1 h2, Option.bind_eq_bind, Option.bind_some]
    · intro x j
      simp only [setEd]
      by_cases hx : x = p
      · subst hx
        by_cases hj : j = i
        · subst hj
          simp [h1]
        · have : k.ed x j ≠ some b := fun e => hj (h2 j e).symm
          simp [hj, this]
      · have : p ≠ x := fun e => hx e.symm
        simp [hx, this]

theorem mid_other (hc : Cons h D) (ha : D a) (hb : D b) (hab : a ≠ b) (hn : h.par b = none ∨ h.par b ≠ h.par a) :
    ∃ h', ((swapUpdateChild a b (swapChild a b (swapCells a b h))).bind fun h2 => swapUpdateChild b a h2) = some h' ∧
      Mid a b D h h' := by
  have hba : b ≠ a := fun e => hab e.symm
  obtain ⟨c1, c2, c3, c4, c5, c6⟩ := swapChild_spec hc ha hb hab
  -- the nodes with a pointer to `a` or `b` before the repair
  have ptr : ∀ x i c, D x → (swapCells a b h).ed x i = some c → h.par c = some (exch a b x) := by
    intro x i c hx e
    rw [swapCells_ed] at e
    exact (hc.child _ _ _ (exch_mem ha hb hx) e).2
  have rev : ∀ c p, D c → (h.par c).map (exch a b) = some p →
      D p ∧ ∃ i, (swapCells a b h).ed p i = some c ∧ ∀ j, (swapCells a b h).ed p j = some c → i = j := by
    intro c p hcD e
    rw [map_exch_eq] at e
    obtain ⟨hD, i, hi⟩ := hc.parent c _ hcD e
    refine ⟨by have := exch_mem ha hb hD; rwa [exch_exch] at this, i, by rw [swapCells_ed]; exact hi, ?_⟩
    intro j hj
    rw [swapCells_ed] at hj
    exact hc.uniq _ i j c hD hi hj
  obtain ⟨k1, e1, p1, s1, m1, d1⟩ := updateChild_spec (k := swapChild a b (swapCells a b h)) (a := a) (b := b) (by
    intro p hp
    rw [c1] at hp
    obtain ⟨-, i, h1, h2⟩ := rev b p hb hp
    exact ⟨i, by rw [c4]; exact h1, by rw [c4]; exact h2⟩)
  have ne : ∀ p, (h.par b).map (exch a b) = some p → (h.par a).map (exch a b) ≠ some p := by
    intro p q1 q2
    rw [map_exch_eq] at q1 q2
    rcases hn with hn | hn
    · rw [hn] at q1; cases q1
    · exact hn (q1.trans q2.symm)
  obtain ⟨k2, e2, p2, s2, m2, d2⟩ := updateChild_spec (k := k1) (a := b) (b := a) (by
    intro p hp
    rw [p1, c2] at hp
    obtain ⟨hpD, i, h1, h2⟩ := rev a p ha hp
    have np : (swapChild a b (swapCells a b h)).par a ≠ some p := by
      rw [c1]
      exact fun e => ne p e hp
    refine ⟨i, ?_, ?_⟩
    · rw [d1, c4, if_neg (fun e => np e.1)]
      exact h1
    · intro j hj
      rw [d1, c4, if_neg (fun e => np e.1)] at hj
      exact h2 j hj)
  refine ⟨k2, by rw [e1]; exact e2, ?_⟩
  refine ⟨?_, ?_, ?_, ?_, ?_, ?_, ?_⟩
  · intro x i hx
    rw [d2, d1, p1, c1, c2, c4, swapCells_ed]
    cases e : h.ed (exch a b x) i with
    | none => simp
    | some c =>
      obtain ⟨-, e3⟩ := hc.child _ _ _ (exch_mem ha hb hx) e
      by_cases ca : c = a
      · subst ca
        have : (h.par c).map (exch c b) = some x := by rw [map_exch_eq]; exact e3
        simp [hab, this, exch_left]
      · by_cases cb : c = b
        · subst cb
          have : (h.par c).map (exch a c) = some x := by rw [map_exch_eq]; exact e3
          have t2 := ne x this
          simp [this, t2, exch_right]
        · simp [ca, cb, exch_other ca cb]
  · rw [p2, p1, c1]
  · rw [p2, p1, c2]
  · intro x x1 x2
    rw [p2, p1, c3 x x1 x2]
  · rw [s2, s1, c5]
  · intro x hx
    have xa : x ≠ a := fun e => hx (e ▸ ha)
    have xb : x ≠ b := fun e => hx (e ▸ hb)
    have q1 : (h.par b).map (exch a b) ≠ some x := fun e => hx (rev b x hb e).1
    have q2 : (h.par a).map (exch a b) ≠ some x := fun e => hx (rev a x ha e).1
    funext i
    rw [d2, d1, p1, c1, c2, c4, swapCells_ed, exch_other xa xb]
    simp [q1, q2]
  · rw [m2, m1, c6]

theorem mid (hc : Cons h D) (ha : D a) (hb : D b) (hab : a ≠ b) :
    ∃ h', swapUp a b (swapCells a b h) = some h' ∧ Mid a b D h h' := by
  have g1 : (swapCells a b h).par a = h.par b := by rw [swapCells_par hab, exch_left]
  have g2 : (swapCells a b h).par b = h.par a := by rw [swapCells_par hab, exch_right]
  rw [swapUp, g1, g2]
  cases e : h.par b with
  | none => exact mid_other hc ha hb hab (Or.inl e)
  | some p =>
    dsimp only
    by_cases hp : some p = h.par a
    · rw [if_pos hp]
      exact mid_siblings hc ha hb hab e hp.symm
    · rw [if_neg hp]
      exact mid_other hc ha hb hab (Or.inr (e ▸ hp))

theorem updateParent_par (x : α) (i : Bool) (k : Heap α M) (y : α) :
    (swapUpdateParent x i k).par y = if k.ed x i = some y then some x else k.par y := by
  rw [swapUpdateParent]
  cases e : k.ed x i with
  | none => simp
  | some c =>
    simp only [setPar, Option.some.injEq]
    by_cases hy : y = c
    · simp [hy]
    · have : c ≠ y := fun e => hy e.symm
      simp [hy, this]

theorem updateParent_rest (x : α) (i : Bool) (k : Heap α M) :
    (swapUpdateParent x i k).ed = k.ed ∧ (swapUpdateParent x i k).st = k.st ∧ (swapUpdateParent x i k).sm = k.sm := by
  rw [swapUpdateParent]
  split <;> exact ⟨rfl, rfl, rfl⟩

theorem swap_conj (hc : Cons h D) (ha : D a) (hb : D b) :
    ∃ h', swap a b h = some h' ∧ Conj a b D h h' ∧ Frame D h h' := by
  by_cases hab : a = b
  · subst hab
    have e : ∀ x, exch a a x = x := fun x => by simp only [exch]; split_ifs <;> simp_all
    refine ⟨h, by simp [swap], fun x _ => ?_, fun x _ => ⟨rfl, rfl, rfl⟩, rfl⟩
    have e' : ∀ o : Option α, o.map (exch a a) = o := fun o => by cases o <;> simp [e]
    simp [e, e']
  · obtain ⟨k, hk, m⟩ := mid hc ha hb hab
    refine ⟨swapUpdateParent b true (swapUpdateParent b false (swapUpdateParent a true (swapUpdateParent a false k))), ?_, ?_, ?_⟩
    · rw [swap, if_neg hab, hk]
      rfl
    · intro x hx
      refine ⟨?_, ?_, ?_⟩
      · simp only [updateParent_par, updateParent_rest]
        have hx' := exch_mem ha hb hx
        -- the nodes with `x` as child
        have q : ∀ y i, D y → (k.ed y i = some x ↔ h.ed (exch a b y) i = some (exch a b x)) := fun y i hy => by
          rw [m.ed y i hy, map_exch_eq]
        simp only [q a _ ha, q b _ hb, exch_left, exch_right]
        have dd : ∀ y i, D y → h.ed y i = some (exch a b x) → h.par (exch a b x) = some y := fun y i hy e => (hc.child _ _ _ hy e).2
        by_cases B : h.par (exch a b x) = some a
        · obtain ⟨-, i, hi⟩ := hc.parent _ _ hx' B
          rw [B, Option.map_some, exch_left]
          cases i <;> simp [hi]
        · have nB : ∀ i, h.ed a i ≠ some (exch a b x) := fun i e => B (dd a i ha e)
          rw [if_neg (nB true), if_neg (nB false)]
          by_cases A : h.par (exch a b x) = some b
          · obtain ⟨-, i, hi⟩ := hc.parent _ _ hx' A
            rw [A, Option.map_some, exch_right]
            cases i <;> simp [hi]
          · have nA : ∀ i, h.ed b i ≠ some (exch a b x) := fun i e => A (dd b i hb e)
            rw [if_neg (nA true), if_neg (nA false)]
            by_cases xa : x = a
            · rw [xa, m.pa, exch_left]
            · by_cases xb : x = b
              · rw [xb, m.pb, exch_right]
              · rw [m.po x xa xb]
                rw [exch_other xa xb] at A B ⊢
                cases e : h.par x with
                | none => rfl
                | some p =>
                  rw [e] at A B
                  rw [Option.map_some, exch_other (fun e => B (by rw [e])) (fun e => A (by rw [e]))]
      · intro i
        simp only [updateParent_rest]
        exact m.ed x i hx
      · simp only [updateParent_rest]
        rw [m.st, swapCells_st]
    · refine ⟨fun x hx => ?_, ?_⟩
      · have xa : x ≠ a := fun e => hx (e ▸ ha)
        have xb : x ≠ b := fun e => hx (e ▸ hb)
        have na : ∀ y i, D y → k.ed y i ≠ some x := fun y i hy e => by
          rw [m.ed y i hy, map_exch_eq, exch_other xa xb] at e
          exact hx (hc.child _ _ _ (exch_mem ha hb hy) e).1
        refine ⟨?_, ?_, ?_⟩
        · simp only [updateParent_par, updateParent_rest]
          rw [if_neg (na b _ hb), if_neg (na b _ hb), if_neg (na a _ ha), if_neg (na a _ ha), m.po x xa xb]
        · simp only [updateParent_rest]
          exact m.out x hx
        · simp only [updateParent_rest]
          rw [m.st, swapCells_st, exch_other xa xb]
      · simp only [updateParent_rest]
        exact m.sm

end main

/-! ### trees in memory -/

theorem rootId_rename {β : Type} (f : α → β) (t : Dict.Tree α) : rootId (rename f t) = (rootId t).map f := by cases t <;> rfl

theorem toList_rename {β : Type} (f : α → β) (t : Dict.Tree α) : toList (rename f t) = (toList t).map f := by
  induction t with
  | leaf => rfl
  | node l a s r ih1 ih2 => simp [rename, toList, ih1, ih2]

theorem rb_rename {β : Type} (f : α → β) {t : Dict.Tree α} {c : Bool} {n : Nat} (h : RB t c n) : RB (rename f t) c n := by
  induction h with
  | leaf => exact RB.leaf
  | red _ _ ih1 ih2 => exact RB.red ih1 ih2
  | black _ _ ih1 ih2 => exact RB.black ih1 ih2

theorem rootId_in {t : Dict.Tree α} {c : α} (h : rootId t = some c) : c ∈ toList t := by
  cases t with
  | leaf => cases h
  | node l a s r => cases h; simp [toList]

theorem holds_root {h : Heap α M} {p : Option α} {t : Dict.Tree α} {c : α} (ht : Holds h p t) (hc : rootId t = some c) : h.par c = p := by
  cases t with
  | leaf => cases hc
  | node l a s r => cases hc; exact ht.1

theorem holds_child {h : Heap α M} : ∀ {t : Dict.Tree α} {p : Option α}, Holds h p t → ∀ x i c, x ∈ toList t → h.ed x i = some c →
    c ∈ toList t ∧ h.par c = some x
  | leaf, _, _, x, i, c, hx, _ => by simp [toList] at hx
  | node l a s r, p, ht, x, i, c, hx, e => by
    obtain ⟨-, h0, h1, -, hl, hr⟩ := ht
    simp only [toList, List.mem_append, List.mem_cons] at hx ⊢
    rcases hx with hx | rfl | hx
    · exact ⟨Or.inl (holds_child hl x i c hx e).1, (holds_child hl x i c hx e).2⟩
    · cases i
      · rw [h0] at e
        exact ⟨Or.inl (rootId_in e), holds_root hl e⟩
      · rw [h1] at e
        exact ⟨Or.inr (Or.inr (rootId_in e)), holds_root hr e⟩
    · exact ⟨Or.inr (Or.inr (holds_child hr x i c hx e).1), (holds_child hr x i c hx e).2⟩

theorem holds_parent {h : Heap α M} : ∀ {t : Dict.Tree α} {p : Option α}, Holds h p t → ∀ x q, x ∈ toList t → h.par x = some q →
    (p = some q ∧ rootId t = some x) ∨ (q ∈ toList t ∧ ∃ i, h.ed q i = some x)
  | leaf, _, _, x, q, hx, _ => by simp [toList] at hx
  | node l a s r, p, ht, x, q, hx, e => by
    obtain ⟨hp, h0, h1, -, hl, hr⟩ := ht
    simp only [toList, List.mem_append, List.mem_cons] at hx ⊢
    rcases hx with hx | rfl | hx
    · rcases holds_parent hl x q hx e with ⟨k1, k2⟩ | ⟨k1, k2⟩
      · cases k1
        exact Or.inr ⟨Or.inr (Or.inl rfl), false, by rw [h0, k2]⟩
      · exact Or.inr ⟨Or.inl k1, k2⟩
    · exact Or.inl ⟨hp.symm.trans e, rfl⟩
    · rcases holds_parent hr x q hx e with ⟨k1, k2⟩ | ⟨k1, k2⟩
      · cases k1
        exact Or.inr ⟨Or.inr (Or.inl rfl), true, by rw [h1, k2]⟩
      · exact Or.inr ⟨Or.inr (Or.inr k1), k2⟩

theorem holds_uniq {h : Heap α M} : ∀ {t : Dict.Tree α} {p : Option α}, Holds h p t → (toList t).Nodup → ∀ x i j c, x ∈ toList t →
    h.ed x i = some c → h.ed x j = some c → i = j
  | leaf, _, _, _, x, i, j, c, hx, _, _ => by simp [toList] at hx
  | node l a s r, p, ht, hn, x, i, j, c, hx, e1, e2 => by
    obtain ⟨-, h0, h1, -, hl, hr⟩ := ht
    rw [toList, List.nodup_append] at hn
    obtain ⟨nl, nr, nd⟩ := hn
    simp only [toList, List.mem_append, List.mem_cons] at hx
    rcases hx with hx | rfl | hx
    · exact holds_uniq hl nl x i j c hx e1 e2
    · have : rootId l = some c → rootId r = some c → False := fun q1 q2 =>
        nd c (rootId_in q1) c (by simp [rootId_in q2]) rfl
      cases i <;> cases j <;> simp only [h0, h1] at e1 e2 <;> first | rfl | exact absurd (this e1 e2) id | exact absurd (this e2 e1) id
    · exact holds_uniq hr (List.nodup_cons.mp nr).2 x i j c hx e1 e2

theorem holds_irr {h : Heap α M} : ∀ {t : Dict.Tree α} {p : Option α}, Holds h p t → (toList t).Nodup → (∀ q, p = some q → q ∉ toList t) →
    ∀ x, x ∈ toList t → h.par x ≠ some x
  | leaf, _, _, _, _, x, hx => by simp [toList] at hx
  | node l a s r, p, ht, hn, hp, x, hx => by
    obtain ⟨hpa, -, -, -, hl, hr⟩ := ht
    rw [toList, List.nodup_append] at hn
    obtain ⟨nl, nr, nd⟩ := hn
    simp only [toList, List.mem_append, List.mem_cons] at hx
    rcases hx with hx | rfl | hx
    · refine holds_irr hl nl ?_ x hx
      rintro q e hq
      cases e
      exact nd a hq a (by simp) rfl
    · intro e
      rw [hpa] at e
      exact hp x e (by simp [toList])
    · refine holds_irr hr (List.nodup_cons.mp nr).2 ?_ x hx
      rintro q e hq
      cases e
      exact (List.nodup_cons.mp nr).1 hq

/-- trees in memory fit -/
theorem cons_of_holds {h : Heap α M} {ts : List (Dict.Tree α)} (hn : (nodes ts).Nodup) (ht : ∀ t ∈ ts, Holds h none t) :
    Cons h (· ∈ nodes ts) := by
  have sub : ∀ t ∈ ts, (toList t).Nodup := fun t h1 => (List.nodup_flatMap.mp hn).1 t h1
  have up : ∀ t ∈ ts, ∀ x, x ∈ toList t → x ∈ nodes ts := fun t h1 x hx => List.mem_flatMap.mpr ⟨t, h1, hx⟩
  refine ⟨?_, ?_, ?_, ?_⟩
  · intro x i c hx e
    obtain ⟨t, h1, h2⟩ := List.mem_flatMap.mp hx
    have := holds_child (ht t h1) x i c h2 e
    exact ⟨up t h1 c this.1, this.2⟩
  · intro x p hx e
    obtain ⟨t, h1, h2⟩ := List.mem_flatMap.mp hx
    rcases holds_parent (ht t h1) x p h2 e with ⟨k, -⟩ | ⟨k1, k2⟩
    · cases k
    · exact ⟨up t h1 p k1, k2⟩
  · intro x i j c hx
    obtain ⟨t, h1, h2⟩ := List.mem_flatMap.mp hx
    exact holds_uniq (ht t h1) (sub t h1) x i j c h2
  · intro x hx
    obtain ⟨t, h1, h2⟩ := List.mem_flatMap.mp hx
    exact holds_irr (ht t h1) (sub t h1) (fun q e => by cases e) x h2

/-- and after the exchange of the names -/
theorem holds_conj {h h' : Heap α M} {a b : α} {D : α → Prop} (hj : Conj a b D h h') (ha : D a) (hb : D b) :
    ∀ {t : Dict.Tree α} {p : Option α}, Holds h p t → (∀ x ∈ toList t, D x) → Holds h' (p.map (exch a b)) (rename (exch a b) t)
  | leaf, _, _, _ => trivial
  | node l x s r, p, ht, hD => by
    obtain ⟨hp, h0, h1, hs, hl, hr⟩ := ht
    have hx : D x := hD x (by simp [toList])
    obtain ⟨j1, j2, j3⟩ := hj (exch a b x) (exch_mem ha hb hx)
    rw [exch_exch] at j1 j2 j3
    refine ⟨by rw [j1, hp], by rw [j2, h0, rootId_rename], by rw [j2, h1, rootId_rename], by rw [j3, hs], ?_, ?_⟩
    · exact holds_conj hj ha hb hl fun y hy => hD y (by simp [toList, hy])
    · exact holds_conj hj ha hb hr fun y hy => hD y (by simp [toList, hy])

theorem newRoot_eq {a b : α} (o : Option α) : newRoot a b o = o.map (exch a b) := by
  cases o with
  | none => simp [newRoot]
  | some x =>
    simp only [newRoot, exch, Option.map_some, Option.some.injEq]
    by_cases h1 : x = a
    · simp [h1]
    · have : a ≠ x := fun e => h1 e.symm
      by_cases h2 : x = b
      · subst h2
        simp [h1, this]
      · have : b ≠ x := fun e => h2 e.symm
        simp_all

/-! ### sums -/

section sums
variable {g : α → M → M → M} {z : M}

/-- the sum of a node fits those of its children -/
def Loc (g : α → M → M → M) (z : M) (h : Heap α M) (x : α) : Prop :=
  h.sm x = g x (getSum z h (h.ed x false)) (getSum z h (h.ed x true))

theorem sums_root {h : Heap α M} {t : Dict.Tree α} (hs : Sums g z h t) : getSum z h (rootId t) = Aug.total g z t := by
  cases t with
  | leaf => rfl
  | node l a s r => exact hs.2.2

theorem sums_iff {h : Heap α M} : ∀ {t : Dict.Tree α} {p : Option α}, Holds h p t → (Sums g z h t ↔ ∀ x ∈ toList t, Loc g z h x)
  | leaf, _, _ => by simp [Sums, toList]
  | node l a s r, p, ht => by
    obtain ⟨-, h0, h1, -, hl, hr⟩ := ht
    have i1 := sums_iff hl
    have i2 := sums_iff hr
    have key : Sums g z h l → Sums g z h r → (Loc g z h a ↔ h.sm a = Aug.total g z (node l a s r)) := fun k1 k2 => by
      rw [Loc, h0, h1, sums_root k1, sums_root k2]
      rfl
    simp only [Sums, toList, List.mem_append, List.mem_cons]
    constructor
    · rintro ⟨k1, k2, k3⟩ x (hx | rfl | hx)
      · exact i1.mp k1 x hx
      · exact (key k1 k2).mpr k3
      · exact i2.mp k2 x hx
    · intro H
      have k1 := i1.mpr fun x hx => H x (Or.inl hx)
      have k2 := i2.mpr fun x hx => H x (Or.inr (Or.inr hx))
      exact ⟨k1, k2, (key k1 k2).mp (H a (Or.inr (Or.inl rfl)))⟩

/-- `x` is `n` steps below the root (counting itself) -/
inductive Chain (h : Heap α M) : Option α → Nat → Prop
  | nil : Chain h none 0
  | cons {x : α} {n : Nat} : Chain h (h.par x) n → Chain h (some x) (n + 1)

/-- `y` is `o` or above it -/
inductive Above (h : Heap α M) : Option α → α → Prop
  | self (x : α) : Above h (some x) x
  | up {x y : α} : Above h (h.par x) y → Above h (some x) y

theorem holds_chain {h : Heap α M} : ∀ {t : Dict.Tree α} {p : Option α} {k : Nat}, Holds h p t → Chain h p k →
    ∀ x ∈ toList t, ∃ n, n ≤ k + (toList t).length ∧ Chain h (some x) n
  | leaf, _, _, _, _, x, hx => by simp [toList] at hx
  | node l a s r, p, k, ht, hk, x, hx => by
    obtain ⟨hp, -, -, -, hl, hr⟩ := ht
    have ca : Chain h (some a) (k + 1) := Chain.cons (hp ▸ hk)
    simp only [toList, List.mem_append, List.mem_cons, List.length_append, List.length_cons] at hx ⊢
    rcases hx with hx | rfl | hx
    · obtain ⟨n, h1, h2⟩ := holds_chain hl ca x hx
      exact ⟨n, by omega, h2⟩
    · exact ⟨k + 1, by omega, ca⟩
    · obtain ⟨n, h1, h2⟩ := holds_chain hr ca x hx
      exact ⟨n, by omega, h2⟩

theorem updSum_par (x : α) (h : Heap α M) : (updSum g z x h).par = h.par := rfl

theorem updSum_loc {D : α → Prop} {h : Heap α M} (hc : Cons h D) {x : α} (hx : D x) :
    Cons (updSum g z x h) D ∧ Loc g z (updSum g z x h) x ∧
    ∀ y, D y → y ≠ x → h.par x ≠ some y → Loc g z h y → Loc g z (updSum g z x h) y := by
  have get : ∀ y i, D y → h.par x ≠ some y → getSum z (updSum g z x h) (h.ed y i) = getSum z h (h.ed y i) := by
    intro y i hy hn
    cases e : h.ed y i with
    | none => rfl
    | some c =>
      have : c ≠ x := fun k => hn (k ▸ (hc.child _ _ _ hy e).2)
      simp [getSum, updSum, this]
  refine ⟨⟨hc.child, hc.parent, hc.uniq, hc.irr⟩, ?_, ?_⟩
  · show (updSum g z x h).sm x = g x (getSum z (updSum g z x h) (h.ed x false)) (getSum z (updSum g z x h) (h.ed x true))
    rw [get x _ hx (hc.irr x hx), get x _ hx (hc.irr x hx)]
    simp [updSum]
  · intro y hy hyx hn hl
    show (updSum g z x h).sm y = g y (getSum z (updSum g z x h) (h.ed y false)) (getSum z (updSum g z x h) (h.ed y true))
    rw [get y _ hy hn, get y _ hy hn, ← hl]
    simp [updSum, hyx]

theorem chain_sm {h h' : Heap α M} (e : h'.par = h.par) {o : Option α} {n : Nat} (hc : Chain h o n) : Chain h' o n := by
  induction hc with
  | nil => exact Chain.nil
  | cons _ ih => exact Chain.cons (by rw [e]; exact ih)

theorem above_sm {h h' : Heap α M} (e : h'.par = h.par) {o : Option α} {y : α} (ha : Above h' o y) : Above h o y := by
  induction ha with
  | self x => exact Above.self x
  | up _ ih => exact Above.up (by rw [← e]; exact ih)

theorem updSumRec_ok {D : α → Prop} : ∀ (n : Nat) (o : Option α) (h : Heap α M), Cons h D → (∀ x, o = some x → D x) →
    (∃ k, k ≤ n ∧ Chain h o k) →
    ∃ h', updSumRec g z n o h = some h' ∧ h'.par = h.par ∧ h'.ed = h.ed ∧ h'.st = h.st ∧
      (∀ y, ¬ D y → h'.sm y = h.sm y) ∧ ∀ y, D y → (¬ Above h o y → Loc g z h y) → Loc g z h' y
  | n, none, h, hc, hD, hn => by
    refine ⟨h, by cases n <;> rfl, rfl, rfl, rfl, fun _ _ => rfl, fun y _ hl => hl ?_⟩
    intro k; cases k
  | 0, some x, h, hc, hD, ⟨k, hk, c⟩ => by
    have : k = 0 := by omega
    subst this
    cases c
  | n + 1, some x, h, hc, hD, ⟨k, hk, c⟩ => by
    have hx := hD x rfl
    obtain ⟨c1, c2, c3⟩ := updSum_loc (g := g) (z := z) hc hx
    cases c with
    | cons c =>
      rename_i m
      obtain ⟨h', e1, e2, e3, e4, e5, e6⟩ := updSumRec_ok n (h.par x) (updSum g z x h) c1
        (fun p e => (hc.parent x p hx e).1) ⟨m, by omega, chain_sm (h := h) (h' := updSum g z x h) rfl c⟩
      refine ⟨h', e1, e2, e3, e4, ?_, ?_⟩
      · intro y hy
        rw [e5 y hy]
        have : y ≠ x := fun e => hy (e ▸ hx)
        simp [updSum, this]
      · intro y hy hl
        refine e6 y hy fun na => ?_
        by_cases hyx : y = x
        · rw [hyx]; exact c2
        · have na' : ¬ Above h (h.par x) y := fun q => na (by
            have : ∀ o, Above h o y → Above (updSum g z x h) o y := fun o q => above_sm (h := updSum g z x h) (h' := h) rfl q
            exact this _ q)
          refine c3 y hy hyx (fun e => na' (by rw [e]; exact Above.self y)) (hl fun q => ?_)
          cases q with
          | self => exact hyx rfl
          | up q => exact na' q

end sums

end Hob3l.Swap
