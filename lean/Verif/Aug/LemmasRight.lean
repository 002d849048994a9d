import Verif.Aug.LemmasErase
import Verif.Dict.Lemmas

/-
The stored values are right after each operation.
-/

namespace Hob3l.Aug

open Hob3l.Matq (ass)
open Hob3l.Dict
open Hob3l.Dict.Tree

variable {α M : Type} {g : α → M → M → M} {z : M}

/-- each stored value is made from those of the children -/
def Good (g : α → M → M → M) (z : M) : Dict.Tree (α × M) → Prop
  | leaf => True
  | node l a _ r => Good g z l ∧ Good g z r ∧ a.2 = g a.1 (val z l) (val z r)

/-- the same below the root only -/
def Kids (g : α → M → M → M) (z : M) : Dict.Tree (α × M) → Prop
  | leaf => True
  | node l _ _ r => Good g z l ∧ Good g z r

/-- the same for all trees beside a path -/
def Sibs (g : α → M → M → M) (z : M) (p : Path (α × M)) : Prop := ∀ f ∈ p, Good g z f.sib

theorem good_total {t : Dict.Tree (α × M)} (h : Good g z t) : val z t = total g z (erase t) := by
  induction t with
  | leaf => rfl
  | node l a s r ih1 ih2 => rw [val, h.2.2, ih1 h.1, ih2 h.2.1]; rfl

theorem good_iff (t : Dict.Tree (α × M)) : Good g z t ↔ Right g z t := by
  induction t with
  | leaf => exact Iff.rfl
  | node l a s r ih1 ih2 =>
    rw [Good, Right, ← ih1, ← ih2]
    constructor
    · rintro ⟨h1, h2, h3⟩
      refine ⟨h1, h2, ?_⟩
      rw [h3, good_total h1, good_total h2]
      rfl
    · rintro ⟨h1, h2, h3⟩
      refine ⟨h1, h2, ?_⟩
      rw [h3, good_total h1, good_total h2]
      rfl

theorem Good.kids {t : Dict.Tree (α × M)} (h : Good g z t) : Kids g z t := by
  cases t with
  | leaf => trivial
  | node l a s r => exact ⟨h.1, h.2.1⟩

theorem upd_good {t : Dict.Tree (α × M)} (h : Kids g z t) : Good g z (upd g z t) := by
  cases t with
  | leaf => trivial
  | node l a s r => exact ⟨h.1, h.2, rfl⟩

theorem mkNode_kids {x y : Dict.Tree (α × M)} (i : Bool) (a : α × M) (s : Nat) (hx : Good g z x) (hy : Good g z y) :
    Kids g z (mkNode i x a s y) := by
  cases i
  · exact ⟨hx, hy⟩
  · exact ⟨hy, hx⟩

theorem plug1_kids {f : Frame (α × M)} {x : Dict.Tree (α × M)} (hx : Good g z x) (hf : Good g z f.sib) : Kids g z (plug1 f x) :=
  mkNode_kids _ _ _ hx hf

theorem finiUp_good {x : Dict.Tree (α × M)} {p : Path (α × M)} (hx : Good g z x) (hp : Sibs g z p) : Good g z (finiUp g z x p) := by
  induction p generalizing x with
  | nil => exact hx
  | cons f p ih => exact ih (upd_good (plug1_kids hx (hp f (by simp)))) fun k hk => hp k (by simp [hk])

theorem mapStat_some {f : Nat → Option Nat} {t t' : Dict.Tree (α × M)} (h : mapStat f t = some t') :
    ∃ l a s s' r, t = node l a s r ∧ t' = node l a s' r := by
  cases t with
  | leaf => cases h
  | node l a s r =>
    simp only [mapStat, Option.bind_eq_bind, Option.bind_eq_some_iff, Option.some.injEq] at h
    obtain ⟨s', -, rfl⟩ := h
    exact ⟨l, a, s, s', r, rfl, rfl⟩

theorem mapStat_good {f : Nat → Option Nat} {t t' : Dict.Tree (α × M)} (h : mapStat f t = some t') (ht : Good g z t) : Good g z t' := by
  obtain ⟨l, a, s, s', r, rfl, rfl⟩ := mapStat_some h
  exact ht

theorem mapStat_kids {f : Nat → Option Nat} {t t' : Dict.Tree (α × M)} (h : mapStat f t = some t') (ht : Kids g z t) : Kids g z t' := by
  obtain ⟨l, a, s, s', r, rfl, rfl⟩ := mapStat_some h
  exact ht

/-- a rotation to the side of the good child; the values of the other child and of the node itself may be wrong -/
theorem rotateA_good1 {i : Bool} {u w y : Dict.Tree (α × M)} {a : α × M} {s : Nat} (hu : Good g z u) (hw : Kids g z w)
    (h : rotateA g z i (mkNode i u a s w) = some y) : Good g z y := by
  cases i <;> cases w <;> simp only [rotateA, mkNode, rotate, Option.map_none, Option.map_some, Option.some.injEq, reduceCtorEq] at h
  all_goals subst h
  · exact upd_good (t := node (upd g z (node _ _ _ _)) _ _ _) ⟨upd_good (t := node _ _ _ _) ⟨hu, hw.1⟩, hw.2⟩
  · exact upd_good (t := node _ _ _ (upd g z (node _ _ _ _))) ⟨hw.1, upd_good (t := node _ _ _ _) ⟨hw.2, hu⟩⟩

theorem rotateA_good2 {i : Bool} {u w y : Dict.Tree (α × M)} {a : α × M} {s : Nat} (hu : Good g z u) (hw : Kids g z w)
    (h : rotateA g z (!i) (mkNode i w a s u) = some y) : Good g z y := by
  refine rotateA_good1 (i := !i) hu hw (a := a) (s := s) ?_
  rw [← h]
  cases i <;> rfl

theorem rotateA_good {dir : Bool} {x y : Dict.Tree (α × M)} (hx : Kids g z x) (h : rotateA g z dir x = some y) : Good g z y := by
  cases x with
  | leaf => cases h
  | node l a s r =>
    cases dir
    · exact rotateA_good1 (i := false) hx.1 hx.2.kids h
    · exact rotateA_good1 (i := true) hx.2 hx.1.kids h

theorem rbRotateA_some {rv : Option α} {dir : Bool} {x : Dict.Tree (α × M)} {p : Path (α × M)} {q : Dict.Tree (α × M) × Option α}
    (h : rbRotateA g z rv dir x p = some q) : rotateA g z dir x = some q.1 := by
  simp only [rbRotateA, Option.bind_eq_bind, Option.bind_eq_some_iff, Option.some.injEq] at h
  obtain ⟨y, h1, rfl⟩ := h
  exact h1

theorem edge_good {t e : Dict.Tree (α × M)} {i : Bool} (h : edge t i = some e) (ht : Kids g z t) : Good g z e := by
  cases t with
  | leaf => cases h
  | node l a s r =>
    cases i <;> simp only [edge, Option.some.injEq] at h <;> subst h
    · exact ht.1
    · exact ht.2

theorem down_good {t : Dict.Tree (α × M)} {i : Bool} {d : Dict.Tree (α × M) × Frame (α × M)} (h : down i t = some d) (ht : Kids g z t) :
    Good g z d.1 ∧ Good g z d.2.sib := by
  cases t with
  | leaf => cases h
  | node l a s r =>
    cases i <;> simp only [down, Option.some.injEq] at h <;> subst h
    · exact ht
    · exact ⟨ht.2, ht.1⟩

theorem plug_good {t : Dict.Tree (α × M)} {p : Path (α × M)} (h : Good g z (plug t p)) : Good g z t ∧ Sibs g z p := by
  induction p generalizing t with
  | nil => exact ⟨h, fun f hf => by simp at hf⟩
  | cons f p ih =>
    obtain ⟨h1, h2⟩ := ih (t := plug1 f t) h
    obtain ⟨i, a, s, sib⟩ := f
    have : Good g z t ∧ Good g z sib := by
      cases i
      · exact ⟨h1.1, h1.2.1⟩
      · exact ⟨h1.2.1, h1.1⟩
    refine ⟨this.1, ?_⟩
    intro k hk
    rcases List.mem_cons.mp hk with rfl | hk
    · exact this.2
    · exact h2 k hk

theorem startLoc_plug {d : Bool} {t : Dict.Tree (α × M)} {p : Path (α × M)} {q : Dict.Tree (α × M) × Path (α × M)} (h : startLoc d t p = some q) :
    plug q.1 q.2 = plug t p := by
  cases d
  · exact (startLoc_false t p h).1
  · exact (startLoc_true t p h).1

theorem stepLoc_plug {d : Bool} {t : Dict.Tree (α × M)} {p : Path (α × M)} {q : Dict.Tree (α × M) × Path (α × M)} (h : stepLoc d t p = some q) :
    plug q.1 q.2 = plug t p := by
  cases t with
  | leaf => cases h
  | node l a s r =>
    cases d
    · simp only [stepLoc] at h
      split at h
      · exact (climb_false h).1
      · exact (startLoc_plug h).trans rfl
    · simp only [stepLoc] at h
      split at h
      · exact (climb_true h).1
      · exact (startLoc_plug h).trans rfl

section dec
variable [DecidableEq α] [DecidableEq M]

theorem locateA_plug {a : α} {t : Dict.Tree (α × M)} {p : Path (α × M)} {q : Dict.Tree (α × M) × Path (α × M)} (h : locateA a t p = some q) :
    plug q.1 q.2 = plug t p := by
  induction t generalizing p with
  | leaf => cases h
  | node l b s r ih1 ih2 =>
    rw [locateA] at h
    split at h
    · cases h; rfl
    · cases e : locateA a l (⟨false, b, s, r⟩ :: p) with
      | some q' =>
        rw [e] at h
        cases h
        exact ih1 e
      | none =>
        rw [e] at h
        exact ih2 h

theorem balanceInsertA_good (rv : Option α) : ∀ (x : Dict.Tree (α × M)) (p : Path (α × M)) (r : Dict.Tree (α × M) × Option α),
    balanceInsertA g z rv x p = some r → Good g z x → Sibs g z p → Good g z r.1
  | x, [], r, h, hx, hp => by
    simp only [balanceInsertA, Option.bind_eq_bind, Option.bind_eq_some_iff, Option.some.injEq] at h
    obtain ⟨-, -, rfl⟩ := h
    exact hx
  | x, [f], r, h, hx, hp => by
    simp only [balanceInsertA, Option.some.injEq] at h
    subst h
    exact finiUp_good hx hp
  | x, f :: k :: p, r, h, hx, hp => by
    have hf := hp f (by simp)
    have hk := hp k (by simp)
    have hpp : Sibs g z p := fun q hq => hp q (by simp [hq])
    rw [balanceInsertA] at h
    split at h
    · cases h
      exact finiUp_good hx hp
    · simp only [Option.bind_eq_bind, Option.bind_eq_some_iff] at h
      obtain ⟨-, -, h⟩ := h
      split at h
      · simp only [Option.bind_eq_some_iff] at h
        obtain ⟨fs, -, y, hy, h⟩ := h
        exact balanceInsertA_good rv _ p r h
          (upd_good (plug1_kids (upd_good (plug1_kids hx hf)) (mapStat_good hy hk))) hpp
      · simp only [Option.bind_eq_some_iff] at h
        obtain ⟨pt, h1, pt', h2, gs, -, q, h3, -, -, h4⟩ := h
        cases h4
        refine finiUp_good (rotateA_good2 (i := k.i) hk ?_ (rbRotateA_some h3)) hpp
        refine mapStat_kids h2 ?_
        rw [innerRotateA] at h1
        split at h1
        · exact (rotateA_good (plug1_kids hx hf) h1).kids
        · cases h1
          exact plug1_kids hx hf

theorem ensureBlack_good {t t' : Dict.Tree (α × M)} (h : ensureBlack t = some t') (ht : Good g z t) : Good g z t' := by
  cases t with
  | leaf => cases h
  | node l a s r =>
    rw [ensureBlack] at h
    split at h
    · exact mapStat_good h ht
    · cases h; exact ht

theorem insertLocA_good {t : Dict.Tree (α × M)} {ref : Option α} {i : Bool} {q : (Dict.Tree (α × M) × Path (α × M)) × Bool}
    (h : insertLocA t ref i = some q) (ht : Good g z t) : Good g z q.1.1 ∧ Sibs g z q.1.2 := by
  simp only [insertLocA, Option.bind_eq_bind, Option.bind_eq_some_iff] at h
  obtain ⟨q0, h0, e, h1, h2⟩ := h
  have hq : plug q0.1 q0.2 = t := by
    cases ref
    · exact startLoc_plug (p := []) h0
    · exact locateA_plug (p := []) h0
  refine plug_good ?_
  split at h2
  · cases h2
    rw [hq]; exact ht
  · simp only [Option.bind_eq_some_iff, Option.some.injEq] at h2
    obtain ⟨q', h3, rfl⟩ := h2
    rw [stepLoc_plug h3, hq]
    exact ht

theorem emptyEdge_good {t : Dict.Tree (α × M)} {i : Bool} {f : Frame (α × M)} (h : emptyEdge t i = some f) (ht : Good g z t) :
    Good g z f.sib := by
  simp only [emptyEdge, Option.bind_eq_bind, Option.bind_eq_some_iff] at h
  obtain ⟨e, -, -, -, a, -, h⟩ := h
  cases t with
  | leaf => cases h
  | node l b s r =>
    cases i <;> cases h
    · exact ht.2.1
    · exact ht.1

theorem insertRefA_good {x : α × M} {ref : Option α} {i : Bool} {t : Dict.Tree (α × M)} {r : Dict.Tree (α × M) × Option α}
    (h : insertRefA g z x ref i t = some r) (ht : Good g z t) (hx : t = leaf → x.2 = g x.1 z z) : Good g z r.1 := by
  cases t with
  | leaf =>
    simp only [insertRefA, Option.bind_eq_bind, Option.bind_eq_some_iff, Option.some.injEq] at h
    obtain ⟨-, -, -, -, rfl⟩ := h
    exact ⟨trivial, trivial, hx rfl⟩
  | node l a s r' =>
    simp only [insertRefA, Option.bind_eq_bind, Option.bind_eq_some_iff, Option.some.injEq] at h
    obtain ⟨-, -, q, h1, f, h2, r1, h3, -, -, t', h4, -, -, rfl⟩ := h
    obtain ⟨h5, h6⟩ := insertLocA_good h1 ht
    refine ensureBlack_good h4 (balanceInsertA_good _ _ _ _ h3 (upd_good ⟨trivial, trivial⟩) ?_)
    intro k hk
    rcases List.mem_cons.mp hk with rfl | hk
    · exact emptyEdge_good h2 h5
    · exact h6 k hk

/-! ### removal -/

theorem removeRedSibA_good {rv : Option α} {x : Dict.Tree (α × M)} {f : Frame (α × M)} {p : Path (α × M)}
    {q : Frame (α × M) × Path (α × M) × Option α} (h : removeRedSibA g z rv x f p = some q) (hx : Good g z x)
    (hf : Good g z f.sib) (hp : Sibs g z p) : Good g z q.1.sib ∧ Sibs g z q.2.1 := by
  rw [removeRedSibA] at h
  split at h
  · simp only [Option.bind_eq_bind, Option.bind_eq_some_iff, Option.some.injEq] at h
    obtain ⟨w, h1, fs, -, q0, h2, d, h3, d', h4, rfl⟩ := h
    have a1 := rotateA_good (plug1_kids (f := { f with s := fs, sib := w }) hx (mapStat_good h1 hf)) (rbRotateA_some h2)
    have a2 := down_good h3 a1.kids
    have a3 := down_good h4 a2.1.kids
    refine ⟨a3.2, ?_⟩
    intro k hk
    rcases List.mem_cons.mp hk with rfl | hk
    · exact a2.2
    · exact hp k hk
  · cases h
    exact ⟨hf, hp⟩

theorem removeOuterA_good {i : Bool} {w w' : Dict.Tree (α × M)} (h : removeOuterA g z i w = some w') (hw : Good g z w) : Good g z w' := by
  simp only [removeOuterA, Option.bind_eq_bind, Option.bind_eq_some_iff] at h
  obtain ⟨o, h1, h⟩ := h
  split at h
  · cases h; exact hw
  · simp only [Option.bind_eq_some_iff, Option.some.injEq] at h
    obtain ⟨n, h2, n', h3, a, -, s, -, w1, h4, old, -, -, -, rfl⟩ := h
    exact rotateA_good (mkNode_kids _ _ _ (mapStat_good h3 (edge_good h2 hw.kids)) (edge_good h1 hw.kids)) h4

theorem removeFinalA_good {rv : Option α} {x w : Dict.Tree (α × M)} {f : Frame (α × M)} {p : Path (α × M)} {r : Dict.Tree (α × M) × Option α}
    (h : removeFinalA g z rv x w f p = some r) (hx : Good g z x) (hw : Good g z w) (hp : Sibs g z p) : Good g z r.1 := by
  cases w with
  | leaf => cases h
  | node wl wa ws wr =>
    simp only [removeFinalA, Option.bind_eq_bind, Option.bind_eq_some_iff, Option.some.injEq] at h
    obtain ⟨ss, -, o, h1, n, h2, o', h3, q, h4, -, -, rfl⟩ := h
    have := rotateA_good1 (i := f.i) hx (mkNode_kids _ _ _ (edge_good h2 hw.kids) (mapStat_good h3 (edge_good h1 hw.kids)))
      (rbRotateA_some h4)
    exact finiUp_good (upd_good this.kids) hp

theorem removeEndA_good {rv : Option α} {x : Dict.Tree (α × M)} {p : Path (α × M)} {r : Dict.Tree (α × M) × Option α}
    (h : removeEndA g z rv x p = some r) (hx : Good g z x) (hp : Sibs g z p) : Good g z r.1 := by
  rw [removeEndA] at h
  split at h
  · simp only [Option.bind_eq_bind, Option.bind_eq_some_iff, Option.some.injEq] at h
    obtain ⟨x', h1, rfl⟩ := h
    exact finiUp_good (mapStat_good h1 hx) hp
  · cases h
    exact finiUp_good hx hp

theorem balanceRemoveA_good : ∀ (n : Nat) (rv : Option α) (x : Dict.Tree (α × M)) (p : Path (α × M)) (r : Dict.Tree (α × M) × Option α),
    balanceRemoveA g z n rv x p = some r → Good g z x → Sibs g z p → Good g z r.1
  | n, rv, x, [], r, h, hx, hp => by
    rw [balanceRemoveA] at h
    exact removeEndA_good h hx hp
  | 0, rv, x, f :: p, r, h, hx, hp => by
    rw [balanceRemoveA] at h
    cases h
  | n + 1, rv, x, f :: p, r, h, hx, hp => by
    rw [balanceRemoveA] at h
    split at h
    · exact removeEndA_good h hx hp
    · simp only [Option.bind_eq_bind, Option.bind_eq_some_iff] at h
      obtain ⟨-, -, q, h1, h⟩ := h
      obtain ⟨h2, h3⟩ := removeRedSibA_good h1 hx (hp f (by simp)) fun k hk => hp k (by simp [hk])
      split at h
      · exact balanceRemoveA_good n _ _ _ r h (upd_good (plug1_kids hx h2)) h3
      · simp only [Option.bind_eq_some_iff] at h
        obtain ⟨-, -, h⟩ := h
        split at h
        · simp only [Option.bind_eq_some_iff] at h
          obtain ⟨w, h4, fs, -, -, -, h⟩ := h
          exact balanceRemoveA_good n _ _ _ r h
            (upd_good (plug1_kids (f := { q.1 with s := fs, sib := w }) hx (mapStat_good h4 h2))) h3
        · simp only [Option.bind_eq_some_iff] at h
          obtain ⟨w, h4, h⟩ := h
          exact removeFinalA_good h hx (removeOuterA_good h4 h2) h3

theorem collapse_good {c : Bool} {t : Dict.Tree (α × M)} (h : Good g z t) : Good g z (collapse c t) := by
  cases t with
  | leaf => trivial
  | node l a s r => exact h

/-- what remains after unlinking is right, but for the nodes on the path -/
def GoodU (g : α → M → M → M) (z : M) : Removed (α × M) → Prop
  | .whole b => Good g z b
  | .edge _ x p => Good g z x ∧ Sibs g z p

theorem removeU_good {l r : Dict.Tree (α × M)} {s : Nat} {p : Path (α × M)} {u : Removed (α × M)} (h : removeU l s r p = some u)
    (hl : Good g z l) (hr : Good g z r) (hp : Sibs g z p) : GoodU g z u := by
  rw [removeU] at h
  split at h
  · simp only [swapRemoveU, Option.bind_eq_bind, Option.bind_eq_some_iff] at h
    obtain ⟨d, h1, h⟩ := h
    have h2 := startLoc_plug h1
    have h3 := plug_good (g := g) (z := z) (t := d.1) (p := d.2) (by rw [h2]; exact hr)
    obtain ⟨t, q⟩ := d
    cases t with
    | leaf => cases h
    | node dl da ds dr =>
      simp only [Option.bind_eq_some_iff, Option.some.injEq] at h
      obtain ⟨-, -, -, -, rfl⟩ := h
      refine ⟨collapse_good h3.1.2.1, ?_⟩
      intro k hk
      simp only [List.append_assoc, List.cons_append, List.nil_append, List.mem_append, List.mem_cons] at hk
      rcases hk with hk | rfl | hk
      · exact h3.2 k hk
      · exact hl
      · exact hp k hk
  · have hb : Good g z (if (!isLeaf l) = true then l else r) := by
      split
      · exact hl
      · exact hr
    cases p with
    | nil => cases h; exact hb
    | cons f p => cases h; exact ⟨collapse_good hb, hp⟩

theorem updHead_sibs {x : Dict.Tree (α × M)} {p : Path (α × M)} (hp : Sibs g z p) : Sibs g z (updHead g z x p) := by
  cases p with
  | nil => exact hp
  | cons f p =>
    intro k hk
    rcases List.mem_cons.mp hk with rfl | hk
    · exact hp f (by simp)
    · exact hp k (by simp [hk])

theorem removeA_good {c : α} {t : Dict.Tree (α × M)} {r : Dict.Tree (α × M) × Option α} (h : removeA g z c t = some r) (ht : Good g z t) :
    Good g z r.1 := by
  simp only [removeA, Option.bind_eq_bind, Option.bind_eq_some_iff] at h
  obtain ⟨q, h1, h⟩ := h
  have h2 := plug_good (g := g) (z := z) (t := q.1) (p := q.2) (by rw [locateA_plug h1]; exact ht)
  obtain ⟨t', p⟩ := q
  cases t' with
  | leaf => cases h
  | node l a s r' =>
    simp only [Option.bind_eq_some_iff] at h
    obtain ⟨u, h3, h⟩ := h
    have h4 := removeU_good h3 h2.1.1 h2.1.2.1 h2.2
    cases u with
    | whole b =>
      simp only [Option.bind_eq_some_iff, Option.some.injEq] at h
      obtain ⟨-, -, rfl⟩ := h
      exact upd_good (upd_good h4.kids).kids
    | edge c x p' =>
      simp only [Option.bind_eq_some_iff, Option.some.injEq] at h
      obtain ⟨res, h5, rv, -, rfl⟩ := h
      rw [removeBalanceA] at h5
      split at h5
      · cases h5
        exact finiUp_good h4.1 (updHead_sibs h4.2)
      · exact balanceRemoveA_good _ _ _ _ res h5 h4.1 (updHead_sibs h4.2)

theorem extractStartA_good {d : Bool} {t : Dict.Tree (α × M)} {e : Option (α × M) × Dict.Tree (α × M) × Option α}
    (h : extractStartA g z d t = some e) (ht : Good g z t) : Good g z e.2.1 := by
  rw [extractStartA] at h
  split at h
  · cases h; exact ht
  · simp only [Option.bind_eq_bind, Option.bind_eq_some_iff, Option.some.injEq] at h
    obtain ⟨a, -, res, h1, rfl⟩ := h
    exact removeA_good h1 ht

/-! ### join and split -/

theorem incSetBlackIfNeeded_kids {t t' : Dict.Tree (α × M)} (h : incSetBlackIfNeeded t = some t') (ht : Kids g z t) : Kids g z t' := by
  cases t with
  | leaf => cases h; trivial
  | node l a s r =>
    rw [incSetBlackIfNeeded] at h
    split at h
    · exact mapStat_kids h ht
    · cases h; exact ht

theorem joinDesc_good {i : Bool} {h : Nat} {t : Dict.Tree (α × M)} {p : Path (α × M)} (ht : Good g z t) (hp : Sibs g z p) :
    Good g z (joinDesc i h t p).1 ∧ Sibs g z (joinDesc i h t p).2 := by
  induction t generalizing p with
  | leaf => exact ⟨ht, hp⟩
  | node l a s r ih1 ih2 =>
    cases i
    · simp only [joinDesc]
      split
      · refine ih2 ht.2.1 fun k hk => ?_
        rcases List.mem_cons.mp hk with rfl | hk
        · exact ht.1
        · exact hp k hk
      · exact ⟨ht, hp⟩
    · simp only [joinDesc]
      split
      · refine ih1 ht.1 fun k hk => ?_
        rcases List.mem_cons.mp hk with rfl | hk
        · exact ht.2.1
        · exact hp k hk
      · exact ⟨ht, hp⟩

theorem joinUpA_good (i : Bool) : ∀ (rv : Option α) (t : Dict.Tree (α × M)) (p : Path (α × M)) (r : Dict.Tree (α × M) × Option α),
    joinUpA g z i rv t p = some r → Good g z t → Sibs g z p → Good g z r.1
  | rv, t, [], r, h, ht, hp => by simp [joinUpA] at h
  | rv, t, [f], r, h, ht, hp => by
    simp only [joinUpA, Option.bind_eq_bind, Option.bind_eq_some_iff, Option.some.injEq] at h
    obtain ⟨t', h1, rfl⟩ := h
    exact upd_good (incSetBlackIfNeeded_kids h1 (plug1_kids ht (hp f (by simp))))
  | rv, t, f :: k :: p, r, h, ht, hp => by
    have hf := hp f (by simp)
    have hk := hp k (by simp)
    have hpp : Sibs g z p := fun q hq => hp q (by simp [hq])
    rw [joinUpA] at h
    split at h
    · simp only [Option.bind_eq_bind, Option.bind_eq_some_iff] at h
      obtain ⟨-, -, t1, h1, q, h2, h⟩ := h
      have h3 := rotateA_good (plug1_kids (upd_good (plug1_kids (f := { f with s := f.s + 2 }) (mapStat_good h1 ht) hf)) hk)
        (rbRotateA_some h2)
      cases p with
      | nil =>
        simp only [Option.bind_eq_some_iff, Option.some.injEq] at h
        obtain ⟨t', h4, rfl⟩ := h
        exact upd_good (incSetBlackIfNeeded_kids h4 h3.kids)
      | cons k' p => exact joinUpA_good i q.2 q.1 (k' :: p) r h h3 hpp
    · simp only [Option.bind_eq_bind, Option.bind_eq_some_iff, Option.some.injEq] at h
      obtain ⟨t', h4, rfl⟩ := h
      refine finiUp_good (upd_good (incSetBlackIfNeeded_kids h4 (plug1_kids ht hf))) fun q hq => hp q ?_
      exact List.mem_cons_of_mem _ hq

theorem joinBlacken_good {l r r' : Dict.Tree (α × M)} (h : joinBlacken l r = some r') (hr : Good g z r) : Good g z r' := by
  rw [joinBlacken] at h
  split at h
  · exact mapStat_good h hr
  · cases h; exact hr

theorem join3OrderedA_good {i : Bool} {l r : Dict.Tree (α × M)} {m : α × M} {t : Dict.Tree (α × M) × Option α}
    (h : join3OrderedA g z i l m r = some t) (hl : Good g z l) (hr : Good g z r) : Good g z t.1 := by
  simp only [join3OrderedA, Option.bind_eq_bind, Option.bind_eq_some_iff] at h
  obtain ⟨r', h1, h⟩ := h
  have h2 := joinBlacken_good h1 hr
  split at h
  · simp only [Option.bind_eq_some_iff, Option.some.injEq] at h
    obtain ⟨t', h3, -, -, rfl⟩ := h
    exact upd_good (incSetBlackIfNeeded_kids h3 (mkNode_kids _ _ _ hl h2))
  · simp only [Option.bind_eq_some_iff, Option.some.injEq] at h
    obtain ⟨-, -, -, -, d, h3, -, -, t', h4, -, -, -, -, rfl⟩ := h
    have h5 := down_good h3 hl.kids
    have h6 := joinDesc_good (i := i) (h := height2 r') (p := [d.2]) h5.1 fun k hk => by
      rw [List.mem_singleton] at hk
      subst hk
      exact h5.2
    exact joinUpA_good i _ _ _ _ h4 (upd_good (mkNode_kids _ _ _ h6.1 h2)) h6.2

theorem join3A_good {l r : Dict.Tree (α × M)} {m : α × M} {t : Dict.Tree (α × M) × Option α}
    (h : join3A g z l m r = some t) (hl : Good g z l) (hr : Good g z r) : Good g z t.1 := by
  rw [join3A] at h
  split at h
  · exact join3OrderedA_good h hr hl
  · exact join3OrderedA_good h hl hr

theorem join2A_good {l r : Dict.Tree (α × M)} {t : Dict.Tree (α × M) × Option α} (h : join2A g z l r = some t) (hl : Good g z l)
    (hr : Good g z r) : Good g z t.1 := by
  rw [join2A] at h
  split at h
  · cases h; exact hr
  · split at h
    · cases h; exact hl
    · simp only [Option.bind_eq_bind, Option.bind_eq_some_iff] at h
      obtain ⟨e, h1, -, -, m, -, h2⟩ := h
      exact join3A_good h2 hl (extractStartA_good h1 hr)

theorem splitA_good {cmp : α → Int} {back : Bool} {t : Dict.Tree (α × M)} {q : Dict.Tree (α × M) × Dict.Tree (α × M)}
    (h : splitA g z cmp back t = some q) (ht : Good g z t) : Good g z q.1 ∧ Good g z q.2 := by
  induction t generalizing q with
  | leaf => cases h; exact ⟨trivial, trivial⟩
  | node l n s r ih1 ih2 =>
    rw [splitA] at h
    by_cases hb : cmp n.1 ≥ (if back then 1 else 0)
    · rw [if_pos hb] at h
      simp only [Option.bind_eq_bind, Option.bind_eq_some_iff, Option.some.injEq] at h
      obtain ⟨q', h1, x, h2, -, -, rfl⟩ := h
      obtain ⟨h3, h4⟩ := ih2 h1 ht.2.1
      exact ⟨join3A_good h2 ht.1 h3, h4⟩
    · rw [if_neg hb] at h
      simp only [Option.bind_eq_bind, Option.bind_eq_some_iff, Option.some.injEq] at h
      obtain ⟨q', h1, x, h2, -, -, rfl⟩ := h
      obtain ⟨h3, h4⟩ := ih1 h1 ht.1
      exact ⟨h3, join3A_good h2 h4 ht.2.1⟩

end dec
end Hob3l.Aug
