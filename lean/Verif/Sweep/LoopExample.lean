import Verif.Sweep.LoopModel
import Mathlib.Data.List.Perm.Basic

/-
A complete run of the modelled sweep: two edges that cross at (1/2, 1/2), which is rounded to (1, 1).
-/

namespace Hob3l.Sweep

open Hob3l.Matq

namespace Ex

def A : Edge := ⟨⟨0, 0⟩, ⟨1, 1⟩, 1, false, true, true⟩
def B : Edge := ⟨⟨0, 1⟩, ⟨1, 0⟩, 2, false, true, true⟩
/-- in the state -/
def A1 : Edge := ⟨⟨0, 0⟩, ⟨1, 1⟩, 1, true, false, true⟩
def B1 : Edge := ⟨⟨0, 1⟩, ⟨1, 0⟩, 2, true, false, true⟩
/-- finished -/
def A2 : Edge := ⟨⟨0, 0⟩, ⟨1, 1⟩, 1, false, false, false⟩
def B2 : Edge := ⟨⟨0, 1⟩, ⟨1, 0⟩, 2, false, false, false⟩
def P : Vec2if := ⟨⟨0, 1, 2⟩, ⟨0, 1, 2⟩⟩

/-- the result: the first edge; the second one goes through (1, 1) -/
def R : List Edge :=
  [⟨⟨0, 0⟩, ⟨1, 1⟩, 1, false, false, false⟩, ⟨⟨0, 1⟩, ⟨1, 1⟩, 2, false, false, false⟩,
    ⟨⟨1, 0⟩, ⟨1, 1⟩, 2, false, false, false⟩]

theorem phase1 : Phase1 false ⟨[A, B], [], []⟩ ⟨[A2, B2], [], [P]⟩ := by
  refine .step _ ⟨[A1, B], [], []⟩ _ ?_ ?_
  · exact .left _ ⟨[A1, B], [], []⟩ _ A [B] (.refl _) rfl (by unfold FirstVertex; decide) rfl (.null _) (.null _)
  refine .step _ ⟨[A1, B1], [P], [P]⟩ _ ?_ ?_
  · refine .left _ ⟨[A1, B1], [P], [P]⟩ _ B [A1] (by decide) rfl (by unfold FirstVertex; decide) rfl ?_ (.null _)
    have := PairStep.pair (debug := false) (cur := vec2ifi 0 1) ⟨[B1, A1], [], []⟩ A1 B1 [] ⟨[A1], [B1], some P⟩
      (by decide) rfl rfl (by decide +kernel)
    exact this
  refine .step _ ⟨[A1, B1], [], [P]⟩ _ ?_ ?_
  · exact .cross _ ⟨[A1, B1], [], [P]⟩ _ P [] (.refl _) (by unfold FirstXing; decide) (.null _) (.null _)
  refine .step _ ⟨[B2, A1], [], [P]⟩ _ ?_ ?_
  · exact .rigt _ _ B1 [A1] (by decide) rfl (by unfold FirstVertex; decide) rfl (.null _)
  refine .step _ ⟨[A2, B2], [], [P]⟩ _ ?_ ?_
  · exact .rigt _ _ A1 [B2] (by decide) rfl (by unfold FirstVertex; decide) rfl (.null _)
  exact .done _ (by decide) rfl

def r0 : Edge := ⟨⟨0, 0⟩, ⟨1, 1⟩, 1, false, false, false⟩
def r1 : Edge := ⟨⟨0, 1⟩, ⟨1, 1⟩, 2, false, false, false⟩

theorem north (sel : Vec2 → Edge → Prop) (h : sel ⟨1, 1⟩ A2) : Pass2 sel false [A2, B2] [P] [] [] [] [r0] := by
  refine .run _ _ _ _ ⟨[], [], [], [], [r0]⟩ ?_ rfl rfl
  refine .step _ ⟨[⟨⟨0, 0⟩, [A2]⟩], [B2], [A2, B2], [P], []⟩ _ ?_ ?_
  · exact .pixel _ ⟨0, 0⟩ [] [] [] [] [] ⟨[A2], [B2], [A2, B2], [P]⟩ (Or.inl ⟨A2, by decide, rfl⟩) (.none _ _)
      (.step _ _ _ (.insert _ A2 [B2] [] [] (.refl _) rfl rfl rfl) (.done _)) rfl
  refine .step _ ⟨[⟨⟨0, 0⟩, [A2]⟩], [], [A2, B2], [P], []⟩ _ ?_ ?_
  · exact .pixel _ ⟨0, 1⟩ [⟨⟨0, 0⟩, [A2]⟩] [⟨⟨0, 0⟩, [A2]⟩] [] [] [] ⟨[], [], [A2, B2], [P]⟩
      (Or.inl ⟨B2, by decide, rfl⟩) (.none _ _)
      (.step _ _ _ (.skipL _ B2 [] (.refl _) rfl (by decide)) (.done _)) rfl
  refine .step _ ⟨[⟨⟨0, 0⟩, [A2]⟩], [], [A2], [P], []⟩ _ ?_ ?_
  · exact .pixel _ ⟨1, 0⟩ [⟨⟨0, 0⟩, [A2]⟩] [⟨⟨0, 0⟩, [A2]⟩] [] [] [] ⟨[], [], [A2], [P]⟩
      (Or.inr (Or.inl ⟨B2, by decide, rfl⟩)) (.none _ _)
      (.step _ _ _ (.skipR _ B2 [A2] (by decide) rfl (by decide)) (.done _)) rfl
  refine .step _ ⟨[], [], [], [], [r0]⟩ _ ?_ (.done _ rfl rfl rfl)
  refine .pixel _ ⟨1, 1⟩ [] [] [] [A2] [r0] ⟨[], [], [], []⟩ (Or.inr (Or.inr ⟨P, by decide, by decide, by decide⟩)) ?_
      (.step _ ⟨[A2], [], [A2], []⟩ _ (.reverse _ P [] [A2] [] [] (.refl _) (by decide) (by decide) rfl)
        (.step _ _ _ (.remove _ A2 [] [] [] (.refl _) rfl rfl rfl) (.done _))) rfl
  exact .some [] [] [] ⟨⟨0, 0⟩, [A2]⟩ [] [A2] [A2] [] [r0] rfl (by simp)
    (.next _ _ _ _ _ _ [r0] _ (by simp) (by simpa using h) (by decide) (.nil _ _))

theorem south (sel : Vec2 → Edge → Prop) (h1 : sel ⟨1, 1⟩ B2) (h2 : sel ⟨1, 0⟩ B2) :
    Pass2 sel true [A2, B2] [P] [] [r0] [] R := by
  refine .run _ _ _ _ ⟨[], [], [], [], R⟩ ?_ rfl rfl
  refine .step _ ⟨[⟨⟨0, 1⟩, [B2]⟩], [A2], [A2, B2], [P], [r0]⟩ _ ?_ ?_
  · exact .pixel _ ⟨0, 1⟩ [] [] [] [] [r0] ⟨[B2], [A2], [A2, B2], [P]⟩ (Or.inl ⟨B2, by decide, rfl⟩) (.none _ _)
      (.step _ _ _ (.insert _ B2 [A2] [] [] (by decide) rfl rfl rfl) (.done _)) rfl
  refine .step _ ⟨[⟨⟨0, 1⟩, [B2]⟩], [], [A2, B2], [P], [r0]⟩ _ ?_ ?_
  · exact .pixel _ ⟨0, 0⟩ [⟨⟨0, 1⟩, [B2]⟩] [⟨⟨0, 1⟩, [B2]⟩] [] [] [r0] ⟨[], [], [A2, B2], [P]⟩
      (Or.inl ⟨A2, by decide, rfl⟩) (.none _ _)
      (.step _ _ _ (.skipL _ A2 [] (.refl _) rfl (by decide)) (.done _)) rfl
  refine .step _ ⟨[⟨⟨1, 1⟩, [B2]⟩], [], [B2], [], [r0, r1]⟩ _ ?_ ?_
  · refine .pixel _ ⟨1, 1⟩ [] [] [] [B2] [r0, r1] ⟨[B2], [], [B2], []⟩
      (Or.inr (Or.inr ⟨P, by decide, by decide, by decide⟩)) ?_
      (.step _ ⟨[B2], [], [A2, B2], []⟩ _ (.reverse _ P [] [] [B2] [] (.refl _) (by decide) (by decide) rfl)
        (.step _ _ _ (.skipR _ A2 [B2] (.refl _) rfl (by decide)) (.done _))) rfl
    exact .some [] [] [] ⟨⟨0, 1⟩, [B2]⟩ [] [B2] [B2] [r0] [r0, r1] rfl (by simp)
      (.next _ _ _ _ _ _ [r0, r1] _ (by simp) (by simpa using h1) (by decide) (.nil _ _))
  refine .step _ ⟨[], [], [], [], R⟩ _ ?_ (.done _ rfl rfl rfl)
  refine .pixel _ ⟨1, 0⟩ [] [] [] [B2] R ⟨[], [], [], []⟩ (Or.inr (Or.inl ⟨B2, by decide, rfl⟩)) ?_
    (.step _ _ _ (.remove _ B2 [] [] [] (.refl _) rfl rfl rfl) (.done _)) rfl
  exact .some [] [] [] ⟨⟨1, 1⟩, [B2]⟩ [] [B2] [B2] [r0, r1] R rfl (by simp)
    (.next _ _ _ _ _ _ R _ (by simp) (by simpa using h2) (by decide) (.nil _ _))

theorem run (sel : Vec2 → Edge → Prop) (h : ∀ p e, sortedSel p e → sel p e) : Intersect false sel [A, B] R :=
  .run _ [r0] _ [] [] ⟨[A2, B2], [], [P]⟩ phase1 (north sel (h _ _ (by unfold sortedSel; decide)))
    (south sel (h _ _ (by unfold sortedSel; decide)) (h _ _ (by unfold sortedSel; decide)))

end Ex

end Hob3l.Sweep
