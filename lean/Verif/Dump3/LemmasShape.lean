import Verif.Dump3.Spec
/-!
The form of the trees that are made from programs.
-/
namespace Hob3l.Dump3

open Hob3l.Scad

variable {O M : Type}

theorem shapes_append {a b : List (Csg O M)} : Shapes (a ++ b) ↔ Shapes a ∧ Shapes b := by
  induction a with
  | nil => simp [Shapes]
  | cons c a ih => simp [Shapes, ih, and_assoc]

theorem shapess_append {a b : List (List (Csg O M))} : Shapess (a ++ b) ↔ Shapess a ∧ Shapess b := by
  induction a with
  | nil => simp [Shapess]
  | cons c a ih => simp [Shapess, ih, and_assoc]

/-- what is appended has the form -/
def Makes (c : Conv O M) : Prop := ∀ no r st, c (no, r) = some st → ∃ q, st.2 = r ++ q ∧ Shapes q

theorem fromV_makes {l : List (Conv O M)} (h : ∀ c ∈ l, Makes c) : Makes (fromV l) := by
  induction l with
  | nil =>
    intro no r st e
    simp only [fromV, Option.some.injEq] at e
    subst e
    exact ⟨[], by simp, trivial⟩
  | cons c l ih =>
    intro no r st e
    simp only [fromV, Option.bind_eq_bind, Option.bind_eq_some_iff] at e
    obtain ⟨s1, e1, e2⟩ := e
    obtain ⟨q1, h1, h2⟩ := h c (by simp) no r s1 e1
    obtain ⟨q2, h3, h4⟩ := ih (fun c hc => h c (by simp [hc])) s1.1 s1.2 st e2
    exact ⟨q1 ++ q2, by rw [h3, h1, List.append_assoc], shapes_append.mpr ⟨h2, h4⟩⟩

theorem diffHead_makes {l : List (Conv O M)} (h : ∀ c ∈ l, Makes c) {no : Bool} {f : List (Csg O M)} {r}
    (e : diffHead l no f = some r) (hf : Shapes f) : Shapes r.2.1 ∧ ∀ c ∈ r.2.2, Makes c := by
  induction l generalizing no f with
  | nil =>
    simp only [diffHead, Option.some.injEq] at e
    subst e
    exact ⟨hf, by simp⟩
  | cons c l ih =>
    rw [diffHead] at e
    split at e
    · simp only [Option.bind_eq_bind, Option.bind_eq_some_iff] at e
      obtain ⟨s1, e1, e2⟩ := e
      obtain ⟨q, h1, h2⟩ := h c (by simp) no f s1 e1
      exact ih (fun c hc => h c (by simp [hc])) e2 (by rw [h1]; exact shapes_append.mpr ⟨hf, h2⟩)
    · simp only [Option.some.injEq] at e
      subst e
      exact ⟨hf, h⟩

theorem fromDiff_makes {l : List (Conv O M)} (h : ∀ c ∈ l, Makes c) : Makes (fromDiff l) := by
  intro no r st e
  simp only [fromDiff, Option.bind_eq_bind, Option.bind_eq_some_iff] at e
  obtain ⟨⟨n1, f, rest⟩, e1, e2⟩ := e
  obtain ⟨hf, hr⟩ := diffHead_makes h e1 trivial
  dsimp only at hf hr e2
  generalize (if n1 = true then true else no) = n2 at e2
  unfold diffTail at e2
  split at e2
  · simp only [Option.some.injEq] at e2
    subst e2
    exact ⟨[], by simp, trivial⟩
  · rename_i a b
    simp only [Option.bind_eq_bind, Option.bind_eq_some_iff, Option.some.injEq] at e2
    obtain ⟨s1, e3, rfl⟩ := e2
    obtain ⟨q, h1, h2⟩ := fromV_makes hr n2 b s1 e3
    refine ⟨_, rfl, ?_⟩
    simp only [Shapes, Shape, and_true] at hf ⊢
    obtain ⟨g1, g2, g3, g4, g5⟩ := hf
    rw [h1]
    exact ⟨g1, g2, by simp [g3], g4, shapes_append.mpr ⟨g5, h2⟩⟩
  · rename_i h0 h1
    simp only [Option.bind_eq_bind, Option.bind_eq_some_iff] at e2
    obtain ⟨s1, e3, e4⟩ := e2
    obtain ⟨q, h3, h4⟩ := fromV_makes hr n2 [] s1 e3
    split at e4
    · simp only [Option.some.injEq] at e4
      subst e4
      exact ⟨_, rfl, hf⟩
    · rename_i hn
      simp only [Option.some.injEq] at e4
      subst e4
      refine ⟨_, rfl, ?_⟩
      simp only [Shapes, Shape, and_true]
      refine ⟨h0, ?_, fun e => hn (by rw [e]; rfl), hf, by rw [h3]; simpa using h4⟩
      rintro c rfl
      cases c with
      | sub a b => exact absurd rfl (h1 a b)
      | leaf o m => rfl
      | cut l => rfl

theorem cutPush_ok {cut : List (List (Csg O M))} {add : List (Csg O M)} (h1 : ∀ a ∈ cut, a ≠ []) (h2 : Shapess cut)
    (h3 : Shapes add) : (∀ a ∈ cutPush cut add, a ≠ []) ∧ Shapess (cutPush cut add) := by
  unfold cutPush
  split
  · rename_i hp
    constructor
    · intro a ha
      rcases List.mem_append.mp ha with ha | ha
      · exact h1 a ha
      · simp only [List.mem_cons, List.not_mem_nil, or_false] at ha
        subst ha
        rintro rfl
        simp at hp
    · exact shapess_append.mpr ⟨h2, by simp [Shapess, h3]⟩
  · exact ⟨h1, h2⟩

theorem interLoop_makes {l : List (Conv O M)} (h : ∀ c ∈ l, Makes c) {no : Bool} {cut : List (List (Csg O M))}
    {add : List (Csg O M)} {r} (e : interLoop l no cut add = some r) (h1 : ∀ a ∈ cut, a ≠ []) (h2 : Shapess cut)
    (h3 : Shapes add) : (∀ a ∈ r.2.1, a ≠ []) ∧ Shapess r.2.1 ∧ Shapes r.2.2 := by
  induction l generalizing no cut add with
  | nil =>
    simp only [interLoop, Option.some.injEq] at e
    subst e
    exact ⟨h1, h2, h3⟩
  | cons c l ih =>
    simp only [interLoop, Option.bind_eq_bind, Option.bind_eq_some_iff] at e
    obtain ⟨s1, e1, e2⟩ := e
    obtain ⟨q, g1, g2⟩ := h c (by simp) _ _ s1 e1
    obtain ⟨k1, k2⟩ := cutPush_ok h1 h2 h3
    refine ih (fun c hc => h c (by simp [hc])) e2 k1 k2 ?_
    rw [g1]
    refine shapes_append.mpr ⟨?_, g2⟩
    split
    · trivial
    · exact h3

theorem fromInter_makes {l : List (Conv O M)} (h : ∀ c ∈ l, Makes c) : Makes (fromInter l) := by
  intro no r st e
  simp only [fromInter, Option.bind_eq_bind, Option.bind_eq_some_iff] at e
  obtain ⟨x, e1, e2⟩ := e
  obtain ⟨h1, h2, h3⟩ := interLoop_makes h e1 (by simp) trivial trivial
  split at e2
  · simp only [Option.some.injEq] at e2
    subst e2
    exact ⟨_, rfl, h3⟩
  · simp only [Option.bind_eq_some_iff, Option.some.injEq] at e2
    obtain ⟨u, e3, rfl⟩ := e2
    obtain ⟨k1, k2⟩ := cutPush_ok h1 h2 h3
    refine ⟨_, rfl, ?_⟩
    simp only [Shapes, Shape, and_true]
    refine ⟨?_, k1, k2⟩
    unfold Matq.ass at e3
    split at e3
    · assumption
    · cases e3

mutual
theorem conv_makes [Mul M] (m : M) : (s : Scad O M) → Makes (conv m s)
  | .obj o => by
    intro no r st e
    simp only [conv, Option.some.injEq] at e
    subst e
    exact ⟨_, rfl, by simp [Shapes, Shape]⟩
  | .hollow => by
    intro no r st e
    simp only [conv, Option.some.injEq] at e
    subst e
    exact ⟨[], by simp, trivial⟩
  | .ignored s => by
    intro no r st e
    simp only [conv, Option.some.injEq] at e
    subst e
    exact ⟨[], by simp, trivial⟩
  | .union l => by rw [conv]; exact fromV_makes (convs_makes m l)
  | .diff l => by rw [conv]; exact fromDiff_makes (convs_makes m l)
  | .inter l => by rw [conv]; exact fromInter_makes (convs_makes m l)
  | .xform t l => by rw [conv]; exact fromV_makes (convs_makes (m * t) l)
theorem convs_makes [Mul M] (m : M) : (l : List (Scad O M)) → ∀ c ∈ convs m l, Makes c
  | [] => by simp [convs]
  | s :: l => by
    intro c hc
    rw [convs] at hc
    rcases List.mem_cons.mp hc with rfl | hc
    · exact conv_makes m s
    · exact convs_makes m l c hc
end

end Hob3l.Dump3
