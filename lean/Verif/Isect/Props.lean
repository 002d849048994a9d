import Verif.Isect.Lemmas2

/-
Property theorems C111: `cq_has_intersect`.
-/

namespace Hob3l.Isect

open Hob3l.Matq Hob3l.Sweep

/-- C111: the function always returns; if it returns 1, then the lines are not free of intersections, `ap` and `bp` are
lines of the polygon, and either they cross at exactly the point `ip`, or an end of one is an inner point of the other in
the same direction. -/
theorem C111_sound (debug : Bool) (gon : List Line) (hg : ∀ l ∈ gon, l.Ok) :
    ∃ r, hasIntersect debug gon = some r ∧
      ∀ ip a b, r = some (ip, a, b) → ¬ Free gon ∧ a ∈ gon ∧ b ∈ gon ∧ (Crosses a b ip.pt ∨ PartOverlap a b) := by
  obtain ⟨r, h1, h2, h3⟩ := outer_spec debug gon hg gon hg
  refine ⟨r, h1, ?_⟩
  intro ip a b hr
  obtain ⟨k1, k2, k3⟩ := h3 ip a b hr
  have hb : Bad a b := k3.elim (fun h => Or.inl ⟨_, h⟩) (fun h => Or.inr h.1)
  exact ⟨Found.not_free (i := ip) k1 k2 hb, k1, k2, k3.elim Or.inl (fun h => Or.inr h.1)⟩

/-- C111: exactly the crossings and the partial overlaps are found -/
theorem C111_exact (debug : Bool) (gon : List Line) (hg : ∀ l ∈ gon, l.Ok) :
    hasIntersect debug gon = some none ↔ ∀ a ∈ gon, ∀ b ∈ gon, ¬ (∃ X, Crosses a b X) ∧ ¬ PartOverlap a b := by
  obtain ⟨r, h1, h2, -⟩ := outer_spec debug gon hg gon hg
  unfold hasIntersect
  rw [h1]
  constructor
  · intro h a ha b hb
    have hn : r = none := Option.some.inj h
    have := mt h2.mpr (by rw [hn]; simp)
    exact ⟨fun k => this ⟨a, ha, b, hb, Or.inl k⟩, fun k => this ⟨a, ha, b, hb, Or.inr k⟩⟩
  · intro h
    cases r with
    | none => rfl
    | some q =>
      obtain ⟨a, ha, b, hb, k⟩ := h2.mp rfl
      exact absurd k (not_or.mpr (h a ha b hb))

/-- C111: if the function returns 0, and no end of a line is an inner point of another line of another direction, the
polygon is free of intersections.  What is missing: junctions (see `C111_junction_wrong`). -/
theorem C111_complete_partial (debug : Bool) (gon : List Line) (hg : ∀ l ∈ gon, l.Ok)
    (hj : ∀ l ∈ gon, ∀ m ∈ gon, ¬ Parallel l.a.pt l.b.pt m.a.pt m.b.pt → ¬ Touch l m)
    (h : hasIntersect debug gon = some none) : Free gon := by
  have := (C111_exact debug gon hg).mp h
  exact free_of hg (fun l hl m hm => not_or.mpr (this l hl m hm)) hj

/-- C111: junctions are not found although documented: a line that ends in the middle of another one -/
theorem C111_junction_wrong (debug : Bool) :
    hasIntersect debug [⟨⟨0, 0⟩, ⟨4, 0⟩⟩, ⟨⟨2, 0⟩, ⟨2, 5⟩⟩] = some none ∧
    ¬ Free [⟨⟨0, 0⟩, ⟨4, 0⟩⟩, ⟨⟨2, 0⟩, ⟨2, 5⟩⟩] := by
  refine ⟨by cases debug <;> decide +kernel, ?_⟩
  intro h
  rcases h ⟨⟨0, 0⟩, ⟨4, 0⟩⟩ (by simp) ⟨⟨2, 0⟩, ⟨2, 5⟩⟩ (by simp) with hs | hs
  · revert hs; unfold Line.Same; decide
  · have := (hs (2, 0) ⟨1 / 2, by norm_num, by norm_num, by norm_num [Vec2.pt], by norm_num [Vec2.pt]⟩
      ⟨0, le_refl _, by norm_num, by norm_num [Vec2.pt], by norm_num [Vec2.pt]⟩).1
    rcases this with e | e
    · have := congrArg Prod.fst e; norm_num [Vec2.pt] at this
    · have := congrArg Prod.fst e; norm_num [Vec2.pt] at this

/-- C111: for a partial overlap, the point returned need not be on the other line -/
theorem C111_point_wrong (debug : Bool) :
    hasIntersect debug [⟨⟨10, 0⟩, ⟨2, 0⟩⟩, ⟨⟨0, 0⟩, ⟨4, 0⟩⟩] =
      some (some (⟨⟨10, 0, 1⟩, ⟨0, 0, 1⟩⟩, ⟨⟨10, 0⟩, ⟨2, 0⟩⟩, ⟨⟨0, 0⟩, ⟨4, 0⟩⟩)) ∧
    ¬ Line.On ⟨⟨0, 0⟩, ⟨4, 0⟩⟩ (10, 0) := by
  refine ⟨by cases debug <;> decide +kernel, ?_⟩
  rintro ⟨s, s0, s1, hx, -⟩
  norm_num [Vec2.pt] at hx
  linarith

/-- a square without and a bow tie with intersection -/
example : (∀ l ∈ [(⟨⟨0, 0⟩, ⟨4, 0⟩⟩ : Line), ⟨⟨4, 0⟩, ⟨4, 4⟩⟩, ⟨⟨4, 4⟩, ⟨0, 4⟩⟩, ⟨⟨0, 4⟩, ⟨0, 0⟩⟩], l.Ok) ∧
    hasIntersect true [⟨⟨0, 0⟩, ⟨4, 0⟩⟩, ⟨⟨4, 0⟩, ⟨4, 4⟩⟩, ⟨⟨4, 4⟩, ⟨0, 4⟩⟩, ⟨⟨0, 4⟩, ⟨0, 0⟩⟩] = some none ∧
    hasIntersect true [⟨⟨0, 0⟩, ⟨3, 3⟩⟩, ⟨⟨3, 3⟩, ⟨3, 0⟩⟩, ⟨⟨3, 0⟩, ⟨0, 3⟩⟩, ⟨⟨0, 3⟩, ⟨0, 0⟩⟩] =
      some (some (⟨⟨1, 9, 18⟩, ⟨1, 9, 18⟩⟩, ⟨⟨0, 0⟩, ⟨3, 3⟩⟩, ⟨⟨3, 0⟩, ⟨0, 3⟩⟩)) := by
  refine ⟨?_, by decide +kernel, by decide +kernel⟩
  unfold Line.Ok Vec2.InRange; decide

end Hob3l.Isect
