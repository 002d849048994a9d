import Verif.Sweep.LemmasReduceRegion

/-
Property theorems C112: the Boolean operation on a planar set of edges.
-/

namespace Hob3l.Sweep

open Hob3l.Matq

/-! ## C112 Boolean operations, point by point -/

/-- C112: `insideMask` is the even-odd rule for each polygon: bit `j` is set iff an odd number of the edges of polygon
`j` are below the point -/
theorem C112_inside (E : List Edge) (X : Pt) (j : Nat) :
    (insideMask E X).getLsbD j = oddBelow (E.filter fun e => e.member.getLsbD j) X := by
  classical
  unfold oddBelow
  induction E with
  | nil => simp [insideMask]
  | cons e E ih =>
    simp only [insideMask, BitVec.getLsbD_xor, ih, List.filter_cons]
    by_cases hm : e.member.getLsbD j <;> by_cases hu : e.Under X
    · simp only [hm, hu, if_true, List.filter_cons, decide_true, List.length_cons, Bool.true_bne]
      generalize ((E.filter fun e => e.member.getLsbD j).filter fun e => decide (e.Under X)).length = k
      by_cases h : k % 2 = 1
      · rw [decide_eq_true h, Bool.not_true, eq_comm, decide_eq_false_iff_not]; omega
      · rw [decide_eq_false h, Bool.not_false, eq_comm, decide_eq_true_iff]; omega
    · simp [hm, hu, List.filter_cons]
    · simp [hm, hu]
    · simp [hm, hu]

/-- C112: for every Boolean function of `n` polygons (a table of `2^n` bits) and all edges that are planar and in which
every polygon is closed: the reduction never fails; what it leaves is a part of the edges, again in sweep order; an even
number of its edges end at every grid point; and every point of the plane that is on no edge is inside of the result (by
the even-odd rule) iff the function has a different value for the polygons the point is inside of than for the outside of
all polygons.  Moreover, no edge is superfluous: an edge is left iff the value of the function changes across it, at each
of its points other than its ends. -/
theorem C112_boolean (comb : Bitmap.Mem) (n : Nat) (hn : n ≤ 10) (E : List Edge) (vs : List RV) (hp : Planar E)
    (hd : Directed E) (hc : Closed E) (hm : ∀ e ∈ E, e.member.toNat < 2 ^ n) (ho : SweepOrder E vs) :
    ∃ K out, reduce comb (2 ^ n) vs = some out ∧ K.Sublist E ∧ SweepOrder K out ∧ (∀ v, ends v K % 2 = 0) ∧
      (∀ X, (∀ e ∈ E, ¬ e.On X) → oddBelow K X = (comb.getLsbD (insideMask E X).toNat != comb.getLsbD 0)) ∧
      ∀ e ∈ E, ∀ X, e.On X → ¬ e.End X →
        (e ∈ K ↔ comb.getLsbD (insideMask E X).toNat ≠ comb.getLsbD (insideMask E X ^^^ e.member).toNat) := by
  have I : RIn n E vs := ⟨hp, hd, hc, hm, ho⟩
  obtain ⟨s, h1, inv⟩ := run_to (comb := comb) hn I vs.length vs [] rfl (by simp) (by simp)
  refine ⟨E.filter s.keep, vs.filter (fun v => s.keep v.e), ?_, List.filter_sublist, ⟨?_, ho.2.filter _⟩, ?_, ?_, ?_⟩
  · unfold reduce; rw [h1]; rfl
  · have := ho.1.filter (p := fun v => s.keep v.e)
    refine this.trans (List.Perm.of_eq ?_)
    clear this inv h1 I ho hm hc hd hp
    induction E with
    | nil => rfl
    | cons e E ih =>
      rw [List.flatMap_cons, List.filter_append, ih, List.filter_cons]
      cases hk : s.keep e <;> simp [hk]
  · intro q
    by_cases h : ∃ v ∈ vs, v.p = q
    · exact inv.even q h
    · have hz : ends q (E.filter s.keep) = 0 := by
        rw [ends_filter]
        have a : ∀ e ∈ E.filter s.keep, e.left ≠ q ∧ e.rigt ≠ q := by
          intro e he
          have he := (List.mem_filter.mp he).1
          exact ⟨fun h' => h ⟨⟨e, false⟩, (I.mem_vs _).mpr he, by simpa [RV.p] using h'⟩,
            fun h' => h ⟨⟨e, true⟩, (I.mem_vs _).mpr he, by simpa [RV.p] using h'⟩⟩
        have f1 : (E.filter s.keep).filter (fun e => e.left = q) = [] := by
          rw [List.filter_eq_nil_iff]; intro e he; simp [(a e he).1]
        have f2 : (E.filter s.keep).filter (fun e => e.rigt = q) = [] := by
          rw [List.filter_eq_nil_iff]; intro e he; simp [(a e he).2]
        rw [f1, f2]; rfl
      rw [hz]
  · intro X hX
    have := region hn I h1 X hX
    simpa [bfun] using this
  · intro e he X h2 h3
    have := edge_kept hn I h1 he X h2 h3
    rw [List.mem_filter, this]
    simp [bfun, he]

/-- an edge as created by `edge_new` -/
def exEdge (x y x' y' : Int) (m : BitVec 64) : Edge := ⟨⟨x, y⟩, ⟨x', y'⟩, m, false, false, false⟩

/-- two triangles with a common side: the edges -/
def exE : List Edge :=
  [exEdge 0 0 4 0 3, exEdge 0 0 2 3 1, exEdge 2 3 4 0 1, exEdge 0 0 2 (-3) 2, exEdge 2 (-3) 4 0 2]

/-- two triangles with a common side: the vertices in sweep order -/
def exVs : List RV :=
  [⟨exEdge 0 0 2 (-3) 2, false⟩, ⟨exEdge 0 0 4 0 3, false⟩, ⟨exEdge 0 0 2 3 1, false⟩,
    ⟨exEdge 0 0 2 (-3) 2, true⟩, ⟨exEdge 2 (-3) 4 0 2, false⟩, ⟨exEdge 0 0 2 3 1, true⟩,
    ⟨exEdge 2 3 4 0 1, false⟩, ⟨exEdge 2 3 4 0 1, true⟩, ⟨exEdge 0 0 4 0 3, true⟩, ⟨exEdge 2 (-3) 4 0 2, true⟩]

-- the hypotheses hold for two triangles with a common side; the union (table 1110) drops exactly this side
example : Planar exE := by
  unfold Planar exE exEdge
  simp only [List.pairwise_cons, List.mem_cons, List.not_mem_nil, or_false, forall_eq_or_imp, forall_eq]
  refine ⟨⟨?_, ?_, ?_, ?_⟩, ⟨?_, ?_, ?_⟩, ⟨?_, ?_⟩, ?_, ?_⟩
  all_goals try exact ⟨by simp, List.Pairwise.nil⟩
  all_goals
    rintro ⟨x, y⟩ ⟨t, t0, t1, tx, ty⟩ ⟨u, u0, u1, ux, uy⟩
    simp only [Vec2.pt] at tx ty ux uy
    norm_num at tx ty ux uy
    first
    | (exfalso; linarith)
    | (have h1 : x = 0 := by linarith
       have h2 : y = 0 := by linarith
       subst h1 h2; simp [Edge.End, Vec2.pt]; done)
    | (have h1 : x = 4 := by linarith
       have h2 : y = 0 := by linarith
       subst h1 h2; simp [Edge.End, Vec2.pt]; done)
    | (have h1 : x = 2 := by linarith
       have h2 : y = 3 := by linarith
       subst h1 h2; simp [Edge.End, Vec2.pt]; done)
    | (have h1 : x = 2 := by linarith
       have h2 : y = -3 := by linarith
       subst h1 h2; simp [Edge.End, Vec2.pt]; done)

example : Directed exE := by unfold Directed LexLt Vec2.InRange; decide

example : Closed exE := by
  intro v
  by_cases h1 : v = ⟨0, 0⟩
  · subst h1; decide
  by_cases h2 : v = ⟨4, 0⟩
  · subst h2; decide
  by_cases h3 : v = ⟨2, 3⟩
  · subst h3; decide
  by_cases h4 : v = ⟨2, -3⟩
  · subst h4; decide
  simp [exE, exEdge, endXor, endMask, Ne.symm h1, Ne.symm h2, Ne.symm h3, Ne.symm h4]

example : ∀ e ∈ exE, e.member.toNat < 2 ^ 2 := by decide

example : SweepOrder exE exVs := by
  refine ⟨by decide +kernel, ?_⟩
  refine List.Pairwise.imp (R := fun a b => (resultVertexCmp a.vertex b.vertex).any (· < 0) = true) ?_ (by decide +kernel)
  intro a b h
  rw [Option.any_eq_true] at h
  obtain ⟨i, h1, h2⟩ := h
  exact ⟨i, h1, by simpa using h2⟩

example : reduce 0b1110 4 exVs = some (exVs.filter fun v => v.e ≠ exEdge 0 0 4 0 3) := by decide +kernel

end Hob3l.Sweep
