import Verif.Scad.Lemmas

/-!
Objects without extent, outside of intersections.
-/

namespace Hob3l.Scad

open scoped Pointwise

variable {O M X : Type}

/-- what a conversion does if it succeeds -/
def Can [SMul M X] (solid : O → Set X) (c : Conv O M) (e : Bool × Set X) : Prop :=
  ∀ no r st, c (no, r) = some st → ∃ q, st = (no || !e.1, r ++ q) ∧ ptsAdd solid q = e.2 ∧ (e.1 = true → q = [])

/-- the same for a list -/
def Cans [SMul M X] (solid : O → Set X) (cs : List (Conv O M)) (d : List (Bool × Set X)) : Prop :=
  List.Forall₂ (Can solid) cs d

theorem fromV_can [SMul M X] {solid : O → Set X} {cs : List (Conv O M)} {d : List (Bool × Set X)} (h : Cans solid cs d) :
    Can solid (fromV cs) (d.all (·.1), unions (d.map (·.2))) := by
  induction h with
  | nil =>
    intro no r st h
    simp only [fromV, Option.some.injEq] at h
    exact ⟨[], by simp [← h], by simp [ptsAdd, unions], fun _ => rfl⟩
  | @cons c e cs d h1 _ ih =>
    intro no r st h
    simp only [fromV] at h
    obtain ⟨st1, h2, h⟩ := Option.bind_eq_some_iff.1 h
    obtain ⟨q, rfl, hP, hv⟩ := h1 no r st1 h2
    obtain ⟨q', rfl, hP', hv'⟩ := ih _ _ _ h
    refine ⟨q ++ q', ?_, ?_, ?_⟩
    · simp only [List.append_assoc, List.all_cons, Prod.mk.injEq, and_true]
      cases no <;> cases e.1 <;> simp
    · simp only [ptsAdd_append, hP, hP', List.map_cons, unions]
    · intro ha
      simp only [List.all_cons, Bool.and_eq_true] at ha
      rw [hv ha.1, hv' ha.2]; rfl

theorem diffHead_can [SMul M X] {solid : O → Set X} {cs : List (Conv O M)} {d : List (Bool × Set X)} (h : Cans solid cs d)
    {x : Bool × List (Csg O M) × List (Conv O M)} (hx : diffHead cs false [] = some x) :
    (d.all (·.1) = true ∧ x = (false, [], []) ∧ diffs d = ∅) ∨
    (∃ q cs' d', x = (true, q, cs') ∧ d.all (·.1) = false ∧ Cans solid cs' d' ∧
      diffs d = ptsAdd solid q \ unions (d'.map (·.2))) := by
  induction h with
  | nil => left; simp only [diffHead, Option.some.injEq] at hx; simp [← hx, diffs]
  | @cons c e cs d h1 h2 ih =>
    obtain ⟨v, P⟩ := e
    simp only [diffHead, if_true] at hx
    obtain ⟨st1, h3, hx⟩ := Option.bind_eq_some_iff.1 hx
    obtain ⟨q, rfl, hP, hv⟩ := h1 _ _ _ h3
    cases hvv : v with
    | true =>
      have := hv hvv
      subst this
      simp only [hvv, Bool.not_true, Bool.or_false, List.append_nil] at hx
      rcases ih hx with ⟨a, b, c⟩ | ⟨q, cs', d', a, b, c, e⟩
      · left; exact ⟨by simp [a], b, by simpa only [diffs] using c⟩
      · right; exact ⟨q, cs', d', a, by simp [b], c, by simpa only [diffs] using e⟩
    | false =>
      right
      simp only [hvv, Bool.not_false, Bool.or_true, List.nil_append] at hx
      refine ⟨q, cs, d, ?_, by simp, h2, ?_⟩
      · cases cs with
        | nil => simpa [diffHead] using hx.symm
        | cons c' cs => simpa [diffHead] using hx.symm
      · simp only [diffs]; simp only at hP; rw [hP]

theorem diffTail_can [SMul M X] {solid : O → Set X} {cs : List (Conv O M)} {d : List (Bool × Set X)} (h : Cans solid cs d)
    {f r : List (Csg O M)} {st : Bool × List (Csg O M)} (hx : diffTail f cs true r = some st) :
    ∃ q, st = (true, r ++ q) ∧ ptsAdd solid q = ptsAdd solid f \ unions (d.map (·.2)) := by
  have hV := fromV_can h
  unfold diffTail at hx
  split at hx
  · simp only [Option.some.injEq] at hx
    exact ⟨[], by simp [← hx], by simp [ptsAdd]⟩
  · rename_i a b
    obtain ⟨st1, h1, hx⟩ := Option.bind_eq_some_iff.1 hx
    obtain ⟨q, rfl, hP, -⟩ := hV _ _ _ h1
    simp only [Option.some.injEq] at hx
    subst hx
    refine ⟨[.sub a (b ++ q)], by simp, ?_⟩
    simp only at hP
    simp only [ptsAdd, Csg.pts, Set.union_empty, ptsAdd_append, hP]
    rw [Set.diff_diff]
  · obtain ⟨st1, h1, hx⟩ := Option.bind_eq_some_iff.1 hx
    obtain ⟨q, rfl, hP, -⟩ := hV _ _ _ h1
    simp only [List.nil_append, Bool.true_or] at hx hP
    split_ifs at hx with h0
    · simp only [Option.some.injEq] at hx
      subst hx
      rw [List.length_eq_zero_iff] at h0
      subst h0
      exact ⟨f, rfl, by rw [← hP]; simp [ptsAdd]⟩
    · simp only [Option.some.injEq] at hx
      subst hx
      exact ⟨_, rfl, by simp only [ptsAdd, Csg.pts, Set.union_empty, hP]⟩

theorem fromDiff_can [SMul M X] {solid : O → Set X} {cs : List (Conv O M)} {d : List (Bool × Set X)} (h : Cans solid cs d) :
    Can solid (fromDiff cs) (d.all (·.1), diffs d) := by
  intro no r st hx
  unfold fromDiff at hx
  obtain ⟨x, h1, hx⟩ := Option.bind_eq_some_iff.1 hx
  rcases diffHead_can h h1 with ⟨a, rfl, c⟩ | ⟨q, cs', d', rfl, b, c, e⟩
  · simp only [diffTail, Option.some.injEq, Bool.false_eq_true, if_false] at hx
    exact ⟨[], by simp [← hx, a], by simp [ptsAdd, c], fun _ => rfl⟩
  · simp only [if_true] at hx
    obtain ⟨q', rfl, hP⟩ := diffTail_can c hx
    exact ⟨q', by simp [b], by rw [hP, e], fun hb => by simp [b] at hb⟩

theorem can_of_res [SMul M X] {solid : O → Set X} {c : Conv O M} {e : Bool × Bool × Set X} (h : Res solid c e) :
    Can solid c e.2 := by
  intro no r st hx
  cases hb : e.1 with
  | false => rw [h.2 hb] at hx; simp at hx
  | true =>
    obtain ⟨q, hq, hv, hP⟩ := h.1 hb no r
    rw [hq] at hx
    simp only [Option.some.injEq] at hx
    exact ⟨q, hx.symm, hP, hv.2⟩

theorem all_vac' [SMul M X] (solid : O → Set X) (m : M) (l : List (Scad O M)) :
    (l.map fun s => (s.vac, m • s.pts solid)).all (·.1) = vacs l := by
  induction l with
  | nil => simp [vacs]
  | cons s l ih => rw [List.map_cons, List.all_cons, ih]; simp [vacs]

theorem map_pts [SMul M X] (solid : O → Set X) (m : M) (l : List (Scad O M)) :
    (l.map fun s => (s.vac, m • s.pts solid)) = (ptss solid l).map fun e => (e.1, m • e.2) := by
  rw [ptss_eq, List.map_map]; rfl

theorem map_pts' [SMul M X] (solid : O → Set X) (m : M) (l : List (Scad O M)) :
    (l.map fun s => (s.vac, m • s.pts solid)).map (·.2) = ((ptss solid l).map Prod.snd).map fun s => m • s := by
  rw [ptss_eq, List.map_map, List.map_map, List.map_map]; rfl

mutual
theorem conv_can [Group M] [MulAction M X] (solid : O → Set X) (m : M) (s : Scad O M) (h : s.hollowOk = true) :
    Can solid (conv m s) (s.vac, m • s.pts solid) := by
  match s, h with
  | .obj o, _ =>
    intro no r st h
    simp only [conv, Option.some.injEq] at h
    exact ⟨[.leaf o m], by simp [← h, Scad.vac], by simp [ptsAdd, Csg.pts, Scad.pts], fun h => by simp [Scad.vac] at h⟩
  | .hollow, _ =>
    intro no r st h
    simp only [conv, Option.some.injEq] at h
    exact ⟨[], by simp [← h, Scad.vac], by simp [ptsAdd, Scad.pts], fun h => rfl⟩
  | .ignored s, _ =>
    intro no r st h
    simp only [conv, Option.some.injEq] at h
    exact ⟨[], by simp [← h, Scad.vac], by simp [ptsAdd, Scad.pts], fun h => rfl⟩
  | .union l, h =>
    simp only [Scad.hollowOk] at h
    have := fromV_can (convs_can solid m l h)
    rw [all_vac', map_pts', ← smul_unions] at this
    simpa only [conv, Scad.vac, Scad.pts] using this
  | .diff l, h =>
    simp only [Scad.hollowOk] at h
    have := fromDiff_can (convs_can solid m l h)
    rw [all_vac', map_pts, ← smul_diffs] at this
    simpa only [conv, Scad.vac, Scad.pts] using this
  | .inter l, h =>
    simp only [Scad.hollowOk] at h
    exact can_of_res (conv_res solid m (.inter l) (by simpa only [Scad.solidOnly] using h))
  | .xform t l, h =>
    simp only [Scad.hollowOk] at h
    have := fromV_can (convs_can solid (m * t) l h)
    rw [all_vac', map_pts', ← smul_unions, mul_smul] at this
    simpa only [conv, Scad.vac, Scad.pts] using this

theorem convs_can [Group M] [MulAction M X] (solid : O → Set X) (m : M) (l : List (Scad O M)) (h : hollowOks l = true) :
    Cans solid (convs m l) (l.map fun s => (s.vac, m • s.pts solid)) := by
  match l, h with
  | [], _ => simp only [convs, List.map_nil]; exact .nil
  | s :: l, h =>
    simp only [hollowOks, Bool.and_eq_true] at h
    simp only [convs, List.map_cons]
    exact .cons (conv_can solid m s h.1) (convs_can solid m l h.2)

end

mutual
theorem hollowOk_of_solid {O M : Type} : ∀ s : Scad O M, s.solidOnly = true → s.hollowOk = true
  | .obj _, _ => rfl
  | .hollow, _ => rfl
  | .ignored _, _ => rfl
  | .union l, h => hollowOks_of_solid l h
  | .diff l, h => hollowOks_of_solid l h
  | .inter _, h => h
  | .xform _ l, h => hollowOks_of_solid l h
theorem hollowOks_of_solid {O M : Type} : ∀ l : List (Scad O M), solidOnlys l = true → hollowOks l = true
  | [], _ => rfl
  | s :: l, h => by
    simp only [solidOnlys, Bool.and_eq_true] at h
    simp only [hollowOks, Bool.and_eq_true]
    exact ⟨hollowOk_of_solid s h.1, hollowOks_of_solid l h.2⟩
end

end Hob3l.Scad
