import Verif.Scad.Spec
import Mathlib.Data.List.Basic
import Mathlib.Tactic.SplitIfs

namespace Hob3l.Scad

open Hob3l.Matq
open scoped Pointwise

variable {O M X : Type}

/-! ### sets -/

theorem smul_unions [Group M] [MulAction M X] (m : M) (l : List (Set X)) :
    m • unions l = unions (l.map fun s => m • s) := by
  induction l with
  | nil => simp [unions]
  | cons a l ih => simp [unions, Set.smul_set_union, ih]

theorem smul_inters [Group M] [MulAction M X] (m : M) (l : List (Set X)) :
    m • inters l = inters (l.map fun s => m • s) := by
  induction l with
  | nil => simp [inters]
  | cons a l ih => simp [inters, Set.smul_set_inter, ih]

theorem smul_diffs [Group M] [MulAction M X] (m : M) (l : List (Bool × Set X)) :
    m • diffs l = diffs (l.map fun e => (e.1, m • e.2)) := by
  induction l with
  | nil => simp [diffs]
  | cons a l ih =>
    obtain ⟨b, a⟩ := a
    cases b
    · simp only [diffs, List.map_cons, Set.smul_set_sdiff, smul_unions, List.map_map]; rfl
    · simpa only [diffs, List.map_cons] using ih

theorem filter_map_fst (f : Set X → Set X) (l : List (Bool × Set X)) :
    (l.map fun e => (e.1, f e.2)).filter (fun e => !e.1) = (l.filter fun e => !e.1).map fun e => (e.1, f e.2) := by
  rw [List.filter_map]; rfl

theorem smul_meets [Group M] [MulAction M X] (m : M) (l : List (Bool × Set X)) :
    m • meets l = meets (l.map fun e => (e.1, m • e.2)) := by
  unfold meets
  rw [filter_map_fst (fun s => m • s)]
  cases l.filter fun e => !e.1 with
  | nil => simp
  | cons e es => simp only [List.map_cons, Set.smul_set_inter, smul_inters, List.map_map]; rfl

theorem ptsAdd_append [SMul M X] (solid : O → Set X) (a b : List (Csg O M)) :
    ptsAdd solid (a ++ b) = ptsAdd solid a ∪ ptsAdd solid b := by
  induction a with
  | nil => simp [ptsAdd]
  | cons x a ih => simp [ptsAdd, ih, Set.union_assoc]

theorem ptsCut_eq [SMul M X] (solid : O → Set X) (l : List (List (Csg O M))) :
    ptsCut solid l = inters (l.map (ptsAdd solid)) := by
  induction l with
  | nil => simp [ptsCut, inters]
  | cons x a ih => simp [ptsCut, inters, ih]

/-! ### conversions -/

/-- `q` is the output for a child with the given properties -/
def OutOk [SMul M X] (solid : O → Set X) (v : Bool) (P : Set X) (q : List (Csg O M)) : Prop :=
  (q = [] ↔ v = true) ∧ ptsAdd solid q = P

/-- what a conversion does: it succeeds if `b`, else it fails -/
def Res [SMul M X] (solid : O → Set X) (c : Conv O M) (e : Bool × Bool × Set X) : Prop :=
  (e.1 = true → ∀ no r, ∃ q, c (no, r) = some (no || !e.2.1, r ++ q) ∧ OutOk solid e.2.1 e.2.2 q) ∧
  (e.1 = false → ∀ st, c st = none)

/-- the same for a list -/
def Ress [SMul M X] (solid : O → Set X) (cs : List (Conv O M)) (d : List (Bool × Bool × Set X)) : Prop :=
  List.Forall₂ (Res solid) cs d

theorem fromV_res [SMul M X] {solid : O → Set X} {cs : List (Conv O M)} {d : List (Bool × Bool × Set X)}
    (h : Ress solid cs d) :
    Res solid (fromV cs) (d.all (·.1), d.all (·.2.1), unions (d.map (·.2.2))) := by
  induction h with
  | nil =>
    refine ⟨fun _ no r => ⟨[], ?_, ?_, ?_⟩, ?_⟩
    · simp [fromV]
    · simp
    · simp [ptsAdd, unions]
    · simp
  | @cons c e cs d h1 _ ih =>
    obtain ⟨b, v, P⟩ := e
    constructor
    · intro ht no r
      simp only [List.all_cons, Bool.and_eq_true] at ht
      obtain ⟨q, hq, hv, hP⟩ := h1.1 ht.1 no r
      obtain ⟨q', hq', hv', hP'⟩ := ih.1 ht.2 (no || !v) (r ++ q)
      refine ⟨q ++ q', ?_, ?_, ?_⟩
      · simp only [fromV, hq, Option.bind_eq_bind, Option.bind_some, hq', List.append_assoc, List.all_cons]
        cases no <;> cases v <;> simp
      · simp only [List.append_eq_nil_iff, hv, hv', List.all_cons, Bool.and_eq_true]
      · simp only [ptsAdd_append, hP, hP', List.map_cons, unions]
    · intro hf st
      obtain ⟨no, r⟩ := st
      cases hb : b with
      | false => simp only [fromV, h1.2 hb, Option.bind_eq_bind, Option.bind_none]
      | true =>
        obtain ⟨q, hq, -⟩ := h1.1 hb no r
        have : d.all (·.1) = false := by simpa [hb] using hf
        simp only [fromV, hq, Option.bind_eq_bind, Option.bind_some, ih.2 this]

/-! difference -/

/-- the head loop succeeds -/
theorem diffHead_ok [SMul M X] {solid : O → Set X} {cs : List (Conv O M)} {d : List (Bool × Bool × Set X)}
    (h : Ress solid cs d) (ht : d.all (·.1) = true) (f : List (Csg O M)) :
    (d.all (·.2.1) = true ∧ diffHead cs false f = some (false, f, [])) ∨
    (∃ q P cs' d', diffHead cs false f = some (true, f ++ q, cs') ∧ q ≠ [] ∧ ptsAdd solid q = P ∧
      d.all (·.2.1) = false ∧ Ress solid cs' d' ∧ d'.all (·.1) = true ∧
      diffs (d.map (·.2)) = P \ unions (d'.map (·.2.2))) := by
  induction h generalizing f with
  | nil => left; simp [diffHead]
  | @cons c e cs d h1 h2 ih =>
    obtain ⟨b, v, P⟩ := e
    simp only [List.all_cons, Bool.and_eq_true] at ht
    obtain ⟨q, hq, hv, hP⟩ := h1.1 ht.1 false f
    simp only [diffHead, if_true, hq, Option.bind_eq_bind, Option.bind_some]
    cases hvv : v with
    | true =>
      have hq0 : q = [] := hv.2 hvv
      subst hq0
      simp only [Bool.not_true, Bool.or_false, List.append_nil]
      rcases ih ht.2 f with ⟨ha, hb⟩ | ⟨q, P', cs', d', h3, h4, h5, h6, h7, h8, h9⟩
      · left; exact ⟨by simp [ha], hb⟩
      · right
        refine ⟨q, P', cs', d', h3, h4, h5, by simp [h6], h7, h8, ?_⟩
        simpa only [List.map_cons, diffs] using h9
    | false =>
      right
      have hq0 : q ≠ [] := fun h => by
        have := hv.1 h
        simp [hvv] at this
      refine ⟨q, P, cs, d, ?_, hq0, hP, by simp, h2, ht.2, ?_⟩
      · simp only [Bool.not_false, Bool.or_true]
        cases cs <;> simp [diffHead]
      · simp only [List.map_cons, diffs, List.map_map]; rfl

theorem diffTail_ok [SMul M X] {solid : O → Set X} {cs : List (Conv O M)} {d : List (Bool × Bool × Set X)}
    (h : Ress solid cs d) (ht : d.all (·.1) = true) {f : List (Csg O M)} (hf : f ≠ []) (r : List (Csg O M)) :
    ∃ q, diffTail f cs true r = some (true, r ++ q) ∧ q ≠ [] ∧
      ptsAdd solid q = ptsAdd solid f \ unions (d.map (·.2.2)) := by
  have hV := (fromV_res h).1 ht true
  unfold diffTail
  split
  · exact absurd rfl hf
  · rename_i a b
    obtain ⟨q, hq, -, hP⟩ := hV b
    refine ⟨[.sub a (b ++ q)], ?_, by simp, ?_⟩
    · simp only [hq, Option.bind_eq_bind, Option.bind_some, Bool.true_or]
    · simp only [ptsAdd, Csg.pts, Set.union_empty, ptsAdd_append, hP]
      rw [Set.diff_diff]
  · obtain ⟨q, hq, -, hP⟩ := hV []
    simp only [hq, Option.bind_eq_bind, Option.bind_some, Bool.true_or, List.nil_append]
    simp only at hP
    split_ifs with h0
    · refine ⟨f, rfl, hf, ?_⟩
      rw [List.length_eq_zero_iff] at h0
      subst h0
      rw [← hP]
      simp [ptsAdd]
    · refine ⟨_, rfl, by simp, ?_⟩
      simp only [ptsAdd, Csg.pts, Set.union_empty, hP]

theorem diffHead_bad [SMul M X] {solid : O → Set X} {cs : List (Conv O M)} {d : List (Bool × Bool × Set X)}
    (h : Ress solid cs d) (ht : d.all (·.1) = false) (f : List (Csg O M)) :
    diffHead cs false f = none ∨
    (∃ q cs' d', diffHead cs false f = some (true, f ++ q, cs') ∧ q ≠ [] ∧ Ress solid cs' d' ∧ d'.all (·.1) = false) := by
  induction h generalizing f with
  | nil => simp at ht
  | @cons c e cs d h1 h2 ih =>
    obtain ⟨b, v, P⟩ := e
    cases hb : b with
    | false => left; simp only [diffHead, if_true, h1.2 hb, Option.bind_eq_bind, Option.bind_none]
    | true =>
      have ht' : d.all (·.1) = false := by simpa [hb] using ht
      obtain ⟨q, hq, hv, hP⟩ := h1.1 hb false f
      simp only [diffHead, if_true, hq, Option.bind_eq_bind, Option.bind_some]
      cases hvv : v with
      | true =>
        have hq0 : q = [] := hv.2 hvv
        subst hq0
        simp only [Bool.not_true, Bool.or_false, List.append_nil]
        exact ih ht' f
      | false =>
        right
        have hq0 : q ≠ [] := fun h => by
          have := hv.1 h
          simp [hvv] at this
        refine ⟨q, cs, d, ?_, hq0, h2, ht'⟩
        simp only [Bool.not_false, Bool.or_true]
        cases cs <;> simp [diffHead]

theorem diffTail_bad [SMul M X] {solid : O → Set X} {cs : List (Conv O M)} {d : List (Bool × Bool × Set X)}
    (h : Ress solid cs d) (ht : d.all (·.1) = false) {f : List (Csg O M)} (hf : f ≠ []) (no : Bool)
    (r : List (Csg O M)) : diffTail f cs no r = none := by
  have hV := (fromV_res h).2 ht
  unfold diffTail
  split
  · exact absurd rfl hf
  · simp only [hV, Option.bind_eq_bind, Option.bind_none]
  · simp only [hV, Option.bind_eq_bind, Option.bind_none]

theorem fromDiff_res [SMul M X] {solid : O → Set X} {cs : List (Conv O M)} {d : List (Bool × Bool × Set X)}
    (h : Ress solid cs d) :
    Res solid (fromDiff cs) (d.all (·.1), d.all (·.2.1), diffs (d.map (·.2))) := by
  constructor
  · intro ht no r
    rcases diffHead_ok h ht [] with ⟨ha, hb⟩ | ⟨q, P, cs', d', h3, h4, h5, h6, h7, h8, h9⟩
    · refine ⟨[], ?_, ?_, ?_⟩
      · simp [fromDiff, hb, diffTail, ha]
      · simp [ha]
      · have : ∀ d : List (Bool × Bool × Set X), d.all (·.2.1) = true → diffs (d.map (·.2)) = ∅ := by
          intro d
          induction d with
          | nil => simp [diffs]
          | cons e d ih =>
            intro hd
            simp only [List.all_cons, Bool.and_eq_true] at hd
            obtain ⟨b, v, P⟩ := e
            cases hd.1
            simpa only [List.map_cons, diffs] using ih hd.2
        simp [ptsAdd, this d ha]
    · simp only [List.nil_append] at h3
      obtain ⟨q', hq', hn, hp⟩ := diffTail_ok h7 h8 h4 r
      refine ⟨q', ?_, ?_, ?_⟩
      · simp only [fromDiff, h3, Option.bind_eq_bind, Option.bind_some, if_true, hq', h6, Bool.not_false, Bool.or_true]
      · simp [hn, h6]
      · simp only [hp, h9, h5]
  · intro hf st
    rcases diffHead_bad h hf [] with hb | ⟨q, cs', d', h3, h4, h7, h8⟩
    · simp only [fromDiff, hb, Option.bind_eq_bind, Option.bind_none]
    · simp only [List.nil_append] at h3
      simp only [fromDiff, h3, Option.bind_eq_bind, Option.bind_some, if_true, diffTail_bad h7 h8 h4]

/-! intersection -/

/-- the list is not empty -/
def ne (q : List (Csg O M)) : Bool := !q.isEmpty

theorem cutPush_eq (cut : List (List (Csg O M))) (add : List (Csg O M)) :
    cutPush cut add = cut ++ [add].filter ne := by
  cases add <;> simp [cutPush, ne]

theorem interLoop_ok [SMul M X] {solid : O → Set X} {cs : List (Conv O M)} {d : List (Bool × Bool × Set X)}
    (h : Ress solid cs d) (ht : d.all (·.1) = true) (no : Bool) (cut : List (List (Csg O M))) (add : List (Csg O M)) :
    ∃ qs, List.Forall₂ (fun q (e : Bool × Bool × Set X) => OutOk solid e.2.1 e.2.2 q) qs d ∧
      interLoop cs no cut add = some (no || !d.all (·.2.1), cut ++ ((add :: qs).dropLast).filter ne,
        (add :: qs).getLast (by simp)) := by
  induction h generalizing no cut add with
  | nil => exact ⟨[], .nil, by simp [interLoop]⟩
  | @cons c e cs d h1 h2 ih =>
    obtain ⟨b, v, P⟩ := e
    simp only [List.all_cons, Bool.and_eq_true] at ht
    have h0 : (if add.length > 0 then ([] : List (Csg O M)) else add) = [] := by
      cases add <;> simp
    obtain ⟨q, hq, hv, hP⟩ := h1.1 ht.1 no []
    obtain ⟨qs, hqs, hl⟩ := ih ht.2 (no || !v) (cutPush cut add) q
    refine ⟨q :: qs, .cons ⟨hv, hP⟩ hqs, ?_⟩
    simp only [interLoop, h0, hq, Option.bind_eq_bind, Option.bind_some, List.nil_append, hl]
    simp only [cutPush_eq, List.all_cons, List.append_assoc, ← List.filter_append, List.dropLast_cons_cons, List.getLast_cons_cons,
      List.cons_append, List.nil_append, Option.some.injEq, Prod.mk.injEq, and_true]
    cases no <;> cases v <;> simp

theorem interLoop_bad [SMul M X] {solid : O → Set X} {cs : List (Conv O M)} {d : List (Bool × Bool × Set X)}
    (h : Ress solid cs d) (ht : d.all (·.1) = false) (no : Bool) (cut : List (List (Csg O M))) (add : List (Csg O M)) :
    interLoop cs no cut add = none := by
  induction h generalizing no cut add with
  | nil => simp at ht
  | @cons c e cs d h1 h2 ih =>
    obtain ⟨b, v, P⟩ := e
    cases hb : b with
    | false => simp only [interLoop, h1.2 hb, Option.bind_eq_bind, Option.bind_none]
    | true =>
      have ht' : d.all (·.1) = false := by simpa [hb] using ht
      obtain ⟨q, hq, -⟩ := h1.1 hb no (if add.length > 0 then [] else add)
      simp only [interLoop, hq, Option.bind_eq_bind, Option.bind_some, ih ht']

/-- `lone` on the collected properties -/
def loneD (d : List (Bool × Bool × Set X)) : Bool :=
  match d.reverse with
  | [] => false
  | z :: rest => z.2.1 && (rest.filter fun e => !e.2.1).length == 1

theorem loneD_concat (d : List (Bool × Bool × Set X)) (z : Bool × Bool × Set X) :
    loneD (d ++ [z]) = (z.2.1 && (d.filter fun e => !e.2.1).length == 1) := by
  simp [loneD, List.filter_reverse]

/-- the non-empty outputs and the children with objects correspond -/
theorem filter_forall₂ [SMul M X] {solid : O → Set X} {qs : List (List (Csg O M))} {d : List (Bool × Bool × Set X)}
    (h : List.Forall₂ (fun q (e : Bool × Bool × Set X) => OutOk solid e.2.1 e.2.2 q) qs d) :
    (qs.filter ne).map (ptsAdd solid) = ((d.map (·.2)).filter fun e => !e.1).map Prod.snd ∧
    (qs.filter ne).length = (d.filter fun e => !e.2.1).length := by
  induction h with
  | nil => simp
  | @cons q e qs d h1 h2 ih =>
    obtain ⟨b, v, P⟩ := e
    obtain ⟨hv, hP⟩ := h1
    cases hvv : v with
    | true =>
      have hq0 : q = [] := hv.2 hvv
      subst hq0
      simpa [ne] using ih
    | false =>
      have hq0 : q ≠ [] := fun h => by
        have := hv.1 h
        simp [hvv] at this
      have hq1 : ne q = true := by cases q <;> simp_all [ne]
      simp only [List.filter_cons, hq1, if_true, List.map_cons, Bool.not_false, hP, ih.1, List.length_cons, ih.2, and_self]

theorem all_vac_iff (d : List (Bool × Bool × Set X)) :
    d.all (·.2.1) = true ↔ (d.filter fun e => !e.2.1) = [] := by
  simp [List.filter_eq_nil_iff]

theorem pts_cut [SMul M X] (solid : O → Set X) {l : List (List (Csg O M))} (h : l ≠ []) :
    (Csg.cut l : Csg O M).pts solid = inters (l.map (ptsAdd solid)) := by
  cases l with
  | nil => exact absurd rfl h
  | cons a l => simp only [Csg.pts, ptsCut_eq, List.map_cons, inters]

theorem meets_eq {l : List (Bool × Set X)} (h : (l.filter fun e => !e.1) ≠ []) :
    meets l = inters ((l.filter fun e => !e.1).map Prod.snd) := by
  unfold meets
  cases hl : l.filter fun e => !e.1 with
  | nil => exact absurd hl h
  | cons e es => simp [inters]

theorem meets_nil {l : List (Bool × Set X)} (h : (l.filter fun e => !e.1) = []) : meets l = ∅ := by
  unfold meets; rw [h]

theorem filter_map_snd (d : List (Bool × Bool × Set X)) :
    (d.map (·.2)).filter (fun e => !e.1) = (d.filter fun e => !e.2.1).map (·.2) := by
  rw [List.filter_map]; rfl

theorem forall₂_snoc {A B : Type} {R : A → B → Prop} {l : List A} {d : List B} {z : B}
    (h : List.Forall₂ R l (d ++ [z])) : ∃ q y, l = q ++ [y] ∧ List.Forall₂ R q d ∧ R y z := by
  induction d generalizing l with
  | nil =>
    cases h with
    | cons h1 h2 => cases h2; exact ⟨[], _, rfl, .nil, h1⟩
  | cons e d ih =>
    cases h with
    | cons h1 h2 =>
      obtain ⟨q, y, rfl, h3, h4⟩ := ih h2
      exact ⟨_ :: q, y, rfl, .cons h1 h3, h4⟩

theorem fromInter_res [SMul M X] {solid : O → Set X} {cs : List (Conv O M)} {d : List (Bool × Bool × Set X)}
    (h : Ress solid cs d) :
    Res solid (fromInter cs) (d.all (·.1) && !loneD d, d.all (·.2.1), meets (d.map (·.2))) := by
  cases hall : d.all (·.1) with
  | false =>
    refine ⟨fun h => by simp at h, fun _ st => ?_⟩
    simp only [fromInter, interLoop_bad h hall, Option.bind_eq_bind, Option.bind_none]
  | true =>
    rcases List.eq_nil_or_concat d with hd | ⟨d0, dz, hd⟩
    · subst hd
      cases h
      refine ⟨fun _ no r => ⟨[], ?_, ?_, ?_⟩, fun h => by simp [loneD] at h⟩
      · simp [fromInter, interLoop]
      · simp
      · simp [ptsAdd, meets]
    · rw [List.concat_eq_append] at hd
      have key : ∀ no, ∃ qs, List.Forall₂ (fun q (e : Bool × Bool × Set X) => OutOk solid e.2.1 e.2.2 q) qs d ∧
          ∃ q0 z, qs = q0 ++ [z] ∧
            List.Forall₂ (fun q (e : Bool × Bool × Set X) => OutOk solid e.2.1 e.2.2 q) q0 d0 ∧ OutOk solid dz.2.1 dz.2.2 z ∧
            interLoop cs no [] [] = some (no || !d.all (·.2.1), q0.filter ne, z) := by
        intro no
        obtain ⟨qs, hqs, hl⟩ := interLoop_ok h hall no [] []
        refine ⟨qs, hqs, ?_⟩
        have hqs' := hqs
        rw [hd] at hqs'
        obtain ⟨q0, z, rfl, h3, h4⟩ := forall₂_snoc hqs'
        refine ⟨q0, z, rfl, h3, h4, ?_⟩
        rw [hl]
        have e1 : ([] :: (q0 ++ [z])).dropLast = ([] :: q0 : List (List (Csg O M))) := by
          rw [← List.cons_append, List.dropLast_concat]
        have e2 : ([] :: (q0 ++ [z])).getLast (by simp) = z := by
          simp
        rw [e1, e2]
        simp [ne]
      have hvz : ∀ {z : List (Csg O M)}, OutOk solid dz.2.1 dz.2.2 z → (ne z = !dz.2.1) := by
        intro z hz
        cases hdz : dz.2.1 with
        | true => have := hz.1.2 hdz; subst this; rfl
        | false =>
          cases z with
          | nil => have := hz.1.1 rfl; simp [hdz] at this
          | cons a z => rfl
      constructor
      · intro ht no r
        obtain ⟨qs, hqs, q0, z, hq0, h3, h4, h5⟩ := key no
        have hf := filter_forall₂ hqs
        have hf0 := filter_forall₂ h3
        have hcut : cutPush (q0.filter ne) z = qs.filter ne := by
          rw [cutPush_eq, hq0, List.filter_append]
        by_cases h0 : q0.filter ne = []
        · refine ⟨z, ?_, ?_⟩
          · simp only [fromInter, h5, Option.bind_eq_bind, Option.bind_some, h0, List.length_nil, if_true]
          · have hd0 : (d0.filter fun e => !e.2.1) = [] := by
              rw [← List.length_eq_zero_iff, ← hf0.2, h0]; rfl
            have hall0 : d.all (·.2.1) = dz.2.1 := by
              rw [hd, List.all_append, (all_vac_iff d0).2 hd0]; simp
            have hm : meets (d.map (·.2)) = ptsAdd solid z := by
              cases hdz : dz.2.1 with
              | true =>
                rw [meets_nil, h4.1.2 hdz]
                · simp [ptsAdd]
                · rw [filter_map_snd, hd, List.filter_append, hd0]; simp [hdz]
              | false =>
                rw [meets_eq]
                · rw [filter_map_snd, hd, List.filter_append, hd0]; simp [hdz, inters, h4.2]
                · rw [filter_map_snd, hd, List.filter_append, hd0]; simp [hdz]
            rw [OutOk]
            simp only [hall0, hm, and_true]
            exact h4.1
        · have hlen : (q0.filter ne).length ≠ 0 := fun h => h0 (List.length_eq_zero_iff.1 h)
          have h2 : (qs.filter ne).length ≥ 2 := by
            have : loneD d = false := by simpa using ht
            rw [hd, loneD_concat, ← hf0.2] at this
            rw [hq0, List.filter_append, List.length_append]
            cases hdz : dz.2.1 with
            | true => rw [hdz] at this; simp at this; omega
            | false => 
              have := hvz h4
              simp [this, hdz]; omega
          have hne : qs.filter ne ≠ [] := by intro h; rw [h] at h2; simp at h2
          refine ⟨[.cut (qs.filter ne)], ?_, ?_, ?_⟩
          · simp only [fromInter, h5, Option.bind_eq_bind, Option.bind_some, if_neg hlen, hcut]
            unfold ass
            rw [if_pos h2]
            rfl
          · simp only [List.cons_ne_nil, false_iff, Bool.not_eq_true]
            rw [← Bool.not_eq_true, all_vac_iff, ← List.length_eq_zero_iff, ← hf.2]
            omega
          · simp only [ptsAdd, Set.union_empty]
            rw [pts_cut solid hne, hf.1, meets_eq]
            intro h
            rw [h] at hf
            have := hf.1
            simp only [List.map_nil, List.map_eq_nil_iff] at this
            exact hne this
      · intro ht st
        have hl : loneD d = true := by simpa using ht
        obtain ⟨no, r⟩ := st
        obtain ⟨qs, hqs, q0, z, hq0, h3, h4, h5⟩ := key no
        have hf0 := filter_forall₂ h3
        have hcut : cutPush (q0.filter ne) z = qs.filter ne := by
          rw [cutPush_eq, hq0, List.filter_append]
        rw [hd, loneD_concat, ← hf0.2] at hl
        simp only [Bool.and_eq_true, beq_iff_eq] at hl
        have hz := hvz h4
        have h1 : (qs.filter ne).length = 1 := by
          rw [hq0, List.filter_append, List.length_append, hl.2]
          simp [hz, hl.1]
        have hlen : (q0.filter ne).length ≠ 0 := by omega
        simp only [fromInter, h5, Option.bind_eq_bind, Option.bind_some, if_neg hlen, hcut]
        unfold ass
        rw [if_neg (by omega)]
        rfl

/-! ### trees -/

/-- the collected properties of a tree, transformed by `m` -/
def dat [SMul M X] (solid : O → Set X) (m : M) (s : Scad O M) : Bool × Bool × Set X :=
  (s.noLone, s.vac, m • s.pts solid)

theorem all_noLone [SMul M X] (solid : O → Set X) (m : M) (l : List (Scad O M)) :
    (l.map (dat solid m)).all (·.1) = noLones l := by
  induction l with
  | nil => simp [noLones]
  | cons s l ih => simp [noLones, ← ih, dat]

theorem all_vac [SMul M X] (solid : O → Set X) (m : M) (l : List (Scad O M)) :
    (l.map (dat solid m)).all (·.2.1) = vacs l := by
  induction l with
  | nil => simp [vacs]
  | cons s l ih => simp [vacs, ← ih, dat]

theorem ptss_eq [SMul M X] (solid : O → Set X) (l : List (Scad O M)) :
    ptss solid l = l.map fun s => (s.vac, s.pts solid) := by
  induction l with
  | nil => simp [ptss]
  | cons s l ih => simp [ptss, ih]

theorem map_dat [SMul M X] (solid : O → Set X) (m : M) (l : List (Scad O M)) :
    (l.map (dat solid m)).map (·.2) = (ptss solid l).map fun e => (e.1, m • e.2) := by
  rw [ptss_eq, List.map_map, List.map_map]; rfl

theorem map_dat' [SMul M X] (solid : O → Set X) (m : M) (l : List (Scad O M)) :
    (l.map (dat solid m)).map (·.2.2) = ((ptss solid l).map Prod.snd).map fun s => m • s := by
  rw [ptss_eq, List.map_map, List.map_map, List.map_map]; rfl

theorem loneD_dat [SMul M X] (solid : O → Set X) (m : M) (l : List (Scad O M)) :
    loneD (l.map (dat solid m)) = lone l := by
  unfold loneD lone
  rw [← List.map_reverse]
  cases l.reverse with
  | nil => rfl
  | cons z rest =>
    simp only [List.map_cons, dat]
    rw [List.filter_map, List.length_map]
    rfl

mutual
theorem conv_res [Group M] [MulAction M X] (solid : O → Set X) (m : M) (s : Scad O M) (h : s.solidOnly = true) :
    Res solid (conv m s) (dat solid m s) := by
  match s, h with
  | .obj o, _ =>
    refine ⟨fun _ no r => ⟨[.leaf o m], ?_, ?_, ?_⟩, ?_⟩
    · simp [conv, dat, Scad.vac]
    · simp [dat, Scad.vac]
    · simp [ptsAdd, Csg.pts, dat, Scad.pts]
    · simp [dat, Scad.noLone]
  | .hollow, h => simp [Scad.solidOnly] at h
  | .ignored s, _ =>
    refine ⟨fun _ no r => ⟨[], ?_, ?_, ?_⟩, ?_⟩
    · simp [conv, dat, Scad.vac]
    · simp [dat, Scad.vac]
    · simp [ptsAdd, dat, Scad.pts]
    · simp [dat, Scad.noLone]
  | .union l, h =>
    simp only [Scad.solidOnly] at h
    have := fromV_res (convs_res solid m l h)
    rw [all_noLone, all_vac, map_dat', ← smul_unions] at this
    simpa only [conv, dat, Scad.noLone, Scad.vac, Scad.pts] using this
  | .diff l, h =>
    simp only [Scad.solidOnly] at h
    have := fromDiff_res (convs_res solid m l h)
    rw [all_noLone, all_vac, map_dat, ← smul_diffs] at this
    simpa only [conv, dat, Scad.noLone, Scad.vac, Scad.pts] using this
  | .inter l, h =>
    simp only [Scad.solidOnly] at h
    have := fromInter_res (convs_res solid m l h)
    rw [all_noLone, all_vac, map_dat, ← smul_meets, loneD_dat] at this
    simpa only [conv, dat, Scad.noLone, Scad.vac, Scad.pts] using this
  | .xform t l, h =>
    simp only [Scad.solidOnly] at h
    have := fromV_res (convs_res solid (m * t) l h)
    rw [all_noLone, all_vac, map_dat', ← smul_unions, mul_smul] at this
    simpa only [conv, dat, Scad.noLone, Scad.vac, Scad.pts] using this

theorem convs_res [Group M] [MulAction M X] (solid : O → Set X) (m : M) (l : List (Scad O M))
    (h : solidOnlys l = true) : Ress solid (convs m l) (l.map (dat solid m)) := by
  match l, h with
  | [], _ => simp only [convs, List.map_nil]; exact .nil
  | s :: l, h =>
    simp only [solidOnlys, Bool.and_eq_true] at h
    simp only [convs, List.map_cons]
    exact .cons (conv_res solid m s h.1) (convs_res solid m l h.2)
end

end Hob3l.Scad
