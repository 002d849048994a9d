import Verif.Ps.Spec
import Mathlib.Tactic.Linarith
import Mathlib.Tactic.Ring
import Mathlib.Tactic.FieldSimp
import Mathlib.Tactic.NormNum

namespace Hob3l.Ps

variable {K : Type} [Field K] [LinearOrder K] [IsStrictOrderedRing K] [FloorRing K]

/-! ### fitting -/

theorem minF_le (a b : K) : minF a b ≤ a ∧ minF a b ≤ b ∧ (minF a b = a ∨ minF a b = b) := by
  unfold minF
  by_cases h : a ≤ b
  · rw [if_pos h]; exact ⟨le_refl _, h, .inl rfl⟩
  · rw [if_neg h]; exact ⟨(not_le.mp h).le, le_refl _, .inr rfl⟩

/-- the middle of an interval, scaled, is put on `c` -/
theorem centred (s c lo hi x w : K) (hs : 0 ≤ s) (h1 : lo ≤ x) (h2 : x ≤ hi) (hw : s * (hi - lo) ≤ w) :
    c - w / 2 ≤ c - s * (hi + lo) / 2 + x * s ∧ c - s * (hi + lo) / 2 + x * s ≤ c + w / 2 := by
  have a := mul_nonneg hs (sub_nonneg.mpr h1)
  have b := mul_nonneg hs (sub_nonneg.mpr h2)
  have e : c - s * (hi + lo) / 2 + x * s = c + (s * (x - lo) - s * (hi - x)) / 2 := by ring
  have e2 : s * (hi - lo) = s * (x - lo) + s * (hi - x) := by ring
  rw [e]
  rw [e2] at hw
  constructor <;> linarith

theorem gt_iff (eps a b : K) : gt eps a b = true ↔ eps < a - b := by
  unfold gt
  rw [decide_eq_true_iff]
  constructor <;> intro h <;> linarith

/-! ### the bounding box -/

/-- a lower bound is made lower by numbers -/
def Lo (a b : K) (ps : List K) : Prop := b ≤ a ∧ (∀ p ∈ ps, b ≤ p) ∧ (b = a ∨ b ∈ ps)

/-- an upper bound is made higher by numbers -/
def Hi (a b : K) (ps : List K) : Prop := a ≤ b ∧ (∀ p ∈ ps, p ≤ b) ∧ (b = a ∨ b ∈ ps)

theorem Lo.trans {a b c : K} {p q : List K} (h1 : Lo a b p) (h2 : Lo b c q) : Lo a c (p ++ q) := by
  obtain ⟨x1, x2, x3⟩ := h1
  obtain ⟨y1, y2, y3⟩ := h2
  refine ⟨y1.trans x1, ?_, ?_⟩
  · intro r hr
    rcases List.mem_append.mp hr with hr | hr
    · exact y1.trans (x2 r hr)
    · exact y2 r hr
  · rcases y3 with rfl | y3
    · rcases x3 with rfl | x3
      · exact .inl rfl
      · exact .inr (List.mem_append_left _ x3)
    · exact .inr (List.mem_append_right _ y3)

theorem Hi.trans {a b c : K} {p q : List K} (h1 : Hi a b p) (h2 : Hi b c q) : Hi a c (p ++ q) := by
  obtain ⟨x1, x2, x3⟩ := h1
  obtain ⟨y1, y2, y3⟩ := h2
  refine ⟨x1.trans y1, ?_, ?_⟩
  · intro r hr
    rcases List.mem_append.mp hr with hr | hr
    · exact (x2 r hr).trans y1
    · exact y2 r hr
  · rcases y3 with rfl | y3
    · rcases x3 with rfl | x3
      · exact .inl rfl
      · exact .inr (List.mem_append_left _ x3)
    · exact .inr (List.mem_append_right _ y3)

theorem Lo.nil (a : K) : Lo a a [] := ⟨le_refl _, by simp, .inl rfl⟩

theorem Hi.nil (a : K) : Hi a a [] := ⟨le_refl _, by simp, .inl rfl⟩

theorem Lo.one (a p : K) : Lo a (if a ≤ p then a else p) [p] := by
  by_cases h : a ≤ p
  · rw [if_pos h]; exact ⟨le_refl _, by simpa using h, .inl rfl⟩
  · rw [if_neg h]; exact ⟨(not_le.mp h).le, by simp, .inr (by simp)⟩

theorem Hi.one (a p : K) : Hi a (if a ≥ p then a else p) [p] := by
  by_cases h : a ≥ p
  · rw [if_pos h]; exact ⟨le_refl _, by simpa using h, .inl rfl⟩
  · rw [if_neg h]; exact ⟨(not_le.mp h).le, by simp, .inr (by simp)⟩

/-- the box is made larger by points -/
structure Grows (k k' : Ctx K) (ps : List (K × K)) : Prop where
  x1 : Lo k.minX k'.minX (ps.map Prod.fst)
  y1 : Lo k.minY k'.minY (ps.map Prod.snd)
  x2 : Hi k.maxX k'.maxX (ps.map Prod.fst)
  y2 : Hi k.maxY k'.maxY (ps.map Prod.snd)

theorem Grows.trans {k l m : Ctx K} {p q : List (K × K)} (a : Grows k l p) (b : Grows l m q) : Grows k m (p ++ q) := by
  refine ⟨?_, ?_, ?_, ?_⟩ <;> rw [List.map_append]
  · exact a.x1.trans b.x1
  · exact a.y1.trans b.y1
  · exact a.x2.trans b.x2
  · exact a.y2.trans b.y2

theorem Grows.nil (k : Ctx K) (e : List (Ev K)) : Grows k { k with out := e } [] := ⟨Lo.nil _, Lo.nil _, Hi.nil _, Hi.nil _⟩

theorem Grows.one (k : Ctx K) (p : K × K) : Grows k (k.minmax p) [p] := ⟨Lo.one _ _, Lo.one _ _, Hi.one _ _, Hi.one _ _⟩

/-- points that were there before do not count -/
theorem Grows.old {k l m : Ctx K} {p q : List (K × K)} (a : Grows k l p) (b : Grows l m q) (h : ∀ r ∈ q, r ∈ p) : Grows k m p := by
  have hx : ∀ r ∈ q.map Prod.fst, r ∈ p.map Prod.fst := by
    intro r hr
    obtain ⟨s, hs, rfl⟩ := List.mem_map.mp hr
    exact List.mem_map_of_mem (h s hs)
  have hy : ∀ r ∈ q.map Prod.snd, r ∈ p.map Prod.snd := by
    intro r hr
    obtain ⟨s, hs, rfl⟩ := List.mem_map.mp hr
    exact List.mem_map_of_mem (h s hs)
  have lo : ∀ {a c : K} {u v : List K}, Lo a c (u ++ v) → (∀ r ∈ v, r ∈ u) → Lo a c u := by
    intro a c u v h hv
    refine ⟨h.1, fun r hr => h.2.1 r (List.mem_append_left _ hr), ?_⟩
    rcases h.2.2 with h | h
    · exact .inl h
    · rcases List.mem_append.mp h with h | h
      · exact .inr h
      · exact .inr (hv _ h)
  have hi : ∀ {a c : K} {u v : List K}, Hi a c (u ++ v) → (∀ r ∈ v, r ∈ u) → Hi a c u := by
    intro a c u v h hv
    refine ⟨h.1, fun r hr => h.2.1 r (List.mem_append_left _ hr), ?_⟩
    rcases h.2.2 with h | h
    · exact .inl h
    · rcases List.mem_append.mp h with h | h
      · exact .inr h
      · exact .inr (hv _ h)
  exact ⟨lo (a.x1.trans b.x1) hx, lo (a.y1.trans b.y1) hy, hi (a.x2.trans b.x2) hx, hi (a.y2.trans b.y2) hy⟩

/-! ### what is written -/

/-- something is written, and the box contains it -/
def Ext (k k' : Ctx K) (es : List (Ev K)) : Prop := k'.out = k.out ++ es ∧ Grows k k' (es.flatMap Ev.points)

theorem Ext.trans {k l m : Ctx K} {a b : List (Ev K)} (h1 : Ext k l a) (h2 : Ext l m b) : Ext k m (a ++ b) :=
  ⟨by rw [h2.1, h1.1, List.append_assoc], by rw [List.flatMap_append]; exact h1.2.trans h2.2⟩

theorem Ext.refl (k : Ctx K) : Ext k k [] := ⟨by simp, Grows.nil k k.out⟩

/-- something without points is written -/
theorem Ext.put (k : Ctx K) (e : Ev K) (h : e.points = []) : Ext k (k.put e) [e] := by
  refine ⟨rfl, ?_⟩
  rw [List.flatMap_cons, h]
  exact Grows.nil k _

/-- a function writes what is to be written -/
def Does (f : Ctx K → Option (Ctx K)) (o : Option (List (Ev K))) : Prop :=
  match o with
  | none => ∀ k, f k = none
  | some es => ∀ k, ∃ k', f k = some k' ∧ Ext k k' es

theorem Does.bind {f g : Ctx K → Option (Ctx K)} {a b : Option (List (Ev K))} (h1 : Does f a) (h2 : Does g b) :
    Does (fun k => (f k).bind g) (both a b) := by
  cases a with
  | none => intro k; show (f k).bind g = none; rw [h1 k]; rfl
  | some x =>
    cases b with
    | none =>
      intro k
      obtain ⟨k', e, -⟩ := h1 k
      show (f k).bind g = none
      rw [e]
      exact h2 k'
    | some y =>
      intro k
      obtain ⟨k', e, h⟩ := h1 k
      obtain ⟨k2, e2, h'⟩ := h2 k'
      exact ⟨k2, by show (f k).bind g = some k2; rw [e]; exact e2, h.trans h'⟩

theorem does_id : Does (K := K) some (some []) := fun k => ⟨k, rfl, Ext.refl k⟩

theorem loop_does {α : Type} (f : Ctx K → α → Option (Ctx K)) (g : α → Option (List (Ev K))) (h : ∀ a, Does (fun k => f k a) (g a)) :
    ∀ l : List α, Does (loop f l) (concat g l)
  | [] => does_id
  | a :: l => (h a).bind (loop_does f g h l)

variable (opt : Opt K)

/-- what is to be shown, by the options -/
def Opt.show_ (z : K) : Show K := ⟨fun p => pos opt p z, opt.normal, !opt.noTri, !opt.noPath, !opt.noMark⟩

theorem trianglePut_does (point : List (K × K)) (t : Nat × Nat × Nat) (z : K) :
    Does (fun k => trianglePut opt k point t z) (triOf (opt.show_ z) point t) := by
  unfold trianglePut triOf
  cases point[t.1]? with
  | none => intro k; rfl
  | some a =>
    cases point[t.2.1]? with
    | none => intro k; rfl
    | some b =>
      cases point[t.2.2]? with
      | none => intro k; rfl
      | some c =>
        intro k
        refine ⟨_, rfl, rfl, ?_⟩
        exact ((Grows.one k _).trans (Grows.one _ _)).trans ((Grows.one _ _).trans (Grows.nil _ _))

theorem pathLoop_eq (point : List (K × K)) (z : K) (idx : List Nat) : ∀ k,
    match idx.mapM fun i => point[i]?.map (opt.show_ z).at_ with
    | none => pathLoop opt point z idx k = none
    | some ps => ∃ k', pathLoop opt point z idx k = some (ps, k') ∧ k'.out = k.out ∧ Grows k k' ps := by
  induction idx with
  | nil => intro k; exact ⟨k, rfl, rfl, Grows.nil k k.out⟩
  | cons i is ih =>
    intro k
    rw [List.mapM_cons]
    unfold pathLoop
    cases point[i]? with
    | none => rfl
    | some a =>
      have h := ih (coord opt k a z).2
      simp only [Option.map_some, Option.bind_eq_bind, Option.bind_some]
      cases hm : is.mapM fun i => point[i]?.map (opt.show_ z).at_ with
      | none => rw [hm] at h; simp only at h; simp only [Option.bind_none, h]
      | some ps =>
        rw [hm] at h
        obtain ⟨k', e, h1, h2⟩ := h
        refine ⟨k', ?_, h1, (Grows.one k _).trans h2⟩
        rw [e]
        rfl

theorem pathPut_does (point : List (K × K)) (idx : List Nat) (z : K) :
    Does (fun k => pathPut opt k point idx z) (pathOf (opt.show_ z) point idx) := by
  unfold pathOf
  have hl := pathLoop_eq opt point z idx
  cases hm : idx.mapM fun i => point[i]?.map (opt.show_ z).at_ with
  | none =>
    rw [hm] at hl
    intro k
    show pathPut opt k point idx z = none
    unfold pathPut
    rw [hl k]
    rfl
  | some ps =>
    rw [hm] at hl
    intro k
    obtain ⟨k1, e1, o1, g1⟩ := hl k
    show ∃ k', pathPut opt k point idx z = some k' ∧ Ext k k' _
    unfold pathPut
    simp only [e1, Option.bind_eq_bind, Option.bind_some]
    have hput : Ext k (k1.put (.path ps)) [.path ps] := by
      refine ⟨by show k1.out ++ _ = _; rw [o1], ?_⟩
      have := g1.trans (Grows.nil k1 (k1.out ++ [.path ps]))
      simpa [Ev.points, Ctx.put] using this
    cases hmark : opt.noMark with
    | true =>
      refine ⟨_, by rw [if_pos rfl], ?_⟩
      simpa [Opt.show_, hmark] using hput
    | false =>
      rw [if_neg (by simp)]
      match idx, hm with
      | [], hm =>
        have : ps = [] := by simpa using hm.symm
        subst this
        exact ⟨_, rfl, by simpa [Opt.show_, hmark, markOf] using hput⟩
      | [i], hm =>
        have : ∃ a, ps = [a] := by
          rw [List.mapM_cons] at hm
          cases h : point[i]? with
          | none => rw [h] at hm; cases hm
          | some a => rw [h] at hm; exact ⟨_, (Option.some.inj hm).symm⟩
        obtain ⟨a, rfl⟩ := this
        exact ⟨_, rfl, by simpa [Opt.show_, hmark, markOf] using hput⟩
      | i :: j :: is, hm =>
        rw [List.mapM_cons, List.mapM_cons] at hm
        cases hi : point[i]? with
        | none => rw [hi] at hm; cases hm
        | some a =>
          cases hj : point[j]? with
          | none => rw [hi, hj] at hm; cases hm
          | some b =>
            rw [hi, hj] at hm
            simp only [Option.map_some, Option.bind_eq_bind, Option.bind_some] at hm
            cases hr : is.mapM fun i => point[i]?.map (opt.show_ z).at_ with
            | none => rw [hr] at hm; cases hm
            | some qs =>
              rw [hr] at hm
              have hps : ps = pos opt a z :: pos opt b z :: qs := (Option.some.inj hm).symm
              simp only [hi, hj, Option.bind_some]
              refine ⟨_, rfl, ?_, ?_⟩
              · show ((k1.put (.path ps)).out ++ [_] : List (Ev K)) = _
                rw [hput.1, hps]
                simp only [Opt.show_, hmark, Bool.not_false, if_true, markOf, List.append_assoc, List.cons_append, List.nil_append]
                congr 3
                congr 1
                · rw [Prod.mk.injEq]; constructor <;> simp only [coord] <;> ring
                · rw [Prod.mk.injEq]; constructor <;> simp only [coord] <;> ring
              · have hg : Grows (k1.put (.path ps)) (((k1.put (.path ps)).minmax (pos opt a z)).minmax (pos opt b z))
                    [pos opt a z, pos opt b z] := (Grows.one _ _).trans (Grows.one _ _)
                have h3 := hput.2.old hg (by
                  intro r hr
                  simp only [List.mem_cons, List.not_mem_nil, or_false] at hr
                  simp only [List.flatMap_cons, List.flatMap_nil, List.append_nil, Ev.points, hps, List.mem_cons]
                  rcases hr with rfl | rfl
                  · exact .inl rfl
                  · exact .inr (.inl rfl))
                have h4 := h3.trans (Grows.nil _ ((k1.put (.path ps)).out ++ [.mark
                  ((((pos opt a z).1 + (pos opt b z).1) * (1 / 2)), (((pos opt a z).2 + (pos opt b z).2) * (1 / 2)))
                  (((pos opt a z).1 + (pos opt b z).1) * (1 / 2) + (opt.normal (pos opt a z) (pos opt b z)).1 * 2,
                    ((pos opt a z).2 + (pos opt b z).2) * (1 / 2) + (opt.normal (pos opt a z) (pos opt b z)).2 * 2)]))
                have hpts : ∀ m : List (K × K), (markOf (opt.show_ z) m).flatMap Ev.points = [] := by
                  intro m
                  match m with
                  | [] => rfl
                  | [_] => rfl
                  | _ :: _ :: _ => rfl
                have e2 : ((.path ps : Ev K) :: if (opt.show_ z).marks = true then markOf (opt.show_ z) ps else []).flatMap Ev.points
                    = [(.path ps : Ev K)].flatMap Ev.points ++ [] := by
                  rw [List.flatMap_cons]
                  cases (opt.show_ z).marks with
                  | true => rw [if_pos rfl, hpts]; simp
                  | false => simp
                rw [e2]
                exact h4

theorem dots_does (point : List (K × K)) (z : K) :
    Does (loop (fun k p => some (pointPut opt k p z)) point) (some (point.map fun p => .dot ((opt.show_ z).at_ p))) := by
  induction point with
  | nil => exact does_id
  | cons p ps ih =>
    have h1 : Does (fun k => some (pointPut opt k p z)) (some [.dot ((opt.show_ z).at_ p)]) := by
      intro k
      refine ⟨_, rfl, rfl, ?_⟩
      exact (Grows.one k _).trans (Grows.nil _ _)
    exact h1.bind ih

theorem polyPut_does (po : Poly K) (z : K) :
    Does (fun k => polyPut opt k po.point po.path po.tri z) (po.shapes (opt.show_ z)) := by
  have h1 := loop_does (fun k t => trianglePut opt k po.point t z) _ (fun t => trianglePut_does opt po.point t z) po.tri
  have h2 := loop_does (fun k idx => pathPut opt k po.point idx z) _ (fun idx => pathPut_does opt po.point idx z) po.path
  have h3 := dots_does opt po.point z
  unfold Poly.shapes polyPut
  cases hp : opt.noPath with
  | true =>
    have e : (opt.show_ z).paths = false := by simp [Opt.show_, hp]
    rw [e]
    exact h1.bind does_id
  | false =>
    have e : (opt.show_ z).paths = true := by simp [Opt.show_, hp]
    rw [e]
    exact h1.bind (h2.bind h3)

variable (z : List K)

theorem both_nil {α : Type} (a : Option (List α)) : both a (some []) = a := by cases a <;> simp [both]

theorem both_assoc {α : Type} (a b c : Option (List α)) : both (both a b) c = both a (both b c) := by
  cases a <;> cases b <;> cases c <;> simp [both]

theorem concat_append {α β : Type} (f : α → Option (List β)) (a b : List α) : concat f (a ++ b) = both (concat f a) (concat f b) := by
  induction a with
  | nil => simp only [List.nil_append, concat]; cases concat f b <;> simp [both]
  | cons x a ih => simp only [List.cons_append, concat, ih, both_assoc]

/-- the shapes of polygons of layer `zi` -/
def shapesOf (zi : Nat) (o : Option (List (Poly K))) : Option (List (Ev K)) :=
  o.bind (concat fun po => z[zi]?.bind fun h => po.shapes (opt.show_ h))

theorem shapesOf_both (zi : Nat) (a b : Option (List (Poly K))) :
    shapesOf opt z zi (both a b) = both (shapesOf opt z zi a) (shapesOf opt z zi b) := by
  cases a with
  | none => rfl
  | some x =>
    cases b with
    | none =>
      show none = both (concat _ x) none
      cases concat (fun po : Poly K => z[zi]?.bind fun h => po.shapes (opt.show_ h)) x <;> rfl
    | some y => exact concat_append _ x y

mutual
theorem csg2Put_does (zi : Nat) : ∀ x : Obj K, Does (fun k => csg2Put opt z k zi x) (shapesOf opt z zi (x.polys zi))
  | .add xs => by unfold csg2Put Obj.polys; exact vPut_does zi xs
  | .xor xss => by unfold csg2Put Obj.polys; exact addsPut_does zi xss
  | .cut xss => by unfold csg2Put Obj.polys; exact addsPut_does zi xss
  | .stack ls => by unfold csg2Put Obj.polys; exact stackPut_does zi ls
  | .sub a b => by
      unfold csg2Put Obj.polys
      rw [shapesOf_both]
      exact (vPut_does zi a).bind (vPut_does zi b)
  | .poly point path tri => by
      unfold csg2Put Obj.polys shapesOf
      simp only [Option.bind_some, concat, both_nil]
      cases z[zi]? with
      | none => intro k; rfl
      | some h => exact polyPut_does opt ⟨point, path, tri⟩ h
  | .vline2 => by unfold csg2Put Obj.polys; intro k; rfl
  | .sweep => by unfold csg2Put Obj.polys; intro k; rfl
theorem vPut_does (zi : Nat) : ∀ xs : Objs K, Does (fun k => vPut opt z k zi xs) (shapesOf opt z zi (xs.polys zi))
  | .nil => by unfold vPut Objs.polys; exact does_id
  | .cons x xs => by
      unfold vPut Objs.polys
      rw [shapesOf_both]
      exact (csg2Put_does zi x).bind (vPut_does zi xs)
theorem addsPut_does (zi : Nat) : ∀ xss : Adds K, Does (fun k => addsPut opt z k zi xss) (shapesOf opt z zi (xss.polys zi))
  | .nil => by unfold addsPut Adds.polys; exact does_id
  | .cons x xs => by
      unfold addsPut Adds.polys
      rw [shapesOf_both]
      exact (vPut_does zi x).bind (addsPut_does zi xs)
theorem stackPut_does (zi : Nat) : ∀ ls : Layers K, Does (fun k => stackPut opt z k zi ls) (shapesOf opt z zi (ls.polys zi))
  | .nil => by unfold stackPut Layers.polys; exact does_id
  | .cons lzi root ls => by
      unfold stackPut Layers.polys
      rw [shapesOf_both]
      by_cases h : zi = lzi
      · have hn : ¬ zi ≠ lzi := fun hh => hh h
        simp only [if_pos h, if_neg hn]
        exact (vPut_does zi root).bind (stackPut_does zi ls)
      · simp only [if_neg h, ne_eq, h, not_false_iff, if_true]
        exact does_id.bind (stackPut_does zi ls)
end

theorem filled_cons (f : Bool) (fs : List Bool) (n : Nat) : filled (f :: fs) n = (if f then [n] else []) ++ filled fs (n + 1) := by
  unfold filled
  rw [List.zipIdx_cons]
  cases f <;> rfl

/-- a loop over the layers that writes what is to be written, and counts -/
def DoesN (f : Ctx K → Option (Nat × Ctx K)) (n : Nat) (o : Option (List (Ev K))) : Prop :=
  match o with
  | none => ∀ k, f k = none
  | some es => ∀ k, ∃ k', f k = some (n, k') ∧ Ext k k' es

theorem Does.bindN {f : Ctx K → Option (Ctx K)} {g : Ctx K → Option (Nat × Ctx K)} {n : Nat} {a b : Option (List (Ev K))}
    (h1 : Does f a) (h2 : DoesN g n b) : DoesN (fun k => (f k).bind g) n (both a b) := by
  cases a with
  | none => intro k; show (f k).bind g = none; rw [h1 k]; rfl
  | some x =>
    cases b with
    | none =>
      intro k
      obtain ⟨k', e, -⟩ := h1 k
      show (f k).bind g = none
      rw [e]
      exact h2 k'
    | some y =>
      intro k
      obtain ⟨k', e, h⟩ := h1 k
      obtain ⟨k2, e2, h'⟩ := h2 k'
      exact ⟨k2, by show (f k).bind g = some (n, k2); rw [e]; exact e2, h.trans h'⟩

theorem layerLoop_single (hs : opt.single = true) (root : Obj K) (cnt : Nat) : ∀ (flags : List Bool) (zi : Nat),
    DoesN (layerLoop opt z root flags zi cnt) cnt (concat (layer opt.show_ z root) (filled flags zi))
  | [], zi => fun k => ⟨k, rfl, Ext.refl k⟩
  | f :: fs, zi => by
    rw [filled_cons]
    have ih := layerLoop_single hs root cnt fs (zi + 1)
    cases f with
    | false =>
      have e : layerLoop opt z root (false :: fs) zi cnt = layerLoop opt z root fs (zi + 1) cnt := by
        funext k; rw [layerLoop]; rfl
      rw [e]
      exact ih
    | true =>
      have e : layerLoop opt z root (true :: fs) zi cnt = fun k => (csg2Put opt z k zi root).bind (layerLoop opt z root fs (zi + 1) cnt) := by
        funext k; rw [layerLoop, if_pos rfl, if_pos hs]; rfl
      rw [e]
      exact (csg2Put_does opt z zi root).bindN ih

theorem layerLoop_pages (hs : opt.single = false) (root : Obj K) : ∀ (flags : List Bool) (zi cnt : Nat),
    DoesN (layerLoop opt z root flags zi cnt) (cnt + (filled flags zi).length) (pages opt.show_ z root (cnt + 1) (filled flags zi))
  | [], zi, cnt => fun k => ⟨k, rfl, Ext.refl k⟩
  | f :: fs, zi, cnt => by
    rw [filled_cons]
    cases f with
    | false =>
      have ih := layerLoop_pages hs root fs (zi + 1) cnt
      have e : layerLoop opt z root (false :: fs) zi cnt = layerLoop opt z root fs (zi + 1) cnt := by
        funext k; rw [layerLoop]; rfl
      rw [e]
      exact ih
    | true =>
      have ih := layerLoop_pages hs root fs (zi + 1) (cnt + 1)
      have e : layerLoop opt z root (true :: fs) zi cnt = fun k =>
          (z[zi]?.bind fun h => some ((k.put (.page (cnt + 1))).put (.label h zi))).bind fun k =>
            (csg2Put opt z k zi root).bind fun k => (some (k.put .endPage)).bind (layerLoop opt z root fs (zi + 1) (cnt + 1)) := by
        funext k
        rw [layerLoop, if_pos rfl, if_neg (by simp [hs])]
        cases z[zi]? <;> rfl
      rw [e]
      have e2 : cnt + ((if true = true then [zi] else []) ++ filled fs (zi + 1)).length = cnt + 1 + (filled fs (zi + 1)).length := by
        simp only [if_true, List.length_append, List.length_cons, List.length_nil]; omega
      rw [e2]
      have h1 : Does (fun k => z[zi]?.bind fun h => some ((k.put (.page (cnt + 1))).put (.label h zi)))
          (z[zi]?.map fun h => [.page (cnt + 1), .label h zi]) := by
        cases z[zi]? with
        | none => intro k; rfl
        | some h => exact fun k => ⟨_, rfl, (Ext.put k _ rfl).trans (Ext.put _ _ rfl)⟩
      have h2 : Does (K := K) (fun k => some (k.put .endPage)) (some [.endPage]) := fun k => ⟨_, rfl, Ext.put k _ rfl⟩
      exact h1.bindN ((csg2Put_does opt z zi root).bindN (h2.bindN ih))

/-! ### page numbers -/

theorem pageNumbers_append (a b : List (Ev K)) : pageNumbers (a ++ b) = pageNumbers a ++ pageNumbers b := by
  induction a with
  | nil => rfl
  | cons e a ih => cases e <;> simp only [List.cons_append, pageNumbers, ih]

theorem both_some {α : Type} {a b : Option (List α)} {l : List α} (h : both a b = some l) : ∃ x y, a = some x ∧ b = some y ∧ l = x ++ y := by
  cases a with
  | none => cases h
  | some x =>
    cases b with
    | none => cases h
    | some y => exact ⟨x, y, rfl, rfl, (Option.some.inj h).symm⟩

theorem concat_numbers {α : Type} (f : α → Option (List (Ev K))) (h : ∀ a es, f a = some es → pageNumbers es = []) :
    ∀ (l : List α) (es : List (Ev K)), concat f l = some es → pageNumbers es = []
  | [], es, he => by cases he; rfl
  | a :: l, es, he => by
    obtain ⟨x, y, hx, hy, rfl⟩ := both_some he
    rw [pageNumbers_append, h a x hx, concat_numbers f h l y hy]
    rfl

theorem dots_numbers (s : Show K) (l : List (K × K)) : pageNumbers (l.map fun p => (.dot (s.at_ p) : Ev K)) = [] := by
  induction l with
  | nil => rfl
  | cons a l ih => exact ih

theorem shapes_numbers (s : Show K) (po : Poly K) (es : List (Ev K)) (h : po.shapes s = some es) : pageNumbers es = [] := by
  obtain ⟨x, y, hx, hy, rfl⟩ := both_some h
  rw [pageNumbers_append]
  have h1 : pageNumbers x = [] := by
    refine concat_numbers _ ?_ _ _ hx
    intro t es he
    unfold triOf at he
    obtain ⟨a, -, he⟩ := Option.bind_eq_some_iff.mp he
    obtain ⟨b, -, he⟩ := Option.bind_eq_some_iff.mp he
    obtain ⟨c, -, he⟩ := Option.bind_eq_some_iff.mp he
    cases he
    rfl
  have h2 : pageNumbers y = [] := by
    cases hp : s.paths with
    | false => rw [hp] at hy; cases hy; rfl
    | true =>
      rw [hp, if_pos rfl] at hy
      obtain ⟨u, v, hu, hv, rfl⟩ := both_some hy
      rw [pageNumbers_append]
      cases hv
      rw [dots_numbers, List.append_nil]
      refine concat_numbers _ ?_ _ _ hu
      intro idx es he
      unfold pathOf at he
      obtain ⟨ps, -, rfl⟩ := Option.map_eq_some_iff.mp he
      cases s.marks with
      | false => rfl
      | true =>
        match ps with
        | [] => rfl
        | [_] => rfl
        | _ :: _ :: _ => rfl
  rw [h1, h2]
  rfl

theorem layer_numbers (s : K → Show K) (root : Obj K) (zi : Nat) (es : List (Ev K)) (h : layer s z root zi = some es) :
    pageNumbers es = [] := by
  obtain ⟨ps, -, h⟩ := Option.bind_eq_some_iff.mp h
  refine concat_numbers _ ?_ _ _ h
  intro po es he
  obtain ⟨hh, -, he⟩ := Option.bind_eq_some_iff.mp he
  exact shapes_numbers _ po es he

theorem pages_numbers (s : K → Show K) (root : Obj K) : ∀ (l : List Nat) (n : Nat) (es : List (Ev K)),
    pages s z root n l = some es → pageNumbers es = List.range' n l.length
  | [], n, es, h => by cases h; rfl
  | zi :: l, n, es, h => by
    obtain ⟨x, y, hx, hy, rfl⟩ := both_some h
    obtain ⟨u, v, hu, hv, rfl⟩ := both_some hy
    obtain ⟨a, b, ha, hb, rfl⟩ := both_some hv
    obtain ⟨hh, -, rfl⟩ := Option.map_eq_some_iff.mp hx
    cases ha
    simp only [pageNumbers_append, layer_numbers z s root zi u hu, pages_numbers s root l (n + 1) b hb, List.length_cons, List.range'_succ]
    rfl

end Hob3l.Ps
