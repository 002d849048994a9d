import Verif.Svg.LemmasGroup

/-! The drawing of the model follows the specification. -/

namespace Hob3l.Svg

section

variable {A : Type}

theorem tagged_snoc (a : List (List A)) (b : List A) :
    tagged (a ++ [b]) = tagged a ++ b.zipIdx.map fun p => (p.1, p.2, a.length) := by
  unfold tagged
  rw [List.zipIdx_append, List.flatMap_append]
  simp

theorem tagged_push (a : List (List A)) (b : List A) (p : A) :
    tagged (a ++ [b ++ [p]]) = tagged (a ++ [b]) ++ [(p, b.length, a.length)] := by
  rw [tagged_snoc, tagged_snoc, List.zipIdx_append, List.map_append, List.append_assoc]
  simp

theorem tagged_nil (a : List (List A)) : tagged (a ++ [[]]) = tagged a := by
  rw [tagged_snoc]; simp

theorem tagged_eq_nil {a : List (List A)} (h : ∀ p ∈ a, p ≠ []) (e : tagged a = []) : a = [] := by
  by_contra hne
  have hl := List.dropLast_append_getLast hne
  have hx := h _ (List.getLast_mem hne)
  rw [← hl, tagged_snoc] at e
  simp only [List.append_eq_nil_iff, List.map_eq_nil_iff, List.zipIdx_eq_nil_iff] at e
  exact hx e.2

end

variable {K : Type} [Field K] [LinearOrder K]

/-- the points of the model are those of the subpaths -/
structure Core (st : St K) (opn : List (P K)) (done : List (List (P K))) : Prop where
  pts : st.pts = tagged (done ++ [opn])
  pi : st.pointIdx = opn.length
  pa : st.pathIdx = done.length

theorem Core.push {st : St K} {opn : List (P K)} {done : List (List (P K))} (h : Core st opn done) (p : P K) :
    Core (pathPush st p) (opn ++ [p]) done := by
  refine ⟨?_, ?_, h.pa⟩
  · show st.pts ++ [_] = _
    rw [tagged_push, h.pts, h.pi, h.pa]
  · show st.pointIdx + 1 = _
    rw [h.pi]; simp

theorem Core.pushAll {st : St K} {opn : List (P K)} {done : List (List (P K))} (h : Core st opn done) (l : List (P K)) :
    Core (pushAll st l) (opn ++ l) done := by
  induction l generalizing st opn with
  | nil => rw [List.append_nil]; exact h
  | cons p l ih =>
    have := ih (h.push p)
    rwa [List.append_assoc] at this

theorem pushAll_fields (st : St K) (l : List (P K)) : (pushAll st l).cur = st.cur ∧ (pushAll st l).init = st.init := by
  induction l generalizing st with
  | nil => exact ⟨rfl, rfl⟩
  | cons p l ih => exact ih (pathPush st p)

/-- the control point of the model -/
def CtrlRel (st : St K) : Ctrl K → Prop
  | .none => st.prev = none
  | .quad p => st.prev = some 'Q' ∧ st.ctrl = p
  | .cub p => st.prev = some 'C' ∧ st.ctrl = p

/-- the state of the model and the one of the specification -/
structure Rel (st : St K) (s : Pen K) : Prop where
  core : Core st s.opn s.done
  cur : st.cur = s.cur
  ctrl : CtrlRel st s.ctrl
  start : s.opn = [] → s.cur = s.start
  init : st.init = if s.opn.isEmpty then s.lastStart else s.start
  head : s.opn ≠ [] → s.opn.head? = some s.start
  done : ∀ p ∈ s.done, p ≠ []

theorem Rel.new : Rel (St.new : St K) Pen.new where
  core := ⟨rfl, rfl, rfl⟩
  cur := rfl
  ctrl := rfl
  start _ := rfl
  init := rfl
  head h := absurd rfl h
  done p hp := by cases hp

/-- a segment -/
theorem Rel.seg {st : St K} {s : Pen K} (h : Rel st s) (l : List (P K)) (p : P K) (cmd : Option Char) (q : P K) (ctrl : Ctrl K)
    (hc : CtrlRel (pathCur (pathPush (pushAll (pathStart st) l) p) p cmd q) ctrl) :
    Rel (pathCur (pathPush (pushAll (pathStart st) l) p) p cmd q) (s.seg l p ctrl) := by
  have hs : Core (pathStart st) (if s.opn.isEmpty then [s.cur] else s.opn) s.done ∧ (pathStart st).init = s.start := by
    unfold pathStart
    by_cases ho : s.opn = []
    · have h0 : st.pointIdx = 0 := by rw [h.core.pi, ho]; rfl
      rw [if_pos h0]
      have hcore := h.core
      rw [ho] at hcore ⊢
      refine ⟨?_, ?_⟩
      · have : Core { st with init := st.cur } ([] : List (P K)) s.done := ⟨hcore.pts, hcore.pi, hcore.pa⟩
        have := this.push st.cur
        simp only [List.isEmpty_nil, if_true]
        rw [← h.cur]
        exact this
      · show st.cur = _
        rw [h.cur, h.start ho]
    · have h0 : st.pointIdx ≠ 0 := by
        rw [h.core.pi]; exact fun e => ho (List.length_eq_zero_iff.1 e)
      have he : s.opn.isEmpty = false := by simpa using ho
      rw [if_neg h0, he]
      refine ⟨h.core, ?_⟩
      rw [h.init, he]; rfl
  have hne : (s.seg l p ctrl).opn ≠ [] := by simp [Pen.seg]
  refine ⟨?_, rfl, hc, fun e => absurd e hne, ?_, fun _ => ?_, h.done⟩
  · have := (hs.1.pushAll l).push p
    exact ⟨this.pts, this.pi, this.pa⟩
  · show (pushAll (pathStart st) l).init = _
    rw [(pushAll_fields _ l).2, hs.2]
    have : (s.seg l p ctrl).opn.isEmpty = false := by simpa using hne
    rw [this]; rfl
  · show (((if s.opn.isEmpty then [s.cur] else s.opn) ++ l) ++ [p]).head? = some s.start
    by_cases ho : s.opn = []
    · rw [ho]
      simp [← h.start ho]
    · have he : s.opn.isEmpty = false := by simpa using ho
      rw [he]
      simp only [Bool.false_eq_true, if_false]
      rw [List.append_assoc, List.head?_append, h.head ho]
      rfl

theorem pathStart_cur (st : St K) : (pathStart st).cur = st.cur := by
  unfold pathStart
  split <;> rfl

theorem relTo_eq {st : St K} {s : Pen K} (h : Rel st s) (rel : Bool) (p : P K) : relTo st rel p = s.abs rel p := by
  unfold relTo Pen.abs
  rw [h.cur]
  cases rel
  · rfl
  · simp only [if_true, P.mk.injEq]; exact ⟨add_comm _ _, add_comm _ _⟩

theorem not_ceq {c : Cfg K} {p q : P K} (h : Apart c p q) : ¬ (ceq c p.x q.x && ceq c p.y q.y) = true := by
  unfold ceq
  simp only [Bool.and_eq_true, decide_eq_true_eq, not_and, not_lt]
  intro hx
  rcases h with h | h
  · exact absurd hx (not_lt.2 h)
  · exact h

variable [IsStrictOrderedRing K]

theorem ceq_self {c : Cfg K} (he : 0 < c.eps) (x : K) : ceq c x x = true := by
  unfold ceq; simp [he]

theorem apart_ne {c : Cfg K} (he : 0 < c.eps) {p q : P K} (h : Apart c p q) : q ≠ p := by
  rintro rfl
  have := not_ceq h
  simp [ceq_self he] at this

theorem Rel.line {c : Cfg K} (he : 0 < c.eps) {st : St K} {s : Pen K} (h : Rel st s) (p : P K) (hf : FitLine c s p) :
    Rel (pathLineAbs c st p) (s.line p) := by
  unfold pathLineAbs Pen.line
  rcases hf with hf | ⟨rfl, hc⟩
  · rw [h.cur, if_neg (not_ceq hf), if_neg (apart_ne he hf)]
    exact h.seg [] p none ⟨0, 0⟩ .none rfl
  · rw [h.cur, if_pos (by simp [ceq_self he]), if_pos rfl]
    have : ({ s with ctrl := .none } : Pen K) = s := by rw [← hc]
    rw [this]; exact h

theorem sampled_quad (a b d : P K) (n : Nat) :
    ((List.range' 1 (n - 1)).map fun (i : Nat) =>
      (⟨interpol2 a.x b.x d.x ((i : K) / (n : K)), interpol2 a.y b.y d.y ((i : K) / (n : K))⟩ : P K))
    = sampled n (bezier2 a b d) := by
  unfold sampled
  rw [List.range'_eq_map_range, List.map_map]
  refine List.map_congr_left fun i _ => ?_
  simp only [Function.comp]
  rw [show 1 + i = i + 1 by omega]
  simp only [bezier2, lerp, interpol2, P.mk.injEq]
  constructor <;> ring

theorem sampled_cub (a b d e : P K) (n : Nat) :
    ((List.range' 1 (n - 1)).map fun (i : Nat) =>
      (⟨interpol3 a.x b.x d.x e.x ((i : K) / (n : K)), interpol3 a.y b.y d.y e.y ((i : K) / (n : K))⟩ : P K))
    = sampled n (bezier3 a b d e) := by
  unfold sampled
  rw [List.range'_eq_map_range, List.map_map]
  refine List.map_congr_left fun i _ => ?_
  simp only [Function.comp]
  rw [show 1 + i = i + 1 by omega]
  simp only [bezier3, bezier2, lerp, interpol3, P.mk.injEq]
  constructor <;> ring

theorem Rel.quad (c : Cfg K) {st : St K} {s : Pen K} (h : Rel st s) (p1 p2 : P K) :
    Rel (pathQuadAbs c st p1 p2) (s.quad c p1 p2) := by
  unfold pathQuadAbs Pen.quad
  simp only [pathStart_cur, h.cur, sampled_quad]
  exact h.seg _ p2 (some 'Q') p1 (.quad p1) ⟨rfl, rfl⟩

theorem Rel.cub (c : Cfg K) {st : St K} {s : Pen K} (h : Rel st s) (p1 p2 p3 : P K) :
    Rel (pathCubAbs c st p1 p2 p3) (s.cub c p1 p2 p3) := by
  unfold pathCubAbs Pen.cub
  simp only [pathStart_cur, h.cur, sampled_cub]
  exact h.seg _ p3 (some 'C') p2 (.cub p2) ⟨rfl, rfl⟩

theorem quadCtrl_eq {st : St K} {s : Pen K} (h : Rel st s) :
    (if st.prev = some 'Q' then (⟨2 * st.cur.x - st.ctrl.x, 2 * st.cur.y - st.ctrl.y⟩ : P K) else st.cur) = s.quadCtrl := by
  have hc := h.ctrl
  unfold Pen.quadCtrl
  cases hs : s.ctrl with
  | none => rw [hs] at hc; rw [if_neg (by rw [hc]; simp), h.cur]
  | quad p =>
    rw [hs] at hc
    rw [if_pos hc.1, hc.2, h.cur]
    simp only [reflect, P.mk.injEq]
    constructor <;> ring
  | cub p => rw [hs] at hc; rw [if_neg (by rw [hc.1]; decide), h.cur]

theorem cubCtrl_eq {st : St K} {s : Pen K} (h : Rel st s) :
    (if st.prev = some 'C' then (⟨2 * st.cur.x - st.ctrl.x, 2 * st.cur.y - st.ctrl.y⟩ : P K) else st.cur) = s.cubCtrl := by
  have hc := h.ctrl
  unfold Pen.cubCtrl
  cases hs : s.ctrl with
  | none => rw [hs] at hc; rw [if_neg (by rw [hc]; simp), h.cur]
  | cub p =>
    rw [hs] at hc
    rw [if_pos hc.1, hc.2, h.cur]
    simp only [reflect, P.mk.injEq]
    constructor <;> ring
  | quad p => rw [hs] at hc; rw [if_neg (by rw [hc.1]; decide), h.cur]

theorem Rel.arc {c : Cfg K} (he : 0 < c.eps) {st : St K} {s : Pen K} (h : Rel st s) (rx ry ph : K) (fa fs : Bool) (p : P K)
    (hf : FitLine c s p) (hr : rx = 0 ∨ ry = 0 ∨ (c.eps ≤ |rx| ∧ c.eps ≤ |ry|))
    (ha : p ≠ s.cur → rx ≠ 0 → ry ≠ 0 → (c.arc s.cur rx ry ph fa fs p).1 = true
      ∨ (s.opn ≠ [] ∧ (c.arc s.cur rx ry ph fa fs p).2 = [])) :
    Rel (pathArcAbs c st rx ry ph fa fs p) (s.arc c rx ry ph fa fs p) := by
  unfold pathArcAbs Pen.arc
  by_cases hp : p = s.cur
  · rcases hf with hf | ⟨-, hc⟩
    · exact absurd hp (apart_ne he hf)
    · rw [h.cur, if_pos (by simp [hp, ceq_self he]), if_pos hp]
      have : ({ s with ctrl := .none } : Pen K) = s := by rw [← hc]
      rw [this]; exact h
  · have hap : Apart c s.cur p := hf.resolve_right (fun h => hp h.1)
    have hl := h.line he p (.inl hap)
    rw [h.cur, if_neg (not_ceq hap), if_neg hp]
    by_cases hz : rx = 0 ∨ ry = 0
    · rw [if_pos hz, if_pos (by rcases hz with h | h <;> simp [h, ceq_self he])]
      exact hl
    · have hz' := hz
      rw [not_or] at hz'
      have hr' := (hr.resolve_left hz'.1).resolve_left hz'.2
      rw [if_neg hz, if_neg (by
        unfold ceq
        simp only [sub_zero, Bool.or_eq_true, decide_eq_true_eq, not_or, not_lt]
        exact hr')]
      simp only
      rcases ha hp hz'.1 hz'.2 with ht | ⟨ho, hn⟩
      · rw [if_pos ht]
        exact h.seg _ p none ⟨0, 0⟩ .none rfl
      · have hps : pathStart st = st := by
          unfold pathStart
          rw [if_neg]
          rw [h.core.pi]; exact fun e => ho (List.length_eq_zero_iff.1 e)
        have := h.seg [] p none ⟨0, 0⟩ .none rfl
        rw [hn, hps] at *
        simpa [pushAll] using this

/-- the end of a subpath -/
theorem Rel.close {st : St K} {s : Pen K} (h : Rel st s) (q : P K) :
    Rel (pathCur (pathClose st) q none ⟨0, 0⟩) (⟨q, q, .none, [], s.paths⟩ : Pen K)
    ∧ (pathClose st).cur = st.init ∧ (pathClose st).prev = none ∧ (pathClose st).ctrl = ⟨0, 0⟩ := by
  unfold pathClose
  simp only
  by_cases ho : s.opn = []
  · have h0 : st.pointIdx = 0 := by rw [h.core.pi, ho]; rfl
    have hpaths : s.paths = s.done := by unfold Pen.paths; rw [ho]; rfl
    have hrel : Rel (pathCur (pathCur st st.init none ⟨0, 0⟩) q none ⟨0, 0⟩) (⟨q, q, .none, [], s.paths⟩ : Pen K) := by
      rw [hpaths]
      have hcore := h.core
      rw [ho] at hcore
      refine ⟨⟨hcore.pts, hcore.pi, hcore.pa⟩, rfl, rfl, fun _ => rfl, ?_, fun e => absurd rfl e, h.done⟩
      show st.init = _
      rw [h.init, ho]
      rfl
    split
    · exact ⟨hrel, rfl, rfl, rfl⟩
    · rw [if_pos (show (pathCur st st.init none ⟨0, 0⟩).pointIdx = 0 from h0)]
      exact ⟨hrel, rfl, rfl, rfl⟩
  · have h0 : st.pointIdx ≠ 0 := by
      rw [h.core.pi]; exact fun e => ho (List.length_eq_zero_iff.1 e)
    have he : s.opn.isEmpty = false := by simpa using ho
    have hne : st.pts.isEmpty = false := by
      rw [h.core.pts, tagged_snoc]
      simp [ho]
    have hpaths : s.paths = s.done ++ [s.opn] := by unfold Pen.paths; rw [he]; rfl
    rw [if_neg (by rw [show (pathCur st st.init none ⟨0, 0⟩).pts = st.pts from rfl, hne]; simp),
      if_neg (show (pathCur st st.init none ⟨0, 0⟩).pointIdx ≠ 0 from h0)]
    refine ⟨?_, rfl, rfl, rfl⟩
    rw [hpaths]
    refine ⟨⟨?_, rfl, ?_⟩, rfl, rfl, fun _ => rfl, ?_, fun e => absurd rfl e, ?_⟩
    · show st.pts = _
      rw [h.core.pts, tagged_nil]
    · show st.pathIdx + 1 = _
      rw [h.core.pa]; simp
    · show st.init = _
      rw [h.init, he]
      simp [Pen.lastStart, h.head ho]
    · intro p hp
      rcases List.mem_append.1 hp with hp | hp
      · exact h.done p hp
      · rw [List.mem_singleton.1 hp]; exact ho

theorem Rel.step {c : Cfg K} (he : 0 < c.eps) {st : St K} {s : Pen K} (h : Rel st s) (a : Cmd K) (hf : Fit c s a) :
    Rel (exec c st a) (s.step c a) := by
  cases a with
  | move rel p =>
    show Rel (pathMove st rel p) _
    unfold pathMove
    simp only [relTo_eq h]
    exact (h.close _).1
  | line rel p =>
    show Rel (pathLineAbs c st (relTo st rel p)) _
    rw [relTo_eq h]
    exact h.line he _ hf
  | horiz rel x =>
    show Rel (pathLineAbs c st ⟨if rel then x + st.cur.x else x, st.cur.y⟩) _
    have : (⟨if rel then x + st.cur.x else x, st.cur.y⟩ : P K) = ⟨(s.abs rel ⟨x, 0⟩).x, s.cur.y⟩ := by
      rw [← relTo_eq h, h.cur]
      unfold relTo
      rw [h.cur]
      cases rel <;> rfl
    rw [this]
    exact h.line he _ hf
  | vert rel y =>
    show Rel (pathLineAbs c st ⟨st.cur.x, if rel then y + st.cur.y else y⟩) _
    have : (⟨st.cur.x, if rel then y + st.cur.y else y⟩ : P K) = ⟨s.cur.x, (s.abs rel ⟨0, y⟩).y⟩ := by
      rw [← relTo_eq h, h.cur]
      unfold relTo
      rw [h.cur]
      cases rel <;> rfl
    rw [this]
    exact h.line he _ hf
  | quad rel p1 p2 =>
    show Rel (pathQuadAbs c st (relTo st rel p1) (relTo st rel p2)) _
    rw [relTo_eq h, relTo_eq h]
    exact h.quad c _ _
  | cub rel p1 p2 p3 =>
    show Rel (pathCubAbs c st (relTo st rel p1) (relTo st rel p2) (relTo st rel p3)) _
    rw [relTo_eq h, relTo_eq h, relTo_eq h]
    exact h.cub c _ _ _
  | squad rel p2 =>
    show Rel (pathSquad c st rel p2) _
    unfold pathSquad
    simp only [relTo_eq h, quadCtrl_eq h]
    exact h.quad c _ _
  | scub rel p2 p3 =>
    show Rel (pathScub c st rel p2 p3) _
    unfold pathScub
    simp only [relTo_eq h, cubCtrl_eq h]
    exact h.cub c _ _ _
  | arc rel rx ry ph fa fs p =>
    show Rel (pathArcAbs c st rx ry ph fa fs (relTo st rel p)) _
    rw [relTo_eq h]
    exact h.arc he rx ry ph fa fs _ hf.1 hf.2.1 hf.2.2
  | close =>
    show Rel (pathClose st) (⟨s.start, s.start, .none, [], s.paths⟩ : Pen K)
    have hc := h.close s.start
    have : pathCur (pathClose st) s.start none ⟨0, 0⟩ = pathClose st := by
      have hi : st.init = s.start := by
        rw [h.init]
        rcases hf with ho | hl
        · have he : s.opn.isEmpty = false := by simpa using ho
          rw [he]; rfl
        · split
          · exact hl.symm
          · rfl
      unfold pathCur
      rw [← hi, ← hc.2.1, ← hc.2.2.1, ← hc.2.2.2]
    rw [← this]
    exact hc.1

theorem Rel.steps {c : Cfg K} (he : 0 < c.eps) (l : List (Cmd K)) {st : St K} {s : Pen K} (h : Rel st s) (hf : Fits c s l) :
    Rel (l.foldl (exec c) st) (l.foldl (Pen.step c) s) := by
  induction l generalizing st s with
  | nil => exact h
  | cons a l ih => exact ih (h.step he a hf.1) hf.2

end Hob3l.Svg
