import Verif.Poly.LemmasEnd
import Verif.Poly.LemmasStart

/-!
The main loop keeps the invariants.
-/

namespace Hob3l.Poly

theorem PtInv.congr {pre : List Vtx} {st st' : St} (h : PtInv pre st) (h1 : st'.pt = st.pt) (h2 : st'.res = st.res)
    (h3 : st'.last = st.last) : PtInv pre st' := by
  obtain ⟨a, b, c, d⟩ := h
  exact ⟨by rw [h1, h2]; exact a, by rw [h2, h3]; exact b, by rw [h2]; exact c, by rw [h2]; exact d⟩

/-- no edge is left over alone -/
theorem not_alone {l pre : List Vtx} {st : St} {s : Vtx} {D : List Nat} {R : List Arm} (hl : Proper l) (hpre : l = pre ++ [s])
    (ht : st.TI l pre D R) : False := by
  have hl1 : Proper (pre ++ s :: []) := hpre ▸ hl
  have hmem : ∀ e ∈ st.tree, e = s.edge := by
    intro e he
    obtain ⟨h1, h2⟩ := (ht.treeIff e).1 he
    have h3 : Started l e := by rw [hpre, started_snoc]; exact .inl h1
    have h4 := proper_end hl h3
    rw [hpre, ended_snoc] at h4
    rcases h4 with h4 | h4
    · exact absurd h4 h2
    · exact h4.1.symm
  have hs : s.edge ∈ st.tree := by
    cases hr : s.rigt with
    | true => exact (ht.treeIff _).2 ((proper_next hl1).2 hr)
    | false =>
      exfalso
      obtain ⟨-, h2⟩ := (proper_next hl1).1 hr
      have h3 : Started l s.edge := by rw [hpre, started_snoc]; exact .inr ⟨rfl, hr⟩
      have h4 := proper_end hl h3
      rw [hpre, ended_snoc] at h4
      rcases h4 with h4 | h4
      · exact h2 h4
      · rw [hr] at h4; simp at h4
  obtain ⟨r, hr, -, -⟩ := ht.find hs
  have ok := ht.arms r hr
  have h1 := hmem _ ok.bt
  have h2 := hmem _ ok.ft
  have h3 := ok.bb
  have h4 := ok.fb
  rw [h1] at h3
  rw [h2, h3] at h4
  simp at h4

theorem getPt_tree {st st' : St} {v : Vtx} (h : getPt st v = .ok st') : st'.tree = st.tree := by
  unfold getPt ass at h
  simp only at h
  split_ifs at h <;> cases h <;> rfl

/-- one iteration for two vertices -/
theorem loop_two {l rest : List Vtx} {ins : Ins} {fuel : Nat} (hl : Proper l) (hfuel : l.length ≤ fuel)
    (hM : 2 * l.length + 2 < M) (rest' : List Vtx) {pre : List Vtx} {s t : Vtx} {st : St} {D : List Nat} {R : List Arm}
    (hpre : l = pre ++ s :: t :: rest) (hp : PtInv pre st) (ht : st.TI l pre D R) :
    ∃ st2, st2.TI l pre D R ∧ st2.tree = st.tree ∧
      (s.pos ≠ t.pos → loop ins fuel (s :: t :: rest') st = .ok (false, st2)) ∧
      (s.pos = t.pos → s.edge ≠ t.edge ∧
        loop ins fuel (s :: t :: rest') st = (step ins fuel st2 s t >>= loop ins fuel rest') ∧
        Fine (step ins fuel st2 s t) fun st' => PtInv (pre ++ [s, t]) st' ∧ ∃ D' R', st'.TI l (pre ++ [s, t]) D' R') := by
  have hpre2 : l = (pre ++ [s]) ++ t :: rest := by rw [hpre]; simp
  unfold loop
  obtain ⟨st1, e1, p1, t1, l1, q1, u1, v1⟩ := getPt_ok (rest := t :: rest) hl hpre hp ht (by omega)
  rw [e1, bind_ok]
  -- the second vertex; the edges are those of the first
  have hget2 : ∃ st2, getPt st1 t = .ok st2 ∧ PtInv (pre ++ [s] ++ [t]) st2 ∧ st2.TI l pre D R ∧
      (s.pos = t.pos → s.edge ≠ t.edge → st2.pt s.edge s.rigt = st2.pt t.edge t.rigt) := by
    have hne1 : st1.res.points ≠ [] := by
      intro h
      have := p1.ptOk s (by simp)
      rw [h] at this; simp at this
    obtain ⟨st2, e2, p2, t2, l2, q2, u2, v2⟩ := getPt_ok (rest := rest) hl hpre2 p1 t1 (by omega)
    refine ⟨st2, e2, p2, t2, fun h hne => ?_⟩
    rw [u2 _ _ (fun hc => hne hc.1), q1, q2, v2 hne1 (by rw [l1, h])]
  obtain ⟨st2, e2, p2, t2, heq⟩ := hget2
  rw [e2, bind_ok]
  refine ⟨st2, t2, by rw [getPt_tree e2, getPt_tree e1], fun hpos => by rw [if_pos hpos], fun hpos => ?_⟩
  rw [show pre ++ [s] ++ [t] = pre ++ [s, t] by simp] at p2
  have hne : s.edge ≠ t.edge := by
    intro he
    -- both ends of one edge at the same place
    rcases hl s.edge with h | ⟨a, b, hab, h⟩
    · have : s ∈ l.filter (fun v => v.edge = s.edge) := by rw [hpre]; simp
      rw [h] at this; simp at this
    · have h1 : [s, t].Sublist (l.filter (fun v => v.edge = s.edge)) := by
        have : [s, t] = [s, t].filter (fun v => v.edge = s.edge) := by simp [he]
        rw [this]
        apply List.Sublist.filter
        rw [hpre]
        exact (List.sublist_append_left [s, t] rest).trans (List.sublist_append_right pre _)
      rw [h] at h1
      have h2 := h1.eq_of_length rfl
      simp only [List.cons.injEq, and_true] at h2
      apply hab
      have h3 := congrArg Vtx.pos h2.1
      have h4 := congrArg Vtx.pos h2.2
      simp only at h3 h4
      rw [← h3, ← h4, hpos]
  refine ⟨hne, by rw [if_neg (by simpa using hpos)]; simp only [ass, if_pos hne]; rfl, ?_⟩
  unfold step
  split_ifs with h1 h2
  · refine (bend_ok hl hpre hpos hne t2).mono ?_
    rintro st' ⟨g1, g2, g3, R', g4⟩
    exact ⟨p2.congr g1 g2 g3, D, R', g4⟩
  · have hr : t.rigt = false := by
      have : s.rigt = t.rigt := not_not.1 h1
      rw [← this]; exact h2
    refine (start_ok hl hpre hpos hne h2 hr t2).mono ?_
    rintro st' ⟨g1, g2, g3, R', g4⟩
    exact ⟨p2.congr g1 g2 g3, D, R', g4⟩
  · have hs : s.rigt = true := by simpa using h2
    have hr : t.rigt = true := by
      have : s.rigt = t.rigt := not_not.1 h1
      rw [← this]; exact hs
    have := heq hpos hne
    rw [hs, hr] at this
    exact finish_ok hl hpre hpos hne hs hr p2 this t2 hfuel hM

/-- the loop over a part of the vertices -/
theorem loop_ok {l suf : List Vtx} {ins : Ins} {fuel : Nat} (hl : Proper l) (hfuel : l.length ≤ fuel)
    (hM : 2 * l.length + 2 < M) : ∀ {rest : List Vtx} {pre : List Vtx} {st : St} {D : List Nat} {R : List Arm},
    l = pre ++ (rest ++ suf) → (suf = [] ∨ rest.length % 2 = 0) → PtInv pre st → st.TI l pre D R →
    Fine (loop ins fuel rest st) fun r => r.1 = true → PtInv (pre ++ rest) r.2 ∧ ∃ D' R', r.2.TI l (pre ++ rest) D' R'
  | [], pre, st, D, R, _, _, hp, ht => by
    rw [List.append_nil]
    exact Fine.ok fun _ => ⟨hp, D, R, ht⟩
  | [s], pre, st, D, R, hpre, hev, hp, ht => by
    rcases hev with rfl | h
    · exact (not_alone hl hpre ht).elim
    · simp at h
  | s :: t :: rest', pre, st, D, R, hpre0, hev, hp, ht => by
    have hpre : l = pre ++ s :: t :: (rest' ++ suf) := by rw [hpre0]; rfl
    obtain ⟨st2, -, -, h1, h2⟩ := loop_two (ins := ins) hl hfuel hM rest' hpre hp ht
    by_cases hpos : s.pos = t.pos
    · obtain ⟨-, h3, h4⟩ := h2 hpos
      rw [h3]
      refine h4.bind ?_
      rintro st3 ⟨p3, D', R', t3⟩
      have := loop_ok (ins := ins) (rest := rest') (pre := pre ++ [s, t]) hl hfuel hM (by rw [hpre]; simp)
        (hev.imp_right fun h => by simp only [List.length_cons] at h; omega) p3 t3
      simpa using this
    · rw [h1 hpos]
      exact Fine.ok fun h => by simp at h

/-- the fields at the start -/
theorem init_ok {l : List Vtx} {ring : Ring.St} {back : Nat → Bool} {pt : Nat → Bool → Nat} :
    PtInv [] (init ring back pt) ∧ (init ring back pt).TI l [] [] [] := by
  refine ⟨⟨by simp, fun h => absurd rfl h, by simp [init], by simp [init]⟩, ?_⟩
  refine ⟨by simp [init], ?_, ?_, by simp, by simp [flat], ?_, by simp [init], by simp [init], by simp [init], by simp [init],
    by simp [init]⟩
  · intro e; simp [init, Started]
  · intro i e h; simp [init] at h
  · intro e; simp [flat, Started]

/-! ### the edges -/

theorem segs_fst {l : List Vtx} (hl : Proper l) : (segs l).map (·.1) = (l.filter fun v => !v.rigt).map (·.edge) := by
  have hf : ∀ v ∈ l, v.rigt = false → ∃ w ∈ l, w.edge = v.edge ∧ w.rigt = true := fun v hv hr =>
    proper_end hl ⟨v, hv, rfl, hr⟩
  unfold segs
  rw [List.map_filterMap, ← List.filterMap_eq_filter, List.map_filterMap]
  apply List.filterMap_congr
  intro v hv
  cases hr : v.rigt with
  | true => simp [Option.guard, hr]
  | false =>
    cases h : l.find? (fun w => w.edge = v.edge ∧ w.rigt = true) with
    | none =>
      rw [List.find?_eq_none] at h
      obtain ⟨w, hw, h1, h2⟩ := hf v hv hr
      exact absurd (h w hw) (by simp [h1, h2])
    | some w => simp [h, Option.guard, hr]

theorem segs_nodup {l : List Vtx} (hl : Proper l) : ((segs l).map (·.1)).Nodup := by
  rw [segs_fst hl, List.nodup_iff_count_le_one]
  intro e
  rw [List.count_eq_length_filter, List.filter_map, List.length_map, List.filter_filter]
  have : l.filter (fun a => ((fun x => x == e) ∘ fun x => x.edge) a && !a.rigt) =
      (l.filter fun v => v.edge = e).filter fun v => !v.rigt := by
    rw [List.filter_filter]
    apply List.filter_congr
    intro v _
    simp [Bool.and_comm, beq_eq_decide]
  rw [this]
  rcases hl e with h | ⟨a, b, -, h⟩
  · rw [h]; simp
  · rw [h]; simp

theorem segs_mem {l : List Vtx} (hl : Proper l) {e : Nat} : e ∈ (segs l).map (·.1) ↔ Started l e := by
  rw [segs_fst hl]
  simp [Started, and_comm, and_assoc, and_left_comm]

theorem segs_co {l : List Vtx} (hl : Proper l) {x : Nat × P × P} (hx : x ∈ segs l) :
    x.2.1 = co l x.1 false ∧ x.2.2 = co l x.1 true := by
  unfold segs at hx
  rw [List.mem_filterMap] at hx
  obtain ⟨v, hv, h⟩ := hx
  cases hr : v.rigt with
  | true => rw [hr] at h; simp at h
  | false =>
    rw [hr] at h
    simp only [Bool.false_eq_true, if_false] at h
    obtain ⟨w, hw, h1⟩ := Option.map_eq_some_iff.1 h
    have h2 := List.find?_some hw
    simp at h2
    subst h1
    have e1 := co_mem hl hv
    have e2 := co_mem hl (List.mem_of_find?_eq_some hw)
    rw [hr] at e1
    rw [h2.1, h2.2] at e2
    exact ⟨e1.symm, e2.symm⟩

/-- the number of vertices is even -/
theorem proper_even {l : List Vtx} (hl : Proper l) : l.length % 2 = 0 := by
  have h1 := segs_nodup hl
  have h2 : ((l.filter fun v => v.rigt).map (·.edge)).Nodup := by
    rw [List.nodup_iff_count_le_one]
    intro e
    rw [List.count_eq_length_filter, List.filter_map, List.length_map, List.filter_filter]
    have : l.filter (fun a => ((fun x => x == e) ∘ fun x => x.edge) a && a.rigt) =
        (l.filter fun v => v.edge = e).filter fun v => v.rigt := by
      rw [List.filter_filter]
      apply List.filter_congr
      intro v _
      simp [Bool.and_comm, beq_eq_decide]
    rw [this]
    rcases hl e with h | ⟨a, b, -, h⟩
    · rw [h]; simp
    · rw [h]; simp
  have h3 : ((segs l).map (·.1)).Perm ((l.filter fun v => v.rigt).map (·.edge)) := by
    rw [List.perm_ext_iff_of_nodup h1 h2]
    intro e
    rw [segs_mem hl]
    constructor
    · intro h
      obtain ⟨v, hv, e1, e2⟩ := proper_end hl h
      exact List.mem_map.2 ⟨v, List.mem_filter.2 ⟨hv, e2⟩, e1⟩
    · intro h
      obtain ⟨v, hv, e1⟩ := List.mem_map.1 h
      obtain ⟨hv, e2⟩ := List.mem_filter.1 hv
      rcases hl e with h | ⟨a, b, -, h⟩
      · have : v ∈ l.filter (fun v => v.edge = e) := by simp [hv, e1]
        rw [h] at this; simp at this
      · have : (⟨e, false, a⟩ : Vtx) ∈ l.filter (fun v => v.edge = e) := by rw [h]; simp
        exact ⟨_, (List.mem_filter.1 this).1, rfl, rfl⟩
  have h4 := h3.length_eq
  rw [segs_fst hl, List.length_map, List.length_map] at h4
  have h5 := List.length_eq_length_filter_add (l := l) fun v => v.rigt
  omega

/-- at the end there is nothing left -/
theorem final_perm {l : List Vtx} (hl : Proper l) {st : St} {D : List Nat} {R : List Arm} (ht : st.TI l l D R) :
    ((st.res.paths.flatMap cyc).map (cpair st.res.points)).Perm
      ((segs l).map fun x => (some (directed st.back x).1, some (directed st.back x).2)) := by
  have htree : st.tree = [] := by
    rw [List.eq_nil_iff_forall_not_mem]
    intro e he
    obtain ⟨h1, h2⟩ := (ht.treeIff e).1 he
    exact h2 (proper_end hl h1)
  have hR : R = [] := by
    rw [List.eq_nil_iff_forall_not_mem]
    intro r hr
    have := (ht.arms r hr).bt
    rw [htree] at this; simp at this
  subst hR
  have hnd : D.Nodup := by have := ht.nd; simpa [flat] using this
  have hperm : D.Perm ((segs l).map (·.1)) := by
    rw [List.perm_ext_iff_of_nodup hnd (segs_nodup hl)]
    intro e
    rw [segs_mem hl, ← ht.all e]
    simp [flat]
  refine ht.perm.trans ((hperm.map _).trans ?_)
  rw [List.map_map]
  apply List.Perm.of_eq
  apply List.map_congr_left
  intro x hx
  obtain ⟨h1, h2⟩ := segs_co hl hx
  simp only [Function.comp, dirOf, directed]
  cases hb : st.back x.1
  · simp [h1, h2]
  · simp [h1, h2]

/-! ### what does not change -/

theorem bind_some {α β : Type} {x : Except Err α} {f : α → Except Err β} {b : β} (h : x >>= f = .ok b) :
    ∃ a, x = .ok a ∧ f a = .ok b := by
  cases x with
  | error e => cases h
  | ok a => exact ⟨a, rfl, h⟩

theorem ass_some {c : Prop} [Decidable c] {e : Err} {u : Unit} (h : ass c e = .ok u) : c := by
  unfold ass at h
  split_ifs at h with hc
  exact hc

/-- one more vertex -/
theorem getPt_frame {st st' : St} {v : Vtx} (h : getPt st v = .ok st') : st'.back = st.back ∧ st'.last = v.pos ∧
    st'.res.points = if st.res.points.length = 0 ∨ st.last ≠ v.pos then st.res.points ++ [v.pos] else st.res.points := by
  unfold getPt at h
  obtain ⟨_, -, h⟩ := bind_some h
  obtain ⟨_, -, h⟩ := bind_some h
  cases h
  dsimp only
  split_ifs with hc
  · exact ⟨rfl, rfl, rfl⟩
  · rw [not_or, not_not] at hc
    exact ⟨rfl, hc.2, rfl⟩

theorem append_points {r r' : Res} {vi offs idx : Nat} (h : append r vi offs idx = .ok r') : r'.points = r.points := by
  unfold append at h
  obtain ⟨v, -, h⟩ := bind_some h
  obtain ⟨a, -, h⟩ := bind_some h
  simp only at h
  split_ifs at h
  · cases h; rfl
  · obtain ⟨_, -, h⟩ := bind_some h
    obtain ⟨_, -, h⟩ := bind_some h
    obtain ⟨_, -, h⟩ := bind_some h
    obtain ⟨_, -, h⟩ := bind_some h
    cases h; rfl

theorem walkLoop_points {st : St} {vi e first : Nat} : ∀ {k n cnt : Nat} {r : Res} {w : Nat × Res},
    walkLoop st vi e first k n cnt r = .ok w → w.2.points = r.points
  | 0, _, _, _, _, h => by cases h
  | k + 1, n, cnt, r, w, h => by
    unfold walkLoop at h
    simp only at h
    split_ifs at h
    · obtain ⟨_, -, h⟩ := bind_some h
      cases h; rfl
    · obtain ⟨r1, h1, h⟩ := bind_some h
      rw [walkLoop_points h, append_points h1]

/-- a step does not change points, and changes the direction only of edges that start -/
def Frame (st st' : St) (s t : Vtx) : Prop :=
  st'.res.points = st.res.points ∧ st'.last = st.last ∧
    ∀ e, ¬ (s.edge = e ∧ s.rigt = false) → ¬ (t.edge = e ∧ t.rigt = false) → st'.back e = st.back e

theorem bend_frame {st st' : St} {s t : Vtx} (h : bend st s t = .ok st') : Frame st st' s t := by
  unfold bend at h
  obtain ⟨_, -, h⟩ := bind_some h
  obtain ⟨_, hr, h⟩ := bind_some h
  have hr := ass_some hr
  obtain ⟨s1, h1, h⟩ := bind_some h
  unfold treeReplace at h1
  obtain ⟨_, -, h1⟩ := bind_some h1
  obtain ⟨_, -, h1⟩ := bind_some h1
  obtain ⟨_, -, h1⟩ := bind_some h1
  cases h1
  unfold listInsert at h
  obtain ⟨_, -, h⟩ := bind_some h
  obtain ⟨_, -, h⟩ := bind_some h
  obtain ⟨_, -, h⟩ := bind_some h
  obtain ⟨_, -, h⟩ := bind_some h
  obtain ⟨_, -, h⟩ := bind_some h
  have : ∀ e, ¬ (t.edge = e ∧ t.rigt = false) → (if e = t.edge then st.back s.edge else st.back e) = st.back e := by
    intro e he
    rw [if_neg (fun hc => he ⟨hc.symm, hr⟩)]
  split_ifs at h <;> (obtain ⟨_, -, h⟩ := bind_some h; cases h; exact ⟨rfl, rfl, fun e _ he => this e he⟩)

theorem start_frame {st st' : St} {s t : Vtx} {ins : Ins} (hs : s.rigt = false) (ht : t.rigt = false)
    (h : start ins st s t = .ok st') : Frame st st' s t := by
  unfold start at h
  obtain ⟨s1, h1, h⟩ := bind_some h
  obtain ⟨s2, h2, h⟩ := bind_some h
  obtain ⟨_, -, h⟩ := bind_some h
  unfold treeInsert at h1 h2
  obtain ⟨_, -, h1⟩ := bind_some h1
  split at h1
  · cases h1
  cases h1
  obtain ⟨_, -, h2⟩ := bind_some h2
  split at h2
  · cases h2
  cases h2
  unfold listInit2 at h
  obtain ⟨_, -, h⟩ := bind_some h
  cases h
  refine ⟨rfl, rfl, fun e h1 h2 => ?_⟩
  have e1 : e ≠ s.edge := fun hc => h1 ⟨hc.symm, hs⟩
  have e2 : e ≠ t.edge := fun hc => h2 ⟨hc.symm, ht⟩
  simp only [if_neg e1, if_neg e2]

theorem finish_frame {st st' : St} {s t : Vtx} {fuel : Nat} (h : finish fuel st s t = .ok st') : Frame st st' s t := by
  unfold finish at h
  obtain ⟨_, -, h⟩ := bind_some h
  obtain ⟨_, -, h⟩ := bind_some h
  obtain ⟨_, -, h⟩ := bind_some h
  have hrem : ∀ {st st' : St} {a : Nat}, treeRemove st a = .ok st' →
      st'.res = st.res ∧ st'.last = st.last ∧ st'.back = st.back := by
    intro st st' a h
    unfold treeRemove at h
    obtain ⟨_, -, h⟩ := bind_some h
    cases h
    exact ⟨rfl, rfl, rfl⟩
  generalize (if st.back t.edge then st.ring.prv t.edge else st.ring.nxt t.edge) = x at h
  split at h
  · obtain ⟨s1, h1, h⟩ := bind_some h
    obtain ⟨s2, h2, h⟩ := bind_some h
    obtain ⟨_, -, h⟩ := bind_some h
    obtain ⟨a1, a2, a3⟩ := hrem h1
    obtain ⟨b1, b2, b3⟩ := hrem h2
    unfold output at h
    obtain ⟨_, -, h⟩ := bind_some h
    obtain ⟨r1, c1, h⟩ := bind_some h
    obtain ⟨r2, c2, h⟩ := bind_some h
    obtain ⟨_, -, h⟩ := bind_some h
    obtain ⟨w, c3, h⟩ := bind_some h
    cases h
    refine ⟨?_, ?_, fun e _ _ => ?_⟩
    · change w.2.points = _
      rw [walkLoop_points c3, append_points c2, append_points c1, ← a1, ← b1]
    · change s2.last = _
      rw [b2, a2]
    · change s2.back e = _
      rw [b3, a3]
  · obtain ⟨s1, h1, h⟩ := bind_some h
    obtain ⟨s2, h2, h⟩ := bind_some h
    obtain ⟨a1, a2, a3⟩ := hrem h1
    obtain ⟨b1, b2, b3⟩ := hrem h2
    unfold listMerge at h
    obtain ⟨_, -, h⟩ := bind_some h
    obtain ⟨_, -, h⟩ := bind_some h
    obtain ⟨_, -, h⟩ := bind_some h
    obtain ⟨_, -, h⟩ := bind_some h
    obtain ⟨_, -, h⟩ := bind_some h
    have key : ∀ r : Ring.St, Frame st { s2 with ring := r } s t := fun r =>
      ⟨by change s2.res.points = _; rw [b1, a1], by change s2.last = _; rw [b2, a2],
        fun e _ _ => by change s2.back e = _; rw [b3, a3]⟩
    split_ifs at h <;> (obtain ⟨_, -, h⟩ := bind_some h; cases h; exact key _)

theorem step_frame {st st' : St} {s t : Vtx} {ins : Ins} {fuel : Nat} (h : step ins fuel st s t = .ok st') :
    Frame st st' s t := by
  unfold step at h
  split_ifs at h with h1 h2
  · exact bend_frame h
  · have : s.rigt = t.rigt := not_not.1 h1
    exact start_frame h2 (this ▸ h2) h
  · exact finish_frame h

/-- the parts of one iteration -/
theorem loop_cons {ins : Ins} {fuel : Nat} {s t : Vtx} {l : List Vtx} {st : St} {r : Bool × St}
    (h : loop ins fuel (s :: t :: l) st = .ok r) :
    ∃ st1 st2, getPt st s = .ok st1 ∧ getPt st1 t = .ok st2 ∧
      ((s.pos ≠ t.pos ∧ r = (false, st2)) ∨
        (s.pos = t.pos ∧ ∃ st3, step ins fuel st2 s t = .ok st3 ∧ loop ins fuel l st3 = .ok r)) := by
  unfold loop at h
  obtain ⟨st1, h1, h⟩ := bind_some h
  obtain ⟨st2, h2, h⟩ := bind_some h
  refine ⟨st1, st2, h1, h2, ?_⟩
  split_ifs at h with hp
  · cases h; exact .inl ⟨hp, rfl⟩
  · obtain ⟨_, -, h⟩ := bind_some h
    obtain ⟨st3, h3, h⟩ := bind_some h
    exact .inr ⟨not_not.1 hp, st3, h3, h⟩

/-- one more point -/
theorem getPt_points {st st1 : St} {s : Vtx} {l : List Vtx} (hb : ∀ v ∈ s :: l, ∀ p ∈ st.res.points, Le p v.pos)
    (h : st.res.points.Pairwise (fun p q => Le p q ∧ p ≠ q)) (hlast : st.res.points ≠ [] → st.res.points.getLast? = some st.last)
    (h1 : getPt st s = .ok st1) :
    st1.res.points.Pairwise (fun p q => Le p q ∧ p ≠ q) ∧
    (st1.res.points ≠ [] → st1.res.points.getLast? = some st1.last) ∧
    ∀ p ∈ st1.res.points, p ∈ st.res.points ∨ p = s.pos := by
  obtain ⟨-, e2, e3⟩ := getPt_frame h1
  rw [e2, e3]
  split_ifs with hc
  · refine ⟨?_, by simp, by simp⟩
    rw [List.pairwise_append]
    refine ⟨h, by simp, ?_⟩
    intro p hp q hq
    simp at hq; subst hq
    refine ⟨hb s (by simp) p hp, ?_⟩
    rintro rfl
    have hne : st.res.points ≠ [] := List.ne_nil_of_mem hp
    have hl := hlast hne
    rcases hc with hc | hc
    · exact hne (List.length_eq_zero_iff.1 hc)
    · -- the last point is at least `p`
      obtain ⟨A, hA⟩ : ∃ A, st.res.points = A ++ [st.last] := by
        obtain ⟨A, hA⟩ := List.getLast?_eq_some_iff.1 hl
        exact ⟨A, hA⟩
      rw [hA] at hp h
      rcases List.mem_append.1 hp with hp | hp
      · have h2 := (List.pairwise_append.1 h).2.2 _ hp st.last (by simp)
        have h3 := hb s (by simp) st.last (by rw [hA]; simp)
        exact h2.2 (Le.antisymm h2.1 h3)
      · simp at hp; exact hc hp.symm
  · rw [not_or, not_not] at hc
    refine ⟨h, fun hne => ?_, fun p hp => .inl hp⟩
    rw [hlast hne, hc.2]

/-- the flags of edges that started already do not change -/
theorem loop_back {ins : Ins} {fuel : Nat} : ∀ {l : List Vtx} {st : St} {r : Bool × St},
    loop ins fuel l st = .ok r → ∀ {e : Nat}, ¬ Started l e → r.2.back e = st.back e
  | [], st, r, h, e, _ => by cases h; rfl
  | [s], st, r, h, e, _ => by
    unfold loop at h
    obtain ⟨st1, h1, h⟩ := bind_some h
    cases h
    rw [(getPt_frame h1).1]
  | s :: t :: l, st, r, h, e, he => by
    obtain ⟨st1, st2, h1, h2, h⟩ := loop_cons h
    have e12 : st2.back = st.back := by rw [(getPt_frame h2).1, (getPt_frame h1).1]
    rcases h with ⟨-, rfl⟩ | ⟨-, st3, h3, h⟩
    · rw [e12]
    · have hs : ¬ (s.edge = e ∧ s.rigt = false) := fun hc => he ⟨s, by simp, hc⟩
      have ht : ¬ (t.edge = e ∧ t.rigt = false) := fun hc => he ⟨t, by simp, hc⟩
      rw [loop_back h (e := e) (fun ⟨v, hv, hc⟩ => he ⟨v, by simp [hv], hc⟩), (step_frame h3).2.2 e hs ht, e12]

/-- the loop in two parts -/
theorem loop_split {ins : Ins} {fuel : Nat} {l2 : List Vtx} : ∀ {l1 : List Vtx} {st st' : St}, l1.length % 2 = 0 →
    loop ins fuel (l1 ++ l2) st = .ok (true, st') →
    ∃ st1, loop ins fuel l1 st = .ok (true, st1) ∧ loop ins fuel l2 st1 = .ok (true, st')
  | [], st, st', _, h => ⟨st, rfl, h⟩
  | [s], st, st', hl, _ => by simp at hl
  | s :: t :: l, st, st', hl, h => by
    obtain ⟨st1, st2, h1, h2, h⟩ := loop_cons h
    rcases h with ⟨-, h⟩ | ⟨hp, st3, h3, h⟩
    · simp at h
    · obtain ⟨st4, h4, h5⟩ := loop_split (by simp at hl; omega) h
      refine ⟨st4, ?_, h5⟩
      unfold loop
      have hne : s.edge ≠ t.edge := by
        have := ‹loop ins fuel (s :: t :: l ++ l2) st = _›
        rw [List.cons_append, List.cons_append] at this
        unfold loop at this
        rw [h1, bind_ok, h2, bind_ok, if_neg (by simpa using hp)] at this
        obtain ⟨_, h6, -⟩ := bind_some this
        exact ass_some h6
      rw [h1, bind_ok, h2, bind_ok, if_neg (by simpa using hp)]
      simp only [ass, if_pos hne, bind_ok, h3, h4]

/-- success means that the vertices come in pairs at the same place -/
theorem loop_even {ins : Ins} {fuel : Nat} : ∀ {l : List Vtx} {st st' : St}, l.length % 2 = 0 →
    loop ins fuel l st = .ok (true, st') → ∀ p, (l.countP fun v => v.pos = p) % 2 = 0
  | [], _, _, _, _, p => rfl
  | [s], _, _, hl, _, p => by simp at hl
  | s :: t :: l, st, st', hl, h, p => by
    obtain ⟨st1, st2, h1, h2, h⟩ := loop_cons h
    rcases h with ⟨-, h⟩ | ⟨hp, st3, h3, h⟩
    · simp at h
    · have := loop_even (by simp at hl; omega) h p
      rw [List.countP_cons, List.countP_cons, hp]
      by_cases hc : t.pos = p
      · simp [hc]; omega
      · simp [hc]; exact this

/-- failure means that there is a single vertex at a place, if the vertices are sorted -/
theorem loop_odd {ins : Ins} {fuel : Nat} : ∀ {l : List Vtx} {st st' : St}, l.Pairwise (fun v w => Le v.pos w.pos) →
    loop ins fuel l st = .ok (false, st') → ∃ p, (l.countP fun v => v.pos = p) % 2 = 1
  | [], _, _, _, h => by cases h
  | [s], _, _, _, h => by
    unfold loop at h
    obtain ⟨_, -, h⟩ := bind_some h
    cases h
  | s :: t :: l, st, st', hl, h => by
    obtain ⟨st1, st2, h1, h2, h⟩ := loop_cons h
    rcases h with ⟨hp, h⟩ | ⟨hp, st3, h3, h⟩
    · refine ⟨s.pos, ?_⟩
      have hz : (l.countP fun v => v.pos = s.pos) = 0 := by
        rw [List.countP_eq_zero]
        intro v hv
        simp only [decide_eq_true_eq]
        intro hc
        have hst := (List.pairwise_cons.1 hl).1 t (by simp)
        have htv := (List.pairwise_cons.1 (List.pairwise_cons.1 hl).2).1 v hv
        rw [hc] at htv
        exact hp (Le.antisymm hst htv)
      rw [List.countP_cons, List.countP_cons, hz]
      have hts : ¬ t.pos = s.pos := fun hc => hp hc.symm
      simp [hts]
    · obtain ⟨p, hc⟩ := loop_odd (List.pairwise_cons.1 (List.pairwise_cons.1 hl).2).2 h
      refine ⟨p, ?_⟩
      rw [List.countP_cons, List.countP_cons, hp]
      by_cases hd : t.pos = p
      · simp [hd]; omega
      · simp [hd]; exact hc

/-- the points are sorted, if the vertices are -/
theorem loop_points {ins : Ins} {fuel : Nat} : ∀ {l : List Vtx} {st : St} {r : Bool × St},
    l.Pairwise (fun v w => Le v.pos w.pos) →
    (∀ v ∈ l, ∀ p ∈ st.res.points, Le p v.pos) → st.res.points.Pairwise (fun p q => Le p q ∧ p ≠ q) →
    (st.res.points ≠ [] → st.res.points.getLast? = some st.last) →
    loop ins fuel l st = .ok r → r.2.res.points.Pairwise (fun p q => Le p q ∧ p ≠ q)
  | [], _, _, _, _, h, _, e => by cases e; exact h
  | [s], st, r, _, hb, h, hlast, e => by
    unfold loop at e
    obtain ⟨st1, h1, e⟩ := bind_some e
    cases e
    exact (getPt_points hb h hlast h1).1
  | s :: t :: l, st, r, hl, hb, h, hlast, e => by
    obtain ⟨st1, st2, h1, h2, e⟩ := loop_cons e
    obtain ⟨p1, p2, p3⟩ := getPt_points hb h hlast h1
    have hl' := List.pairwise_cons.1 hl
    have hl'' := List.pairwise_cons.1 hl'.2
    have hb1 : ∀ v ∈ t :: l, ∀ p ∈ st1.res.points, Le p v.pos := by
      intro v hv p hp
      rcases p3 p hp with hp | rfl
      · exact hb v (List.mem_cons_of_mem _ hv) p hp
      · exact hl'.1 v hv
    obtain ⟨q1, q2, q3⟩ := getPt_points hb1 p1 p2 h2
    have hb2 : ∀ v ∈ l, ∀ p ∈ st2.res.points, Le p v.pos := by
      intro v hv p hp
      rcases q3 p hp with hp | rfl
      · exact hb1 v (List.mem_cons_of_mem _ hv) p hp
      · exact hl''.1 v hv
    rcases e with ⟨-, rfl⟩ | ⟨-, st3, h3, e⟩
    · exact q1
    · obtain ⟨f1, f2, -⟩ := step_frame h3
      refine loop_points hl''.2 ?_ ?_ ?_ e
      · rw [f1]; exact hb2
      · rw [f1]; exact q1
      · rw [f1, f2]; exact q2

end Hob3l.Poly
