import Verif.Ctx.Lemmas

/-!
Lemmas: if every error is reported, then an accepted tree gives all its shapes.
-/

namespace Hob3l.Ctx

open Hob3l.Args (Out)

variable {T M X S : Type}

/-- the shapes of a result -/
def shapes (l : List (Csg M X S)) : List (Thing M X S) := (thingss l).filter Thing.isShape

/-- the shapes that are wanted -/
def sh (w : List (Thing M X S)) : List (Thing M X S) := w.filter Thing.isShape

theorem shapes_append (a b : List (Csg M X S)) : shapes (a ++ b) = shapes a ++ shapes b := by
  simp [shapes, thingss_append]

theorem shapes_nil : shapes ([] : List (Csg M X S)) = [] := by simp [shapes, thingss]

theorem sh_append (a b : List (Thing M X S)) : sh (a ++ b) = sh a ++ sh b := by simp [sh]

/-- the conversion adds all shapes of `w` if it succeeds, and then `P` holds; `*no` is set only if there is a shape -/
def Exact (c : Conv M X S) (w : List (Thing M X S) × Prop) : Prop :=
  ∀ st st', c st = .ok st' →
    shapes st'.r = shapes st.r ++ sh w.1 ∧ (st'.no = true → st.no = true ∨ sh w.1 ≠ []) ∧ w.2

/-- all of a list -/
def allOf (ws : List (List (Thing M X S) × Prop)) : List (Thing M X S) × Prop :=
  ((ws.map (·.1)).flatten, ∀ w ∈ ws, w.2)

theorem fromV_exact {cs : List (Conv M X S)} {ws : List (List (Thing M X S) × Prop)} (h : List.Forall₂ Exact cs ws) :
    Exact (fromV cs) (allOf ws) := by
  induction h with
  | nil =>
    intro st st' h
    have := ok_inj (by simpa only [fromV] using h)
    subst this
    exact ⟨by simp [allOf, sh], .inl, by simp [allOf]⟩
  | @cons c w cs ws h1 _ ih =>
    intro st st' h
    simp only [fromV] at h
    obtain ⟨s1, e1, e2⟩ := bind_ok h
    obtain ⟨a1, b1, c1⟩ := h1 _ _ e1
    obtain ⟨a2, b2, c2⟩ := ih _ _ e2
    simp only [allOf] at a2 b2 c2 ⊢
    refine ⟨?_, ?_, ?_⟩
    · rw [a2, a1, List.map_cons, List.flatten_cons, sh_append, List.append_assoc]
    · intro hn
      rw [List.map_cons, List.flatten_cons, sh_append]
      rcases b2 hn with hn | hn
      · rcases b1 hn with hn | hn
        · exact .inl hn
        · exact .inr (by simp [hn])
      · exact .inr (by simp [hn])
    · intro x hx
      rcases List.mem_cons.mp hx with rfl | hx
      · exact c1
      · exact c2 x hx

theorem diffHead_exact {cs : List (Conv M X S)} {ws : List (List (Thing M X S) × Prop)} (h : List.Forall₂ Exact cs ws) :
    ∀ st q, diffHead cs st = .ok q → ∃ ws1 ws2, ws = ws1 ++ ws2 ∧ shapes q.1.r = shapes st.r ++ sh (allOf ws1).1 ∧
      (q.1.no = true → st.no = true ∨ sh (allOf ws1).1 ≠ []) ∧ (allOf ws1).2 ∧ List.Forall₂ Exact q.2 ws2 ∧
      (q.1.no = false → ws2 = []) := by
  induction h with
  | nil =>
    intro st q h
    have := ok_inj (by simpa only [diffHead] using h)
    subst this
    exact ⟨[], [], rfl, by simp [allOf, sh], .inl, by simp [allOf], .nil, fun _ => rfl⟩
  | @cons c w cs ws h1 ht ih =>
    intro st q h
    simp only [diffHead] at h
    split_ifs at h with hno
    · have := ok_inj h
      subst this
      exact ⟨[], w :: ws, rfl, by simp [allOf, sh], .inl, by simp [allOf], .cons h1 ht, fun h => by simp [hno] at h⟩
    · obtain ⟨s1, e1, e2⟩ := bind_ok h
      obtain ⟨a1, b1, c1⟩ := h1 _ _ e1
      obtain ⟨ws1, ws2, rfl, a2, b2, c2, d2, f2⟩ := ih _ _ e2
      simp only [allOf] at a2 b2 c2 ⊢
      refine ⟨w :: ws1, ws2, rfl, ?_, ?_, ?_, d2, f2⟩
      · rw [a2, a1, List.map_cons, List.flatten_cons, sh_append, List.append_assoc]
      · intro hn
        rw [List.map_cons, List.flatten_cons, sh_append]
        rcases b2 hn with hn | hn
        · rcases b1 hn with hn | hn
          · exact .inl hn
          · exact .inr (by simp [hn])
        · exact .inr (by simp [hn])
      · intro x hx
        rcases List.mem_cons.mp hx with rfl | hx
        · exact c1
        · exact c2 x hx

theorem diffTail_exact {f : List (Csg M X S)} {cs : List (Conv M X S)} {w : List (Thing M X S) × Prop}
    (h : Exact (fromV cs) w) (hf : f = [] → sh w.1 = [] ∧ w.2) (st st' : St M X S) (hk : diffTail f cs st = .ok st') :
    shapes st'.r = shapes st.r ++ (shapes f ++ sh w.1) ∧ (st'.no = true → st.no = true ∨ sh w.1 ≠ []) ∧ w.2 := by
  unfold diffTail at hk
  split at hk
  · have := ok_inj hk
    subst this
    obtain ⟨h1, h2⟩ := hf rfl
    exact ⟨by rw [h1]; simp [shapes_nil], .inl, h2⟩
  · obtain ⟨q, e1, e2⟩ := bind_ok hk
    have := ok_inj e2
    subst this
    obtain ⟨a1, b1, c1⟩ := h _ _ e1
    rename_i a b
    refine ⟨?_, b1, c1⟩
    rw [shapes_append]
    congr 1
    simp only [shapes, thingss_one, Csg.things, List.filter_append] at a1 ⊢
    rw [a1, List.append_assoc]
  · obtain ⟨q, e1, e2⟩ := bind_ok hk
    obtain ⟨a1, b1, c1⟩ := h _ _ e1
    simp only [shapes_nil, List.nil_append] at a1
    split_ifs at e2 with hz
    · have := ok_inj e2
      subst this
      have hq : q.r = [] := List.eq_nil_of_length_eq_zero hz
      rw [hq, shapes_nil] at a1
      exact ⟨by rw [← a1, shapes_append]; simp, b1, c1⟩
    · have := ok_inj e2
      subst this
      refine ⟨?_, b1, c1⟩
      rw [shapes_append]
      congr 1
      rw [← a1]
      simp [shapes, thingss_one, Csg.things]

theorem fromDiff_exact {cs : List (Conv M X S)} {ws : List (List (Thing M X S) × Prop)} (h : List.Forall₂ Exact cs ws) :
    Exact (fromDiff cs) (allOf ws) := by
  intro st st' hk
  unfold fromDiff at hk
  obtain ⟨q, e1, e2⟩ := bind_ok hk
  obtain ⟨ws1, ws2, rfl, a1, b1, c1, d1, f1⟩ := diffHead_exact h _ _ e1
  simp only [shapes_nil, List.nil_append] at a1
  have hf : q.1.r = [] → sh (allOf ws2).1 = [] ∧ (allOf ws2).2 := by
    intro hq
    rw [hq, shapes_nil] at a1
    have hn : q.1.no = false := by
      cases hn : q.1.no with
      | false => rfl
      | true => rcases b1 hn with h | h
                · cases h
                · exact absurd a1.symm h
    rw [f1 hn]
    simp [allOf, sh]
  obtain ⟨a2, b2, c2⟩ := diffTail_exact (fromV_exact d1) hf _ _ e2
  have hs : sh (allOf (ws1 ++ ws2)).1 = sh (allOf ws1).1 ++ sh (allOf ws2).1 := by
    simp [allOf, sh]
  refine ⟨?_, ?_, ?_⟩
  · rw [a2, hs, a1]
  · intro hn
    rw [hs]
    rcases b2 hn with hn | hn
    · simp only at hn
      split_ifs at hn with h1
      · rcases b1 h1 with h | h
        · cases h
        · exact .inr (by simp [h])
      · exact .inl hn
    · exact .inr (by simp [hn])
  · intro x hx
    rcases List.mem_append.mp hx with hx | hx
    · exact c1 x hx
    · exact c2 x hx

theorem interLoop_exact {cs : List (Conv M X S)} {ws : List (List (Thing M X S) × Prop)} (h : List.Forall₂ Exact cs ws) :
    ∀ cut st q, interLoop cs cut st = .ok q →
      sh (thingsss q.1) ++ shapes q.2.r = sh (thingsss cut) ++ shapes st.r ++ sh (allOf ws).1 ∧
      (q.2.no = true → st.no = true ∨ sh (allOf ws).1 ≠ []) ∧ (allOf ws).2 := by
  induction h with
  | nil =>
    intro cut st q h
    have := ok_inj (by simpa only [interLoop] using h)
    subst this
    exact ⟨by simp [allOf, sh], .inl, by simp [allOf]⟩
  | @cons c w cs ws h1 _ ih =>
    intro cut st q h
    simp only [interLoop] at h
    obtain ⟨s1, e1, e2⟩ := bind_ok h
    obtain ⟨a1, b1, c1⟩ := h1 _ _ e1
    obtain ⟨a2, b2, c2⟩ := ih _ _ _ e2
    have hz : (if st.r.length > 0 then [] else st.r) = [] := by
      split_ifs with hz
      · rfl
      · exact List.eq_nil_of_length_eq_zero (by omega)
    simp only [hz, shapes_nil, List.nil_append] at a1
    simp only [allOf] at a2 b2 c2 ⊢
    refine ⟨?_, ?_, ?_⟩
    · rw [a2, thingsss_cutPush, a1, List.map_cons, List.flatten_cons, sh_append, sh_append]
      simp [shapes, sh]
    · intro hn
      rw [List.map_cons, List.flatten_cons, sh_append]
      rcases b2 hn with hn | hn
      · rcases b1 hn with hn | hn
        · exact .inl hn
        · exact .inr (by simp [hn])
      · exact .inr (by simp [hn])
    · intro x hx
      rcases List.mem_cons.mp hx with rfl | hx
      · exact c1
      · exact c2 x hx

theorem fromInter_exact {cs : List (Conv M X S)} {ws : List (List (Thing M X S) × Prop)} (h : List.Forall₂ Exact cs ws) :
    Exact (fromInter cs) (allOf ws) := by
  intro st st' hk
  unfold fromInter at hk
  obtain ⟨q, e1, e2⟩ := bind_ok hk
  obtain ⟨a1, b1, c1⟩ := interLoop_exact h _ _ _ e1
  simp only [shapes_nil, thingsss, List.append_nil] at a1
  have hn : sh ([] : List (Thing M X S)) = [] := rfl
  rw [hn, List.nil_append] at a1
  split_ifs at e2 with h1 h2
  · have := ok_inj e2
    subst this
    have hq : q.1 = [] := List.eq_nil_of_length_eq_zero h1
    rw [hq, thingsss, hn, List.nil_append] at a1
    exact ⟨by rw [shapes_append, a1], b1, c1⟩
  · have := ok_inj e2
    subst this
    refine ⟨?_, b1, c1⟩
    rw [shapes_append, ← a1]
    simp [shapes, sh, thingss_one, Csg.things, thingsss_cutPush]

theorem fromExt_exact {e : Env T M X S} (he : Strict e) (hf : Filled e) {two : Bool} {m : M} {g : Gc} {x : X}
    {k : Conv M X S} {w : List (Thing M X S) × Prop} (h : Exact k w) :
    Exact (fromExt e two m g x k) (.ext x m g :: w.1, two = false ∧ w.2) := by
  intro st st' hk
  unfold fromExt at hk
  have hs : sh (.ext x m g :: w.1) = sh w.1 := by simp [sh, Thing.isShape]
  simp only [hs]
  cases two with
  | true =>
    obtain ⟨h, _⟩ := msg_ok hk
    rw [he.three] at h; cases h
  | false =>
    simp only [Bool.false_eq_true, if_false] at hk ⊢
    obtain ⟨q, e1, e2⟩ := bind_ok hk
    obtain ⟨a1, b1, c1⟩ := h _ _ e1
    simp only [shapes_nil, List.nil_append] at a1
    split at e2
    · cases e2
    · obtain ⟨h, _⟩ := msg_ok e2
      rw [he.empty] at h; cases h
    · rename_i hx
      have := ok_inj e2
      subst this
      rw [hf.extr _ _ hx, shapes_nil] at a1
      exact ⟨by rw [← a1]; simp, b1, trivial, c1⟩
    · have := ok_inj e2
      subst this
      refine ⟨?_, b1, trivial, c1⟩
      rw [shapes_append, ← a1]
      simp [shapes, thingss_one, Csg.things, Thing.isShape]

theorem fromHull_exact {e : Env T M X S} (he : Strict e) (hf : Filled e) {two : Bool} {k : Conv M X S}
    {w : List (Thing M X S) × Prop} (h : Exact k w) : Exact (fromHull e two k) (w.1, two = true ∧ w.2) := by
  intro st st' hk
  unfold fromHull at hk
  cases two with
  | false =>
    obtain ⟨h, _⟩ := msg_ok hk
    rw [he.three] at h; cases h
  | true =>
    simp only [Bool.true_eq_false, if_false] at hk ⊢
    obtain ⟨q, e1, e2⟩ := bind_ok hk
    obtain ⟨a1, b1, c1⟩ := h _ _ e1
    simp only [shapes_nil, List.nil_append] at a1
    split at e2
    · cases e2
    · have := ok_inj e2
      subst this
      refine ⟨?_, b1, trivial, c1⟩
      rw [shapes_append, ← a1]
      simp [shapes, thingss_one, Csg.things]
    · rename_i h1 h2
      have := ok_inj e2
      subst this
      rw [hf.hull _ h2 h1, shapes_nil] at a1
      exact ⟨by rw [← a1]; simp, b1, trivial, c1⟩

theorem fromProj_exact {e : Env T M X S} (he : Strict e) {two cut : Bool} {k : Conv M X S}
    {w : List (Thing M X S) × Prop} (h : Exact k w) :
    Exact (fromProj e two cut k) (w.1, (two = true ∧ cut = true) ∧ w.2) := by
  intro st st' hk
  unfold fromProj at hk
  cases two with
  | false =>
    obtain ⟨h, _⟩ := msg_ok hk
    rw [he.two] at h; cases h
  | true =>
    simp only [Bool.true_eq_false, if_false] at hk ⊢
    obtain ⟨q, e1, e2⟩ := bind_ok hk
    obtain ⟨a1, b1, c1⟩ := h _ _ e1
    simp only [shapes_nil, List.nil_append] at a1
    cases cut with
    | false => cases e2
    | true =>
      have := ok_inj e2
      subst this
      refine ⟨?_, b1, ⟨trivial, rfl⟩, c1⟩
      rw [shapes_append, ← a1]
      simp [shapes, thingss_one, Csg.things]

theorem fromShape_exact {e : Env T M X S} (he : Strict e) {two : Bool} {m : M} {g : Gc} {s : S} :
    Exact (fromShape e two m g s) ([.shape s m g], e.is2 s = two ∧ e.size s = .good) := by
  intro st st' hk
  unfold fromShape at hk
  by_cases h1 : e.file s = true ∧ e.size s = .unread
  · rw [if_pos h1] at hk
    cases hk
  rw [if_neg h1] at hk
  by_cases h2 : e.is2 s ≠ two
  · rw [if_pos h2] at hk
    obtain ⟨h, _⟩ := msg_ok hk
    split_ifs at h
    · rw [he.two] at h; cases h
    · rw [he.three] at h; cases h
  · rw [if_neg h2] at hk
    have h3 : e.is2 s = two := by simpa using h2
    split at hk
    · rename_i h4
      have := ok_inj hk
      subst this
      refine ⟨?_, fun _ => .inr (by simp [sh, Thing.isShape]), h3, h4⟩
      rw [shapes_append]
      simp [shapes, thingss_one, Csg.things, sh]
    · obtain ⟨h, _⟩ := msg_ok hk
      rw [he.empty] at h; cases h
    · cases hk

theorem fromXform_exact [Mul M] {e : Env T M X S} (he : Strict e) {x : Xf M} {m : M} {k : M → Conv M X S}
    {w : List (Thing M X S) × Prop}
    (h1 : x = .same → Exact (k m) w) (h2 : ∀ t, x = .mat t → Exact (k (m * t)) w) :
    Exact (fromXform e x m k) (w.1, (x ≠ .bad ∧ x ≠ .collapse) ∧ w.2) := by
  intro st st' hk
  unfold fromXform at hk
  split at hk
  · cases hk
  · obtain ⟨h, _⟩ := msg_ok hk
    rw [he.collapse] at h; cases h
  · obtain ⟨a, b, c⟩ := h1 rfl _ _ hk
    exact ⟨a, b, ⟨by simp, by simp⟩, c⟩
  · obtain ⟨a, b, c⟩ := h2 _ rfl _ _ hk
    exact ⟨a, b, ⟨by simp, by simp⟩, c⟩

theorem Exact.mono {c : Conv M X S} {w w' : List (Thing M X S) × Prop} (h : Exact c w) (hs : w.1 = w'.1) (hp : w.2 → w'.2) :
    Exact c w' := by
  intro st st' hk
  obtain ⟨a, b, d⟩ := h st st' hk
  rw [hs] at a b
  exact ⟨a, b, hp d⟩

/-- the shapes and extrusions of the paths that are not disabled -/
def shown [Mul M] [One M] (e : Env T M X S) (q : Path T X S) (l : List (Path T X S)) : List (Thing M X S) :=
  (l.filter visible).filterMap fun p => thingOf e (q ++ p)

theorem shown_append [Mul M] [One M] (e : Env T M X S) (q : Path T X S) (a b : List (Path T X S)) :
    shown e q (a ++ b) = shown e q a ++ shown e q b := by
  simp [shown, List.filter_append, List.filterMap_append]

theorem shown_map [Mul M] [One M] (e : Env T M X S) (q : Path T X S) (f : Frame T X S) (l : List (Path T X S)) :
    shown e q (l.map (f :: ·)) = if ignored f.2 then [] else shown e (q ++ [f]) l := by
  unfold shown
  induction l with
  | nil => simp
  | cons p l ih =>
    rw [List.map_cons, List.filter_cons]
    simp only [visible, List.all_cons]
    rcases Bool.eq_false_or_eq_true (ignored f.2) with hf | hf
    · simp only [hf, Bool.not_true, Bool.false_and, Bool.false_eq_true, if_false, if_true] at ih ⊢
      exact ih
    · simp only [hf, Bool.not_false, Bool.true_and, Bool.false_eq_true, if_false] at ih ⊢
      rw [List.filter_cons]
      simp only [visible]
      rcases Bool.eq_false_or_eq_true (p.all fun f => !ignored f.2) with hp | hp
      rotate_left
      · simpa [hp] using ih
      · simp only [hp, if_true, List.filterMap_cons]
        rw [ih, show q ++ f :: p = q ++ [f] ++ p by simp]

theorem shown_one [Mul M] [One M] (e : Env T M X S) (q : Path T X S) (f : Frame T X S) :
    shown e q [[f]] = if ignored f.2 then [] else (thingOf e (q ++ [f])).toList := by
  unfold shown
  simp only [List.filter_cons, visible, List.all_cons, List.all_nil, Bool.and_true, List.filter_nil]
  cases ignored f.2 with
  | true => simp
  | false =>
    simp only [Bool.not_false, if_true, List.filterMap_cons, List.filterMap_nil]; cases thingOf e (q ++ [f]) <;> rfl

/-- every object of the list of objects below `q` is fine unless it is disabled -/
def Fine (e : Env T M X S) (q : Path T X S) (l : List (Path T X S × Tree T X S)) : Prop :=
  ∀ x ∈ l, visible (x.1 ++ [x.2.frame]) = true → okAt e (q ++ x.1) x.2.frame = true

theorem fine_cons {e : Env T M X S} {q : Path T X S} {t : Tree T X S} {l : List (Path T X S × Tree T X S)}
    (h1 : ignored t.frame.2 = false → okAt e q t.frame = true) (h2 : ignored t.frame.2 = false → Fine e (q ++ [t.frame]) l) :
    Fine e q (([], t) :: l.map fun p => (t.frame :: p.1, p.2)) := by
  intro x hx hv
  rcases List.mem_cons.mp hx with rfl | hx
  · simp only [List.nil_append, List.append_nil] at hv ⊢
    exact h1 (by simpa [visible] using hv)
  · obtain ⟨p, hp, rfl⟩ := List.mem_map.mp hx
    simp only [List.cons_append, visible, List.all_cons, Bool.and_eq_true, Bool.not_eq_true'] at hv
    have := h2 hv.1 p hp (by simpa [visible] using hv.2)
    simpa using this

theorem fine_append {e : Env T M X S} {q : Path T X S} {a b : List (Path T X S × Tree T X S)} (h1 : Fine e q a)
    (h2 : Fine e q b) : Fine e q (a ++ b) := by
  intro x hx
  rcases List.mem_append.mp hx with hx | hx
  · exact h1 x hx
  · exact h2 x hx

theorem nodes_mk {id : Nat} {n : Node T X S} {mods : Nat} {l : List (Tree T X S)} (h : ∀ s, n ≠ .shape s) :
    nodes (.mk id n mods l) = ([], .mk id n mods l) :: (nodess l).map fun p => ((n, mods) :: p.1, p.2) := by
  cases n with
  | shape s => exact absurd rfl (h s)
  | _ => simp [nodes]

theorem paths_mk {id : Nat} {n : Node T X S} {mods : Nat} {l : List (Tree T X S)} (h : ∀ s, n ≠ .shape s)
    (h2 : ∀ x, n ≠ .ext x) : paths (.mk id n mods l) = (pathss l).map ((n, mods) :: ·) := by
  cases n with
  | shape s => exact absurd rfl (h s)
  | ext x => exact absurd rfl (h2 x)
  | _ => simp [paths]

theorem fine_mk {e : Env T M X S} {q : Path T X S} {id : Nat} {n : Node T X S} {mods : Nat} {l : List (Tree T X S)}
    (hn : ∀ s, n ≠ .shape s) (h1 : okAt e q (n, mods) = true) (h2 : Fine e (q ++ [(n, mods)]) (nodess l)) :
    Fine e q (nodes (.mk id n mods l)) := by
  rw [nodes_mk hn]
  exact fine_cons (t := .mk id n mods l) (fun _ => h1) (fun _ => h2)

theorem fine_ignored {e : Env T M X S} {q : Path T X S} {id : Nat} {n : Node T X S} {mods : Nat} {l : List (Tree T X S)}
    (hi : ignored mods = true) : Fine e q (nodes (.mk id n mods l)) := by
  intro x hx hv
  exfalso
  have key : x.1 = [] ∧ x.2.frame = (n, mods) ∨ ∃ p, x.1 = (n, mods) :: p := by
    cases n <;> simp only [nodes, List.mem_cons, List.mem_map, List.not_mem_nil, or_false] at hx
    case shape s => exact .inl (by rw [hx]; exact ⟨rfl, rfl⟩)
    all_goals
      rcases hx with rfl | ⟨p, _, rfl⟩
      · exact .inl ⟨rfl, rfl⟩
      · exact .inr ⟨_, rfl⟩
  rcases key with ⟨h1, h2⟩ | ⟨p, h1⟩
  · rw [h1, h2] at hv; simp [visible, hi] at hv
  · rw [h1] at hv; simp [visible, hi] at hv

mutual
theorem conv_exact [Mul M] [One M] {e : Env T M X S} (he : Strict e) (hf : Filled e) (q : Path T X S) (t : Tree T X S) :
    Exact (conv e none (twoOf q) (matAt e q) (gcOf q) t) (shown e q (paths t), Fine e q (nodes t)) := by
  obtain ⟨id, n, mods, l⟩ := t
  intro st st' hk
  unfold conv at hk
  have hhit : hit none id mods = false := by simp [hit]
  simp only [hhit, Option.isSome_none, Bool.false_and, Bool.false_eq_true, if_false] at hk
  cases hi : ignored mods with
  | true =>
    simp only [hi, if_true] at hk
    have := ok_inj hk
    subst this
    have hsh : shown e q (paths (.mk id n mods l)) = [] := by
      cases n <;> simp only [paths, shown_map, shown_one, hi, if_true]
      rw [← List.singleton_append, shown_append, shown_map, shown_one]
      simp [hi]
    rw [hsh]
    exact ⟨by simp [sh], .inl, fine_ignored hi⟩
  | false =>
    simp only [hi, Bool.false_eq_true, if_false] at hk
    have ihf := convs_exact he hf (q ++ [(n, mods)]) l
    have hall := allOf_children e (q ++ [(n, mods)]) l
    have hfine : (allOf (l.map fun t => (shown e (q ++ [(n, mods)]) (paths t), Fine e (q ++ [(n, mods)]) (nodes t)))).2 →
        Fine e (q ++ [(n, mods)]) (nodess l) := fun h => fine_children e _ l h
    have hg := gcOf_snoc q n mods
    have hm := matAt_snoc e q n mods
    have h2 := twoOf_snoc q n mods
    rw [hg, hm, h2] at ihf
    cases n with
    | union =>
      simp only [Node.fresh, Bool.false_eq_true, if_false] at ihf
      refine (fromV_exact ihf).mono ?_ ?_ _ _ hk
      · rw [hall, paths_mk (by simp) (by simp), shown_map]; simp [hi]
      · exact fun h => fine_mk (by simp) (by simp [okAt, hi]) (hfine h)
    | diff =>
      simp only [Node.fresh, Bool.false_eq_true, if_false] at ihf
      refine (fromDiff_exact ihf).mono ?_ ?_ _ _ hk
      · rw [hall, paths_mk (by simp) (by simp), shown_map]; simp [hi]
      · exact fun h => fine_mk (by simp) (by simp [okAt, hi]) (hfine h)
    | inter =>
      simp only [Node.fresh, Bool.false_eq_true, if_false] at ihf
      refine (fromInter_exact ihf).mono ?_ ?_ _ _ hk
      · rw [hall, paths_mk (by simp) (by simp), shown_map]; simp [hi]
      · exact fun h => fine_mk (by simp) (by simp [okAt, hi]) (hfine h)
    | color c a =>
      simp only [Node.fresh, Bool.false_eq_true, if_false] at ihf
      refine (fromV_exact ihf).mono ?_ ?_ _ _ hk
      · rw [hall, paths_mk (by simp) (by simp), shown_map]; simp [hi]
      · exact fun h => fine_mk (by simp) (by simp [okAt, hi]) (hfine h)
    | xform t =>
      simp only at ihf
      refine (fromXform_exact he
        (w := allOf (l.map fun t' => (shown e (q ++ [(.xform t, mods)]) (paths t'), Fine e (q ++ [(.xform t, mods)]) (nodes t'))))
        ?_ ?_).mono ?_ ?_ _ _ hk
      · intro hx
        rw [hx] at ihf
        exact fromV_exact ihf
      · intro x hx
        rw [hx] at ihf
        exact fromV_exact ihf
      · simp only
        rw [hall, paths_mk (by simp) (by simp), shown_map]; simp [hi]
      · rintro ⟨⟨h1, h2⟩, h⟩
        refine fine_mk (by simp) ?_ (hfine h)
        simp only [okAt, hi]
        cases hx : e.xf t with
        | bad => exact absurd hx h1
        | collapse => exact absurd hx h2
        | same => rfl
        | mat t => rfl
    | ext x =>
      simp only [Node.fresh, if_true] at ihf
      refine (fromExt_exact he hf (fromV_exact ihf)).mono ?_ ?_ _ _ hk
      · simp only
        rw [hall, paths, show ∀ (a : Path T X S) b, a :: b = [a] ++ b from fun _ _ => rfl, shown_append, shown_one,
          shown_map, thingOf_snoc, hg]
        simp [hi, gcOf]
      · rintro ⟨h1, h⟩
        exact fine_mk (by simp) (by simp [okAt, hi, h1]) (hfine h)
    | hull =>
      simp only [Node.fresh, if_true] at ihf
      refine (fromHull_exact he hf (fromV_exact ihf)).mono ?_ ?_ _ _ hk
      · simp only
        rw [hall, paths_mk (by simp) (by simp), shown_map]; simp [hi]
      · rintro ⟨h1, h⟩
        exact fine_mk (by simp) (by simp [okAt, hi, h1]) (hfine h)
    | proj cut =>
      simp only [Node.fresh, if_true] at ihf
      refine (fromProj_exact he (fromV_exact ihf)).mono ?_ ?_ _ _ hk
      · simp only
        rw [hall, paths_mk (by simp) (by simp), shown_map]; simp [hi]
      · rintro ⟨h1, h⟩
        exact fine_mk (by simp) (by simp [okAt, hi, h1]) (hfine h)
    | shape s =>
      refine (fromShape_exact he).mono ?_ ?_ _ _ hk
      · simp only
        rw [paths, shown_one, thingOf_snoc, hg]
        simp [hi, gcOf]
      · rintro ⟨h1, h2⟩
        intro x hx _
        simp only [nodes, List.mem_singleton] at hx
        subst hx
        simp [okAt, hi, Tree.frame, h1, h2]
termination_by sizeOf t

theorem convs_exact [Mul M] [One M] {e : Env T M X S} (he : Strict e) (hf : Filled e) (q : Path T X S)
    (l : List (Tree T X S)) :
    List.Forall₂ Exact (convs e none (twoOf q) (matAt e q) (gcOf q) l)
      (l.map fun t => (shown e q (paths t), Fine e q (nodes t))) := by
  match l with
  | [] => simp [convs]
  | t :: l =>
    rw [convs, List.map_cons]
    exact .cons (conv_exact he hf q t) (convs_exact he hf q l)
termination_by sizeOf l

theorem allOf_children [Mul M] [One M] (e : Env T M X S) (q : Path T X S) (l : List (Tree T X S)) :
    (allOf (l.map fun t => (shown e q (paths t), Fine e q (nodes t)))).1 = shown e q (pathss l) := by
  match l with
  | [] => simp [allOf, pathss, shown]
  | t :: l =>
    have := allOf_children e q l
    simp only [allOf, List.map_cons, List.flatten_cons, pathss, shown_append] at this ⊢
    rw [this]
termination_by sizeOf l

theorem fine_children [Mul M] [One M] (e : Env T M X S) (q : Path T X S) (l : List (Tree T X S))
    (h : (allOf (l.map fun t => (shown e q (paths t), Fine e q (nodes t)))).2) : Fine e q (nodess l) := by
  match l with
  | [] => rw [nodess]; intro x hx; cases hx
  | t :: l =>
    rw [nodess]
    refine fine_append (h _ (by rw [List.map_cons]; exact .head _)) (fine_children e q l ?_)
    intro w hw
    exact h w (by rw [List.map_cons]; exact .tail _ hw)
termination_by sizeOf l
end

end Hob3l.Ctx
