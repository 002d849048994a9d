import Verif.Poly.LemmasBelow
import Verif.Poly.Props
import Verif.Dict.Props
import Mathlib.Tactic.IntervalCases

/-!
The properties of the construction of polygon paths for edges in the plane.
-/

namespace Hob3l.Poly

/-- C69: For every arrangement of edges that have no common points except common ends, with the ends in the order of the sweep, the
tracing of paths violates no assertion at all, accesses no array out of bounds and ends; it succeeds if and only if each point is
an end of an even number of edges. -/
theorem C69_total {ed : Nat → Bool → P} {l : List Vtx} (ring : Ring.St) (back : Nat → Bool) (pt : Nat → Bool → Nat) {ins : Ins}
    {fuel : Nat} (hl : Proper l) (ha : Arranged ed l) (hins : IsSearch ed ins) (hfuel : l.length ≤ fuel)
    (hM : 2 * l.length + 2 < 2 ^ 32) :
    ∃ ok st, poly ring back pt ins fuel l = .ok (ok, st) ∧ (ok = true ↔ ∀ p, degree l p % 2 = 0) := by
  obtain ⟨hp, ht⟩ := init_ok (l := l) (ring := ring) (back := back) (pt := pt)
  have hg := loop_good (suf := []) (ins := ins) (rest := l) hl ha hins hfuel hM (by simp) (.inl rfl) hp ht (by simp [init])
  rcases C55_conserved ring back pt ins hl hfuel hM with h | ⟨ok, st, h, -⟩
  · exact absurd h hg.1
  · exact ⟨ok, st, h, C66_holes hl (arranged_le hl ha) h⟩

/-- C69: The search that is assumed in `C69_total` is the one of the dictionary: for every valid tree of edges that are smaller than
the vertex, followed by edges that are greater, the new edge is inserted between them. -/
theorem C69_search (ed : Nat → Bool → P) (v : Vtx) (A B : List Nat) (hA : ∀ e ∈ A, treeCmp ed v e = some 1)
    (hB : ∀ e ∈ B, treeCmp ed v e = some (-1)) (hv : v.edge ∉ A ++ B) (t : Dict.Tree Nat) (ht : Dict.Valid t)
    (hl : Dict.toList t = A ++ B) :
    ∃ t', Dict.insertUpdateBy v.edge (fun e => (treeCmp ed v e).getD 0) 0 t (A ++ B).head? (A ++ B).getLast? =
        some ⟨none, t', Dict.rootId t', (Dict.toList t').head?, (Dict.toList t').getLast?⟩ ∧
      Dict.Valid t' ∧ Dict.toList t' = A ++ v.edge :: B := by
  obtain ⟨cmp, hcmp⟩ : ∃ cmp : Nat → Int, cmp = fun e => (treeCmp ed v e).getD 0 := ⟨_, rfl⟩
  have cA : ∀ e ∈ A, cmp e = 1 := fun e he => by rw [hcmp]; simp only [hA e he, Option.getD_some]
  have cB : ∀ e ∈ B, cmp e = -1 := fun e he => by rw [hcmp]; simp only [hB e he, Option.getD_some]
  have hs : Dict.Sorted cmp (Dict.toList t) := by
    rw [hl]
    unfold Dict.Sorted
    rw [List.pairwise_append]
    refine ⟨?_, ?_, fun a ha b hb => ?_⟩
    · exact List.pairwise_of_forall_mem_list fun a ha b hb => by rw [cA a ha, cA b hb]; omega
    · exact List.pairwise_of_forall_mem_list fun a ha b hb => by rw [cB a ha, cB b hb]; omega
    · rw [cA a ha, cB b hb]; omega
  have hne : ∀ a ∈ Dict.toList t, cmp a ≠ 0 := by
    intro a ha
    rw [hl] at ha
    rcases List.mem_append.1 ha with ha | ha
    · rw [cA a ha]; omega
    · rw [cB a ha]; omega
  obtain ⟨t', h1, h2, h3⟩ := (Dict.C30_insert_by t ht v.edge (by rw [hl]; exact hv) cmp 0 hs).2
    ((Dict.C30_lookup t cmp hs).2 hne)
  refine ⟨t', ?_, h2, ?_⟩
  · rw [hl] at h1
    rw [← hcmp]
    exact h1
  · rw [h3, hl, List.filter_append, List.filter_append]
    have f1 : A.filter (fun a => cmp a > 0 ∨ (cmp a = 0 ∧ (0 : Int) > 0)) = A :=
      List.filter_eq_self.2 fun a ha => by simp [cA a ha]
    have f2 : B.filter (fun a => cmp a > 0 ∨ (cmp a = 0 ∧ (0 : Int) > 0)) = [] :=
      List.filter_eq_nil_iff.2 fun a ha => by simp [cB a ha]
    have f3 : A.filter (fun a => cmp a < 0 ∨ (cmp a = 0 ∧ ¬ (0 : Int) > 0)) = [] :=
      List.filter_eq_nil_iff.2 fun a ha => by simp [cA a ha]
    have f4 : B.filter (fun a => cmp a < 0 ∨ (cmp a = 0 ∧ ¬ (0 : Int) > 0)) = B :=
      List.filter_eq_self.2 fun a ha => by simp [cB a ha]
    rw [f1, f2, f3, f4]
    simp

/-- C70: For such an arrangement, each edge is directed backward (from right to left) if and only if the number of edges below it
is even, counted on any vertical line through the edge that meets no end.  So the area that is inside by the even-odd rule is on
the same side of all edges. -/
theorem C70_inside {ed : Nat → Bool → P} {l : List Vtx} {ring : Ring.St} {back : Nat → Bool} {pt : Nat → Bool → Nat} {ins : Ins}
    {fuel : Nat} {st : St} (hl : Proper l) (ha : Arranged ed l) (hins : IsSearch ed ins) (hfuel : l.length ≤ fuel)
    (hM : 2 * l.length + 2 < 2 ^ 32) (h : poly ring back pt ins fuel l = .ok (true, st)) {x : ℚ}
    (hx : ∀ v ∈ l, (v.pos.1 : ℚ) ≠ x) {v : Vtx} (hv : v ∈ l) (hc : Crosses ed x v.edge) :
    st.back v.edge = true ↔ numBelow ed l x (heightAt ed v.edge x) % 2 = 0 := by
  have hdeg := (C66_holes hl (arranged_le hl ha) h).1 rfl
  -- the vertices to the left of the line
  obtain ⟨A, B, rfl, hA, hB⟩ := split_of (T := l) (p := fun w => decide ((w.pos.1 : ℚ) < x) = true)
    (q := fun w => decide ((w.pos.1 : ℚ) < x) = false) (fun w _ => by cases decide ((w.pos.1 : ℚ) < x) <;> simp) (by
      refine (arranged_le hl ha).imp ?_
      intro a b hab hb
      rw [decide_eq_true_eq] at hb ⊢
      have : a.pos.1 ≤ b.pos.1 := by unfold Le at hab; omega
      have : (a.pos.1 : ℚ) ≤ b.pos.1 := by exact_mod_cast this
      linarith)
  have hA' : ∀ w ∈ A, (w.pos.1 : ℚ) < x := fun w hw => of_decide_eq_true (hA w hw)
  have hB' : ∀ w ∈ B, x < (w.pos.1 : ℚ) := fun w hw => by
    have h1 := of_decide_eq_false (hB w hw)
    have h2 := hx w (List.mem_append_right _ hw)
    rcases lt_trichotomy (w.pos.1 : ℚ) x with h | h | h
    · exact absurd h h1
    · exact absurd h h2
    · exact h
  have hev : A.length % 2 = 0 := by
    have := even_count hdeg fun p => decide ((p.1 : ℚ) < x)
    rw [List.filter_append, List.filter_eq_self.2 hA, List.filter_eq_nil_iff.2 (fun w hw => by rw [hB w hw]; simp),
      List.append_nil] at this
    exact this
  obtain ⟨st1, h1, hnd, hmem, halt⟩ := C67_alternate hl hfuel hM hev h
  have hsort : st1.tree.Pairwise fun e f => Below (sg ed e) (sg ed f) := by
    obtain ⟨hp, ht⟩ := init_ok (l := A ++ B) (ring := ring) (back := back) (pt := pt)
    exact (loop_good (suf := B) (ins := ins) (rest := A) hl ha hins hfuel hM (by simp) (.inr hev) hp ht
      (by simp [init])).2 _ h1 rfl
  -- the tree consists of the edges that cross the line
  have hin : ∀ w, w ∈ A ++ B → ((w.pos.1 : ℚ) < x ↔ w ∈ A) := by
    intro w hw
    refine ⟨fun hlt => ?_, fun h => hA' w h⟩
    rcases List.mem_append.1 hw with h | h
    · exact h
    · have := hB' w h; linarith
  have htree : ∀ f, f ∈ st1.tree ↔ Started (A ++ B) f ∧ Crosses ed x f := by
    intro f
    rw [hmem]
    constructor
    · rintro ⟨⟨w, hw, e1, e2⟩, hno⟩
      have hwl : w ∈ A ++ B := List.mem_append_left _ hw
      have hS : Started (A ++ B) f := ⟨w, hwl, e1, e2⟩
      refine ⟨hS, ?_⟩
      obtain ⟨r, hr, e3, e4⟩ := proper_end hl hS
      have q1 : ed f false = w.pos := by rw [← e1, ← e2]; exact ha.ends w hwl
      have q2 : ed f true = r.pos := by rw [← e3, ← e4]; exact ha.ends r hr
      unfold Crosses
      rw [q1, q2]
      refine ⟨hA' w hw, ?_⟩
      rcases List.mem_append.1 hr with hrA | hrB
      · exact absurd ⟨r, hrA, e3, e4⟩ hno
      · exact hB' r hrB
    · rintro ⟨hS, hc1, hc2⟩
      obtain ⟨w, hw, e1, e2⟩ := hS
      have q1 : ed f false = w.pos := by rw [← e1, ← e2]; exact ha.ends w hw
      rw [q1] at hc1
      refine ⟨⟨w, (hin w hw).1 hc1, e1, e2⟩, ?_⟩
      rintro ⟨r, hr, e3, e4⟩
      have q2 : ed f true = r.pos := by rw [← e3, ← e4]; exact ha.ends r (List.mem_append_left _ hr)
      rw [q2] at hc2
      have := hA' r hr
      linarith
  have hve : v.edge ∈ st1.tree := (htree _).2 ⟨mem_started hl hv, hc⟩
  obtain ⟨C, D, hCD⟩ := List.append_of_mem hve
  have hback := halt C.length v.edge (by rw [hCD]; simp)
  rw [hback, decide_eq_true_eq]
  -- the edges below are those before it in the tree
  have hlt : ∀ f ∈ st1.tree, (heightAt ed f x < heightAt ed v.edge x ↔ f ∈ C) := by
    intro f hf
    rw [hCD] at hnd hsort hf
    have hfl := (htree f).1 (by rw [hCD]; exact hf)
    rw [List.pairwise_append] at hsort
    rw [List.nodup_append] at hnd
    rcases List.mem_append.1 hf with h | h
    · refine ⟨fun _ => h, fun _ => ?_⟩
      exact below_at hl ha hfl.1 (mem_started hl hv) (fun hc => hnd.2.2 f h v.edge List.mem_cons_self hc)
        (hsort.2.2 f h v.edge List.mem_cons_self) hfl.2 hc
    · rcases List.mem_cons.1 h with rfl | h
      · refine ⟨fun hc => absurd hc (lt_irrefl _), fun hc => ?_⟩
        exact absurd rfl (hnd.2.2 _ hc _ List.mem_cons_self)
      · have hb := (List.pairwise_cons.1 hsort.2.1).1 f h
        have hne : v.edge ≠ f := fun hc => (List.nodup_cons.1 hnd.2.1).1 (hc ▸ h)
        have := below_at hl ha (mem_started hl hv) hfl.1 hne hb hc hfl.2
        refine ⟨fun hc => ?_, fun hc => ?_⟩
        · exact absurd (lt_trans this hc) (lt_irrefl _)
        · exact absurd rfl (hnd.2.2 _ hc _ (List.mem_cons_of_mem _ h))
  have hperm : (((A ++ B).filter fun w => w.rigt = false ∧ Crosses ed x w.edge ∧
      heightAt ed w.edge x < heightAt ed v.edge x).map (·.edge)).Perm C := by
    rw [List.perm_ext_iff_of_nodup]
    · intro f
      rw [List.mem_map]
      constructor
      · rintro ⟨w, hw, rfl⟩
        rw [List.mem_filter, decide_eq_true_eq] at hw
        exact (hlt w.edge ((htree _).2 ⟨⟨w, hw.1, rfl, hw.2.1⟩, hw.2.2.1⟩)).1 hw.2.2.2
      · intro hf
        have hft : f ∈ st1.tree := by rw [hCD]; exact List.mem_append_left _ hf
        obtain ⟨⟨w, hw, e1, e2⟩, hcr⟩ := (htree f).1 hft
        refine ⟨w, ?_, e1⟩
        rw [List.mem_filter, decide_eq_true_eq, e1]
        exact ⟨hw, e2, hcr, (hlt f hft).2 hf⟩
    · have hn := segs_nodup hl
      rw [segs_fst hl] at hn
      refine hn.sublist (List.Sublist.map _ ?_)
      refine List.monotone_filter_right _ ?_
      intro w hw
      rw [decide_eq_true_eq] at hw
      simp [hw.1]
    · rw [hCD] at hnd
      exact (List.nodup_append.1 hnd).1
  have hlen := hperm.length_eq
  rw [List.length_map] at hlen
  unfold numBelow
  rw [hlen]

/-! ### examples -/

/-- the ends of the edges of two triangles with the common corner (2, 0) -/
def bowEnds : Nat → Bool → P
  | 0, false => (0, -2) | 0, true => (2, 0)
  | 1, false => (0, -2) | 1, true => (0, 2)
  | 2, false => (0, 2)  | 2, true => (2, 0)
  | 3, false => (2, 0)  | 3, true => (4, -2)
  | 4, false => (2, 0)  | 4, true => (4, 2)
  | _, false => (4, -2) | _, true => (4, 2)

/-- in the order of the sweep -/
def bow2 : List Vtx :=
  [⟨0, false, (0, -2)⟩, ⟨1, false, (0, -2)⟩, ⟨1, true, (0, 2)⟩, ⟨2, false, (0, 2)⟩, ⟨2, true, (2, 0)⟩, ⟨0, true, (2, 0)⟩,
   ⟨3, false, (2, 0)⟩, ⟨4, false, (2, 0)⟩, ⟨3, true, (4, -2)⟩, ⟨5, false, (4, -2)⟩, ⟨4, true, (4, 2)⟩, ⟨5, true, (4, 2)⟩]

/-- a linear search -/
def linear (ed : Nat → Bool → P) : Ins
  | [], _ => some 0
  | e :: T, v => match treeCmp ed v e with
    | some 1 => (linear ed T v).map (· + 1)
    | some (-1) => some 0
    | _ => none

/-- the assumption about the search can be met -/
theorem linear_search (ed : Nat → Bool → P) : IsSearch ed (linear ed) := by
  intro v A B hA hB
  induction A with
  | nil =>
    cases B with
    | nil => rfl
    | cons b B =>
      show linear ed (b :: B) v = some 0
      unfold linear
      rw [hB b (by simp)]
      rfl
  | cons a A ih =>
    show linear ed (a :: (A ++ B)) v = some (A.length + 1)
    unfold linear
    rw [hA a (by simp)]
    simp only
    rw [ih (fun e he => hA e (by simp [he]))]
    rfl

theorem bow2_apart (e f : Nat) (he : e < 6) (hf : f < 6) (hne : e ≠ f) :
    NonCrossing (bowEnds e false) (bowEnds e true) (bowEnds f false) (bowEnds f true) := by
  intro s t s0 s1 t0 t1 h
  unfold pointAt at h
  rw [Prod.mk.injEq] at h
  obtain ⟨h1, h2⟩ := h
  interval_cases e <;> interval_cases f <;> first | exact absurd rfl hne | skip
  all_goals
    simp only [bowEnds] at h1 h2
    push_cast at h1 h2
    first
    | (exfalso; linarith)
    | exact ⟨.inl (by linarith), .inl (by linarith)⟩
    | exact ⟨.inl (by linarith), .inr (by linarith)⟩
    | exact ⟨.inr (by linarith), .inl (by linarith)⟩
    | exact ⟨.inr (by linarith), .inr (by linarith)⟩

/-- the hypotheses of `C69_total` and `C70_inside` can be met -/
example : Proper bow2 ∧ Arranged bowEnds bow2 ∧ ∀ p, degree bow2 p % 2 = 0 := by
  refine ⟨?_, ⟨?_, ?_, ?_, ?_⟩, ?_⟩
  · intro e
    by_cases h : e < 6
    · have : e = 0 ∨ e = 1 ∨ e = 2 ∨ e = 3 ∨ e = 4 ∨ e = 5 := by omega
      rcases this with rfl | rfl | rfl | rfl | rfl | rfl <;> exact .inr ⟨_, _, by decide, rfl⟩
    · left
      rw [List.filter_eq_nil_iff]
      intro v hv
      simp [bow2] at hv
      rcases hv with h | h | h | h | h | h | h | h | h | h | h | h <;> subst h <;> simp <;> omega
  · decide
  · unfold Small; decide
  · have : bow2.Pairwise fun v w => resultCmp bowEnds v w = some (-1) := by decide +kernel
    exact this.imp fun h => ⟨-1, h, by decide⟩
  · have : ∀ v ∈ bow2, v.edge < 6 := by decide
    exact fun v hv w hw hne => bow2_apart _ _ (this v hv) (this w hw) hne
  · intro p
    by_cases h : p ∈ [((0, -2) : P), (0, 2), (2, 0), (4, -2), (4, 2)]
    · revert p; decide
    · have : degree bow2 p = 0 := by
        unfold degree
        rw [List.countP_eq_zero]
        intro v hv hc
        rw [decide_eq_true_eq] at hc
        apply h
        rw [← hc]
        have : ∀ v ∈ bow2, v.pos ∈ [((0, -2) : P), (0, 2), (2, 0), (4, -2), (4, 2)] := by decide
        exact this v hv
      rw [this]

/-- the edge 2 is above the edge 0 only -/
example : ((poly ⟨id, id⟩ (fun _ => false) (fun _ _ => 0) (linear bowEnds) 20 bow2).toOption.map fun r =>
    (r.1, r.2.res.points, r.2.res.paths, (List.range 6).map r.2.back)) =
    some (true, [(0, -2), (0, 2), (2, 0), (4, -2), (4, 2)], [[2, 0, 1], [4, 3, 2]], [true, false, false, true, false, true]) ∧
    numBelow bowEnds bow2 1 (heightAt bowEnds 2 1) = 1 := by decide +kernel

end Hob3l.Poly
