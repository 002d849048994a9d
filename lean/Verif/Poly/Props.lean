import Verif.Poly.LemmasLoop

/-!
The properties of the construction of polygon paths.
-/

namespace Hob3l.Poly

/-- C55: For all edges, given by their ends in any order (each left end before its right end), all initial contents of the fields and
all results of the search in the tree, tracing the paths accesses no array out of bounds, violates no assertion except those about the order in
the plane, and ends.  If it succeeds, then no path visits a point twice, no path is empty, and the edges of all paths are exactly
the edges given, each once, directed forward or backward. -/
theorem C55_conserved {l : List Vtx} (ring : Ring.St) (back : Nat → Bool) (pt : Nat → Bool → Nat) (ins : Ins) {fuel : Nat}
    (hl : Proper l) (hfuel : l.length ≤ fuel) (hM : 2 * l.length + 2 < 2 ^ 32) :
    poly ring back pt ins fuel l = .error .order ∨
    ∃ ok st, poly ring back pt ins fuel l = .ok (ok, st) ∧ (ok = true →
      (∀ p ∈ st.res.paths, p.Nodup ∧ p ≠ []) ∧
      ((st.res.paths.flatMap cyc).map fun e => (st.res.points[e.1]?, st.res.points[e.2]?)).Perm
        ((segs l).map fun x => (some (directed st.back x).1, some (directed st.back x).2))) := by
  obtain ⟨hp, ht⟩ := init_ok (l := l) (ring := ring) (back := back) (pt := pt)
  have := loop_ok (suf := []) (ins := ins) (rest := l) hl hfuel hM (by simp) (.inl rfl) hp ht
  rcases this with h | ⟨r, h, hr⟩
  · exact .inl h
  · refine .inr ⟨r.1, r.2, h, fun hok => ?_⟩
    obtain ⟨-, D, R, t⟩ := hr hok
    rw [List.nil_append] at t
    exact ⟨t.pathsNd, final_perm hl t⟩

/-- C66: Success is reported exactly if each point is an end of an even number of edges (for vertices in the order of the sweep). -/
theorem C66_holes {l : List Vtx} {ring : Ring.St} {back : Nat → Bool} {pt : Nat → Bool → Nat} {ins : Ins} {fuel : Nat}
    {ok : Bool} {st : St} (hl : Proper l) (hsort : l.Pairwise fun v w => Le v.pos w.pos)
    (h : poly ring back pt ins fuel l = .ok (ok, st)) : ok = true ↔ ∀ p, degree l p % 2 = 0 := by
  have hlen : l.length % 2 = 0 := proper_even hl
  cases ok with
  | true => exact ⟨fun _ p => loop_even hlen h p, fun _ => rfl⟩
  | false =>
    obtain ⟨p, hp⟩ := loop_odd hsort h
    refine ⟨fun hc => by simp at hc, fun hc => ?_⟩
    have := hc p
    unfold degree at this
    omega

/-- C67: The edges that cross the sweep line at any time alternate between the two directions, from bottom to top, the lowest being
directed backward; so the inside is on the same side of all edges of all paths.  (`T` is the content of the tree after any even
number of vertices; the directions are those at the end, which determine the paths in C55.) -/
theorem C67_alternate {l1 l2 : List Vtx} {ring : Ring.St} {back : Nat → Bool} {pt : Nat → Bool → Nat} {ins : Ins}
    {fuel : Nat} {st : St} (hl : Proper (l1 ++ l2)) (hfuel : (l1 ++ l2).length ≤ fuel) (hM : 2 * (l1 ++ l2).length + 2 < 2 ^ 32)
    (hev : l1.length % 2 = 0) (h : poly ring back pt ins fuel (l1 ++ l2) = .ok (true, st)) :
    ∃ st1, poly ring back pt ins fuel l1 = .ok (true, st1) ∧ st1.tree.Nodup ∧
      (∀ e, e ∈ st1.tree ↔ (∃ v ∈ l1, v.edge = e ∧ v.rigt = false) ∧ ¬ ∃ v ∈ l1, v.edge = e ∧ v.rigt = true) ∧
      ∀ (i e : Nat), st1.tree[i]? = some e → st.back e = decide (i % 2 = 0) := by
  obtain ⟨st1, h1, h2⟩ := loop_split hev h
  refine ⟨st1, h1, ?_⟩
  obtain ⟨hp, ht⟩ := init_ok (l := l1 ++ l2) (ring := ring) (back := back) (pt := pt)
  have := loop_ok (suf := l2) (ins := ins) (rest := l1) hl hfuel hM (by simp) (.inr hev) hp ht
  rcases this with h3 | ⟨r, h3, hr⟩
  · rw [h1] at h3; cases h3
  · rw [h1] at h3
    cases h3
    obtain ⟨-, D, R, t⟩ := hr rfl
    rw [List.nil_append] at t
    refine ⟨t.treeNd, t.treeIff, fun i e he => ?_⟩
    rw [← t.alt i e he]
    refine loop_back h2 (e := e) ?_
    rintro ⟨v, hv, e1, e2⟩
    obtain ⟨A, B, hAB⟩ := List.append_of_mem hv
    have hl' : Proper ((l1 ++ A) ++ v :: B) := by rw [List.append_assoc, ← hAB]; exact hl
    obtain ⟨h5, -⟩ := (proper_next hl').1 e2
    obtain ⟨w, hw, e3, e4⟩ := ((t.treeIff e).1 (List.mem_of_getElem? he)).1
    exact h5 ⟨w, by simp [hw], by rw [e3, e1], e4⟩

/-- C68: No two points of the result are equal, and they are in the order of the sweep. -/
theorem C68_points {l : List Vtx} {ring : Ring.St} {back : Nat → Bool} {pt : Nat → Bool → Nat} {ins : Ins} {fuel : Nat}
    {ok : Bool} {st : St} (hsort : l.Pairwise fun v w => Le v.pos w.pos)
    (h : poly ring back pt ins fuel l = .ok (ok, st)) :
    st.res.points.Nodup ∧ st.res.points.Pairwise Le := by
  have := loop_points hsort (by simp [init]) (by simp [init]) (by simp [init]) h
  exact ⟨this.imp fun h => h.2, this.imp fun h => h.1⟩

/-! ### examples -/

/-- two triangles that touch in the point (2, 0), the first to the left of it, the other one to the right -/
def bow : List Vtx :=
  [⟨0, false, (0, -2)⟩, ⟨1, false, (0, -2)⟩,   -- START: edges to (0,2) and (2,0); bottom first
   ⟨1, true, (0, 2)⟩, ⟨2, false, (0, 2)⟩,      -- BEND
   ⟨0, true, (2, 0)⟩, ⟨3, false, (2, 0)⟩,      -- BEND
   ⟨2, true, (2, 0)⟩, ⟨4, false, (2, 0)⟩,      -- BEND
   ⟨3, true, (4, -2)⟩, ⟨5, false, (4, -2)⟩,    -- BEND
   ⟨4, true, (4, 2)⟩, ⟨5, true, (4, 2)⟩]       -- END

example : Proper bow ∧ (∀ e, degree bow (e, 0) % 2 = 0 ∨ e ≠ 2) := by
  refine ⟨?_, fun e => ?_⟩
  · intro e
    by_cases h : e < 6
    · have : e = 0 ∨ e = 1 ∨ e = 2 ∨ e = 3 ∨ e = 4 ∨ e = 5 := by omega
      rcases this with rfl | rfl | rfl | rfl | rfl | rfl <;> exact .inr ⟨_, _, by decide, rfl⟩
    · left
      rw [List.filter_eq_nil_iff]
      intro v hv
      simp [bow] at hv
      rcases hv with h | h | h | h | h | h | h | h | h | h | h | h <;> subst h <;> simp <;> omega
  · by_cases h : e = 2
    · subst h; exact .inl (by decide)
    · exact .inr h

/-- the walk around both triangles passes the common point twice and is cut there into two paths -/
example : ((poly ⟨id, id⟩ (fun _ => false) (fun _ _ => 0) (fun t _ => some t.length) 20 bow).toOption.map fun r =>
    (r.1, r.2.res.points, r.2.res.paths)) =
    some (true, [(0, -2), (0, 2), (2, 0), (4, -2), (4, 2)], [[4, 3, 2], [2, 0, 1]]) := by decide +kernel

end Hob3l.Poly
