import Verif.Tri.LemmasBool
import Verif.Poly.PropsBool

/-!
Property C115: Boolean operations yield the right triangles.
-/

namespace Hob3l.Tri

open Hob3l.Poly (P Vtx Ins Proper Arranged IsSearch degree toVtx Numbered proper_out arranged_out degree_out mem_out)
open Sweep (Edge RV Planar Directed SweepOrder Closed insideMask)

/-- C115: For every Boolean function of `n` polygons and all edges that are planar and in which every polygon is closed:
the reduction followed by the triangulation violates no assertion, ends, and succeeds.  The triangles have points of the
result as corners, are clockwise and not degenerate, and no two of them overlap.  For every point of the plane that is on
none of the edges given: if it is strictly inside of a triangle, then the Boolean function has a different value for the
polygons the point is inside of than for the outside of all polygons; and if it has, then the point is inside of a
triangle or on a side of one. -/
theorem C115_triangles (comb : Bitmap.Mem) (n : Nat) (hn : n ≤ 10) (E : List Edge) (vs : List RV) (hp : Planar E)
    (hd : Directed E) (hc : Closed E) (hm : ∀ e ∈ E, e.member.toNat < 2 ^ n) (ho : SweepOrder E vs)
    (num : Edge → Nat) (ed : Nat → Bool → P) (hnum : Numbered num ed E) (N : Nat) (hN : ∀ e ∈ E, num e < N) (ring : Ring.St)
    (back : Nat → Bool) (idx : Nat → Bool → Option Nat) (rm : Nat → V) (ins : Ins) (hins : IsSearch ed ins) (fuel : Nat)
    (hfuel : N + vs.length ≤ fuel) :
    ∃ out st, Sweep.reduce comb (2 ^ n) vs = some out ∧
      trianglify ring back idx rm ed N ins fuel (out.map (toVtx num)) = .ok (true, st) ∧
      (∀ t ∈ st.tris, TriOk st.points t) ∧
      (st.tris.Pairwise fun t u => ∀ X, ¬ (Inside st.points t X ∧ Inside st.points u X)) ∧
      ∀ X, (∀ e ∈ E, ¬ e.On X) →
        (∀ t ∈ st.tris, Inside st.points t X → comb.getLsbD (insideMask E X).toNat ≠ comb.getLsbD 0) ∧
        (comb.getLsbD (insideMask E X).toNat ≠ comb.getLsbD 0 →
          ∃ t ∈ st.tris, Inside st.points t X ∨ OnSide st.points t X) := by
  obtain ⟨K, out, h1, h2, h3, h4, h5, -⟩ := Sweep.C112_boolean comb n hn E vs hp hd hc hm ho
  have hpK : Planar K := hp.sublist h2
  have hdK : Directed K := fun e he => hd e (h2.subset he)
  have hnK := hnum.sub h2
  have hlen : out.length ≤ vs.length := by
    have a := h3.1.length_eq
    have b := ho.1.length_eq
    have c := h2.length_le
    simp only [List.length_flatMap, List.length_cons, List.length_nil] at a b
    simp at a b
    omega
  have hl := proper_out hnK hpK hdK h3
  have ha := arranged_out hnK hpK hdK h3
  have hlt : ∀ v ∈ out.map (toVtx num), v.edge < N := by
    intro v hv
    obtain ⟨r, hr, rfl⟩ := List.mem_map.mp hv
    exact hN r.e (h2.subset ((mem_out h3 r).mp hr))
  have hf : N + (out.map (toVtx num)).length ≤ fuel := by simp only [List.length_map]; omega
  obtain ⟨ok, st, h6, h7⟩ := C86_total ring back idx rm hl ha hins hlt hf
  have hok : ok = true := by
    rw [h7]
    intro p
    rw [degree_out h3]
    exact h4 _
  subst hok
  have htri := C87_triangles hl ha hins hlt hf h6
  refine ⟨out, st, h1, h6, htri, C88_disjoint hl ha hins hlt hf h6, ?_⟩
  intro X hX
  obtain ⟨d, d0, hnear⟩ := near_right X E hd hX
  -- a point to the right that is not above or below an end
  have move : ∀ c : ℚ, 0 < c → ∃ x, X.1 < x ∧ x < X.1 + c ∧ x < X.1 + d ∧
      (∀ v ∈ out.map (toVtx num), (v.pos.1 : ℚ) ≠ x) ∧
      decide (Poly.numBelow ed (out.map (toVtx num)) x X.2 % 2 = 1) =
        (comb.getLsbD (insideMask E X).toNat != comb.getLsbD 0) ∧ ∀ e ∈ E, ¬ e.On (x, X.2) := by
    intro c c0
    obtain ⟨x, x1, x2, x3⟩ := near_avoid X.1 (min c d) (lt_min c0 d0) ((out.map (toVtx num)).map fun v => (v.pos.1 : ℚ))
    have m1 := min_le_left c d
    have m2 := min_le_right c d
    have hv : ∀ v ∈ out.map (toVtx num), (v.pos.1 : ℚ) ≠ x := by
      rintro v hv rfl
      exact x3 (List.mem_map_of_mem hv)
    have hx := hnear x x1 (by linarith)
    refine ⟨x, x1, by linarith, by linarith, hv, ?_, fun e he => (hx e he).2⟩
    rw [← numBelow_out (X := (x, X.2)) hnK hdK h3 hv, h5 (x, X.2) (fun e he => (hx e he).2),
      insideMask_congr (fun e he => (hx e he).1)]
  constructor
  · intro t ht hin
    obtain ⟨c, c0, hcr⟩ := near_cross X (triK st.points t) ((inside_iff (htri t ht)).mp hin)
    obtain ⟨x, x1, x2, -, hv, hb, hon⟩ := move c c0
    have hin' : Inside st.points t (x, X.2) :=
      (inside_iff (htri t ht)).mpr fun k hk => hcr (x, X.2) x1.le x2 (le_refl _) (by simp only; linarith) k hk
    have hodd := C88_only hl ha hins hlt hf h6 (p := (x, X.2)) hv (by
      intro v hvm hcross heq
      obtain ⟨r, hr, rfl⟩ := List.mem_map.mp hvm
      have hrK := (mem_out h3 r).mp hr
      have heq' : Poly.heightAt ed (num r.e) x = X.2 := heq
      have hcross' : Poly.Crosses ed x (num r.e) := hcross
      unfold Poly.Crosses at hcross'
      unfold Poly.heightAt at heq'
      rw [hnK.left _ hrK, hnK.rigt _ hrK] at hcross' heq'
      simp only at hcross' heq'
      refine hon r.e (h2.subset hrK) ?_
      rw [(under_cross (e := r.e) (X := (x, X.2)) hcross'.1.le hcross'.2).2]
      unfold crossQ
      simp only
      have hw : ((r.e.rigt.x : ℚ) - r.e.left.x) ≠ 0 := by linarith [hcross'.1, hcross'.2]
      rw [← heq']
      field_simp
      ring) ht hin'
    simp only at hodd
    rw [hodd] at hb
    simpa using hb.symm
  · intro hne
    by_contra hc
    push Not at hc
    obtain ⟨c, c0, hout⟩ := near_out X st.tris htri (fun t ht => by
      rw [not_or]; exact hc t ht)
    obtain ⟨x, x1, x2, -, hv, hb, -⟩ := move c c0
    have hodd : Poly.numBelow ed (out.map (toVtx num)) x X.2 % 2 = 1 := by
      have : (comb.getLsbD (insideMask E X).toNat != comb.getLsbD 0) = true := by simpa using hne
      rw [this] at hb
      exact of_decide_eq_true hb
    obtain ⟨t, ht, hin⟩ := C88_all hl ha hins hlt hf h6 (p := (x, X.2)) hv hodd
    exact hout x x1 x2 t ht hin

/-! ### example: the union of the triangles of `Sweep.exE`, whose properties are shown in `Sweep.PropsReduce` and
`Poly.PropsBool` -/

example : ∀ e ∈ Sweep.exE, Poly.exNum e < 5 := by decide +kernel

example : (do
    let out ← Sweep.reduce 0xe (2 ^ 2) Sweep.exVs
    match trianglify ⟨id, id⟩ (fun _ => false) (fun _ _ => none) (fun _ => (0, false)) Poly.exEd 5 (Poly.linear Poly.exEd) 100
      (out.map (toVtx Poly.exNum)) with
    | .ok (true, st) => some (st.points, st.tris.map fun t : Tri => (t.p0, t.p1, t.p2))
    | _ => none) = some ([(0, 0), (2, -3), (2, 3), (4, 0)], [(0, 2, 1), (2, 3, 1)]) := by decide +kernel

end Hob3l.Tri
