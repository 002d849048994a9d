import Verif.Poly.LemmasBool

/-!
Property C114: Boolean operations yield the right polygons.
-/

namespace Hob3l.Poly

open Sweep (Edge RV Planar Directed SweepOrder Closed insideMask)

/-- C114: For every Boolean function of `n` polygons and all edges that are planar and in which every polygon is closed:
the reduction followed by the tracing of paths violates no assertion, accesses no array out of bounds, ends, and succeeds.
It yields paths without repeated points, with indices of points of the result, and a point of the plane that is on none of
the edges given is inside of these paths (by the even-odd rule) iff the Boolean function has a different value for the
polygons the point is inside of than for the outside of all polygons. -/
theorem C114_polygons (comb : Bitmap.Mem) (n : Nat) (hn : n ≤ 10) (E : List Edge) (vs : List RV) (hp : Planar E)
    (hd : Directed E) (hc : Closed E) (hm : ∀ e ∈ E, e.member.toNat < 2 ^ n) (ho : SweepOrder E vs)
    (num : Edge → Nat) (ed : Nat → Bool → P) (hnum : Numbered num ed E) (ring : Ring.St) (back : Nat → Bool)
    (pt : Nat → Bool → Nat) (ins : Ins) (hins : IsSearch ed ins) (fuel : Nat) (hfuel : vs.length ≤ fuel)
    (hM : 2 * vs.length + 2 < 2 ^ 32) :
    ∃ out st, Sweep.reduce comb (2 ^ n) vs = some out ∧
      poly ring back pt ins fuel (out.map (toVtx num)) = .ok (true, st) ∧
      (∀ p ∈ st.res.paths, p.Nodup ∧ p ≠ [] ∧ ∀ i ∈ p, i < st.res.points.length) ∧
      ∀ X, (∀ e ∈ E, ¬ e.On X) →
        insidePaths st.res X = (comb.getLsbD (insideMask E X).toNat != comb.getLsbD 0) := by
  obtain ⟨K, out, h1, h2, h3, h4, h5, -⟩ := Sweep.C112_boolean comb n hn E vs hp hd hc hm ho
  have hpK : Planar K := hp.sublist h2
  have hdK : Directed K := fun e he => hd e (h2.subset he)
  have hnK := hnum.sub h2
  have hlen : out.length ≤ vs.length := by
    have a := h3.1.length_eq
    have b := ho.1.length_eq
    have c := h2.length_le
    simp only [List.length_flatMap, List.length_cons, List.length_nil] at a b
    simp at a b
    omega
  have hprop := proper_out hnK hpK hdK h3
  have harr := arranged_out hnK hpK hdK h3
  obtain ⟨ok, st, h6, h7⟩ := C69_total ring back pt hprop harr hins (fuel := fuel) (by simpa using hlen.trans hfuel)
    (by simp only [List.length_map]; omega)
  have hok : ok = true := by
    rw [h7]
    intro p
    rw [degree_out h3]
    exact h4 _
  subst hok
  rcases C55_conserved ring back pt ins hprop (fuel := fuel) (by simpa using hlen.trans hfuel)
    (by simp only [List.length_map]; omega) with h8 | ⟨ok, st', h8, h9⟩
  · rw [h6] at h8; cases h8
  · rw [h6] at h8
    cases h8
    obtain ⟨h10, h11⟩ := h9 rfl
    refine ⟨out, st, h1, h6, ?_, ?_⟩
    · intro p hp'
      exact ⟨(h10 p hp').1, (h10 p hp').2, fun i hi => path_index h11 hp' hi⟩
    · intro X hX
      rw [inside_paths hnK hpK hdK h3 h11 X]
      exact h5 X hX

/-! ### examples: the two triangles of `Sweep.exE` (whose properties are shown there), and their union -/

/-- the number of an edge is its place in the list -/
def exNum (e : Edge) : Nat := Sweep.exE.idxOf e

def exEd (k : Nat) (b : Bool) : P :=
  match Sweep.exE[k]? with
  | some e => if b then (e.rigt.x, e.rigt.y) else (e.left.x, e.left.y)
  | none => (0, 0)

example : Numbered exNum exEd Sweep.exE := ⟨by decide +kernel, by decide +kernel, by decide +kernel⟩

example : IsSearch exEd (linear exEd) := linear_search exEd

/-- the union of the triangles is a quadrangle; the common edge is gone -/
example : (do
    let out ← Sweep.reduce 0xe (2 ^ 2) Sweep.exVs
    match poly ⟨id, id⟩ (fun _ => false) (fun _ _ => 0) (linear exEd) 100 (out.map (toVtx exNum)) with
    | .ok (true, st) => some (st.res.points, st.res.paths)
    | _ => none) = some ([(0, 0), (2, -3), (2, 3), (4, 0)], [[3, 1, 0, 2]]) := by decide +kernel

end Hob3l.Poly
