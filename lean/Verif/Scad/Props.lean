import Verif.Scad.LemmasHollow
import Mathlib.Algebra.Group.TypeTags.Basic
import Mathlib.Algebra.Group.Int.Defs

/-!
C61: the CSG tree made from a SCAD file denotes the same set of points as the file.

The statement fails for intersections: a child without objects is skipped, and if only one child remains and the last one
is skipped, then an assertion fails (`C61_lone_wrong`); an object without extent does not make an intersection empty
(`C61_hollow_wrong`).  Everywhere else it holds: `C61_meaning_partial`, and the failures are characterised exactly:
`C61_fails_iff_partial`.
-/

namespace Hob3l.Scad

open scoped Pointwise

variable {O M X : Type}

/-- If the conversion succeeds, the CSG tree denotes the same points as the SCAD file; for all objects, all invertible
transformations, all nestings.  Missing: objects without extent in intersections (see `C61_hollow_wrong`), success (see
`C61_fails_iff_partial`). -/
theorem C61_meaning_partial [Group M] [MulAction M X] (solid : O → Set X) (l : List (Scad O M))
    (h : hollowOks l = true) (r : List (Csg O M)) (hr : convTop l = some r) :
    ptsAdd solid r = unions (l.map fun s => s.pts solid) := by
  have hR := fromV_can (convs_can solid (1 : M) l h)
  unfold convTop at hr
  obtain ⟨st, hst, rfl⟩ := Option.map_eq_some_iff.1 hr
  obtain ⟨q, rfl, hP, -⟩ := hR _ _ _ hst
  simp only [List.nil_append, hP, List.map_map, Function.comp_def, one_smul]

/-- The same for a subtree in the context of a transformation: objects are appended to what is there already. -/
theorem C61_subtree_partial [Group M] [MulAction M X] (solid : O → Set X) (m : M) (s : Scad O M)
    (h : s.hollowOk = true) (no no' : Bool) (r r' : List (Csg O M)) (hr : conv m s (no, r) = some (no', r')) :
    ∃ q, r' = r ++ q ∧ ptsAdd solid q = m • s.pts solid ∧ no' = (no || !s.vac) := by
  obtain ⟨q, hq, hP, -⟩ := conv_can solid m s h no r _ hr
  simp only [Prod.mk.injEq] at hq
  exact ⟨q, hq.2, hP, hq.1⟩

/-- The conversion fails exactly if there is an intersection in which only one child has objects and the last child has
none. -/
theorem C61_fails_iff_partial [Group M] (l : List (Scad O M)) (h : solidOnlys l = true) :
    convTop l = none ↔ noLones l = false := by
  have hR := fromV_res (convs_res (X := M) (fun _ => ∅) (1 : M) l h)
  rw [all_noLone, all_vac] at hR
  unfold convTop
  cases hb : noLones l with
  | false => rw [hR.2 hb]; simp
  | true =>
    obtain ⟨q, hq, -⟩ := hR.1 hb false []
    rw [hq]; simp

/-- `difference()` subtracts from the first child with objects, however many there are before it without objects. -/
theorem C61_difference_first_partial [Group M] [MulAction M X] (solid : O → Set X) (l : List (Scad O M)) (s : Scad O M)
    (rest : List (Scad O M)) (hl : ∀ t ∈ l, t.vac = true) (hs : s.vac = false)
    (h : hollowOks (l ++ s :: rest) = true) (r : List (Csg O M)) (hr : convTop [.diff (l ++ s :: rest)] = some r) :
    ptsAdd solid r = s.pts solid \ unions (rest.map fun t => t.pts solid) := by
  have hm := C61_meaning_partial solid [.diff (l ++ s :: rest)] (by simp [hollowOks, Scad.hollowOk, h]) r hr
  rw [hm]
  simp only [List.map_cons, List.map_nil, unions, Set.union_empty, Scad.pts, ptss_eq]
  clear hm hr h
  induction l with
  | nil => simp [diffs, hs, Function.comp_def]
  | cons a l ih =>
    rw [List.cons_append, List.map_cons, hl a (by simp), diffs]
    exact ih fun t ht => hl t (by simp [ht])

section Examples

/-- A transformation group for examples: the translations of a line. -/
abbrev Line := Multiplicative Int

/-- the first object is from 0 to 9, the second from 5 to 6, … -/
def seg (o : Nat) : Set Int := if o = 0 then {x | 0 ≤ x ∧ x ≤ 9} else {x | 5 ≤ x ∧ x ≤ 6}

instance : MulAction Line Int where
  smul t x := t.toAdd + x
  one_smul x := by show (Multiplicative.toAdd (1 : Line)) + x = x; simp
  mul_smul s t x := by
    show (Multiplicative.toAdd (s * t)) + x = s.toAdd + (t.toAdd + x)
    simp [add_assoc]

/-- `difference(){ *a; translate(2) difference(){ a; b; } b; }  intersection(){ a; group(){} b; }` -/
def exTree : List (Scad Nat Line) :=
  [.diff [.ignored (.obj 0), .xform (.ofAdd 2) [.diff [.obj 0, .obj 1]], .obj 1],
   .inter [.obj 0, .union [], .obj 1]]

-- the hypotheses can be met: the differences are merged, the matrix is in the leaves
example : solidOnlys exTree = true := by decide
example : convTop exTree = some
    [.sub [.leaf 0 (.ofAdd 2)] [.leaf 1 (.ofAdd 2), .leaf 1 1], .cut [[.leaf 0 1], [.leaf 1 1]]] := by
  rfl
example : noLones exTree = true := by decide

/-- `difference(){ h; a; }  difference(){ a; h; b; }`, where `h` has no extent: nothing minus `a`, and `a` minus `b` -/
def exHollow : List (Scad Nat Line) := [.diff [.hollow, .obj 0], .diff [.obj 0, .hollow, .obj 1]]

example : hollowOks exHollow = true := by decide
example : convTop exHollow = some [.sub [.leaf 0 1] [.leaf 1 1]] := by rfl

end Examples

/-- `intersection(){ a; *b; }` (a disabled last child) makes the assertion fail, although the file means just `a`. -/
theorem C61_lone_wrong :
    convTop [(.inter [.obj 0, .ignored (.obj 1)] : Scad Nat Line)] = none ∧
    (Scad.inter [.obj 0, .ignored (.obj 1)] : Scad Nat Line).pts seg = seg 0 := by
  refine ⟨rfl, ?_⟩
  simp [Scad.pts, ptss, Scad.vac, meets, inters]

/-- `intersection(){ h; a; }` where `h` has no extent: the result is `a` instead of nothing. -/
theorem C61_hollow_wrong :
    (convTop [(.inter [.hollow, .obj 0] : Scad Nat Line)]).map (ptsAdd seg) = some (seg 0) ∧
    (Scad.inter [.hollow, .obj 0] : Scad Nat Line).pts seg = ∅ ∧ seg 0 ≠ ∅ := by
  refine ⟨?_, ?_, ?_⟩
  · show some (ptsAdd seg [(.leaf 0 1 : Csg Nat Line)]) = _
    simp [ptsAdd, Csg.pts]
  · simp [Scad.pts, ptss, Scad.vac, meets]
  · intro h
    have : (3 : Int) ∈ seg 0 := by simp [seg]
    rw [h] at this
    exact this

end Hob3l.Scad
