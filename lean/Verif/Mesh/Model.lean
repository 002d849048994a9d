import Verif.Solid.SpecVolume

/-!
`polyhedron` and `polygon`: the check of the points, and the shapes that are made of them (src/hob3l/csg3.c).  What has been
checked before (at least three points in each face or path, numbers of points in range) is that of `Verif.Args.Model`.

Numbers are reals, as in `Verif.Solid.Points`; the comparisons keep their epsilon.  Locations and colours are left out.  The sign
of the stored determinant is that of the determinant of the matrix.
-/

namespace Hob3l.Mesh

open Hob3l.Solid

noncomputable section

/-- where the object was found, and the options: `inside` iff the context is the right one (3D or 2D); `emptyFails`,
`outsideFails` iff the level of the message is that of a failure, so that `msg` returns false -/
structure Env where
  inside : Bool
  emptyFails : Bool
  outsideFails : Bool

/-- result: undefined behaviour; the function returns false; it returns true and adds nothing; it adds a shape with these points and
faces (or paths), given by the numbers of the points -/
inductive Out (P : Type)
  | undef
  | fail
  | nothing
  | made (pts : List P) (faces : List (List Nat))

/-- `msg` csg3.c:60-78 -/
def msg {P : Type} (fails : Bool) : Out P := if fails then .fail else .nothing

open Classical in
/-- `cp_lex_cmp` src/hob3lmat/algo.c:41-49 -/
def lexCmp (e : ℝ) : List ℝ → List ℝ → Int
  | a :: as, b :: bs => if ¬ |a - b| < e then (if a < b then -1 else 1) else lexCmp e as bs
  | _, _ => 0

/-- what the C standard requires of the comparison that is given to `qsort` (C11 7.22.5 p4): it must not contradict itself on the
elements of the array -/
def Consistent (cmp : List ℝ → List ℝ → Int) (l : List (List ℝ)) : Prop :=
  (∀ a ∈ l, ∀ b ∈ l, cmp a b ≤ 0 ↔ 0 ≤ cmp b a) ∧
  ∀ a ∈ l, ∀ b ∈ l, ∀ c ∈ l, cmp a b ≤ 0 → cmp b c ≤ 0 → cmp a c ≤ 0

/-- `qsort_r` of the C library -/
structure QSort where
  run : (List ℝ → List ℝ → Int) → List (List ℝ) → List (List ℝ)

/-- what the C library promises -/
def QSort.Ok (q : QSort) : Prop :=
  ∀ cmp l, Consistent cmp l → l.Perm (q.run cmp l) ∧ (q.run cmp l).Pairwise fun a b => cmp a b ≤ 0

/-- the loop over the sorted points csg3.c:866-872, 1229-1236: two neighbours are equal -/
def adjDup (e : ℝ) : List (List ℝ) → Bool
  | a :: b :: l => lexCmp e a b == 0 || adjDup e (b :: l)
  | _ => false

open Classical in
/-- the check for duplicate points csg3.c:862-872, 1226-1236: sort, then compare neighbours; `none` is undefined behaviour -/
def check (e : ℝ) (q : QSort) (l : List (List ℝ)) : Option Bool :=
  if Consistent (lexCmp e) l then some (adjDup e (q.run (lexCmp e) l)) else none

/-- the coordinates of a point -/
def co3 (p : P3) : List ℝ := [p.x, p.y, p.z]

/-- the coordinates of a point -/
def co2 (p : ℝ × ℝ) : List ℝ := [p.1, p.2]

open Classical in
/-- `csg3_from_polyhedron` csg3.c:833-893 with `csg3_make_polyhedron_face` 810-831 -/
def polyhedron (e : ℝ) (q : QSort) (c : Env) (m : Aff) (pts : List P3) (faces : List (List Nat)) : Out P3 :=
  if !c.inside then msg c.outsideFails
  else if pts.length < 4 then msg c.emptyFails
  else if faces.length < 4 then msg c.emptyFails
  else match check e q (pts.map co3) with
    | none => .undef
    | some true => .fail
    | some false => .made (pts.map m.app) (faces.map (revPerhaps (decide (m.det < 0))))

/-- `xform_2d` csg3.c:1131-1142 -/
def xform2 (m : Aff) (p : ℝ × ℝ) : ℝ × ℝ := let v := m.app ⟨p.1, p.2, 0⟩; (v.x, v.y)

/-- `csg3_from_polygon` csg3.c:1203-1260 -/
def polygon (e : ℝ) (q : QSort) (c : Env) (m : Aff) (pts : List (ℝ × ℝ)) (paths : List (List Nat)) : Out (ℝ × ℝ) :=
  if !c.inside then msg c.outsideFails
  else if pts.length < 3 then msg c.emptyFails
  else match check e q (pts.map co2) with
    | none => .undef
    | some true => .fail
    | some false => .made (pts.map (xform2 m)) paths

end

end Hob3l.Mesh
