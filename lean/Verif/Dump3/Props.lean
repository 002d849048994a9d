import Verif.Dump3.LemmasTree
import Verif.Dump3.LemmasShape
import Verif.Syn.Props
import Verif.Args.PropsDump
/-!
# Property C123: the dump of the tree of 3D objects is read back
-/
namespace Hob3l.Dump3

open Hob3l.Syn
open Hob3l.Args
open Hob3l.Scad

variable {F M : Type} [Flt F]

/-- **C123, form of the trees**: whatever the program, the tree of 3D objects has the form that is required in
`C123_dump_partial`. -/
theorem C123_shape {O : Type} [Mul M] [One M] (l : List (Scad O M)) (r : List (Csg O M)) (h : convTop l = some r) : Shapes r := by
  simp only [convTop, Option.map_eq_some_iff] at h
  obtain ⟨st, e, rfl⟩ := h
  obtain ⟨q, h1, h2⟩ := fromV_makes (convs_makes 1 l) false [] st e
  rw [h1]
  simpa using h2

/-- **C123, the part that holds**: for every tree of balls and solids that has the form of trees that are made from programs: if
the numbers are printed so that they can be read, then the dump is a program (whatever the file is called and whatever other files
there are); if unknown parameters are accepted, then it is converted, without a root, into the same tree of 3D objects.  Missing: see
the theorems below. -/
theorem C123_dump_partial [Monoid M] (pr : Printf F) (hq : EqLaw F) (mat : List (List F) → M) (dup : List (List F) → Bool)
    (t : List (Csg3 F)) (hs : Shapes (csgOfs mat t)) (ht : Leavess pr dup t) (fs : FS) (file : Text) (o : Opts)
    (ho : o.param = false) :
    ∃ l ts ss, Program fs file (dump3 pr t) l ∧ fromTree o l = .ok (ts, none) ∧ scadOfs mat dup ts = some ss ∧
      convTop ss = some (csgOfs mat t) := by
  obtain ⟨h1, h2⟩ := convs_again mat t hs
  obtain ⟨ts, s', a, b, c⟩ := items_conv (mat := mat) hq ho t ht h2 ⟨0, none⟩
  refine ⟨_, ts, toScads mat t, dump3_reads pr fs file t (leavess_text t ht), ?_, c, ?_⟩
  · unfold fromTree
    rw [fromStmts_items o _ _ (by simp), itemsOf_map, a]
    show Out.ok (ts, s'.root) = _
    rw [b]
  · unfold convTop
    rw [h1]
    simp

/-- **C123, the part that holds**: the same for the parser. -/
theorem C123_parse_partial [Monoid M] (pr : Printf F) (hq : EqLaw F) (mat : List (List F) → M) (dup : List (List F) → Bool)
    (t : List (Csg3 F)) (hs : Shapes (csgOfs mat t)) (ht : Leavess pr dup t) (fs : FS) (file : Text) (o : Opts)
    (ho : o.param = false) :
    ∃ n, ∀ m, n ≤ m → ∃ l ts ss, parse fs m file (dump3 pr t) = .ok l ∧ fromTree o l = .ok (ts, none) ∧
      scadOfs mat dup ts = some ss ∧ convTop ss = some (csgOfs mat t) := by
  obtain ⟨l, ts, ss, h1, h2⟩ := C123_dump_partial pr hq mat dup t hs ht fs file o ho
  obtain ⟨n, hn⟩ := C71_complete fs file _ l h1
  exact ⟨n, fun m hm => ⟨l, ts, ss, hn m hm, h2⟩⟩

/-! ## Trees that are not read back -/

/-- **C123 fails for balls, if unknown parameters are rejected**: `center` is not a parameter of `sphere`. -/
theorem C123_ball_wrong (pr : Printf F) (hq : EqLaw F) (rows : List (List F))
    (h : rows.length = 3 ∧ (∀ r ∈ rows, r.length = 4) ∧ ∀ x ∈ rows.flatten, PrintsAs (pr.ff x) x) (fn : Nat) (hf : fn < 2 ^ 63)
    (fs : FS) (file : Text) (o : Opts) (ho : o.param = true) :
    ∃ l, Program fs file (dump3 pr [.sphere rows fn 0]) l ∧ fromTree (F := F) o l = .fail := by
  refine ⟨_, dump3_reads pr fs file _ ?_, ?_⟩
  · simp only [TextOks, TextOk, and_true]
    exact ⟨matrix_text h.2.2, hf, false, false, false, false, by decide⟩
  · have e1 : cmdFind (txt "multmatrix") = some .multmatrix := by decide +kernel
    have e2 : cmdFind (txt "sphere") = some .sphere := by decide +kernel
    have e3 : isRoot 0 = false := by decide
    simp only [items, item, List.map_cons, List.map_nil, fromTree, fromStmts, fromItem, fromItems, e1, e2, funcNew, e3, ho,
      Bool.false_eq_true, if_false, matrix_again hq h, sphere_strict, Bind.bind, Out.bind, hasChild, if_true]

/-- **C123 fails for `xor`** (which is what the extrusion of a polygon with several paths is converted to): `hob3l_xor` is not a known
functor: the dump is rejected, and if unknown functors are accepted, then the object is lost. -/
theorem C123_xor_wrong (pr : Printf F) (l : List (List (Csg3 F))) (dup : List (List F) → Bool) (hl : Leavesss pr dup l) (fs : FS) (file : Text) (o : Opts) :
    ∃ p, Program fs file (dump3 pr [.xor l]) p ∧ fromTree (F := F) o p = if o.functor then .fail else .ok ([], none) := by
  refine ⟨_, dump3_reads pr fs file _ ?_, ?_⟩
  · simp only [TextOks, TextOk, and_true]
    exact leavesss_text l hl
  · have e : cmdFind (txt "hob3l_xor") = none := by decide +kernel
    simp only [items, item, List.map_cons, List.map_nil, fromTree, fromStmts, fromItem, e]
    cases o.functor <;> rfl

/-- **C123 fails for groups marked by `!`**: each object of the group gets the modifier, but only one object of a program may have
it, so that the dump is rejected.  (`0x44` is `!`, include/hob3l/gc_tam.h:29.) -/
theorem C123_root_wrong (pr : Printf F) (points points' : List (List F)) (faces faces' : List (List Nat))
    (h : Leaves pr (fun _ => false) (.poly points faces 0)) (h' : Leaves pr (fun _ => false) (.poly points' faces' 0)) (fs : FS)
    (file : Text) (o : Opts) :
    ∃ p, Program fs file (dump3 pr [.poly points faces 0x44, .poly points' faces' 0x44]) p ∧ fromTree (F := F) o p = .fail := by
  simp only [Leaves] at h h'
  have e1 : cmdFind (txt "polyhedron") = some .polyhedron := by decide +kernel
  have e3 : isRoot 68 = true := by decide
  refine ⟨_, dump3_reads pr fs file _ ?_, ?_⟩
  · simp only [TextOks, TextOk, and_true]
    exact ⟨⟨poly_text h.2.1.2.1 h.1.2.1 h.1.2.2, by unfold ModSet; decide +kernel⟩,
      poly_text h'.2.1.2.1 h'.1.2.1 h'.1.2.2, by unfold ModSet; decide +kernel⟩
  · simp only [items, item, List.map_cons, List.map_nil, fromTree, fromStmts, fromItem, e1, funcNew, e3, if_true,
      poly_again h.1.1 h.1.2.1 h.1.2.2, Bind.bind, Out.bind, hasChild, Bool.false_eq_true, if_false]

/-! ## Examples -/

/-- a number with five digits -/
def num (raw : Int) : Fix := ⟨raw⟩

/-- a ball of radius 1.5 at (1,2,3), of which a tetrahedron (marked by `#`) is subtracted, and an intersection of two tetrahedra
with a ball -/
def sample : List (Csg3 Fix) :=
  let ball := Csg3.sphere [[num 150000, num 0, num 0, num 100000], [num 0, num 150000, num 0, num 200000],
    [num 0, num 0, num 150000, num 300000]] 100 0
  let tet := fun m => Csg3.poly [[num 0, num 0, num 0], [num 100000, num 0, num 0], [num 0, num 100000, num 0],
    [num 0, num 0, num 100000]] [[0, 1, 2], [0, 3, 1], [0, 2, 3], [1, 3, 2]] m
  [.sub [ball] [tet 0x11], .cut [[tet 0, tet 0], [ball]]]

theorem sample_nums {l : List Fix} (h : l.all (fun x => plain (fixPr.ff x) &&
    decide ((if IsFloat (fixPr.ff x) then Flt.ofText (fixPr.ff x) else Flt.ofInt (intValue (fixPr.ff x))) = x)) = true) :
    ∀ x ∈ l, PrintsAs (fixPr.ff x) x := by
  intro x hx
  have := List.all_eq_true.mp h x hx
  simp only [Bool.and_eq_true, decide_eq_true_eq] at this
  exact plain_prints this.1 this.2

/-- the hypotheses of `C123_dump_partial` can be met -/
example : EqLaw Fix ∧ Shapes (csgOfs (fun rows => (rows.flatten.map Fix.raw).sum) sample : List (Csg (Geo Fix) ℤ)) ∧
    Leavess fixPr (fun p => decide (¬ p.Nodup)) sample := by
  refine ⟨by unfold EqLaw; decide +kernel, ?_, ?_⟩
  · simp [sample, csgOfs, csgOf, csgOfss, Shapes, Shape, Shapess, isSub]
  · simp only [sample, Leavess, Leavesss, Leaves, PlainMods]
    refine ⟨⟨⟨⟨⟨rfl, by decide +kernel, sample_nums (by decide +kernel)⟩, by decide, by decide⟩, trivial⟩,
      ⟨⟨by decide +kernel, by decide +kernel, sample_nums (by decide +kernel)⟩, ⟨by decide, by decide, by decide, by decide +kernel⟩, by decide⟩,
      trivial⟩, ⟨⟨⟨⟨by decide +kernel, by decide +kernel, sample_nums (by decide +kernel)⟩, ⟨by decide, by decide, by decide, by decide +kernel⟩,
      by decide⟩, ⟨⟨by decide +kernel, by decide +kernel, sample_nums (by decide +kernel)⟩, ⟨by decide, by decide, by decide, by decide +kernel⟩,
      by decide⟩, trivial⟩, ⟨⟨⟨rfl, by decide +kernel, sample_nums (by decide +kernel)⟩, by decide, by decide⟩, trivial⟩, trivial⟩, trivial⟩

/-- the hypotheses of `C123_xor_wrong` and `C123_root_wrong` can be met -/
example : Leavesss fixPr (fun _ => false) [[.poly [[num 0, num 0, num 0], [num 100000, num 0, num 0], [num 0, num 100000, num 0],
    [num 0, num 0, num 100000]] [[0, 1, 2], [0, 3, 1], [0, 2, 3], [1, 3, 2]] 0]] := by
  simp only [Leavess, Leavesss, Leaves, PlainMods]
  exact ⟨⟨⟨⟨by decide +kernel, by decide +kernel, sample_nums (by decide +kernel)⟩, ⟨by decide, by decide, by decide, by decide⟩,
      by decide⟩, trivial⟩, trivial⟩

/-- the dump of an example -/
example : dump3 fixPr [Csg3.sub [.sphere [[num 150000, num 0, num 0, num 100000], [num 0, num 150000, num 0, num 200000],
    [num 0, num 0, num 150000, num 300000]] 100 0] [.poly [[num 0, num 0, num 0]] [[0, 0, 0]] 0x11]] =
    txt "difference(){\n  // add\n  multmatrix(m=[[1.5,0,0,1],[0,1.5,0,2],[0,0,1.5,3],[0,0,0,1]]) sphere(r=1,center=true,$fn=100);\n  // sub\n  #polyhedron(points=[[0,0,0]],faces=[[0,0,0]]);\n}\n" := by
  decide +kernel

/-- a program that has a tree: a difference of a difference is one difference -/
example : (convTop [.diff [.diff [.obj 1, .obj 2], .obj 3]] : Option (List (Csg Nat Nat))) =
    some [.sub [.leaf 1 1] [.leaf 2 1, .leaf 3 1]] := rfl

end Hob3l.Dump3
