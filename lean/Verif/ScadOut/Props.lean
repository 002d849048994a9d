import Verif.ScadOut.Lemmas
import Verif.Args.PropsDump
/-!
# Property C124: the SCAD output describes the layers
-/
namespace Hob3l.ScadOut

open Hob3l.Syn
open Hob3l.Args
open Hob3l.Dump3

variable {F : Type} [Flt F] [Field F] [LinearOrder F] [IsStrictOrderedRing F]

/-- **C124**: for every valid tree of layers with polygons, whatever the inside of paths is: printing succeeds; the output is a
program (whatever the file is called and whatever other files there are); whatever the options are, it is converted without error and
without a root; and what it describes is, for each polygon in each layer, what is between the z coordinate of the layer and this plus the
thickness without the gap. -/
theorem C124_scad_output (pr : Printf F) (hi : IntLaw F) (t : Tree2 F) (ht : TreeOk pr t) :
    ∃ text, putTree pr t = some text ∧ ∀ (fs : FS) (file : Text) (o : Opts) (region : List (List F) → List (List Nat) → Set (F × F)),
      ∃ l ts, Program fs file text l ∧ fromTree o l = .ok (ts, none) ∧ spaces region ts = slabs region t := by
  have hh : PrintsAs (pr.ff (height t)) (height t) := by rw [height_eq]; exact ht.exactHeight
  have hn : ∀ (k : Nat) (r : Layer F), t.layers[k]? = some r → r.polys ≠ [] → r.zi = 0 + k ∧ 0 + k < t.z.length := by
    intro k r h1 h2
    rw [Nat.zero_add]
    exact ht.number k r h1 h2
  have hs : ∀ region : List (List F) → List (List Nat) → Set (F × F),
      {q : F × F × F | ∃ (k : Nat) (r : Layer F) (z : F) (p : Poly F), t.layers[k]? = some r ∧ t.z[0 + k]? = some z ∧
        p ∈ r.polys ∧ 0 ≤ q.2.2 - z ∧ q.2.2 - z ≤ height t ∧ (q.1, q.2.1) ∈ region p.points (pathsOf p)} = slabs region t := by
    intro region
    unfold slabs
    ext q
    simp only [Set.mem_setOf_eq, height_eq, Nat.zero_add, sub_nonneg, sub_le_iff_le_add, add_comm (thickness t)]
  by_cases h0 : t.layers.length = 0
  · refine ⟨[], by simp [putTree, h0], fun fs file o region => ⟨[], [], ⟨[], .eof, .nil⟩, rfl, ?_⟩⟩
    have : t.layers = [] := List.length_eq_zero_iff.mp h0
    simp [spaces, slabs, this]
  · obtain ⟨text, e, -⟩ := layer_reads hh ht.exactZ (fun _ => none) [] 2 0 t.layers hn ht.polys
    refine ⟨block 0 "group" text, by simp [putTree, h0, e], fun fs file o region => ?_⟩
    obtain ⟨text', e', hr⟩ := layer_reads hh ht.exactZ fs file 2 0 t.layers hn ht.polys
    rw [e] at e'
    simp only [Option.some.injEq] at e'
    subst e'
    have hP := block_reads (fs := fs) (file := file) (name := "group") (idText_of (by decide +kernel) (by decide +kernel))
      (by unfold Keyword; decide +kernel) 0 (s := []) (P := fun ts => ts = []) ⟨[], .eof, rfl⟩ hr
    rw [List.append_nil] at hP
    obtain ⟨ts, h1, h2, ts', h3, rfl⟩ := hP
    obtain ⟨tr, s', a, b, c⟩ := layers_makes (region := region) (o := o) hi hh ht.exactZ 0 t.layers ht.polys ⟨1, none⟩
    refine ⟨[.item _], [.mk 0 .union 0 tr], ⟨ts, h1, IsStmts.push (l := [_]) (.item h3) h2 .nil⟩, ?_, ?_⟩
    · have e1 : cmdFind (txt "group") = some .union := by decide +kernel
      have e3 : isRoot 0 = false := by decide
      have e4 : (fromArgs o.param o.colors .union [] : Out (Obj F)) = .ok .union := rfl
      simp only [fromTree, fromStmts, fromItem, e1, funcNew, e3, Bool.false_eq_true, if_false, e4, Bind.bind, Out.bind, hasChild, if_true, a,
        List.append_nil]
      rw [b]
    · simp only [spaces, space, Set.union_empty]
      rw [c, hs]

/-! ### examples -/

/-- rational numbers, text as in `Fix` -/
instance ratFlt : Flt ℚ where
  ofText t := (Flt.ofText t : Fix).raw / 100000
  ofInt i := i
  pi := 3
  half x := x / 2
  unit x := decide (0 ≤ x ∧ x ≤ 1)
  byte _ := 0
  eq x y := decide (x = y)

/-- numbers with up to five digits behind the point -/
def ratPr : Printf ℚ := ⟨fun x => fixText 5 (x * 100000).num.toNat, fun x => fixText 5 (x * 100000).num.toNat, fun _ => []⟩

/-- three layers: a polygon with paths, nothing, a polygon with triangles -/
def exTree : Tree2 ℚ where
  thick := 1 / 2
  gap := -1
  z := [0, 1 / 2, 1]
  layers := [⟨0, [⟨[[0, 0], [3, 0], [0, 3], [1, 1], [2, 1], [1, 2]], [[0, 1, 2], [3, 4, 5]], []⟩]⟩, ⟨7, []⟩,
    ⟨2, [⟨[[0, 0], [1, 0], [1, 1], [0, 1]], [[0, 1, 2, 3]], [(0, 1, 2), (0, 2, 3)]⟩]⟩]

example : IntLaw ℚ := ⟨rfl, rfl⟩

theorem exPrints : ∀ x ∈ ([0, 1, 2, 3, 1 / 2] : List ℚ), PrintsAs (ratPr.ff x) x := by
  have h : ∀ x ∈ ([0, 1, 2, 3, 1 / 2] : List ℚ), plain (ratPr.ff x) = true ∧
      (if IsFloat (ratPr.ff x) then Flt.ofText (ratPr.ff x) else Flt.ofInt (intValue (ratPr.ff x))) = x := by
    decide +kernel
  exact fun x hx => ⟨(plain_number (h x hx).1).1, (plain_number (h x hx).1).2, (h x hx).2⟩

example : TreeOk ratPr exTree := by
  have ht : thickness exTree = 1 / 2 := by decide +kernel
  refine ⟨?_, ?_, ?_, ?_⟩
  · intro i r h hr
    match i with
    | 0 => cases h; decide
    | 1 => cases h; exact absurd rfl hr
    | 2 => cases h; decide
    | i + 3 => cases h
  · have h : ∀ r ∈ exTree.layers, ∀ p ∈ r.polys, (∀ q ∈ p.points, q.length = 2) ∧ p.points.length ≤ 2 ^ 63 ∧
        (∀ f ∈ pathsOf p, 3 ≤ f.length ∧ ∀ i ∈ f, i < p.points.length) ∧
        ∀ x ∈ p.points.flatten, x ∈ ([0, 1, 2, 3, 1 / 2] : List ℚ) := by
      decide +kernel
    intro r hr p hp
    obtain ⟨a, b, c, d⟩ := h r hr p hp
    exact ⟨a, b, c, fun x hx => exPrints x (d x hx)⟩
  · have h : ∀ x ∈ exTree.z, x ∈ ([0, 1, 2, 3, 1 / 2] : List ℚ) := by decide +kernel
    exact fun x hx => exPrints x (h x hx)
  · rw [ht]
    exact exPrints _ (by simp)

example : putTree ratPr exTree = some (txt ("group(){\n  translate([0,0,0]) {\n" ++
    "    linear_extrude(height=0.5,center=0,convexity=2,twist=0)polygon(points=[[0,0],[3,0],[0,3],[1,1],[2,1],[1,2]],paths=[[0,1,2],[3,4,5]]);\n" ++
    "  }\n  translate([0,0,1]) {\n" ++
    "    linear_extrude(height=0.5,center=0,convexity=2,twist=0)polygon(points=[[0,0],[1,0],[1,1],[0,1]],paths=[[0,1,2],[0,2,3]]);\n" ++
    "  }\n}\n")) := by
  decide +kernel

/-- with a gap that is not smaller than the layer, the height is 0 -/
example : putTree ratPr { exTree with gap := 1, layers := [⟨0, [⟨[[0, 0], [1, 0], [1, 1]], [[0, 1, 2]], []⟩]⟩] } =
    some (txt ("group(){\n  translate([0,0,0]) {\n" ++
      "    linear_extrude(height=0,center=0,convexity=2,twist=0)polygon(points=[[0,0],[1,0],[1,1]],paths=[[0,1,2]]);\n" ++
      "  }\n}\n")) := by
  decide +kernel

end Hob3l.ScadOut
