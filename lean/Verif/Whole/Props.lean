import Verif.Whole.Model
import Verif.Scad.Props
import Verif.Layer.Props

/-!
C62: from the SCAD tree to the polygons of the layers: each layer contains exactly the points of the model at that height.

Assumed (and proved elsewhere for parts of the code): the cutting of a single object gives its points at that height, and
the plane sweep computes boolean combinations.  Partial for the reasons given for C61.
-/

namespace Hob3l.Whole

open Hob3l.Flatten Hob3l.Layer
open scoped Pointwise

section
variable {O M P X : Type}

/-- the cutting is right: point `p` of layer `zi` is at `emb zi p` in space -/
def CutOk [SMul M X] (solid : O → Set X) (emb : Nat → P → X) (sl : O → M → Solid P) (cnt : Nat) : Prop :=
  ∀ o m zi p, zi < cnt → (Solid.has zi p (sl o m) = true ↔ emb zi p ∈ m • solid o)

mutual
theorem toCsg3_has [SMul M X] (solid : O → Set X) (emb : Nat → P → X) (sl : O → M → Solid P) (cnt : Nat)
    (hsl : CutOk solid emb sl cnt) (zi : Nat) (hz : zi < cnt) (p : P) (t : Scad.Csg O M) :
    (toCsg3 sl t).has zi p = true ↔ emb zi p ∈ t.pts solid := by
  match t with
  | .leaf o m => simp only [toCsg3, Csg3.has, Scad.Csg.pts]; exact hsl o m zi p hz
  | .sub a b =>
    simp only [toCsg3, Csg3.has, Scad.Csg.pts, Set.mem_diff, Bool.and_eq_true, Bool.not_eq_true', ← Bool.not_eq_true]
    rw [toCsg3s_has solid emb sl cnt hsl zi hz p a, toCsg3s_has solid emb sl cnt hsl zi hz p b]
  | .cut [] => simp only [toCsg3, toCsg3Adds, Csg3.has, Scad.Csg.pts]; simp
  | .cut (a :: l) =>
    simp only [toCsg3, toCsg3Adds, Csg3.has, Scad.Csg.pts, Set.mem_inter_iff, Bool.and_eq_true]
    rw [toCsg3s_has solid emb sl cnt hsl zi hz p a, toCsg3Adds_has solid emb sl cnt hsl zi hz p l]
theorem toCsg3s_has [SMul M X] (solid : O → Set X) (emb : Nat → P → X) (sl : O → M → Solid P) (cnt : Nat)
    (hsl : CutOk solid emb sl cnt) (zi : Nat) (hz : zi < cnt) (p : P) (t : List (Scad.Csg O M)) :
    (toCsg3s sl t).hasAny zi p = true ↔ emb zi p ∈ Scad.ptsAdd solid t := by
  match t with
  | [] => simp only [toCsg3s, Csg3s.hasAny, Scad.ptsAdd]; simp
  | a :: l =>
    simp only [toCsg3s, Csg3s.hasAny, Scad.ptsAdd, Set.mem_union, Bool.or_eq_true]
    rw [toCsg3_has solid emb sl cnt hsl zi hz p a, toCsg3s_has solid emb sl cnt hsl zi hz p l]
theorem toCsg3Adds_has [SMul M X] (solid : O → Set X) (emb : Nat → P → X) (sl : O → M → Solid P) (cnt : Nat)
    (hsl : CutOk solid emb sl cnt) (zi : Nat) (hz : zi < cnt) (p : P) (t : List (List (Scad.Csg O M))) :
    (toCsg3Adds sl t).hasAll zi p = true ↔ emb zi p ∈ Scad.ptsCut solid t := by
  match t with
  | [] => simp only [toCsg3Adds, Csg3Adds.hasAll, Scad.ptsCut]; simp
  | a :: l =>
    simp only [toCsg3Adds, Csg3Adds.hasAll, Scad.ptsCut, Set.mem_inter_iff, Bool.and_eq_true]
    rw [toCsg3s_has solid emb sl cnt hsl zi hz p a, toCsg3Adds_has solid emb sl cnt hsl zi hz p l]
end

mutual
theorem toCsg3_WF (sl : O → M → Solid P) (h : ∀ o m, Solid.WF (sl o m)) (t : Scad.Csg O M) : (toCsg3 sl t).WF := by
  match t with
  | .leaf o m => simp only [toCsg3, Csg3.WF]; exact h o m
  | .sub a b => simp only [toCsg3, Csg3.WF]; exact ⟨toCsg3s_WF sl h a, toCsg3s_WF sl h b⟩
  | .cut l => simp only [toCsg3, Csg3.WF]; exact toCsg3Adds_WF sl h l
theorem toCsg3s_WF (sl : O → M → Solid P) (h : ∀ o m, Solid.WF (sl o m)) (t : List (Scad.Csg O M)) :
    (toCsg3s sl t).WF := by
  match t with
  | [] => simp only [toCsg3s, Csg3s.WF]
  | a :: l => simp only [toCsg3s, Csg3s.WF]; exact ⟨toCsg3_WF sl h a, toCsg3s_WF sl h l⟩
theorem toCsg3Adds_WF (sl : O → M → Solid P) (h : ∀ o m, Solid.WF (sl o m)) (t : List (List (Scad.Csg O M))) :
    (toCsg3Adds sl t).WF := by
  match t with
  | [] => simp only [toCsg3Adds, Csg3Adds.WF]
  | a :: l => simp only [toCsg3Adds, Csg3Adds.WF]; exact ⟨toCsg3s_WF sl h a, toCsg3Adds_WF sl h l⟩
end

/-- From the SCAD tree to the layers: for every SCAD tree without zero-extent objects and without lone intersections, every
number of layers, and every limit `≥ 2`, the run succeeds with one output per layer, and a point is in the output of a
layer if and only if the point at that height is in the model. -/
theorem C62_scad_to_layers_partial [Group M] [MulAction M X] (solid : O → Set X) (emb : Nat → P → X)
    (sl : O → M → Solid P) (cnt : Nat) (hsl : CutOk solid emb sl cnt) (hwf : ∀ o m, Solid.WF (sl o m))
    (opt : Opt) (hskip : opt.skipEmpty = true) (hopt : 2 ≤ opt.maxSimultaneous) (sw : Sweep P) (hsw : sw.Ok)
    (l : List (Scad.Scad O M)) (h : Scad.solidOnlys l = true) (hl : Scad.noLones l = true) :
    ∃ os, run opt sw sl cnt l = some os ∧ os.length = cnt ∧
      ∀ zi, zi < cnt → ∃ o, os[zi]? = some o ∧
        ∀ p, Res.has o p = true ↔ ∃ s ∈ l, emb zi p ∈ s.pts solid := by
  cases hr : Scad.convTop l with
  | none => rw [(Scad.C61_fails_iff_partial l h).1 hr] at hl; cases hl
  | some r =>
    obtain ⟨os, h1, h2, h3⟩ := C49_layers opt hskip hopt sw hsw cnt (toCsg3s sl r) (toCsg3s_WF sl hwf r)
    refine ⟨os, by simp only [run, hr, Option.bind_eq_bind, Option.bind_some, h1], h2, fun zi hz => ?_⟩
    obtain ⟨o, h4, h5⟩ := h3 zi hz
    refine ⟨o, h4, fun p => ?_⟩
    rw [h5, toCsg3s_has solid emb sl cnt hsl zi hz p r, Scad.C61_meaning_partial solid l (Scad.hollowOks_of_solid l h) r hr]
    clear h h1 h2 h3 h4 h5 hr hl
    induction l with
    | nil => simp [Scad.unions]
    | cons s l ih => simp [Scad.unions, ih]

/-- An invalid intersection stops the whole run. -/
theorem C62_lone_wrong [Group M] (opt : Opt) (sw : Sweep P) (sl : O → M → Solid P) (cnt : Nat)
    (l : List (Scad.Scad O M)) (h : Scad.solidOnlys l = true) (hl : Scad.noLones l = false) :
    run opt sw sl cnt l = none := by
  simp only [run, (Scad.C61_fails_iff_partial l h).2 hl, Option.bind_eq_bind, Option.bind_none]

end

/-! A concrete case: the line as space, moved by translations; each layer sees three points at `zi`, `zi+1`, `zi+2`. -/

/-- cutting of the segments `Scad.seg` -/
def exSl (o : Nat) (m : Scad.Line) : Solid (Fin 3) := fun zi =>
  some (3, fun p =>
    let x : Int := (zi : Int) + p.val - m.toAdd
    if o = 0 then decide (0 ≤ x ∧ x ≤ 9) else decide (5 ≤ x ∧ x ≤ 6))

theorem exSl_ok (cnt : Nat) :
    CutOk (X := Int) Scad.seg (fun zi (p : Fin 3) => (zi : Int) + p.val) exSl cnt := by
  intro o m zi p _
  have hm : ∀ y, (m • y : Int) = m.toAdd + y := fun _ => rfl
  simp only [Solid.has, exSl, Scad.seg, Set.mem_smul_set, hm]
  by_cases ho : o = 0
  · simp only [ho, if_true, decide_eq_true_eq, Set.mem_setOf_eq]
    constructor
    · intro h; exact ⟨_, h, by omega⟩
    · rintro ⟨x, hx, he⟩; omega
  · simp only [ho, if_false, decide_eq_true_eq, Set.mem_setOf_eq]
    constructor
    · intro h; exact ⟨_, h, by omega⟩
    · rintro ⟨x, hx, he⟩; omega

example : ∀ o m, Solid.WF (exSl o m) := by
  intro o m zi n r h hn
  simp [exSl] at h
  omega
example : Scad.solidOnlys Scad.exTree = true ∧ Scad.noLones Scad.exTree = true := by decide
/-- layer 3 sees the points 3, 4, 5 of `[2,11] - [7,8] - [5,6]` and of `[0,9] ∩ [5,6]`: all of them -/
example : (run ⟨10, true⟩ sweep3 exSl 4 Scad.exTree).map (fun os => os.map fun o => (List.finRange 3).map (Res.has o)) =
    some [[false, false, true], [false, true, true], [true, true, true], [true, true, true]] := by decide +kernel

end Hob3l.Whole
