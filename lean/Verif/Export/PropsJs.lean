import Verif.Export.LemmasJs
import Verif.Export.Props
/-!
# Property C118: the JavaScript export shows the same triangles as the solid has
-/
namespace Hob3l.Export.Js

section
variable {D : Type} (env : JsEnv D) (z : List D)

theorem treePut_eq (root : Csg D) : treePut env z root = (run env (tris env.env z (root.slabs 0)) Ctxt.init).map fun c => (flush c).out := by
  unfold treePut
  have e : flush Ctxt.init = Ctxt.init := rfl
  rw [e]
  dsimp only
  rw [csg2Put_eq]
  cases run env (tris env.env z (root.slabs 0)) Ctxt.init <;> rfl

/-- **C118**: reading all scenes, as the format is documented, gives exactly the triangles of the solids of all exported polygons,
in order, however many there are, on the grid of integer coordinates.  Nothing is written (assertion) exactly if a triangle is
undefined. -/
theorem C118_triangles (root : Csg D) :
    ((treePut env z root).bind fun scenes => (scenes.mapM Scene.triangles).map List.flatten)
      = ((root.slabs 0).bind (allTriangles env.env z)).map (List.map (shown env)) := by
  rw [treePut_eq]
  show _ = (tris env.env z (root.slabs 0)).map (List.map (shown env))
  cases tris env.env z (root.slabs 0) with
  | none => rfl
  | some ts =>
    obtain ⟨c, parts, e, h1, -, h3⟩ := emit_parts env ts Ctxt.init [] ⟨rfl, rfl, by simp, rfl, by simp⟩
    simp only [run, Option.bind_some, e, Option.map_some, h3]
    have : ∀ parts : List (List (T3 D)),
        ((parts.map (sceneOf env)).mapM Scene.triangles) = some (parts.map (List.map (shown env))) := by
      intro parts
      induction parts with
      | nil => rfl
      | cons p parts ih => rw [List.map_cons, mapM_cons_bind, scene_triangles, ih]; rfl
    rw [show (Ctxt.init).out = [] from rfl, List.nil_append, this, Option.map_some, ← List.map_flatten, h1, List.nil_append]

/-- **C118**: every scene keeps the limits of the format, and none is empty: at most 65535 vertices, normals and colours for each vertex,
and indices in the arrays. -/
theorem C118_limits (root : Csg D) (scenes : List Scene) (h : treePut env z root = some scenes) :
    ∀ s ∈ scenes, s.Fits ∧ s.index ≠ [] := by
  rw [treePut_eq] at h
  cases ht : tris env.env z (root.slabs 0) with
  | none => rw [ht] at h; cases h
  | some ts =>
    obtain ⟨c, parts, e, -, h2, h3⟩ := emit_parts env ts Ctxt.init [] ⟨rfl, rfl, by simp, rfl, by simp⟩
    rw [ht] at h
    simp only [run, Option.bind_some, e, Option.map_some, h3, Option.some.injEq] at h
    subst h
    intro s hs
    obtain ⟨p, hp, rfl⟩ := List.mem_map.mp hs
    obtain ⟨hne, hl⟩ := h2 p hp
    refine ⟨scene_fits env p hl, ?_⟩
    cases p with
    | nil => exact absurd rfl hne
    | cons t p =>
      simp only [sceneOf, List.length_cons, List.range_succ_eq_map, indexLoop]
      simp

/-- **C118**: the positions shown are those of the binary STL export, if both round the same way: the triangles of the scenes are, one
by one, the triangles of the records of the STL file. -/
theorem C118_same_as_stl (e : Env D) (h : ∀ a b c, e.normal a b c = some (env.normal a b c)) (he : e.eq = env.eq) (ht : e.top = env.top)
    (h0 : e.zero = env.zero) (h1 : e.one = env.one) (h2 : e.neg = env.neg) (root : Csg D) (scenes : List Scene)
    (hs : treePut env z root = some scenes) (ts : List (Corner × Corner × Corner))
    (hr : (scenes.mapM Scene.triangles).map List.flatten = some ts) :
    ∃ us : List (T3 D), Export.treePut e z root true = some (Stl.encodeFile (List.replicate 80 0) (us.map (recordOf e))) ∧
      ts = us.map (shown env) := by
  have hall : ∀ ss : List (Slab D), allTriangles e z ss = allTriangles env.env z ss := by
    intro ss
    induction ss with
    | nil => rfl
    | cons s ss ih =>
      have hp : place e z s = place env.env z s := by
        funext c
        unfold place
        rw [ht]
        rfl
      have hn : normalOf e z s = normalOf env.env z s := by
        funext f
        cases f <;> simp only [normalOf, hp, h0, h1, h2, h] <;> rfl
      have hi : inSpace e z s = inSpace env.env z s := by
        funext f
        unfold inSpace
        rw [hn, hp]
      simp only [allTriangles]
      rw [hi, ih, he, ht]
      rfl
  have h3 := C118_triangles env z root
  rw [hs, Option.bind_some, hr] at h3
  obtain ⟨us, hu, hu2⟩ := Option.map_eq_some_iff.mp h3.symm
  refine ⟨us, ?_, hu2.symm⟩
  rw [C50_binary]
  have : (root.slabs 0).bind (allTriangles e z) = some us := by
    rw [← hu]
    congr 1
    funext ss
    exact hall ss
  rw [this]
  rfl

/-- **C118**: the surface that is shown is closed, also after rounding to the grid, if all layers have a height and the outlines are marked
correctly. -/
theorem C118_closed (root : Csg D) (scenes : List Scene) (hs : treePut env z root = some scenes) (ts : List (Corner × Corner × Corner))
    (hr : (scenes.mapM Scene.triangles).map List.flatten = some ts) (hz : ∀ z0 ∈ z, env.eq z0 (env.top z0) = false)
    (ss : List (Slab D)) (hss : root.slabs 0 = some ss) (hb : ∀ s ∈ ss, Balanced (inner s.tri)) :
    Balanced (edgesOf (ts.map fun t => (t.1.1, t.2.1.1, t.2.2.1))) := by
  have h3 := C118_triangles env z root
  rw [hs, Option.bind_some, hr, hss, Option.bind_some] at h3
  obtain ⟨us, hu, rfl⟩ := Option.map_eq_some_iff.mp h3.symm
  have hc := balanced_map _ (grid env) (C50_file_closed env.env z ss us hu hz hb)
  have e : ∀ us : List (T3 D), edgesOf ((us.map (shown env)).map fun t => (t.1.1, t.2.1.1, t.2.2.1))
      = (edgesOf (us.map fun t => t.2)).map fun e => (grid env e.1, grid env e.2) := by
    intro us
    induction us with
    | nil => rfl
    | cons u us ih =>
      simp only [List.map_cons, edgesOf, List.flatMap_cons, List.map_append]
      unfold edgesOf at ih
      rw [ih]
      rfl
  rw [e]
  exact hc

end

/-! ## Examples -/

/-- the hypotheses of `C118_closed` can be met: a triangle with its whole outline -/
example : (∃ scenes ts, treePut (⟨fun a b => a == b, fun a => a + 5, fun _ _ _ => (7, 7, 7), fun a => a * 10, 0, 1, 2⟩ : JsEnv Nat) [1]
      (.poly [(0, 0), (0, 9), (9, 0)] [⟨0, 1, 2, true, true, true⟩]) = some scenes ∧
      (scenes.mapM Scene.triangles).map List.flatten = some ts ∧ ts.length = 8) ∧
    Balanced (inner [⟨0, 1, 2, true, true, true⟩]) := by
  refine ⟨⟨_, _, rfl, rfl, rfl⟩, ?_⟩
  unfold Balanced
  decide

/-- numbers for examples -/
def natEnv (h : Nat) : JsEnv Nat :=
  ⟨fun a b => a == b, fun a => a + h, fun _ _ _ => (7, 7, 7), fun a => a * 10, 0, 1, 2⟩

/-- a triangle with outline on one side, on a layer of height 5: four triangles, in one scene -/
example : treePut (natEnv 5) [1] (.poly [(0, 0), (0, 9), (9, 0)] [⟨0, 1, 2, true, false, false⟩]) =
    some [⟨[0, 90, 60, 0, 0, 60, 90, 0, 60, 0, 0, 10, 0, 90, 10, 90, 0, 10, 0, 90, 10, 0, 0, 60, 0, 90, 60, 0, 90, 10, 0, 0, 10, 0, 0, 60],
      [0, 0, 10000, 0, 0, 10000, 0, 0, 10000, 0, 0, 20000, 0, 0, 20000, 0, 0, 20000, 70000, 70000, 70000, 70000, 70000, 70000,
        70000, 70000, 70000, 70000, 70000, 70000, 70000, 70000, 70000, 70000, 70000, 70000],
      (List.replicate 12 [192, 192, 128, 255]).flatten, [0, 1, 1, 1, 1, 1, 1, 1, 1, 1, 1, 1]⟩] := by decide +kernel

/-- a point that does not exist; an empty tree has no scenes -/
example : treePut (natEnv 5) [1] (.poly [(0, 0), (0, 9)] [⟨0, 1, 2, true, false, false⟩]) = none ∧
    treePut (natEnv 5) [1] (.add .nil) = some [] := by decide +kernel

/-- the hypotheses of `C118_same_as_stl` can be met -/
example : ∃ (e : Env Nat), (∀ a b c, e.normal a b c = some ((natEnv 5).normal a b c)) ∧ e.eq = (natEnv 5).eq ∧ e.top = (natEnv 5).top ∧
    e.zero = (natEnv 5).zero ∧ e.one = (natEnv 5).one ∧ e.neg = (natEnv 5).neg :=
  ⟨Export.natEnv 5, fun _ _ _ => rfl, rfl, rfl, rfl, rfl, rfl⟩

end Hob3l.Export.Js
