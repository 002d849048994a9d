import Verif.Export.JsSpec
import Verif.Export.Lemmas

namespace Hob3l.Export.Js

open Hob3l.Matq

section
variable {D : Type} (env : JsEnv D)

/-! ### the triangles -/

/-- writing triangles one after the other -/
def emit : List (T3 D) → Ctxt → Option Ctxt
  | [], c => some c
  | t :: ts, c => (trianglePut env c t.1 t.2.1 t.2.2.1 t.2.2.2).bind (emit ts)

theorem emit_append (a b : List (T3 D)) : ∀ c, emit env (a ++ b) c = (emit env a c).bind (emit env b) := by
  induction a with
  | nil => intro c; rfl
  | cons t ts ih =>
    intro c
    simp only [List.cons_append, emit]
    cases trianglePut env c t.1 t.2.1 t.2.2.1 t.2.2.2 with
    | none => rfl
    | some c' => exact ih c'

/-- the triangles, if they are defined, are written -/
def run (o : Option (List (T3 D))) (c : Ctxt) : Option Ctxt := o.bind fun ts => emit env ts c

theorem run_both (a b : Option (List (T3 D))) (c : Ctxt) : run env (both a b) c = (run env a c).bind (run env b) := by
  cases a with
  | none => rfl
  | some x =>
    cases b with
    | none =>
      show none = (emit env x c).bind fun _ => none
      cases emit env x c <;> rfl
    | some y => exact emit_append env x y c

theorem run_cons (o : Option (T3 D)) (l : Option (List (T3 D))) (c : Ctxt) :
    run env (o.bind fun x => l.map fun y => x :: y) c
      = (o.bind fun t => trianglePut env c t.1 t.2.1 t.2.2.1 t.2.2.2).bind (run env l) := by
  cases o with
  | none => rfl
  | some x =>
    cases l with
    | none =>
      show none = (trianglePut env c x.1 x.2.1 x.2.2.1 x.2.2.2).bind fun _ => none
      cases trianglePut env c x.1 x.2.1 x.2.2.1 x.2.2.2 <;> rfl
    | some y => rfl

variable (z : List D)

theorem topLoop_eq (s : Slab D) (z0 : D) (hz : z[s.zi]? = some z0) (tri : List Tri) : ∀ (c : Ctxt),
    topLoop env s.point (env.top z0) tri c = run env ((top tri).mapM (inSpace env.env z s)) c := by
  induction tri with
  | nil => intro c; rfl
  | cons t ts ih =>
    intro c
    have e1 : top (t :: ts) = (.up, (t.p1, true), (t.p0, true), (t.p2, true)) :: top ts := rfl
    rw [e1, mapM_cons_bind, inSpace_up env.env z s z0 hz, run_cons]
    unfold topLoop
    cases s.point[t.p1]? with
    | none => rfl
    | some p =>
      cases s.point[t.p0]? with
      | none => rfl
      | some q =>
        cases s.point[t.p2]? with
        | none => rfl
        | some r =>
          simp only [Option.bind_eq_bind, Option.bind_some, Option.map_some]
          exact Option.bind_congr fun c' _ => ih c'

theorem bottomLoop_eq (s : Slab D) (z0 : D) (hz : z[s.zi]? = some z0) (tri : List Tri) : ∀ (c : Ctxt),
    bottomLoop env s.point z0 tri c = run env ((bottom tri).mapM (inSpace env.env z s)) c := by
  induction tri with
  | nil => intro c; rfl
  | cons t ts ih =>
    intro c
    have e1 : bottom (t :: ts) = (.down, (t.p0, false), (t.p1, false), (t.p2, false)) :: bottom ts := rfl
    rw [e1, mapM_cons_bind, inSpace_down env.env z s z0 hz, run_cons]
    unfold bottomLoop
    cases s.point[t.p0]? with
    | none => rfl
    | some p =>
      cases s.point[t.p1]? with
      | none => rfl
      | some q =>
        cases s.point[t.p2]? with
        | none => rfl
        | some r =>
          simp only [Option.bind_eq_bind, Option.bind_some, Option.map_some]
          exact Option.bind_congr fun c' _ => ih c'

theorem outlineEdge_eq (s : Slab D) (z0 : D) (hz : z[s.zi]? = some z0) (c : Ctxt) (j k : Nat) :
    outlineEdge env c s.point z0 (env.top z0) j k = run env ((wall (j, k)).mapM (inSpace env.env z s)) c := by
  unfold outlineEdge wall
  simp only [mapM_cons_bind, inSpace, normalOf, place_eq env.env z s z0 hz]
  cases s.point[j]? with
  | none =>
    simp only [Option.map_none, Option.bind_none, Option.bind_eq_bind]
    cases s.point[k]? <;> rfl
  | some p =>
    cases s.point[k]? with
    | none => rfl
    | some q =>
      simp only [Option.bind_eq_bind, Option.bind_some, Option.map_some, Bool.false_eq_true, if_false, if_true, JsEnv.env]
      show _ = emit env _ c
      simp only [emit]
      refine Option.bind_congr fun c' _ => ?_
      cases trianglePut env c' (env.normal (at_ q z0) (at_ p (env.top z0)) (at_ q (env.top z0))) (at_ q z0) (at_ p z0)
        (at_ p (env.top z0)) <;> rfl

theorem outlineIf_eq (s : Slab D) (z0 : D) (hz : z[s.zi]? = some z0) (c : Ctxt) (o : Bool) (j k : Nat) :
    outlineIf env o c s.point z0 (env.top z0) j k
      = run env (((if o then [(j, k)] else []).flatMap wall).mapM (inSpace env.env z s)) c := by
  unfold outlineIf
  cases o with
  | false => rfl
  | true =>
    simp only [if_true, List.flatMap_cons, List.flatMap_nil, List.append_nil]
    exact outlineEdge_eq env z s z0 hz c j k

theorem sideLoop_eq (s : Slab D) (z0 : D) (hz : z[s.zi]? = some z0) (tri : List Tri) : ∀ (c : Ctxt),
    sideLoop env s.point z0 (env.top z0) tri c = run env (((outline tri).flatMap wall).mapM (inSpace env.env z s)) c := by
  induction tri with
  | nil => intro c; rfl
  | cons t ts ih =>
    intro c
    rw [outline_cons, List.flatMap_append, List.flatMap_append, List.flatMap_append, mapM_append_both, mapM_append_both,
      mapM_append_both, run_both]
    unfold sideLoop
    simp only [outlineIf_eq env z s z0 hz, Option.bind_eq_bind]
    refine Option.bind_congr fun c1 _ => ?_
    rw [run_both]
    refine Option.bind_congr fun c2 _ => ?_
    rw [run_both]
    exact Option.bind_congr fun c3 _ => ih c3

theorem polyPut_eq (c : Ctxt) (s : Slab D) :
    polyPut env z c s.zi s.point s.tri = run env (allTriangles env.env z [s]) c := by
  unfold polyPut allTriangles
  cases hz : z[s.zi]? with
  | none => rfl
  | some z0 =>
    simp only [Option.bind_eq_bind, Option.bind_some, allTriangles]
    have e1 : ∀ a : Option (List (T3 D)), both a (some []) = a := by
      intro a; cases a <;> simp [both]
    rw [e1]
    show _ = run env ((solid (env.eq z0 (env.top z0)) s.tri).mapM (inSpace env.env z s)) c
    cases env.eq z0 (env.top z0) with
    | true =>
      simp only [solid, if_true, Option.bind_some]
      rw [bottomLoop_eq env z s z0 hz]
      cases run env ((bottom s.tri).mapM (inSpace env.env z s)) c <;> rfl
    | false =>
      simp only [solid, Bool.false_eq_true, if_false]
      rw [mapM_append_both, mapM_append_both, run_both, run_both, topLoop_eq env z s z0 hz]
      cases run env ((top s.tri).mapM (inSpace env.env z s)) c with
      | none => rfl
      | some c1 =>
        simp only [Option.bind_some]
        rw [bottomLoop_eq env z s z0 hz]
        exact Option.bind_congr fun c2 _ => sideLoop_eq env z s z0 hz s.tri c2

mutual
theorem csg2Put_eq (c : Ctxt) (zi : Nat) : ∀ x : Csg D,
    csg2Put env z c zi x = run env (tris env.env z (x.slabs zi)) c
  | .null => by rfl
  | .vline2 => by rfl
  | .sweep => by rfl
  | .poly point tri => by
      unfold csg2Put Csg.slabs
      exact polyPut_eq env z c ⟨zi, point, tri⟩
  | .stack idx0 ls => by unfold csg2Put Csg.slabs; exact layersPut_eq c idx0 ls
  | .add xs => by unfold csg2Put Csg.slabs; exact vPut_eq c zi xs
  | .xor xss => by unfold csg2Put Csg.slabs; exact firstPut_eq c zi xss
  | .sub xs _ => by unfold csg2Put Csg.slabs; exact vPut_eq c zi xs
  | .cut xss => by unfold csg2Put Csg.slabs; exact firstPut_eq c zi xss
theorem vPut_eq (c : Ctxt) (zi : Nat) : ∀ xs : Csgs D,
    vPut env z c zi xs = run env (tris env.env z (xs.slabs zi)) c
  | .nil => by rfl
  | .cons x xs => by
      unfold vPut Csgs.slabs
      rw [tris_both, run_both, csg2Put_eq c zi x]
      exact Option.bind_congr fun c' _ => vPut_eq c' zi xs
theorem firstPut_eq (c : Ctxt) (zi : Nat) : ∀ xss : CsgAdds D,
    firstPut env z c zi xss = run env (tris env.env z (xss.slabs zi)) c
  | .nil => by rfl
  | .cons x _ => by unfold firstPut CsgAdds.slabs; exact vPut_eq c zi x
theorem layersPut_eq (c : Ctxt) (zi : Nat) : ∀ ls : Layers D,
    layersPut env z c zi ls = run env (tris env.env z (ls.slabs zi)) c
  | .nil => by rfl
  | .cons _ .nil ls => by
      unfold layersPut Layers.slabs
      exact layersPut_eq c (zi + 1) ls
  | .cons lzi (.cons x xs) ls => by
      unfold layersPut Layers.slabs
      by_cases h : zi = lzi
      · subst h
        have e0 : ass (zi = zi) = some () := by unfold ass; rw [if_pos rfl]
        rw [if_pos rfl, tris_both, run_both, tris_both, run_both, e0]
        simp only [Option.bind_eq_bind, Option.bind_some]
        rw [csg2Put_eq c zi x, Option.bind_assoc]
        refine Option.bind_congr fun c1 _ => ?_
        rw [vPut_eq c1 zi xs]
        exact Option.bind_congr fun c2 _ => layersPut_eq c2 (zi + 1) ls
      · have e0 : ass (zi = lzi) = none := by unfold ass; rw [if_neg h]
        rw [if_neg h]
        simp only [e0, Option.bind_eq_bind, Option.bind_none]
        rfl
end

/-! ### the scenes -/

/-- the vertices of triangles -/
def verts (ts : List (T3 D)) : List Vtx := ts.flatMap fun t => [vtx env t.1 t.2.1, vtx env t.1 t.2.2.1, vtx env t.1 t.2.2.2]

theorem verts_length (ts : List (T3 D)) : (verts env ts).length = 3 * ts.length := by
  induction ts with
  | nil => rfl
  | cons t ts ih =>
    have e : verts env (t :: ts) = [vtx env t.1 t.2.1, vtx env t.1 t.2.2.1, vtx env t.1 t.2.2.2] ++ verts env ts := rfl
    rw [e, List.length_append, ih, List.length_cons]
    simp only [List.length_cons, List.length_nil]
    omega

/-- a scene for triangles -/
def sceneOf (ts : List (T3 D)) : Scene :=
  ⟨(verts env ts).flatMap fun v => [v.p.1, v.p.2.1, v.p.2.2], (verts env ts).flatMap fun v => [v.n.1, v.n.2.1, v.n.2.2],
    (verts env ts).flatMap fun v => [v.c.1, v.c.2.1, v.c.2.2.1, v.c.2.2.2],
    indexLoop (fun i => (3 * i, 3 * i + 1, 3 * i + 2)) 0 (List.range ts.length)⟩

/-- the buffer holds triangles -/
def Holds (c : Ctxt) (ts : List (T3 D)) : Prop :=
  c.triCnt = ts.length ∧ c.vCnt = 3 * ts.length ∧ ts.length ≤ 21845 ∧ (List.range c.vCnt).map c.v = verts env ts ∧
    ∀ i < ts.length, c.tri i = (3 * i, 3 * i + 1, 3 * i + 2)

theorem indexLoop_congr (f g : Nat → Nat × Nat × Nat) (l : List Nat) (h : ∀ i ∈ l, f i = g i) : ∀ last,
    indexLoop f last l = indexLoop g last l := by
  induction l with
  | nil => intro last; rfl
  | cons i l ih =>
    intro last
    simp only [indexLoop, h i List.mem_cons_self]
    rw [ih fun j hj => h j (List.mem_cons_of_mem _ hj)]

theorem flush_holds (c : Ctxt) (ts : List (T3 D)) (h : Holds env c ts) :
    Holds env (flush c) [] ∧ (flush c).out = c.out ++ (if ts = [] then [] else [sceneOf env ts]) := by
  obtain ⟨h1, h2, h3, h4, h5⟩ := h
  refine ⟨⟨rfl, rfl, by simp, rfl, by simp⟩, ?_⟩
  unfold flush
  dsimp only
  cases ts with
  | nil =>
    rw [if_neg (by simp only [List.length_nil] at h1; omega), if_pos rfl, List.append_nil]
  | cons t ts =>
    rw [if_pos (by simp only [List.length_cons] at h1; omega), if_neg (by simp)]
    congr 2
    have hv : ∀ {α : Type} (f : Vtx → List α), ((List.range c.vCnt).flatMap fun i => f (c.v i)) = (verts env (t :: ts)).flatMap f := by
      intro α f
      rw [← h4, List.flatMap_map]
    unfold sceneOf
    rw [Scene.mk.injEq]
    refine ⟨hv fun v => [v.p.1, v.p.2.1, v.p.2.2], hv fun v => [v.n.1, v.n.2.1, v.n.2.2],
      hv fun v => [v.c.1, v.c.2.1, v.c.2.2.1, v.c.2.2.2], ?_⟩
    rw [h1]
    exact indexLoop_congr _ _ _ (fun i hi => h5 i (List.mem_range.mp hi)) 0

theorem mask (n : Nat) (h : n < 65536) : 0xffff &&& n = n := by
  rw [Nat.and_comm, show 0xffff = 2 ^ 16 - 1 from rfl, Nat.and_two_pow_sub_one_eq_mod]
  exact Nat.mod_eq_of_lt (by omega)

theorem upd_range {α : Type} (f : Nat → α) (n : Nat) (x y w : α) :
    (List.range (n + 3)).map (upd (upd (upd f n x) (n + 1) y) (n + 2) w) = (List.range n).map f ++ [x, y, w] := by
  rw [List.range_succ, List.range_succ, List.range_succ]
  simp only [List.map_append, List.map_cons, List.map_nil, List.append_assoc, List.cons_append, List.nil_append]
  congr 1
  · apply List.map_congr_left
    intro i hi
    have := List.mem_range.mp hi
    simp only [upd]
    rw [if_neg (by omega), if_neg (by omega), if_neg (by omega)]
  · simp only [upd]
    have a1 : n ≠ n + 1 := by omega
    have a2 : n ≠ n + 2 := by omega
    have a3 : n + 1 ≠ n + 2 := by omega
    simp [a1, a2, a3]

/-- a triangle is added to the buffer, perhaps after the buffer was written -/
theorem trianglePut_holds (c : Ctxt) (ts : List (T3 D)) (h : Holds env c ts) (t : T3 D) :
    ∃ c', trianglePut env c t.1 t.2.1 t.2.2.1 t.2.2.2 = some c' ∧
      ((Holds env c' (ts ++ [t]) ∧ c'.out = c.out) ∨
        (Holds env c' [t] ∧ ts ≠ [] ∧ c'.out = c.out ++ [sceneOf env ts])) := by
  have key : ∀ (c : Ctxt) (ts : List (T3 D)), Holds env c ts → ts.length ≤ 21844 →
      ∃ c', (do
        ass (c.triCnt < 0xffff)
        let i0 := 0xffff &&& c.vCnt
        let i1 := 0xffff &&& (c.vCnt + 1)
        let i2 := 0xffff &&& (c.vCnt + 2)
        ass (i0 < 0xffff ∧ i1 < 0xffff ∧ i2 < 0xffff)
        some { c with
          tri := upd c.tri c.triCnt (i0, i1, i2)
          triCnt := c.triCnt + 1
          vCnt := c.vCnt + 3
          v := upd (upd (upd c.v i0 (vtx env t.1 t.2.1)) i1 (vtx env t.1 t.2.2.1)) i2 (vtx env t.1 t.2.2.2) } : Option Ctxt) = some c' ∧
        Holds env c' (ts ++ [t]) ∧ c'.out = c.out := by
    intro c ts ⟨h1, h2, _, h4, h5⟩ hl
    have m0 := mask c.vCnt (by omega)
    have m1 := mask (c.vCnt + 1) (by omega)
    have m2 := mask (c.vCnt + 2) (by omega)
    rw [m0, m1, m2]
    have a1 : ass (c.triCnt < 0xffff) = some () := by unfold ass; rw [if_pos (by omega)]
    have a2 : ass (c.vCnt < 0xffff ∧ c.vCnt + 1 < 0xffff ∧ c.vCnt + 2 < 0xffff) = some () := by unfold ass; rw [if_pos (by omega)]
    simp only [a1, a2, Option.bind_eq_bind, Option.bind_some]
    refine ⟨_, rfl, ⟨?_, ?_, ?_, ?_, ?_⟩, rfl⟩
    · simp [h1]
    · simp only [List.length_append, List.length_cons, List.length_nil, h2]; omega
    · simp only [List.length_append, List.length_cons, List.length_nil]; omega
    · rw [upd_range, h4]
      unfold verts
      rw [List.flatMap_append]
      rfl
    · intro i hi
      simp only [List.length_append, List.length_cons, List.length_nil] at hi
      simp only [upd]
      by_cases he : i = c.triCnt
      · rw [if_pos he, he, h1, h2]
      · rw [if_neg he]
        exact h5 i (by omega)
  obtain ⟨h1, h2, h3, h4, h5⟩ := id h
  unfold trianglePut
  by_cases hf : c.vCnt + 3 > 0xffff ∨ c.triCnt + 1 > 0xffff
  · have hne : ts ≠ [] := by
      rintro rfl
      simp only [List.length_nil] at h1 h2
      omega
    obtain ⟨f1, f2⟩ := flush_holds env c ts h
    obtain ⟨c', e, hh, ho⟩ := key (flush c) [] f1 (by simp)
    rw [if_pos hf]
    refine ⟨c', e, .inr ⟨hh, hne, ?_⟩⟩
    rw [ho, f2, if_neg hne]
  · obtain ⟨c', e, hh, ho⟩ := key c ts h (by omega)
    rw [if_neg hf]
    exact ⟨c', e, .inl ⟨hh, ho⟩⟩

/-- the scenes are written for parts of the triangles, of which none is empty or too large -/
theorem emit_parts (ts : List (T3 D)) : ∀ (c : Ctxt) (buf : List (T3 D)), Holds env c buf →
    ∃ (c' : Ctxt) (parts : List (List (T3 D))), emit env ts c = some c' ∧ parts.flatten = buf ++ ts ∧ (∀ p ∈ parts, p ≠ [] ∧ p.length ≤ 21845) ∧
      (flush c').out = c.out ++ parts.map (sceneOf env) := by
  induction ts with
  | nil =>
    intro c buf h
    obtain ⟨-, f2⟩ := flush_holds env c buf h
    by_cases hb : buf = []
    · exact ⟨c, [], rfl, by simp [hb], by simp, by rw [f2, if_pos hb]; rfl⟩
    · refine ⟨c, [buf], rfl, by simp, ?_, by rw [f2, if_neg hb]; rfl⟩
      intro p hp
      rw [List.mem_singleton] at hp
      subst hp
      exact ⟨hb, h.2.2.1⟩
  | cons t ts ih =>
    intro c buf h
    obtain ⟨c1, e1, h1⟩ := trianglePut_holds env c buf h t
    rcases h1 with ⟨h1, ho⟩ | ⟨h1, hne, ho⟩
    · obtain ⟨c', parts, e2, h2, h3, h4⟩ := ih c1 _ h1
      refine ⟨c', parts, ?_, ?_, h3, by rw [h4, ho]⟩
      · simp only [emit, e1, Option.bind_some, e2]
      · rw [h2]; simp
    · obtain ⟨c', parts, e2, h2, h3, h4⟩ := ih c1 _ h1
      refine ⟨c', buf :: parts, ?_, ?_, ?_, ?_⟩
      · simp only [emit, e1, Option.bind_some, e2]
      · rw [List.flatten_cons, h2]; simp
      · intro p hp
        rcases List.mem_cons.mp hp with rfl | hp
        · exact ⟨hne, h.2.2.1⟩
        · exact h3 p hp
      · rw [h4, ho]; simp

/-! ### reading a scene -/

theorem absolute_index (l : List Nat) : ∀ last,
    absolute last (indexLoop (fun i => (3 * i, 3 * i + 1, 3 * i + 2)) last l) =
      l.flatMap fun i => [((3 * i : Nat) : Int), ((3 * i + 1 : Nat) : Int), ((3 * i + 2 : Nat) : Int)] := by
  induction l with
  | nil => intro last; rfl
  | cons i l ih =>
    intro last
    simp only [indexLoop, idxVal, List.cons_append, List.nil_append, absolute, List.flatMap_cons]
    have e1 : ((3 * i : Nat) : Int) - last + 0 + last = ((3 * i : Nat) : Int) := by omega
    have e2 : ((3 * i + 1 : Nat) : Int) - ((3 * i : Nat) : Int) + 0 + ((3 * i : Nat) : Int) = ((3 * i + 1 : Nat) : Int) := by omega
    have e3 : ((3 * i + 2 : Nat) : Int) - ((3 * i + 1 : Nat) : Int) + 0 + ((3 * i + 1 : Nat) : Int) = ((3 * i + 2 : Nat) : Int) := by
      omega
    rw [e1, e2, e3, ih]

theorem get_three {α β : Type} (l : List α) (f : α → List β) (n : Nat) (hf : ∀ a, (f a).length = n) (k j : Nat) (hj : j < n) :
    (l.flatMap f)[n * k + j]? = l[k]?.bind fun a => (f a)[j]? := by
  induction l generalizing k with
  | nil => simp
  | cons a l ih =>
    rw [List.flatMap_cons]
    cases k with
    | zero =>
      rw [List.getElem?_append_left (by rw [hf]; omega)]
      simp
    | succ k =>
      rw [List.getElem?_append_right (by rw [hf, Nat.mul_succ]; omega), hf,
        show n * (k + 1) + j - n = n * k + j by rw [Nat.mul_succ]; omega, ih]
      simp

/-- the entries of a vertex -/
def cornerOf (v : Vtx) : Corner := (v.p, v.n, v.c)

theorem corner_scene (ts : List (T3 D)) (k : Nat) :
    (sceneOf env ts).corner k = (verts env ts)[k]?.map cornerOf := by
  unfold Scene.corner sceneOf
  rw [if_neg (by omega)]
  have h3 : ∀ v : Vtx, [v.p.1, v.p.2.1, v.p.2.2].length = 3 := fun _ => rfl
  have n3 : ∀ v : Vtx, [v.n.1, v.n.2.1, v.n.2.2].length = 3 := fun _ => rfl
  have c4 : ∀ v : Vtx, [v.c.1, v.c.2.1, v.c.2.2.1, v.c.2.2.2].length = 4 := fun _ => rfl
  have p0 := get_three (verts env ts) _ 3 h3 k 0 (by omega)
  have p1 := get_three (verts env ts) _ 3 h3 k 1 (by omega)
  have p2 := get_three (verts env ts) _ 3 h3 k 2 (by omega)
  have q0 := get_three (verts env ts) _ 3 n3 k 0 (by omega)
  have q1 := get_three (verts env ts) _ 3 n3 k 1 (by omega)
  have q2 := get_three (verts env ts) _ 3 n3 k 2 (by omega)
  have r0 := get_three (verts env ts) _ 4 c4 k 0 (by omega)
  have r1 := get_three (verts env ts) _ 4 c4 k 1 (by omega)
  have r2 := get_three (verts env ts) _ 4 c4 k 2 (by omega)
  have r3 := get_three (verts env ts) _ 4 c4 k 3 (by omega)
  rw [Nat.add_zero] at p0 q0 r0
  simp only [Int.toNat_natCast, p0, p1, p2, q0, q1, q2, r0, r1, r2, r3]
  cases (verts env ts)[k]? with
  | none => rfl
  | some v => rfl

theorem verts_get (ts : List (T3 D)) (k : Nat) :
    (verts env ts)[3 * k]? = ts[k]?.map (fun t => vtx env t.1 t.2.1) ∧
    (verts env ts)[3 * k + 1]? = ts[k]?.map (fun t => vtx env t.1 t.2.2.1) ∧
    (verts env ts)[3 * k + 2]? = ts[k]?.map (fun t => vtx env t.1 t.2.2.2) := by
  have hf : ∀ t : T3 D, [vtx env t.1 t.2.1, vtx env t.1 t.2.2.1, vtx env t.1 t.2.2.2].length = 3 := fun _ => rfl
  have a0 := get_three ts _ 3 hf k 0 (by omega)
  have a1 := get_three ts _ 3 hf k 1 (by omega)
  have a2 := get_three ts _ 3 hf k 2 (by omega)
  rw [Nat.add_zero] at a0
  unfold verts
  refine ⟨a0.trans ?_, a1.trans ?_, a2.trans ?_⟩ <;> cases ts[k]? <;> rfl

theorem shown_eq (t : T3 D) : shown env t = (cornerOf (vtx env t.1 t.2.1), cornerOf (vtx env t.1 t.2.2.1), cornerOf (vtx env t.1 t.2.2.2)) :=
  rfl

/-- reading the triangles from number `k` on -/
theorem read_from (ts : List (T3 D)) : ∀ (n k : Nat), k + n = ts.length →
    (((List.range' k n).flatMap fun i => [((3 * i : Nat) : Int), ((3 * i + 1 : Nat) : Int), ((3 * i + 2 : Nat) : Int)]).mapM
      (sceneOf env ts).corner).bind threes = some ((ts.drop k).map (shown env)) := by
  intro n
  induction n with
  | zero =>
    intro k h
    rw [List.drop_eq_nil_of_le (by omega)]
    rfl
  | succ n ih =>
    intro k h
    have hk : k < ts.length := by omega
    obtain ⟨v0, v1, v2⟩ := verts_get env ts k
    rw [List.getElem?_eq_getElem hk, Option.map_some] at v0 v1 v2
    rw [List.range'_succ, List.flatMap_cons, List.cons_append, List.cons_append, List.cons_append, List.nil_append,
      mapM_cons_bind, mapM_cons_bind, mapM_cons_bind, corner_scene, corner_scene, corner_scene, v0, v1, v2]
    simp only [Option.map_some, Option.bind_some]
    have hi := ih (k + 1) (by omega)
    rw [List.drop_eq_getElem_cons hk, List.map_cons]
    obtain ⟨r, hr, hr2⟩ := Option.bind_eq_some_iff.mp hi
    rw [hr]
    simp only [Option.map_some, Option.bind_some, threes, hr2, shown_eq]

theorem scene_triangles (ts : List (T3 D)) : (sceneOf env ts).triangles = some (ts.map (shown env)) := by
  unfold Scene.triangles
  have e : (sceneOf env ts).index = indexLoop (fun i => (3 * i, 3 * i + 1, 3 * i + 2)) 0 (List.range ts.length) := rfl
  rw [e, absolute_index, List.range_eq_range']
  exact read_from env ts ts.length 0 (by omega)

theorem flatMap_len {α β : Type} (l : List α) (f : α → List β) (n : Nat) (hf : ∀ a, (f a).length = n) :
    (l.flatMap f).length = n * l.length := by
  induction l with
  | nil => simp
  | cons a l ih => rw [List.flatMap_cons, List.length_append, hf, ih, List.length_cons, Nat.mul_succ]; omega

theorem scene_fits (ts : List (T3 D)) (h : ts.length ≤ 21845) : (sceneOf env ts).Fits := by
  have hv := verts_length env ts
  refine ⟨3 * ts.length, by omega, ?_, ?_, ?_, ?_⟩
  · rw [← hv]; exact flatMap_len _ _ 3 fun _ => rfl
  · rw [← hv]; exact flatMap_len _ _ 3 fun _ => rfl
  · rw [← hv]; exact flatMap_len _ _ 4 fun _ => rfl
  · have e : (sceneOf env ts).index = indexLoop (fun i => (3 * i, 3 * i + 1, 3 * i + 2)) 0 (List.range ts.length) := rfl
    rw [e, absolute_index]
    intro i hi
    obtain ⟨k, hk, hi⟩ := List.mem_flatMap.mp hi
    have := List.mem_range.mp hk
    simp only [List.mem_cons, List.not_mem_nil, or_false] at hi
    omega

end

end Hob3l.Export.Js
