import Verif.Export.Spec

namespace Hob3l.Export

open Hob3l.Matq

section
variable {D : Type} (env : Env D)

/-- writing triangles one after the other -/
def emit (c : Ctxt) (ts : List (T3 D)) : Ctxt := ts.foldl (fun c t => trianglePut env c t.1 t.2.1 t.2.2.1 t.2.2.2) c

theorem emit_nil (c : Ctxt) : emit env c [] = c := rfl

theorem emit_append (c : Ctxt) (a b : List (T3 D)) : emit env c (a ++ b) = emit env (emit env c a) b := by
  simp [emit, List.foldl_append]

theorem both_emit (c : Ctxt) (a b : Option (List (T3 D))) :
    (both a b).map (emit env c) = a.bind fun x => b.map (emit env (emit env c x)) := by
  cases a with
  | none => rfl
  | some x =>
    cases b with
    | none => rfl
    | some y => simp [both, emit_append]

theorem mapM_append_both {α β : Type} (f : α → Option β) (a b : List α) :
    (a ++ b).mapM f = both (a.mapM f) (b.mapM f) := by
  rw [List.mapM_append]
  cases a.mapM f with
  | none => rfl
  | some x =>
    cases b.mapM f with
    | none => rfl
    | some y => rfl

theorem mapM_cons_bind {α β : Type} (f : α → Option β) (a : α) (l : List α) :
    (a :: l).mapM f = (f a).bind fun x => (l.mapM f).map fun y => x :: y := by
  rw [List.mapM_cons]
  cases f a with
  | none => rfl
  | some x =>
    cases l.mapM f with
    | none => rfl
    | some y => rfl

variable (z : List D)

theorem place_eq (s : Slab D) (z0 : D) (hz : z[s.zi]? = some z0) (i : Nat) (b : Bool) :
    place env z s (i, b) = s.point[i]?.map fun p => at_ p (if b then env.top z0 else z0) := by
  unfold place at_
  rw [hz]
  cases s.point[i]? <;> rfl

theorem inSpace_up (s : Slab D) (z0 : D) (hz : z[s.zi]? = some z0) (a b d : Nat) :
    inSpace env z s (.up, (a, true), (b, true), (d, true))
      = s.point[a]?.bind fun p => s.point[b]?.bind fun q => s.point[d]?.map fun r =>
        ((env.zero, env.zero, env.one), at_ p (env.top z0), at_ q (env.top z0), at_ r (env.top z0)) := by
  simp only [inSpace, normalOf, place_eq env z s z0 hz]
  cases s.point[a]? with
  | none => rfl
  | some p =>
    cases s.point[b]? with
    | none => rfl
    | some q =>
      cases s.point[d]? <;> rfl

theorem inSpace_down (s : Slab D) (z0 : D) (hz : z[s.zi]? = some z0) (a b d : Nat) :
    inSpace env z s (.down, (a, false), (b, false), (d, false))
      = s.point[a]?.bind fun p => s.point[b]?.bind fun q => s.point[d]?.map fun r =>
        ((env.zero, env.zero, env.neg), at_ p z0, at_ q z0, at_ r z0) := by
  simp only [inSpace, normalOf, place_eq env z s z0 hz]
  cases s.point[a]? with
  | none => rfl
  | some p =>
    cases s.point[b]? with
    | none => rfl
    | some q =>
      cases s.point[d]? <;> rfl

theorem topLoop_eq (s : Slab D) (z0 : D) (hz : z[s.zi]? = some z0) (tri : List Tri) : ∀ (c : Ctxt),
    topLoop env s.point (env.top z0) tri c = ((top tri).mapM (inSpace env z s)).map (emit env c) := by
  induction tri with
  | nil => intro c; rfl
  | cons t ts ih =>
    intro c
    have e1 : top (t :: ts) = (.up, (t.p1, true), (t.p0, true), (t.p2, true)) :: top ts := rfl
    rw [e1, mapM_cons_bind, inSpace_up env z s z0 hz]
    unfold topLoop
    cases s.point[t.p1]? with
    | none => rfl
    | some p =>
      cases s.point[t.p0]? with
      | none => rfl
      | some q =>
        cases s.point[t.p2]? with
        | none => rfl
        | some r =>
          simp only [Option.bind_eq_bind, Option.bind_some, Option.map_some]
          rw [ih]
          cases (top ts).mapM (inSpace env z s) <;> rfl

theorem bottomLoop_eq (s : Slab D) (z0 : D) (hz : z[s.zi]? = some z0) (tri : List Tri) : ∀ (c : Ctxt),
    bottomLoop env s.point z0 tri c = ((bottom tri).mapM (inSpace env z s)).map (emit env c) := by
  induction tri with
  | nil => intro c; rfl
  | cons t ts ih =>
    intro c
    have e1 : bottom (t :: ts) = (.down, (t.p0, false), (t.p1, false), (t.p2, false)) :: bottom ts := rfl
    rw [e1, mapM_cons_bind, inSpace_down env z s z0 hz]
    unfold bottomLoop
    cases s.point[t.p0]? with
    | none => rfl
    | some p =>
      cases s.point[t.p1]? with
      | none => rfl
      | some q =>
        cases s.point[t.p2]? with
        | none => rfl
        | some r =>
          simp only [Option.bind_eq_bind, Option.bind_some, Option.map_some]
          rw [ih]
          cases (bottom ts).mapM (inSpace env z s) <;> rfl

theorem outlineEdge_eq (s : Slab D) (z0 : D) (hz : z[s.zi]? = some z0) (c : Ctxt) (j k : Nat) :
    outlineEdge env c s.point z0 (env.top z0) j k = ((wall (j, k)).mapM (inSpace env z s)).map (emit env c) := by
  unfold outlineEdge wall
  simp only [mapM_cons_bind, inSpace, normalOf, place_eq env z s z0 hz]
  cases s.point[j]? with
  | none =>
    simp only [Option.map_none, Option.bind_none, Option.bind_eq_bind]
    cases s.point[k]? <;> rfl
  | some p =>
    cases s.point[k]? with
    | none => rfl
    | some q =>
      simp only [Option.bind_eq_bind, Option.bind_some, Option.map_some, Bool.false_eq_true, if_false, if_true]
      cases env.normal (at_ q z0) (at_ p (env.top z0)) (at_ q (env.top z0)) <;> rfl

theorem outlineIf_eq (s : Slab D) (z0 : D) (hz : z[s.zi]? = some z0) (c : Ctxt) (o : Bool) (j k : Nat) :
    outlineIf env o c s.point z0 (env.top z0) j k
      = (((if o then [(j, k)] else []).flatMap wall).mapM (inSpace env z s)).map (emit env c) := by
  unfold outlineIf
  cases o with
  | false => rfl
  | true =>
    simp only [if_true, List.flatMap_cons, List.flatMap_nil, List.append_nil]
    exact outlineEdge_eq env z s z0 hz c j k

theorem outline_cons (t : Tri) (ts : List Tri) :
    outline (t :: ts) = (if t.o01 then [(t.p0, t.p1)] else []) ++ ((if t.o12 then [(t.p1, t.p2)] else [])
      ++ ((if t.o20 then [(t.p2, t.p0)] else []) ++ outline ts)) := by
  unfold outline Tri.edges
  rw [List.flatMap_cons, List.filter_append, List.map_append]
  cases t.o01 <;> cases t.o12 <;> cases t.o20 <;> rfl

theorem sideLoop_eq (s : Slab D) (z0 : D) (hz : z[s.zi]? = some z0) (tri : List Tri) : ∀ (c : Ctxt),
    sideLoop env s.point z0 (env.top z0) tri c = (((outline tri).flatMap wall).mapM (inSpace env z s)).map (emit env c) := by
  induction tri with
  | nil => intro c; rfl
  | cons t ts ih =>
    intro c
    rw [outline_cons, List.flatMap_append, List.flatMap_append, List.flatMap_append, mapM_append_both, mapM_append_both,
      mapM_append_both, both_emit]
    unfold sideLoop
    simp only [outlineIf_eq env z s z0 hz, ih, Option.bind_eq_bind, Option.bind_map, both_emit]
    congr 1

theorem polyPut_eq (c : Ctxt) (s : Slab D) :
    polyPut env z c s.zi s.point s.tri = (allTriangles env z [s]).map (emit env c) := by
  unfold polyPut allTriangles
  cases hz : z[s.zi]? with
  | none => rfl
  | some z0 =>
    simp only [Option.bind_eq_bind, Option.bind_some, allTriangles]
    have e1 : ∀ a : Option (List (T3 D)), both a (some []) = a := by
      intro a; cases a <;> simp [both]
    rw [e1]
    cases env.eq z0 (env.top z0) with
    | true =>
      simp only [solid, if_true]
      rw [bottomLoop_eq env z s z0 hz]
      cases (bottom s.tri).mapM (inSpace env z s) <;> rfl
    | false =>
      simp only [solid, Bool.false_eq_true, if_false]
      rw [mapM_append_both, mapM_append_both, both_emit, topLoop_eq env z s z0 hz]
      cases (top s.tri).mapM (inSpace env z s) with
      | none => rfl
      | some x =>
        simp only [Option.map_some, Option.bind_some]
        rw [bottomLoop_eq env z s z0 hz]
        cases (bottom s.tri).mapM (inSpace env z s) with
        | none => rfl
        | some y =>
          simp only [Option.map_some, Option.bind_some, both]
          rw [sideLoop_eq env z s z0 hz, emit_append]

theorem allTriangles_append (a b : List (Slab D)) :
    allTriangles env z (a ++ b) = both (allTriangles env z a) (allTriangles env z b) := by
  induction a with
  | nil => cases h : allTriangles env z b <;> simp [allTriangles, both, h]
  | cons s ss ih =>
    simp only [List.cons_append, allTriangles]
    rw [ih]
    cases z[s.zi]? with
    | none => rfl
    | some z0 =>
      simp only [Option.bind_some]
      cases (solid (env.eq z0 (env.top z0)) s.tri).mapM (inSpace env z s) with
      | none => rfl
      | some x =>
        cases allTriangles env z ss with
        | none => rfl
        | some y =>
          cases allTriangles env z b with
          | none => rfl
          | some w => simp [both]

/-- the triangles of a list of polygons that may be undefined -/
def tris (o : Option (List (Slab D))) : Option (List (T3 D)) := o.bind (allTriangles env z)

theorem tris_both (a b : Option (List (Slab D))) : tris env z (both a b) = both (tris env z a) (tris env z b) := by
  cases a with
  | none => rfl
  | some x =>
    cases b with
    | none => cases h : allTriangles env z x <;> simp [tris, both, h]
    | some y =>
      show allTriangles env z (x ++ y) = _
      rw [allTriangles_append]
      rfl

mutual
theorem csg2Put_eq (c : Ctxt) (zi : Nat) : ∀ x : Csg D,
    csg2Put env z c zi x = (tris env z (x.slabs zi)).map (emit env c)
  | .null => by rfl
  | .vline2 => by rfl
  | .sweep => by rfl
  | .poly point tri => by
      unfold csg2Put Csg.slabs
      exact polyPut_eq env z c ⟨zi, point, tri⟩
  | .stack idx0 ls => by unfold csg2Put Csg.slabs; exact layersPut_eq c idx0 ls
  | .add xs => by unfold csg2Put Csg.slabs; exact vPut_eq c zi xs
  | .xor xss => by unfold csg2Put Csg.slabs; exact firstPut_eq c zi xss
  | .sub xs _ => by unfold csg2Put Csg.slabs; exact vPut_eq c zi xs
  | .cut xss => by unfold csg2Put Csg.slabs; exact firstPut_eq c zi xss
theorem vPut_eq (c : Ctxt) (zi : Nat) : ∀ xs : Csgs D,
    vPut env z c zi xs = (tris env z (xs.slabs zi)).map (emit env c)
  | .nil => by rfl
  | .cons x xs => by
      unfold vPut Csgs.slabs
      rw [tris_both, both_emit, csg2Put_eq c zi x]
      cases tris env z (x.slabs zi) with
      | none => rfl
      | some a =>
        simp only [Option.map_some, Option.bind_eq_bind, Option.bind_some]
        exact vPut_eq _ zi xs
theorem firstPut_eq (c : Ctxt) (zi : Nat) : ∀ xss : CsgAdds D,
    firstPut env z c zi xss = (tris env z (xss.slabs zi)).map (emit env c)
  | .nil => by rfl
  | .cons x _ => by unfold firstPut CsgAdds.slabs; exact vPut_eq c zi x
theorem layersPut_eq (c : Ctxt) (zi : Nat) : ∀ ls : Layers D,
    layersPut env z c zi ls = (tris env z (ls.slabs zi)).map (emit env c)
  | .nil => by rfl
  | .cons _ .nil ls => by
      unfold layersPut Layers.slabs
      exact layersPut_eq c (zi + 1) ls
  | .cons lzi (.cons x xs) ls => by
      unfold layersPut Layers.slabs
      by_cases h : zi = lzi
      · subst h
        rw [if_pos rfl, tris_both, both_emit, tris_both]
        have e0 : ass (zi = zi) = some () := by unfold ass; rw [if_pos rfl]
        rw [e0]
        simp only [Option.bind_eq_bind, Option.bind_some]
        rw [csg2Put_eq c zi x]
        cases tris env z (x.slabs zi) with
        | none => rfl
        | some a =>
          simp only [Option.map_some, Option.bind_some]
          rw [vPut_eq _ zi xs]
          cases tris env z (xs.slabs zi) with
          | none => rfl
          | some b =>
            simp only [Option.map_some, Option.bind_some, both]
            rw [layersPut_eq _ (zi + 1) ls, emit_append]
      · have e0 : ass (zi = lzi) = none := by unfold ass; rw [if_neg h]
        rw [if_neg h]
        simp only [e0, Option.bind_eq_bind, Option.bind_none]
        rfl
end

/-! ### what is written -/

theorem emit_count (ts : List (T3 D)) : ∀ c : Ctxt, (emit env c ts).count = c.count + BitVec.ofNat 32 ts.length := by
  induction ts with
  | nil => intro c; simp [emit]
  | cons t ts ih =>
    intro c
    have e1 : emit env c (t :: ts) = emit env (trianglePut env c t.1 t.2.1 t.2.2.1 t.2.2.2) ts := rfl
    have e2 : (trianglePut env c t.1 t.2.1 t.2.2.1 t.2.2.2).count = c.count + 1 := by
      unfold trianglePut
      simp only [put]
      split
      · split <;> rfl
      · rfl
    rw [e1, ih, e2, List.length_cons]
    apply BitVec.eq_of_toNat_eq
    simp only [BitVec.toNat_add, BitVec.toNat_ofNat, show BitVec.toNat (1 : BitVec 32) = 1 from rfl]
    omega

theorem u32_eq (u : BitVec 32) : u32 u = Stl.encodeLE 4 u.toNat := by
  have h := u.isLt
  simp only [u32, Stl.encodeLE]
  have e : ∀ n : Nat, n &&& 255 = n % 256 := fun n => Nat.and_two_pow_sub_one_eq_mod n 8
  simp only [BitVec.toNat_and, BitVec.toNat_ushiftRight, Nat.shiftRight_eq_div_pow]
  simp only [show BitVec.toNat (255 : BitVec 32) = 255 from rfl, e]
  have e1 : u.toNat / 2 ^ 16 = u.toNat / 256 / 256 := by omega
  have e2 : u.toNat / 2 ^ 24 = u.toNat / 256 / 256 / 256 % 256 := by omega
  rw [e1, e2]

theorem vec32_eq (v : P3 D) : vec32 env v = Stl.encodeWords (wordsOf env v) := by
  simp only [vec32, Stl.encodeWords, wordsOf, u32_eq]

theorem emit_bin (ts : List (T3 D)) : ∀ (s : List Nat) (n : BitVec 32),
    (emit env ⟨some s, true, n⟩ ts).stream = some (s ++ (ts.map (recordOf env)).flatMap Stl.encodeTri) := by
  induction ts with
  | nil => intro s n; simp [emit]
  | cons t ts ih =>
    intro s n
    have e1 : emit env ⟨some s, true, n⟩ (t :: ts) = emit env (trianglePut env ⟨some s, true, n⟩ t.1 t.2.1 t.2.2.1 t.2.2.2) ts := rfl
    have e2 : trianglePut env ⟨some s, true, n⟩ t.1 t.2.1 t.2.2.1 t.2.2.2
        = ⟨some (s ++ Stl.encodeTri (recordOf env t)), true, n + 1⟩ := by
      simp [trianglePut, put, vec32_eq, Stl.encodeTri, recordOf]
    rw [e1, e2, ih]
    simp

theorem emit_text (ts : List (T3 D)) : ∀ (s : List Nat) (n : BitVec 32),
    (emit env ⟨some s, false, n⟩ ts).stream
      = some (s ++ ts.flatMap fun t => triText env t.1 t.2.1 t.2.2.1 t.2.2.2) := by
  induction ts with
  | nil => intro s n; simp [emit]
  | cons t ts ih =>
    intro s n
    have e1 : emit env ⟨some s, false, n⟩ (t :: ts) = emit env (trianglePut env ⟨some s, false, n⟩ t.1 t.2.1 t.2.2.1 t.2.2.2) ts := rfl
    have e2 : trianglePut env ⟨some s, false, n⟩ t.1 t.2.1 t.2.2.1 t.2.2.2
        = ⟨some (s ++ triText env t.1 t.2.1 t.2.2.1 t.2.2.2), false, n + 1⟩ := by
      simp [trianglePut, put]
    rw [e1, e2, ih]
    simp

end

end Hob3l.Export
