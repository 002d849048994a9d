import Verif.Dump3.LemmasText
import Mathlib.Algebra.Group.Defs
/-!
The program is converted to the tree of 3D objects.
-/
namespace Hob3l.Dump3

open Hob3l.Syn
open Hob3l.Args
open Hob3l.Scad

variable {F M : Type} [Flt F]

/-! ### objects -/

theorem matrix_again {strict : Bool} {colors : Colors} {pr : Printf F} (hq : EqLaw F) {rows : List (List F)}
    (h : rows.length = 3 ∧ (∀ r ∈ rows, r.length = 4) ∧ ∀ x ∈ rows.flatten, PrintsAs (pr.ff x) x) :
    fromArgs strict colors .multmatrix ((objArgs pr (.multmatrix rows)).map (Arg.printed id)) = .ok (.multmatrix rows) :=
  fromArgs_of (f := .multmatrix) rfl (step 0 (by decide +kernel) rfl rfl (get_mat' hq h.1 h.2.1 h.2.2) rfl) rfl rfl

theorem matrix_text {pr : Printf F} {rows : List (List F)} (h : ∀ x ∈ rows.flatten, PrintsAs (pr.ff x) x) :
    ObjText pr (.multmatrix rows) := by
  unfold ObjText
  simp only [List.mem_flatten, forall_exists_index, and_imp] at h
  simp only [objArgs, List.mem_cons, List.not_mem_nil, or_false, forall_eq]
  refine argOk_key (idText_of (by decide +kernel) (by decide +kernel)) (valOk_arr fun v hv => ?_)
  rcases List.mem_append.mp hv with hv | hv
  · obtain ⟨r, hr, rfl⟩ := List.mem_map.mp hv
    exact valOk_nums fun x hx => h x r hr hx
  · simp only [List.mem_cons, List.not_mem_nil, or_false] at hv
    subst hv
    refine valOk_arr ?_
    simp only [List.mem_cons, List.not_mem_nil, or_false, forall_eq_or_imp, forall_eq]
    have h0 := valOk_int (n := 0) (by omega)
    have h1 := valOk_int (n := 1) (by omega)
    exact ⟨h0, h0, h0, h1⟩

theorem poly_again {strict : Bool} {colors : Colors} {pr : Printf F} {points : List (List F)} {faces : List (List Nat)}
    (hp : ∀ p ∈ points, p.length = 3) (hf : ∀ f ∈ faces, 3 ≤ f.length ∧ ∀ i ∈ f, i < points.length)
    (h : ∀ x ∈ points.flatten, PrintsAs (pr.ff x) x) :
    fromArgs strict colors .polyhedron ((objArgs pr (.polyhedron points faces)).map (Arg.printed id)) =
      .ok (.polyhedron points faces) := by
  simp only [List.mem_flatten, forall_exists_index, and_imp] at h
  refine fromArgs_of (f := .polyhedron) rfl (step 0 (by decide +kernel) rfl rfl rfl <|
    step 1 (by decide +kernel) rfl rfl rfl rfl) rfl ?_
  have e1 : ((points.map (nums pr.ff)).map (Value.printed id)).mapM (getVec 3) = some points := by
    rw [List.map_map]
    exact mapM_map fun p m => getVec_nums (hp p m) fun x hx => h x p m hx
  have e2 : ((faces.map nats).map (Value.printed id)).mapM (getFace points.length) = some faces := by
    rw [List.map_map]
    refine mapM_map fun f m => ?_
    show getFace _ ((nats f).printed id) = _
    rw [nats_printed]
    have := hf f m
    simp only [getFace, elems, Option.bind_eq_bind, Option.bind_some, List.length_map]
    rw [if_neg (by omega)]
    refine mapM_map fun i hi => ?_
    have := this.2 i hi
    simp only [getIndex, trySize, tryInt, Option.bind_eq_bind, Option.bind_some, Int.toNat_natCast]
    rw [if_neg (by omega), Option.bind_some, if_pos this]
  show polyhedron _ = _
  simp only [Arg.printed, key, arr_printed]
  show Out.bind (Out.orFail (some _)) _ = _
  show Out.bind (Out.bind (Out.orCrash (some _)) _) _ = _
  show Out.bind (Out.bind (Out.orFail (some _)) _) _ = _
  show Out.bind (Out.orFail (List.mapM (getVec 3) _)) _ = _
  rw [e1]
  show Out.bind (Out.orFail (List.mapM (getFace points.length) _)) _ = _
  rw [e2]
  rfl

theorem poly_text {pr : Printf F} {points : List (List F)} {faces : List (List Nat)} (hn : points.length ≤ 2 ^ 63)
    (hf : ∀ f ∈ faces, 3 ≤ f.length ∧ ∀ i ∈ f, i < points.length) (h : ∀ x ∈ points.flatten, PrintsAs (pr.ff x) x) :
    ObjText pr (.polyhedron points faces) := by
  unfold ObjText
  simp only [List.mem_flatten, forall_exists_index, and_imp] at h
  simp only [objArgs, List.mem_cons, List.not_mem_nil, or_false, forall_eq_or_imp, forall_eq]
  refine ⟨argOk_key (idText_of (by decide +kernel) (by decide +kernel)) (valOk_arr fun v hv => ?_),
    argOk_key (idText_of (by decide +kernel) (by decide +kernel)) (valOk_arr fun v hv => ?_)⟩
  · obtain ⟨r, hr, rfl⟩ := List.mem_map.mp hv
    exact valOk_nums fun x hx => h x r hr hx
  · obtain ⟨r, hr, rfl⟩ := List.mem_map.mp hv
    exact valOk_nats fun i hi => by have := (hf r hr).2 i hi; omega

theorem sphere_lax (colors : Colors) (fn : Nat) :
    fromArgs false colors .sphere ((sphereArgs fn).map (Arg.printed id)) = .ok (.sphere (con 1 : F) ⟨0, con 2, con 12⟩) := by
  exact (fromArgs_lax (f := .sphere) rfl (stepEq 0 (x := .num (con 1)) (by decide +kernel) rfl rfl rfl
    (unknown (by decide +kernel)))).trans rfl

theorem sphere_strict (colors : Colors) (fn : Nat) :
    fromArgs true colors .sphere ((sphereArgs fn).map (Arg.printed id)) = (.fail : Out (Obj F)) :=
  fromArgs_strict (f := .sphere) rfl (stepEq 0 (x := .num (con 1)) (by decide +kernel) rfl rfl rfl
    (by simp only [Arg.printed, key]; exact unknown (by decide +kernel)))

/-! ### the tree -/

/-- the union that is read -/
def unionS (l : List (Scad (Geo F) M)) : List (Scad (Geo F) M) := if l.length = 1 then l else [.union l]

mutual
/-- the tree that is read -/
def toScad (mat : List (List F) → M) : Csg3 F → Scad (Geo F) M
  | .sphere rows _ _ => .xform (mat rows) [.obj (.ball (con 1) 0)]
  | .poly points faces _ => .obj (.solid points faces)
  | .sub a b => .diff (unionS (toScads mat a) ++ toScads mat b)
  | .cut l => .inter (toScadss mat l)
  | .xor _ => .union []
def toScads (mat : List (List F) → M) : List (Csg3 F) → List (Scad (Geo F) M)
  | [] => []
  | c :: l => toScad mat c :: toScads mat l
def toScadss (mat : List (List F) → M) : List (List (Csg3 F)) → List (Scad (Geo F) M)
  | [] => []
  | a :: l => unionS (toScads mat a) ++ toScadss mat l
end

theorem toScads_length (mat : List (List F) → M) (l : List (Csg3 F)) : (toScads mat l).length = l.length := by
  induction l with
  | nil => simp [toScads]
  | cons c l ih => simp [toScads, ih]

theorem scadOfs_append {mat : List (List F) → M} {dup : List (List F) → Bool} {a b : List (Args.Tree F)}
    {x y : List (Scad (Geo F) M)} (ha : scadOfs mat dup a = some x) (hb : scadOfs mat dup b = some y) :
    scadOfs mat dup (a ++ b) = some (x ++ y) := by
  induction a generalizing x with
  | nil =>
    simp only [scadOfs, Option.some.injEq] at ha
    subst ha
    simpa using hb
  | cons t a ih =>
    rw [List.cons_append, scadOfs]
    rw [scadOfs] at ha
    cases h1 : scadOf mat dup t with
    | none => simp [h1] at ha
    | some u =>
      cases h2 : scadOfs mat dup a with
      | none => simp [h1, h2] at ha
      | some v =>
        simp only [h1, h2, Option.some.injEq] at ha
        subst ha
        rw [ih h2]
        rfl

/-- the items are converted to the objects `x`, and no root is found -/
def Conv3 (mat : List (List F) → M) (dup : List (List F) → Bool) (o : Opts) (l : List Item) (x : List (Scad (Geo F) M)) : Prop :=
  ∀ s : St, ∃ ts s', fromItems (F := F) o l s = .ok (ts, s') ∧ s'.root = s.root ∧ scadOfs mat dup ts = some x

theorem conv3_append {mat : List (List F) → M} {dup : List (List F) → Bool} {o : Opts} {l k : List Item}
    {x y : List (Scad (Geo F) M)} (h1 : Conv3 mat dup o l x) (h2 : Conv3 mat dup o k y) :
    Conv3 mat dup o (l ++ k) (x ++ y) := by
  intro s
  obtain ⟨t1, s1, a1, b1, c1⟩ := h1 s
  obtain ⟨t2, s2, a2, b2, c2⟩ := h2 s1
  exact ⟨t1 ++ t2, s2, fromItems_append o l k _ _ _ _ _ a1 a2, by rw [b2, b1], scadOfs_append c1 c2⟩

theorem conv3_one {mat : List (List F) → M} {dup : List (List F) → Bool} {o : Opts} {f : Fn} {name : Text} {args : List Arg}
    {body : List Item} {m : Nat} {obj : Obj F} {x : List (Scad (Geo F) M)} {y : Scad (Geo F) M} (hf : cmdFind name = some f)
    (ha : fromArgs o.param o.colors f args = .ok obj) (hm : m.testBit 2 = false) (hm1 : m.testBit 1 = false)
    (hb : if hasChild f then Conv3 mat dup o body x else x = []) (hx : scadObj mat dup obj (some x) = some y) :
    Conv3 mat dup o [.mk name args body m] [y] := by
  intro s
  by_cases hc : hasChild f = true
  · rw [if_pos hc] at hb
    obtain ⟨ts, s', h1, h2, h3⟩ := hb ⟨s.cnt + 1, s.root⟩
    refine ⟨[.mk s.cnt obj m ts], s', ?_, h2, ?_⟩
    · simp only [fromItems, fromItem, hf, funcNew, isRoot, hm, Bool.false_eq_true, if_false, ha, hc, if_true, h1, Bind.bind,
        Out.bind, List.append_nil]
    · simp only [scadOfs, scadOf, hm1, Bool.false_eq_true, if_false, h3, hx]
  · rw [if_neg hc] at hb
    subst hb
    refine ⟨[.mk s.cnt obj m []], ⟨s.cnt + 1, s.root⟩, ?_, rfl, ?_⟩
    · simp only [fromItems, fromItem, hf, funcNew, isRoot, hm, Bool.false_eq_true, if_false, ha, hc, Bind.bind,
        Out.bind, List.append_nil]
    · simp only [scadOfs, scadOf, hm1, Bool.false_eq_true, if_false, hx]

theorem conv3_union {mat : List (List F) → M} {dup : List (List F) → Bool} {o : Opts} {l : List Item}
    {x : List (Scad (Geo F) M)} (hn : l.length = x.length) (h : Conv3 mat dup o l x) :
    Conv3 mat dup o (unionItems l) (unionS x) := by
  unfold unionItems unionS
  rw [hn]
  by_cases e : x.length = 1
  · rw [if_pos e, if_pos e]
    exact h
  · rw [if_neg e, if_neg e]
    exact conv3_one (f := .union) (obj := .union) (by decide +kernel) rfl (by decide) (by decide) h rfl

theorem plain_bits {m : Nat} (h : PlainMods m) : m.testBit 2 = false ∧ m.testBit 1 = false ∧ ModSet m := by
  rcases h with rfl | rfl
  · exact ⟨by decide, by decide, false, false, false, false, by decide⟩
  · exact ⟨by decide, by decide, true, false, false, false, by decide⟩

mutual
/-- no `xor` -/
def NoXor : Csg3 F → Prop
  | .sphere .. | .poly .. => True
  | .sub a b => NoXors a ∧ NoXors b
  | .cut l => NoXorss l
  | .xor _ => False
def NoXors : List (Csg3 F) → Prop
  | [] => True
  | c :: l => NoXor c ∧ NoXors l
def NoXorss : List (List (Csg3 F)) → Prop
  | [] => True
  | a :: l => NoXors a ∧ NoXorss l
end

mutual
theorem item_conv {mat : List (List F) → M} {dup : List (List F) → Bool} {pr : Printf F} (hq : EqLaw F) {o : Opts}
    (ho : o.param = false) : (c : Csg3 F) → Leaves pr dup c → NoXor c → Conv3 mat dup o [item pr c] [toScad mat c]
  | .sphere rows fn m, h, _ => by
    simp only [Leaves] at h
    obtain ⟨b2, b1, -⟩ := plain_bits h.2.2
    rw [item, toScad]
    refine conv3_one (f := .multmatrix) (by decide +kernel) (matrix_again hq h.1) b2 b1
      (x := [.obj (.ball (con 1) 0)]) ?_ rfl
    show Conv3 mat dup o [_] [_]
    exact conv3_one (f := .sphere) (x := []) (by decide +kernel) (by rw [ho]; exact sphere_lax _ _) (by decide) (by decide) rfl rfl
  | .poly points faces m, h, _ => by
    simp only [Leaves] at h
    obtain ⟨⟨h1, h2, h3⟩, ⟨h4, -, h5, h6⟩, h7⟩ := h
    obtain ⟨b2, b1, -⟩ := plain_bits h7
    rw [item, toScad]
    refine conv3_one (f := .polyhedron) (x := []) (by decide +kernel) (poly_again h1 h2 h3) b2 b1 rfl ?_
    simp only [scadObj]
    rw [if_neg (by rw [h6]; simp; omega)]
  | .sub a b, h, hx => by
    simp only [Leaves, NoXor] at h hx
    rw [item, toScad]
    exact conv3_one (f := .difference) (by decide +kernel) rfl (by decide) (by decide)
      (conv3_append (conv3_union (by rw [items_length, toScads_length]) (items_conv hq ho a h.1 hx.1)) (items_conv hq ho b h.2 hx.2)) rfl
  | .cut l, h, hx => by
    simp only [Leaves, NoXor] at h hx
    rw [item, toScad]
    exact conv3_one (f := .intersection) (by decide +kernel) rfl (by decide) (by decide) (adds_conv hq ho l h hx) rfl
  | .xor l, _, hx => hx.elim

theorem items_conv {mat : List (List F) → M} {dup : List (List F) → Bool} {pr : Printf F} (hq : EqLaw F) {o : Opts}
    (ho : o.param = false) : (l : List (Csg3 F)) → Leavess pr dup l → NoXors l → Conv3 mat dup o (items pr l) (toScads mat l)
  | [], _, _ => fun s => ⟨[], s, by simp only [items, fromItems], rfl, by simp only [scadOfs, toScads]⟩
  | c :: l, h, hx => by
    simp only [Leavess, NoXors] at h hx
    rw [items, toScads]
    exact conv3_append (l := [_]) (x := [_]) (item_conv hq ho c h.1 hx.1) (items_conv hq ho l h.2 hx.2)

theorem adds_conv {mat : List (List F) → M} {dup : List (List F) → Bool} {pr : Printf F} (hq : EqLaw F) {o : Opts}
    (ho : o.param = false) : (l : List (List (Csg3 F))) → Leavesss pr dup l → NoXorss l →
    Conv3 mat dup o (addItems pr l) (toScadss mat l)
  | [], _, _ => fun s => ⟨[], s, by simp only [addItems, fromItems], rfl, by simp only [scadOfs, toScadss]⟩
  | a :: l, h, hx => by
    simp only [Leavesss, NoXorss] at h hx
    rw [addItems, toScadss]
    exact conv3_append (conv3_union (by rw [items_length, toScads_length]) (items_conv hq ho a h.1 hx.1)) (adds_conv hq ho l h.2 hx.2)
end

mutual
theorem leaves_text {pr : Printf F} {dup : List (List F) → Bool} : (c : Csg3 F) → Leaves pr dup c → TextOk pr c
  | .sphere rows fn m, h => by
    simp only [Leaves] at h
    simp only [TextOk]
    exact ⟨matrix_text h.1.2.2, h.2.1, (plain_bits h.2.2).2.2⟩
  | .poly points faces m, h => by
    simp only [Leaves] at h
    simp only [TextOk]
    exact ⟨poly_text h.2.1.2.1 h.1.2.1 h.1.2.2, (plain_bits h.2.2).2.2⟩
  | .sub a b, h => by
    simp only [Leaves] at h
    simp only [TextOk]
    exact ⟨leavess_text a h.1, leavess_text b h.2⟩
  | .cut l, h => by
    simp only [Leaves] at h
    simp only [TextOk]
    exact leavesss_text l h
  | .xor l, h => by
    simp only [Leaves] at h
    simp only [TextOk]
    exact leavesss_text l h
theorem leavess_text {pr : Printf F} {dup : List (List F) → Bool} : (l : List (Csg3 F)) → Leavess pr dup l → TextOks pr l
  | [], _ => trivial
  | c :: l, h => by
    simp only [Leavess] at h
    simp only [TextOks]
    exact ⟨leaves_text c h.1, leavess_text l h.2⟩
theorem leavesss_text {pr : Printf F} {dup : List (List F) → Bool} : (l : List (List (Csg3 F))) → Leavesss pr dup l → TextOkss pr l
  | [], _ => trivial
  | a :: l, h => by
    simp only [Leavesss] at h
    simp only [TextOkss]
    exact ⟨leavess_text a h.1, leavesss_text l h.2⟩
end

/-! ### the conversion to CSG -/

/-- the conversion appends `y` -/
def Adds (c : Conv (Geo F) M) (y : List (Csg (Geo F) M)) : Prop := ∀ no r, c (no, r) = some (true, r ++ y)

theorem fromV_append (a b : List (Conv (Geo F) M)) (st : Bool × List (Csg (Geo F) M)) :
    fromV (a ++ b) st = (fromV a st).bind (fromV b) := by
  induction a generalizing st with
  | nil => rfl
  | cons c a ih =>
    simp only [List.cons_append, fromV, Option.bind_eq_bind]
    cases c st with
    | none => rfl
    | some s => simp only [Option.bind_some, ih]

theorem shape_ne {c : Csg (Geo F) M} {a b : List (Csg (Geo F) M)} (h : isSub c = false) : c ≠ .sub a b := by
  rintro rfl
  cases h

theorem diffTail_general {f : List (Csg (Geo F) M)} (h0 : f ≠ []) (h1 : ∀ c, f = [c] → isSub c = false)
    (rest : List (Conv (Geo F) M)) (no : Bool) (r : List (Csg (Geo F) M)) :
    diffTail f rest no r = (fromV rest (no, [])).bind fun st =>
      if st.2.length = 0 then some (st.1, r ++ f) else some (st.1, r ++ [.sub f st.2]) := by
  unfold diffTail
  split
  · exact absurd rfl h0
  · rename_i a b
    have := h1 _ rfl
    cases this
  · rfl

variable [Monoid M]

theorem convs_append (m : M) (a b : List (Scad (Geo F) M)) : convs m (a ++ b) = convs m a ++ convs m b := by
  induction a with
  | nil => simp [convs]
  | cons s a ih => simp [convs, ih]

/-- a union is one conversion -/
theorem union_conv {l : List (Scad (Geo F) M)} {y : List (Csg (Geo F) M)} (hl : l ≠ [])
    (h : ∀ no r, fromV (convs 1 l) (no, r) = some (true, r ++ y)) : ∃ c, convs 1 (unionS l) = [c] ∧ Adds c y := by
  unfold unionS
  by_cases e : l.length = 1
  · rw [if_pos e]
    match l, e with
    | [s], _ =>
      refine ⟨conv 1 s, by simp [convs], fun no r => ?_⟩
      have := h no r
      simp only [convs, fromV, Option.bind_eq_bind] at this
      cases h : conv 1 s (no, r) with
      | none => simp [h] at this
      | some z => simpa [h] using this
  · rw [if_neg e]
    exact ⟨conv 1 (.union l), by simp [convs], fun no r => by rw [conv]; exact h no r⟩

theorem csgOfs_ne {mat : List (List F) → M} {l : List (Csg3 F)} (h : csgOfs mat l ≠ []) : l ≠ [] := by
  rintro rfl
  exact h (by simp [csgOfs])

theorem csgOfss_length (mat : List (List F) → M) (l : List (List (Csg3 F))) : (csgOfss mat l).length = l.length := by
  induction l with
  | nil => simp [csgOfss]
  | cons c l ih => simp [csgOfss, ih]

theorem isEmpty_of {α : Type} {l : List α} (h : l ≠ []) : l.isEmpty = false := by
  cases l with
  | nil => exact absurd rfl h
  | cons a l => rfl

mutual
theorem conv_again (mat : List (List F) → M) : (c : Csg3 F) → Shape (csgOf mat c) →
    Adds (conv 1 (toScad mat c)) [csgOf mat c] ∧ NoXor c
  | .sphere rows fn m, _ => by
    refine ⟨fun no r => ?_, trivial⟩
    simp only [toScad, csgOf, conv, convs, fromV, Option.bind_eq_bind, Option.bind_some, one_mul]
  | .poly points faces m, _ => by
    refine ⟨fun no r => ?_, trivial⟩
    simp only [toScad, csgOf, conv]
  | .sub a b, h => by
    simp only [csgOf, Shape] at h
    obtain ⟨h1, h2, h3, h4, h5⟩ := h
    obtain ⟨ia, xa⟩ := convs_again mat a h4
    obtain ⟨ib, xb⟩ := convs_again mat b h5
    refine ⟨fun no r => ?_, xa, xb⟩
    have ha := csgOfs_ne h1
    have hb := csgOfs_ne h3
    obtain ⟨c, e, hc⟩ := union_conv (l := toScads mat a) (y := csgOfs mat a)
      (by rw [ne_eq, ← List.length_eq_zero_iff, toScads_length, List.length_eq_zero_iff]; exact ha)
      (fun no r => by have := ia no r; rw [isEmpty_of ha] at this; simpa using this)
    have hd : diffHead ([c] ++ convs 1 (toScads mat b)) false [] = some (true, csgOfs mat a, convs 1 (toScads mat b)) := by
      simp only [List.cons_append, List.nil_append, diffHead, if_true, hc false [], Option.bind_eq_bind, Option.bind_some]
      cases convs 1 (toScads mat b) <;> simp [diffHead]
    have hb' := ib true []
    rw [toScad, csgOf, conv, convs_append, e]
    simp only [fromDiff, hd, Option.bind_eq_bind, Option.bind_some, if_true]
    rw [diffTail_general h1 h2, hb']
    simp only [Option.bind_some, List.nil_append, Bool.true_or]
    rw [if_neg (by rw [List.length_eq_zero_iff]; exact h3)]
  | .cut l, h => by
    simp only [csgOf, Shape] at h
    obtain ⟨h1, h2, h3⟩ := h
    obtain ⟨i, x⟩ := inter_again mat l h2 h3
    refine ⟨fun no r => ?_, x⟩
    rw [csgOfss_length] at h1
    rw [toScad, csgOf, conv]
    simp only [fromInter, Option.bind_eq_bind]
    match l, h1 with
    | a :: b :: l, _ =>
      obtain ⟨pre, last, e, hne, hi⟩ := i no [] []
      rw [hi]
      simp only [cutPush, List.length_nil, gt_iff_lt, Nat.lt_irrefl, if_false, List.nil_append, reduceCtorEq] at e ⊢
      have hl := congrArg List.length e
      rw [csgOfss_length] at hl
      simp only [List.length_cons, List.length_append, List.length_nil] at hl
      simp only [Option.bind_some]
      rw [if_neg (by omega), if_pos (by rw [List.length_pos_iff]; exact hne (by simp)), e]
      simp only [List.length_append, List.length_cons, List.length_nil, Matq.ass]
      rw [if_pos (by omega)]
      simp
  | .xor l, h => by
    simp [csgOf, Shape] at h

theorem convs_again (mat : List (List F) → M) : (l : List (Csg3 F)) → Shapes (csgOfs mat l) →
    (∀ no r, fromV (convs 1 (toScads mat l)) (no, r) = some (no || !l.isEmpty, r ++ csgOfs mat l)) ∧ NoXors l
  | [], _ => ⟨fun no r => by simp [toScads, convs, fromV, csgOfs], trivial⟩
  | c :: l, h => by
    simp only [csgOfs, Shapes] at h
    obtain ⟨ic, xc⟩ := conv_again mat c h.1
    obtain ⟨il, xl⟩ := convs_again mat l h.2
    refine ⟨fun no r => ?_, xc, xl⟩
    simp [toScads, convs, fromV, csgOfs, ic no r, il]

theorem inter_again (mat : List (List F) → M) : (l : List (List (Csg3 F))) → (∀ a ∈ csgOfss mat l, a ≠ []) →
    Shapess (csgOfss mat l) →
    (∀ no cut add, ∃ pre last, cutPush cut add ++ csgOfss mat l = pre ++ (if l = [] then [] else [last]) ∧ (l ≠ [] → last ≠ []) ∧
      interLoop (convs 1 (toScadss mat l)) no cut add =
        some (if l = [] then (no, cut, add) else (true, pre, last))) ∧ NoXorss l
  | [], _, _ => ⟨fun no cut add => ⟨cutPush cut add, [], by simp [csgOfss], by simp, by simp [toScadss, convs, interLoop]⟩, trivial⟩
  | a :: l, hne, h => by
    simp only [csgOfss, List.mem_cons, forall_eq_or_imp] at hne
    simp only [csgOfss, Shapess] at h
    obtain ⟨ia, xa⟩ := convs_again mat a h.1
    obtain ⟨il, xl⟩ := inter_again mat l hne.2 h.2
    have ha := csgOfs_ne hne.1
    obtain ⟨c, e, hc⟩ := union_conv (l := toScads mat a) (y := csgOfs mat a)
      (by rw [ne_eq, ← List.length_eq_zero_iff, toScads_length, List.length_eq_zero_iff]; exact ha)
      (fun no r => by have := ia no r; rw [isEmpty_of ha] at this; simpa using this)
    refine ⟨fun no cut add => ?_, xa, xl⟩
    have hadd : (if add.length > 0 then [] else add) = [] := by
      cases add <;> simp
    rw [toScadss, convs_append, e]
    simp only [List.cons_append, List.nil_append, interLoop, hadd, hc no [], Option.bind_eq_bind, Option.bind_some]
    obtain ⟨pre, last, e1, e2, e3⟩ := il true (cutPush cut add) (csgOfs mat a)
    have ep : cutPush (cutPush cut add) (csgOfs mat a) = cutPush cut add ++ [csgOfs mat a] := by
      rw [cutPush, if_pos (by rw [gt_iff_lt, List.length_pos_iff]; exact hne.1)]
    rw [e3]
    by_cases hl : l = []
    · subst hl
      exact ⟨cutPush cut add, csgOfs mat a, by simp [csgOfss], fun _ => hne.1, by simp⟩
    · refine ⟨pre, last, ?_, fun _ => e2 hl, by simp [hl]⟩
      rw [ep, if_neg hl] at e1
      simpa [csgOfss] using e1
end

end Hob3l.Dump3
