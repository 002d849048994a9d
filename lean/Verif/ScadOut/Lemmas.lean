import Verif.ScadOut.Spec
import Verif.Dump3.LemmasTree
import Mathlib.Tactic.Linarith
/-!
The output is a program that describes the layers.
-/
namespace Hob3l.ScadOut

open Hob3l.Syn
open Hob3l.Args
open Hob3l.Dump3

variable {F : Type} [Flt F] [Field F] [LinearOrder F]

theorem printed_eq (p : Poly F) : printed p = pathsOf p := by
  unfold printed pathsOf
  cases p.tri <;> simp

theorem height_eq [IsStrictOrderedRing F] (t : Tree2 F) : height t = thickness t := by
  unfold height thickness monus layerGap
  generalize (if Flt.eq t.gap (con (-1)) = true then (0 : F) else t.gap) = g
  split
  · rw [max_eq_left (by linarith)]
  · rw [max_eq_right (by linarith)]

/-! ### arguments -/

theorem poly2_again {strict : Bool} {colors : Colors} {pr : Printf F} {points : List (List F)} {paths : List (List Nat)}
    (hp : ∀ p ∈ points, p.length = 2) (hf : ∀ f ∈ paths, 3 ≤ f.length ∧ ∀ i ∈ f, i < points.length)
    (h : ∀ x ∈ points.flatten, PrintsAs (pr.ff x) x) :
    fromArgs strict colors .polygon ((objArgs pr (.polygon points paths)).map (Arg.printed id)) = .ok (.polygon points paths) := by
  simp only [List.mem_flatten, forall_exists_index, and_imp] at h
  refine fromArgs_of (f := .polygon) rfl (step 0 (by decide +kernel) rfl rfl rfl <|
    step 1 (by decide +kernel) rfl rfl rfl rfl) rfl ?_
  have e1 : ((points.map (nums pr.ff)).map (Value.printed id)).mapM (getVec 2) = some points := by
    rw [List.map_map]
    exact mapM_map fun p m => getVec_nums (hp p m) fun x hx => h x p m hx
  have e2 : ((paths.map nats).map (Value.printed id)).mapM (getFace points.length) = some paths := by
    rw [List.map_map]
    refine mapM_map fun f m => ?_
    show getFace _ ((nats f).printed id) = _
    rw [nats_printed]
    have := hf f m
    simp only [getFace, elems, Option.bind_eq_bind, Option.bind_some, List.length_map]
    rw [if_neg (by omega)]
    refine mapM_map fun i hi => ?_
    have := this.2 i hi
    simp only [getIndex, trySize, tryInt, Option.bind_eq_bind, Option.bind_some, Int.toNat_natCast]
    rw [if_neg (by omega), Option.bind_some, if_pos this]
  show polygon _ = _
  simp only [Arg.printed, key, arr_printed]
  show Out.bind (Out.bind (Out.orCrash (some _)) _) _ = _
  show Out.bind (Out.bind (Out.orFail (some _)) _) _ = _
  show Out.bind (Out.orFail (List.mapM (getVec 2) _)) _ = _
  rw [e1]
  show Out.bind (getPaths points.length (some (.arr _))) _ = _
  simp only [getPaths, evaluate, getFaces, elems, Option.bind_eq_bind, Option.bind_some, e2]
  rfl

theorem poly2_text {pr : Printf F} {points : List (List F)} {paths : List (List Nat)} (hn : points.length ≤ 2 ^ 63)
    (hf : ∀ f ∈ paths, 3 ≤ f.length ∧ ∀ i ∈ f, i < points.length) (h : ∀ x ∈ points.flatten, PrintsAs (pr.ff x) x) :
    ∀ a ∈ objArgs pr (.polygon points paths), ArgOk id a := by
  simp only [List.mem_flatten, forall_exists_index, and_imp] at h
  simp only [objArgs, List.mem_cons, List.not_mem_nil, or_false, forall_eq_or_imp, forall_eq]
  refine ⟨argOk_key (idText_of (by decide +kernel) (by decide +kernel)) (valOk_arr fun v hv => ?_),
    argOk_key (idText_of (by decide +kernel) (by decide +kernel)) (valOk_arr fun v hv => ?_)⟩
  · obtain ⟨r, hr, rfl⟩ := List.mem_map.mp hv
    exact valOk_nums fun x hx => h x r hr hx
  · obtain ⟨r, hr, rfl⟩ := List.mem_map.mp hv
    exact valOk_nats fun i hi => by have := (hf r hr).2 i hi; omega

theorem extrude_again {strict : Bool} {colors : Colors} {pr : Printf F} {h : F} (hh : PrintsAs (pr.ff h) h) :
    fromArgs strict colors .linext ((extrudeArgs pr h).map (Arg.printed id)) =
      .ok (.linext h (con 0) [con 1, con 1] 1 false ⟨0, con 2, con 12⟩) :=
  fromArgs_of (f := .linext) rfl (step 0 (by decide +kernel) rfl rfl (get_float' hh) <|
    step 1 (x := .bool false) (by decide +kernel) rfl rfl rfl <| step 5 (by decide +kernel) rfl rfl (get_uint' (by decide)) <|
    step 3 (x := .num (con 0)) (by decide +kernel) rfl rfl rfl rfl) rfl rfl

theorem extrude_text {pr : Printf F} {h : F} (hh : PrintsAs (pr.ff h) h) : ∀ a ∈ extrudeArgs pr h, ArgOk id a := by
  simp only [extrudeArgs, List.mem_cons, List.not_mem_nil, or_false, forall_eq_or_imp, forall_eq]
  exact ⟨argOk_key (idText_of (by decide +kernel) (by decide +kernel)) (valOk_float hh),
    argOk_key (idText_of (by decide +kernel) (by decide +kernel)) (valOk_int (n := 0) (by omega)),
    argOk_key (idText_of (by decide +kernel) (by decide +kernel)) (valOk_int (n := 2) (by omega)),
    argOk_key (idText_of (by decide +kernel) (by decide +kernel)) (valOk_int (n := 0) (by omega))⟩

theorem move_again {strict : Bool} {colors : Colors} {pr : Printf F} {z : F} (hz : PrintsAs (pr.ff z) z) :
    fromArgs strict colors .translate ((moveArgs pr z).map (Arg.printed id)) = .ok (.translate [con 0, con 0, z]) := by
  have e : getVec 3 (.arr [.int 0, .int 0, (Value.float (pr.ff z)).printed id]) = some [con 0, con 0, z] := by
    simp only [getVec, List.length_cons, List.length_nil, ne_eq, not_true_eq_false, if_false, List.mapM_cons, List.mapM_nil,
      tryFloat_printed hz, Option.bind_eq_bind, Option.bind_some, Option.pure_def]
    rfl
  have e2 : Args.get .vec23 (some (.vec [con 0, con 0, con 0])) (.arr [.int 0, .int 0, (Value.float (pr.ff z)).printed id]) =
      .ok (.vec [con 0, con 0, z] : Val F) := by
    simp only [Args.get, getVec23, getVec3, e, Option.bind_eq_bind, Option.bind_some, Out.orFail]
  have e3 : (moveArgs pr z).map (Arg.printed id) = [⟨none, .arr [.int 0, .int 0, (Value.float (pr.ff z)).printed id]⟩] := by
    simp only [moveArgs, List.map_cons, List.map_nil, Arg.printed, arr_printed]
    rfl
  rw [e3]
  refine fromArgs_of (f := .translate) (s := [⟨some (.vec [con 0, con 0, z]), true⟩]) rfl ?_ rfl rfl
  rw [getLoop]
  have ht : target (posParams .translate) (nameParams .translate : List (Param F)) false 0
      ⟨none, .arr [.int 0, .int 0, (Value.float (pr.ff z)).printed id]⟩ = .at 0 := rfl
  rw [ht]
  have hp : (posParams .translate ++ nameParams .translate : List (Param F))[0]? =
    some (man "v" .vec23 (some (.vec [con 0, con 0, con 0]))) := rfl
  have hs : (start (posParams .translate ++ nameParams .translate : List (Param F)))[0]? =
    some ⟨some (.vec [con 0, con 0, con 0]), false⟩ := rfl
  simp only [store, hp, hs, Out.orCrash, Bind.bind, Out.bind, man, e2]
  rfl

theorem move_text {pr : Printf F} {z : F} (hz : PrintsAs (pr.ff z) z) : ∀ a ∈ moveArgs pr z, ArgOk id a := by
  simp only [moveArgs, List.mem_cons, List.not_mem_nil, or_false, forall_eq]
  have hv : ValOk (.arr [.int 0, .int 0, .float (pr.ff z)]) := by
    refine valOk_arr ?_
    simp only [List.mem_cons, List.not_mem_nil, or_false, forall_eq_or_imp, forall_eq]
    exact ⟨valOk_int (n := 0) (by omega), valOk_int (n := 0) (by omega), valOk_float hz⟩
  exact ⟨fun k' e => by simp at e, hv.1, hv.2⟩

/-! ### text -/

/-- the item of a polygon -/
def polyItem (pr : Printf F) (h : F) (p : Poly F) : Item :=
  .mk (txt "linear_extrude") ((extrudeArgs pr h).map (Arg.printed id))
    [.mk (txt "polygon") ((objArgs pr (.polygon p.points (printed p))).map (Arg.printed id)) [] 0] 0

/-- the item of a layer -/
def layerItem (pr : Printf F) (h z : F) (l : List (Poly F)) : Item :=
  .mk (txt "translate") ((moveArgs pr z).map (Arg.printed id)) (l.map (polyItem pr h)) 0

theorem mods_nil : putMods 0 = [] := by decide +kernel

theorem plain_call_reads {name : String} (n1 : IdText (txt name)) (n2 : ¬ Keyword (txt name)) {args : List Arg}
    (ha : ∀ a ∈ args, ArgOk id a) (d : Nat) {s : Text} {P : List Token → Prop} (hr : Reads s P) :
    Reads (indent d ++ (call name args ++ s)) (fun ts => NoIncl ts ∧ ∃ x t1 y t2,
        IsMods ts 0 (.id (txt name) :: .sym 40 x :: t1) ∧ IsArgs t1 (args.map (Arg.printed id)) (.sym 41 y :: t2) ∧ P t2) := by
  have := mod_call_reads n1 n2 ha (m := 0) ⟨false, false, false, false, by decide⟩ d hr
  rw [mods_nil, List.nil_append] at this
  exact this

theorem poly_reads {pr : Printf F} {t : Tree2 F} (hh : PrintsAs (pr.ff (height t)) (height t)) (fs : FS) (file : Text) {p : Poly F}
    (hp : PolyOk pr p) (d : Nat) {s : Text} {P : List Token → Prop} (hr : Reads s P) :
    Reads (putPoly pr t d p ++ s) (fun ts => ∃ ts', IsItem fs file ts (polyItem pr (height t) p) ts' ∧ P ts') := by
  have n1 : IdText (txt "linear_extrude") := idText_of (by decide +kernel) (by decide +kernel)
  have n2 : ¬ Keyword (txt "linear_extrude") := by unfold Keyword; decide +kernel
  have n3 : IdText (txt "polygon") := idText_of (by decide +kernel) (by decide +kernel)
  have n4 : ¬ Keyword (txt "polygon") := by unfold Keyword; decide +kernel
  unfold putPoly
  simp only [List.append_assoc]
  have hT := (sym_any (c := 59) (by unfold SymChar; omega)
    (space_any (c := 10) (by unfold Space; omega) hr).reads).reads
  have hx : ∀ a ∈ objArgs pr (.polygon p.points (printed p)), ArgOk id a := by
    rw [printed_eq]
    exact poly2_text hp.size hp.path hp.exact
  have hS := call_reads' n3 n4 hx hT
  rw [txt_semi]
  refine (plain_call_reads n1 n2 (extrude_text hh) d hS).mono ?_
  rintro ts ⟨g, x, t1, y, t2, a1, a2, -, x', t1', y', t2', rfl, a3, z, t3, rfl, hp⟩
  refine ⟨t3, .call a1 (fun hk => absurd hk n2) a2 rfl (.one (.item ?_) (by intro x r h; cases h)), hp⟩
  exact .call .nil (fun hk => absurd hk n4) a3 rfl (.one .semicolon (by intro x r h; cases h))

theorem polys_reads {pr : Printf F} {t : Tree2 F} (hh : PrintsAs (pr.ff (height t)) (height t)) (fs : FS) (file : Text)
    {l : List (Poly F)} (hl : ∀ p ∈ l, PolyOk pr p) (d : Nat) {s : Text} {P : List Token → Prop} (hr : Reads s P) :
    Reads (putPolys pr t d l ++ s) (fun ts => ∃ ts', IsItems fs file ts (l.map (polyItem pr (height t))) ts' ∧ P ts') := by
  unfold putPolys
  induction l with
  | nil => exact hr.mono fun ts h => ⟨ts, .nil, h⟩
  | cons p l ih =>
    simp only [List.map_cons, List.flatten_cons, List.append_assoc]
    refine (poly_reads hh fs file (hl p (by simp)) d (ih fun q hq => hl q (by simp [hq]))).mono ?_
    rintro ts ⟨t1, h1, t2, h2, hp⟩
    exact ⟨t2, .cons (l := [_]) (.item h1) h2, hp⟩

/-- the items of the layers from number `i` on -/
def layerItems (pr : Printf F) (t : Tree2 F) : Nat → List (Layer F) → List Item
  | _, [] => []
  | i, r :: l =>
    (match r.polys, t.z[i]? with
      | [], _ => []
      | _, none => []
      | ps, some z => [layerItem pr (height t) z ps]) ++ layerItems pr t (i + 1) l

theorem layer_reads {pr : Printf F} {t : Tree2 F} (hh : PrintsAs (pr.ff (height t)) (height t)) (hz : ∀ z ∈ t.z, PrintsAs (pr.ff z) z)
    (fs : FS) (file : Text) (d : Nat) : ∀ (i : Nat) (l : List (Layer F)),
    (∀ (k : Nat) (r : Layer F), l[k]? = some r → r.polys ≠ [] → r.zi = i + k ∧ i + k < t.z.length) →
    (∀ r ∈ l, ∀ p ∈ r.polys, PolyOk pr p) →
    ∃ text, putLayers pr t d i l = some text ∧ ∀ (s : Text) (P : List Token → Prop), Reads s P →
      Reads (text ++ s) (fun ts => ∃ ts', IsItems fs file ts (layerItems pr t i l) ts' ∧ P ts')
  | i, [], _, _ => ⟨[], rfl, fun s P hr => hr.mono fun ts h => ⟨ts, .nil, h⟩⟩
  | i, r :: l, h, hp => by
    obtain ⟨text, e, hl⟩ := layer_reads hh hz fs file d (i + 1) l
      (fun k q hq hne => by have := h (k + 1) q (by simpa using hq) hne; omega) (fun q hq => hp q (by simp [hq]))
    cases hr : r.polys with
    | nil =>
      refine ⟨text, ?_, ?_⟩
      · simp [putLayers, putLayer, hr, e]
      · intro s P hs
        simp only [layerItems, hr, List.nil_append]
        exact hl s P hs
    | cons p ps =>
      obtain ⟨h1, h2⟩ := h 0 r rfl (by simp [hr])
      rw [Nat.add_zero] at h1 h2
      have ez : t.z[i]? = some t.z[i] := List.getElem?_eq_getElem h2
      have hq := hp r (by simp)
      rw [hr] at hq
      have e5 : putLayer pr t d i r = some (indent d ++ (call "translate" (moveArgs pr t.z[i]) ++ (txt " {\n" ++
          (putPolys pr t (d + 2) (p :: ps) ++ (indent d ++ txt "}\n"))))) := by
        simp only [putLayer, hr, List.length_cons, Nat.add_one_ne_zero, if_false, h1, ne_eq, not_true_eq_false, ez]
      refine ⟨_, by simp only [putLayers, e5, e]; rfl, ?_⟩
      intro s P hs
      have n1 : IdText (txt "translate") := idText_of (by decide +kernel) (by decide +kernel)
      have n2 : ¬ Keyword (txt "translate") := by unfold Keyword; decide +kernel
      simp only [layerItems, hr, ez, List.append_assoc]
      have hE := indent_reads (d := d) (sym_any (c := 125) (by unfold SymChar; omega)
        (space_any (c := 10) (by unfold Space; omega) (hl s P hs)).reads).reads
      have hB := (space_any (c := 32) (by unfold Space; omega) (sym_any (c := 123) (by unfold SymChar; omega)
        (space_any (c := 10) (by unfold Space; omega) (polys_reads hh fs file hq (d + 2) hE)).reads).reads).reads
      rw [show txt " {\n" = [32, 123, 10] by decide +kernel, show txt "}\n" = [125, 10] by decide +kernel]
      refine (plain_call_reads n1 n2 (move_text (hz _ (List.getElem_mem h2))) d hB).mono ?_
      rintro ts ⟨g, x, t1, y, t2, a1, a2, z, t3, rfl, t4, a3, w, t5, rfl, t6, a4, hp⟩
      exact ⟨t6, .cons (l := [_]) (.item (.call a1 (fun hk => absurd hk n2) a2 rfl (.braces a3))) a4, hp⟩

/-! ### the tree -/

theorem areas_append {region : List (List F) → List (List Nat) → Set (F × F)} (a b : List (Args.Tree F)) :
    areas region (a ++ b) = areas region a ∪ areas region b := by
  induction a with
  | nil => simp [areas]
  | cons t a ih => simp [areas, ih, Set.union_assoc]

theorem spaces_append {region : List (List F) → List (List Nat) → Set (F × F)} (a b : List (Args.Tree F)) :
    spaces region (a ++ b) = spaces region a ∪ spaces region b := by
  induction a with
  | nil => simp [spaces]
  | cons t a ih => simp [spaces, ih, Set.union_assoc]

/-- the items describe the space `x` -/
def Makes (region : List (List F) → List (List Nat) → Set (F × F)) (o : Opts) (l : List Item) (x : Set (F × F × F)) : Prop :=
  ∀ s : St, ∃ ts s', fromItems (F := F) o l s = .ok (ts, s') ∧ s'.root = s.root ∧ spaces region ts = x

theorem makes_append {region : List (List F) → List (List Nat) → Set (F × F)} {o : Opts} {l k : List Item} {x y : Set (F × F × F)}
    (h1 : Makes region o l x) (h2 : Makes region o k y) : Makes region o (l ++ k) (x ∪ y) := by
  intro s
  obtain ⟨t1, s1, a1, b1, c1⟩ := h1 s
  obtain ⟨t2, s2, a2, b2, c2⟩ := h2 s1
  exact ⟨t1 ++ t2, s2, fromItems_append o l k _ _ _ _ _ a1 a2, by rw [b2, b1], by rw [spaces_append, c1, c2]⟩

theorem makes_nil {region : List (List F) → List (List Nat) → Set (F × F)} {o : Opts} : Makes region o [] ∅ :=
  fun s => ⟨[], s, by simp only [fromItems], rfl, by simp only [spaces]⟩

theorem poly_makes {region : List (List F) → List (List Nat) → Set (F × F)} {o : Opts} {pr : Printf F} (hi : IntLaw F) {h : F}
    (hh : PrintsAs (pr.ff h) h) {p : Poly F} (hp : PolyOk pr p) :
    Makes region o [polyItem pr h p] {q | 0 ≤ q.2.2 ∧ q.2.2 ≤ h ∧ (q.1, q.2.1) ∈ region p.points (pathsOf p)} := by
  intro s
  have e1 : cmdFind (txt "linear_extrude") = some .linext := by decide +kernel
  have e2 : cmdFind (txt "polygon") = some .polygon := by decide +kernel
  have e3 : isRoot 0 = false := by decide
  refine ⟨[.mk s.cnt (.linext h (con 0) [con 1, con 1] 1 false ⟨0, con 2, con 12⟩) 0 [.mk (s.cnt + 1) (.polygon p.points (pathsOf p)) 0 []]],
    ⟨s.cnt + 2, s.root⟩, ?_, rfl, ?_⟩
  · have ep := poly2_again (strict := o.param) (colors := o.colors) (pr := pr) hp.two hp.path hp.exact
    simp only [polyItem, printed_eq, fromItems, fromItem, e1, e2, funcNew, e3, Bool.false_eq_true, if_false, extrude_again hh, ep, Bind.bind,
      Out.bind, hasChild, if_true, List.append_nil]
  · simp only [spaces, space, areas, area, Set.union_empty, hi.1, hi.2, true_and]

theorem polys_makes {region : List (List F) → List (List Nat) → Set (F × F)} {o : Opts} {pr : Printf F} (hi : IntLaw F) {h : F}
    (hh : PrintsAs (pr.ff h) h) {l : List (Poly F)} (hl : ∀ p ∈ l, PolyOk pr p) :
    Makes region o (l.map (polyItem pr h))
      {q | ∃ p ∈ l, 0 ≤ q.2.2 ∧ q.2.2 ≤ h ∧ (q.1, q.2.1) ∈ region p.points (pathsOf p)} := by
  induction l with
  | nil =>
    have := makes_nil (region := region) (o := o)
    simpa using this
  | cons p l ih =>
    have := makes_append (poly_makes (region := region) (o := o) hi hh (hl p (by simp))) (ih fun q hq => hl q (by simp [hq]))
    rw [List.map_cons, ← List.singleton_append]
    convert this using 1
    ext q
    simp

theorem layer_makes {region : List (List F) → List (List Nat) → Set (F × F)} {o : Opts} {pr : Printf F} (hi : IntLaw F) {h z : F}
    (hh : PrintsAs (pr.ff h) h) (hz : PrintsAs (pr.ff z) z) {l : List (Poly F)} (hl : ∀ p ∈ l, PolyOk pr p) :
    Makes region o [layerItem pr h z l]
      {q | ∃ p ∈ l, 0 ≤ q.2.2 - z ∧ q.2.2 - z ≤ h ∧ (q.1, q.2.1) ∈ region p.points (pathsOf p)} := by
  intro s
  have e1 : cmdFind (txt "translate") = some .translate := by decide +kernel
  have e3 : isRoot 0 = false := by decide
  obtain ⟨ts, s', h1, h2, h3⟩ := polys_makes (region := region) (o := o) hi hh hl ⟨s.cnt + 1, s.root⟩
  refine ⟨[.mk s.cnt (.translate [con 0, con 0, z]) 0 ts], s', ?_, h2, ?_⟩
  · simp only [layerItem, fromItems, fromItem, e1, funcNew, e3, Bool.false_eq_true, if_false, move_again hz, h1, Bind.bind, Out.bind,
      hasChild, if_true, List.append_nil]
  · simp only [spaces, space, Set.union_empty, h3, hi.1, sub_zero, Set.mem_setOf_eq]

theorem layers_makes {region : List (List F) → List (List Nat) → Set (F × F)} {o : Opts} {pr : Printf F} (hi : IntLaw F)
    {t : Tree2 F} (hh : PrintsAs (pr.ff (height t)) (height t)) (hz : ∀ z ∈ t.z, PrintsAs (pr.ff z) z) :
    ∀ (i : Nat) (l : List (Layer F)), (∀ r ∈ l, ∀ p ∈ r.polys, PolyOk pr p) →
    Makes region o (layerItems pr t i l) {q | ∃ (k : Nat) (r : Layer F) (z : F) (p : Poly F), l[k]? = some r ∧ t.z[i + k]? = some z ∧
      p ∈ r.polys ∧ 0 ≤ q.2.2 - z ∧ q.2.2 - z ≤ height t ∧ (q.1, q.2.1) ∈ region p.points (pathsOf p)}
  | i, [], _ => by
    have := makes_nil (region := region) (o := o)
    simpa [layerItems] using this
  | i, r :: l, hp => by
    have ih := layers_makes (region := region) (o := o) hi hh hz (i + 1) l (fun q hq => hp q (by simp [hq]))
    have hr : Makes region o (match r.polys, t.z[i]? with
      | [], _ => []
      | _, none => []
      | ps, some z => [layerItem pr (height t) z ps]) {q | ∃ (z : F) (p : Poly F), t.z[i]? = some z ∧ p ∈ r.polys ∧
        0 ≤ q.2.2 - z ∧ q.2.2 - z ≤ height t ∧ (q.1, q.2.1) ∈ region p.points (pathsOf p)} := by
      cases e : r.polys with
      | nil =>
        have := makes_nil (region := region) (o := o)
        simpa using this
      | cons p ps =>
        cases ez : t.z[i]? with
        | none =>
          have := makes_nil (region := region) (o := o)
          simpa using this
        | some z =>
          have := layer_makes (region := region) (o := o) hi hh (hz z (List.mem_of_getElem? ez)) (hp r (by simp))
          rw [e] at this
          convert this using 1
          ext q
          simp
    have := makes_append hr ih
    rw [layerItems]
    convert this using 1
    ext q
    simp only [Set.mem_setOf_eq, Set.mem_union]
    constructor
    · rintro ⟨k, r', z, p, h1, h2, h3⟩
      cases k with
      | zero =>
        simp only [List.getElem?_cons_zero, Option.some.injEq] at h1
        subst h1
        exact .inl ⟨z, p, by simpa using h2, h3⟩
      | succ k =>
        simp only [List.getElem?_cons_succ] at h1
        exact .inr ⟨k, r', z, p, h1, by rw [Nat.add_right_comm]; exact h2, h3⟩
    · rintro (⟨z, p, h2, h3⟩ | ⟨k, r', z, p, h1, h2, h3⟩)
      · exact ⟨0, r, z, p, rfl, by simpa using h2, h3⟩
      · exact ⟨k + 1, r', z, p, by simpa using h1, by rw [Nat.add_right_comm] at h2; exact h2, h3⟩

end Hob3l.ScadOut
