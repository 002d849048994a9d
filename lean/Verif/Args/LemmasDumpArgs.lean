import Verif.Args.LemmasDumpText
import Verif.Args.LemmasFields
/-!
The arguments in the dump of an object make the same object.
-/
namespace Hob3l.Args

open Hob3l.Syn

variable {F : Type} [Flt F]

/-- what is known about the objects that are made from arguments -/
def Obj.Wf : Obj F → Prop
  | .multmatrix rows => rows.length = 3 ∧ ∀ r ∈ rows, r.length = 4
  | .translate v | .mirror v | .scale v => v.length = 3
  | .rotate around n a => n.length = 3 ∧ (around = false → a = con 0)
  | .color (some c) => c.length = 4 ∧ ∀ n ∈ c, n ≤ 255
  | .linext _ _ factor slices _ d => factor.length = 2 ∧ slices < 2 ^ 32 ∧ d.fn < 2 ^ 32
  | .rotext _ d | .sphere _ d | .circle _ d | .cylinder _ _ _ _ d => d.fn < 2 ^ 32
  | .cube size _ => size.length = 3
  | .square size _ => size.length = 2
  | .polyhedron points faces => (∀ p ∈ points, p.length = 3) ∧ ∀ f ∈ faces, 3 ≤ f.length ∧ ∀ i ∈ f, i < points.length
  | .polygon points paths => (∀ p ∈ points, p.length = 2) ∧ ∀ f ∈ paths, ∀ i ∈ f, i < points.length
  | _ => True

theorem printedList_map (l : List Value) : Value.printedList id l = l.map (Value.printed id) := by
  induction l with
  | nil => simp only [Value.printedList, List.map_nil]
  | cons v l ih => simp only [Value.printedList, List.map_cons, ih]

theorem arr_printed (l : List Value) : (Value.arr l).printed id = .arr (l.map (Value.printed id)) := by
  rw [Value.printed, printedList_map]

theorem float_cases (t : Text) : (Value.float t).printed id = .float t ∧ IsFloat t ∨
    (Value.float t).printed id = .int (intValue t) ∧ ¬ IsFloat t := by
  rw [Value.printed]
  by_cases h : IsFloat (id t)
  · left; rw [if_pos h]; exact ⟨rfl, h⟩
  · right; rw [if_neg h]; exact ⟨rfl, h⟩

theorem tryFloat_printed {t : Text} {x : F} (h : PrintsAs t x) : tryFloat ((Value.float t).printed id) = some x := by
  obtain ⟨-, -, h⟩ := h
  rcases float_cases t with ⟨e, g⟩ | ⟨e, g⟩
  · rw [e]; rw [if_pos g] at h; rw [← h]; rfl
  · rw [e]; rw [if_neg g] at h; rw [← h]; rfl

theorem tryGrey_printed {t : Text} {n : Nat} (h : PrintsGrey F t n) : tryGrey F ((Value.float t).printed id) = some n := by
  obtain ⟨x, h1, h2, h3⟩ := h
  unfold tryGrey
  rw [tryFloat_printed h1]
  simp [h2, h3]

theorem mapM_map {α β : Type} {f : α → Option β} {g : β → α} {l : List β} (h : ∀ x ∈ l, f (g x) = some x) :
    (l.map g).mapM f = some l := by
  induction l with
  | nil => rfl
  | cons a l ih =>
    rw [List.map_cons, List.mapM_cons, h a (by simp), ih fun x hx => h x (by simp [hx])]
    rfl

theorem nums_printed (ff : F → Text) (l : List F) :
    (nums ff l).printed id = .arr (l.map fun x => (Value.float (ff x)).printed id) := by
  unfold nums
  rw [arr_printed, List.map_map]
  rfl

theorem nats_printed (l : List Nat) : (nats l).printed id = .arr (l.map fun (i : Nat) => .int i) := by
  unfold nats
  rw [arr_printed, List.map_map]
  rfl

theorem getVec_nums {ff : F → Text} {l : List F} {n : Nat} (hn : l.length = n) (h : ∀ x ∈ l, PrintsAs (ff x) x) :
    getVec n ((nums ff l).printed id) = some l := by
  rw [nums_printed]
  unfold getVec
  simp only [List.length_map, hn, ne_eq, not_true_eq_false, if_false]
  exact mapM_map fun x hx => tryFloat_printed (h x hx)

theorem tryFloat_arr (l : List Value) : (tryFloat (.arr l) : Option F) = none := by
  simp [tryFloat, tryInt, evaluate]

/-! ## Getters -/

theorem get_float' {t : Text} {x : F} {old : Option (Val F)} (h : PrintsAs t x) :
    get .float old ((Value.float t).printed id) = .ok (.num x) := by
  simp only [get, tryFloat_printed h, Option.map_some, Out.orFail]

theorem get_uint' {n : Nat} {old : Option (Val F)} (h : n < 2 ^ 32) : get .uint32 old ((Value.int n).printed id) = .ok (.uint n) := by
  have : tryU32 (.int n) = some n := (tryU32_iff _ _).mpr ⟨.int _, by omega⟩
  simp only [get, Value.printed, this, Option.map_some, Out.orFail]

theorem word_printed (b : Bool) : (word b).printed id = word b := by
  unfold word
  rw [Value.printed]

theorem get_bool' {b : Bool} {old : Option (Val F)} : get .bool old ((word b).printed id) = .ok (.bool b) := by
  have : tryBool (word b) = some b := by revert b; decide +kernel
  simp only [get, word_printed, this, Option.map_some, Out.orFail]

theorem get_vec2Float' {ff : F → Text} {l : List F} {old : Option (Val F)} (hn : l.length = 2) (h : ∀ x ∈ l, PrintsAs (ff x) x) :
    get .vec2Float old ((nums ff l).printed id) = .ok (.vec l) := by
  have e := getVec_nums hn h
  rw [nums_printed] at e ⊢
  simp only [get, getVec2Float, tryFloat_arr, getVec2, e, Option.bind_eq_bind, Option.bind_some, Out.orFail]

theorem get_vec3Float' {ff : F → Text} {l : List F} {old : Option (Val F)} (hn : l.length = 3) (h : ∀ x ∈ l, PrintsAs (ff x) x) :
    get .vec3Float old ((nums ff l).printed id) = .ok (.vec l) := by
  have e := getVec_nums hn h
  rw [nums_printed] at e ⊢
  simp only [get, getVec3Float, tryFloat_arr, getVec3, e, Option.bind_eq_bind, Option.bind_some, Out.orFail]

theorem get_vec3' {ff : F → Text} {l : List F} {old : Option (Val F)} (hn : l.length = 3) (h : ∀ x ∈ l, PrintsAs (ff x) x) :
    get .vec3 old ((nums ff l).printed id) = .ok (.vec l) := by
  have e := getVec_nums hn h
  simp only [get, getVec3, e, Option.bind_eq_bind, Option.bind_some, Out.orFail]

theorem three {α : Type} {l : List α} (h : l.length = 3) : ∃ a b c, l = [a, b, c] := by
  match l, h with
  | [a, b, c], _ => exact ⟨a, b, c, rfl⟩

theorem four {α : Type} {l : List α} (h : l.length = 4) : ∃ a b c d, l = [a, b, c, d] := by
  match l, h with
  | [a, b, c, d], _ => exact ⟨a, b, c, d, rfl⟩

theorem get_vec23' {ff : F → Text} {l : List F} {old : Option (Val F)} (hn : l.length = 3) (h : ∀ x ∈ l, PrintsAs (ff x) x) :
    get .vec23 old ((nums ff l).printed id) = .ok (.vec l) := by
  have e := getVec_nums hn h
  obtain ⟨a, b, c, rfl⟩ := three hn
  rw [nums_printed] at e ⊢
  simp only [List.map_cons, List.map_nil] at e ⊢
  simp only [get, getVec23, getVec3, e, Option.bind_eq_bind, Option.bind_some, Out.orFail]

theorem get_vec23Float' {ff : F → Text} {l : List F} {old : Option (Val F)} (hn : l.length = 3) (h : ∀ x ∈ l, PrintsAs (ff x) x) :
    get .vec23Float old ((nums ff l).printed id) = .ok (.vec l) := by
  have e := getVec_nums hn h
  obtain ⟨a, b, c, rfl⟩ := three hn
  rw [nums_printed] at e ⊢
  simp only [List.map_cons, List.map_nil] at e ⊢
  simp only [get, getVec23Float, getVec3Float, tryFloat_arr, getVec3, e, Option.bind_eq_bind, Option.bind_some, Out.orFail]

theorem getRow_nums {ff : F → Text} {l : List F} {y : Nat} (hn : l.length = 4) (h : ∀ x ∈ l, PrintsAs (ff x) x) :
    getRow y ((nums ff l).printed id) = some l := by
  have e := getVec_nums hn h
  obtain ⟨a, b, c, d, rfl⟩ := four hn
  rw [nums_printed] at e ⊢
  simp only [List.map_cons, List.map_nil] at e ⊢
  simp only [getRow, e]

theorem get_mat' {ff : F → Text} {rows : List (List F)} {old : Option (Val F)} (hl : EqLaw F) (hn : rows.length = 3)
    (h4 : ∀ r ∈ rows, r.length = 4) (h : ∀ x ∈ rows.flatten, PrintsAs (ff x) x) :
    get .mat3w old ((Value.arr (rows.map (nums ff) ++ [.arr [.int 0, .int 0, .int 0, .int 1]])).printed id) = .ok (.mat rows) := by
  obtain ⟨a, b, c, rfl⟩ := three hn
  have ea := getRow_nums (ff := ff) (y := 0) (h4 a (by simp)) (fun x hx => h x (by simp [hx]))
  have eb := getRow_nums (ff := ff) (y := 1) (h4 b (by simp)) (fun x hx => h x (by simp [hx]))
  have ec := getRow_nums (ff := ff) (y := 2) (h4 c (by simp)) (fun x hx => h x (by simp [hx]))
  have ed : getRow 3 ((Value.arr [.int 0, .int 0, .int 0, .int 1]).printed id) = some ([con 0, con 0, con 0, con 1] : List F) := by
    simp only [arr_printed, List.map_cons, List.map_nil, Value.printed]
    rfl
  rw [arr_printed]
  simp only [List.map_cons, List.map_nil, List.cons_append, List.nil_append]
  simp only [get, getMat3w, getMat4, List.length_cons, List.length_nil]
  rw [show List.range (0 + 1 + 1 + 1 + 1) = [0, 1, 2, 3] from rfl, show ([0, 1, 2, 3] : List Nat).drop (0 + 1 + 1 + 1 + 1) = [] from rfl]
  rw [if_neg (by omega)]
  simp only [List.mapM_cons, List.mapM_nil, List.getElem?_cons_zero, List.getElem?_cons_succ, Option.bind_some, ea, eb, ec, ed,
    Option.bind_eq_bind, Option.pure_def, Out.orFail, Bind.bind, Out.bind, List.map_nil, List.append_nil, lastRow, hl.1, hl.2,
    Bool.and_self, if_true, List.take_succ_cons, List.take_zero]

/-! ## Arguments -/

theorem step {strict : Bool} {f : Fn} {need : Bool} {i : Nat} {k : Text} {v : Value} {l : List Arg} {s : List (Slot F)} {r : Got F}
    (j : Nat) {p : Param F} {o : Slot F} {x : Val F}
    (hj : ((posNames f ++ keyNames f).map txt).findIdx? (· == k) = some j)
    (hp : (posParams f ++ nameParams f)[j]? = some p) (ho : s[j]? = some o) (hx : get p.kind o.val v = .ok x)
    (h : getLoop strict (posParams f) (nameParams f) true (i + 1) l (s.set j ⟨some x, true⟩) = .ok r) :
    getLoop strict (posParams f) (nameParams f) need i (⟨some k, v⟩ :: l) s = .ok r := by
  have hn : (posParams f ++ nameParams f : List (Param F)).map (·.name) = (posNames f ++ keyNames f).map txt := by
    have a := names_pos (F := F) f
    have b := names_key (F := F) f
    unfold namesOf at a b
    rw [List.map_append, List.map_append, a, b]
  have ht : target (posParams f) (nameParams f : List (Param F)) need i ⟨some k, v⟩ = .at j := by
    rw [← hn, List.findIdx?_map] at hj
    have e : (posParams f ++ nameParams f : List (Param F)).findIdx? (fun p => p.name == k) = some j := hj
    simp only [target, e]
  rw [getLoop, ht]
  simp only [store, hp, ho, Out.orCrash, Bind.bind, Out.bind, hx, Option.isSome_some, Bool.or_true]
  exact h

theorem fromArgs_of {strict : Bool} {colors : Colors} {f : Fn} {args : List Arg} {s : List (Slot F)} {o : Obj F}
    (hr : reads f = true)
    (hl : getLoop strict (posParams f) (nameParams f) false 0 args (start (posParams f ++ nameParams f)) = .ok ⟨s, false⟩)
    (hm : missing (posParams f ++ nameParams f) s = false) (hb : build colors f ⟨s, false⟩ = .ok o) :
    fromArgs strict colors f args = .ok o := by
  simp only [fromArgs, hr, if_true, getArg, hl, Bind.bind, Out.bind, Bool.false_eq_true, if_false, hm, hb]

/-- the dump of an object makes the object -/
theorem fromArgs_dump (strict : Bool) (colors : Colors) (pr : Printf F) (hc : ∀ n ≤ 255, PrintsGrey F (pr.cc n) n) (hq : EqLaw F)
    (o : Obj F) (hw : o.Wf) (hd : o.Dumpable) (he : o.Exact pr) :
    fromArgs strict colors o.fn ((objArgs pr o).map (Arg.printed id)) = .ok o := by
  obtain ⟨hf, hg⟩ := he
  cases o with
  | union => rfl
  | difference => rfl
  | intersection => rfl
  | hull => rfl
  | multmatrix rows =>
    simp only [Obj.Wf, Obj.fine] at hw hf
    refine fromArgs_of (f := .multmatrix) rfl (step 0 (by decide +kernel) rfl rfl (get_mat' hq hw.1 hw.2 hf) rfl) rfl rfl
  | translate v =>
    simp only [Obj.Wf, Obj.fine] at hw hf
    refine fromArgs_of (f := .translate) rfl (step 0 (by decide +kernel) rfl rfl (get_vec23' hw hf) rfl) rfl rfl
  | mirror v =>
    simp only [Obj.Wf, Obj.fine] at hw hf
    refine fromArgs_of (f := .mirror) rfl (step 0 (by decide +kernel) rfl rfl (get_vec23' hw hf) rfl) rfl rfl
  | scale v =>
    simp only [Obj.Wf, Obj.fine] at hw hf
    refine fromArgs_of (f := .scale) rfl (step 0 (by decide +kernel) rfl rfl (get_vec23Float' hw hf) rfl) rfl rfl
  | rotate around n a =>
    simp only [Obj.Wf, Obj.fine] at hw hf
    cases around with
    | false =>
      simp only [Bool.false_eq_true, if_false] at hf
      have e := getVec_nums hw.1 hf
      rw [hw.2 rfl]
      refine fromArgs_of (f := .rotate) rfl (step 0 (by decide +kernel) rfl rfl rfl rfl) rfl ?_
      rw [nums_printed] at e
      show rotate _ = _
      simp only [Arg.printed, key, nums_printed]
      show Out.bind (Out.orFail (getVec 3 _)) _ = _
      rw [e]
      rfl
    | true =>
      simp only [if_true] at hf
      have ha := tryFloat_printed (hf a (by simp))
      refine fromArgs_of (f := .rotate) rfl (step 0 (by decide +kernel) rfl rfl rfl (step 1 (by decide +kernel) rfl rfl
        (get_vec3' hw.1 fun x hx => hf x (by simp [hx])) rfl)) rfl ?_
      show rotate _ = _
      simp only [Arg.printed, key]
      rcases float_cases (pr.ff a) with ⟨e, -⟩ | ⟨e, -⟩
      · rw [e] at ha ⊢
        show Out.bind (Out.orFail (tryFloat (F := F) (.float (pr.ff a)))) (fun x => Out.ok (Obj.rotate true n x)) = _
        rw [ha]
        rfl
      · rw [e] at ha ⊢
        show Out.bind (Out.orFail (tryFloat (F := F) (.int (intValue (pr.ff a))))) (fun x => Out.ok (Obj.rotate true n x)) = _
        rw [ha]
        rfl
  | color c =>
    cases c with
    | none => exact hd.elim
    | some c =>
      simp only [Obj.Wf] at hw
      have e : ((c.map fun n => Value.float (pr.cc n)).map (Value.printed id)).mapM (tryGrey F) = some c := by
        rw [List.map_map]
        exact mapM_map fun n hn => tryGrey_printed (hc n (hw.2 n hn))
      refine fromArgs_of (f := .color) rfl (step 0 (by decide +kernel) rfl rfl rfl rfl) rfl ?_
      show color _ _ = _
      simp only [Arg.printed, key, arr_printed]
      show Out.bind (rgba F colors false (some (.arr _))) _ = _
      have e2 : rgba F colors false (some (.arr ((c.map fun n => Value.float (pr.cc n)).map (Value.printed id)))) = .ok (some c) := by
        simp only [rgba, evaluate, e]
        simp [hw.1, Out.orFail, Bind.bind, Out.bind]
      rw [e2]
      rfl
  | linext height twist scale slices center d =>
    simp only [Obj.Wf, Obj.fine, Obj.coarse, List.mem_cons, List.not_mem_nil, or_false, forall_eq_or_imp, forall_eq] at hw hf hg
    refine fromArgs_of (f := .linext) rfl (step 0 (by decide +kernel) rfl rfl (get_float' hf.1) <|
      step 4 (by decide +kernel) rfl rfl (get_vec2Float' hw.1 hf.2.2) <| step 3 (by decide +kernel) rfl rfl (get_float' hf.2.1) <|
      step 2 (by decide +kernel) rfl rfl (get_uint' hw.2.1) <| step 1 (by decide +kernel) rfl rfl get_bool' <|
      step 8 (by decide +kernel) rfl rfl (get_uint' hw.2.2) <| step 6 (by decide +kernel) rfl rfl (get_float' hg.1) <|
      step 7 (by decide +kernel) rfl rfl (get_float' hg.2) rfl) rfl rfl
  | rotext angle d =>
    simp only [Obj.Wf, Obj.coarse, List.mem_cons, List.not_mem_nil, or_false, forall_eq_or_imp, forall_eq] at hw hg
    refine fromArgs_of (f := .rotext) rfl (step 0 (by decide +kernel) rfl rfl (get_float' hg.1) <|
      step 4 (by decide +kernel) rfl rfl (get_uint' hw) <| step 2 (by decide +kernel) rfl rfl (get_float' hg.2.1) <|
      step 3 (by decide +kernel) rfl rfl (get_float' hg.2.2) rfl) rfl rfl
  | projection cut =>
    refine fromArgs_of (f := .projection) rfl (step 0 (by decide +kernel) rfl rfl get_bool' rfl) rfl rfl
  | sphere r d =>
    simp only [Obj.Wf, Obj.fine, Obj.coarse, List.mem_cons, List.not_mem_nil, or_false, forall_eq_or_imp, forall_eq] at hw hf hg
    refine fromArgs_of (f := .sphere) rfl (step 0 (by decide +kernel) rfl rfl (get_float' hf) <|
      step 4 (by decide +kernel) rfl rfl (get_uint' hw) <| step 2 (by decide +kernel) rfl rfl (get_float' hg.1) <|
      step 3 (by decide +kernel) rfl rfl (get_float' hg.2) rfl) rfl rfl
  | circle r d =>
    simp only [Obj.Wf, Obj.fine, Obj.coarse, List.mem_cons, List.not_mem_nil, or_false, forall_eq_or_imp, forall_eq] at hw hf hg
    refine fromArgs_of (f := .circle) rfl (step 0 (by decide +kernel) rfl rfl (get_float' hf) <|
      step 4 (by decide +kernel) rfl rfl (get_uint' hw) <| step 2 (by decide +kernel) rfl rfl (get_float' hg.1) <|
      step 3 (by decide +kernel) rfl rfl (get_float' hg.2) rfl) rfl rfl
  | cube size center =>
    simp only [Obj.Wf, Obj.fine] at hw hf
    refine fromArgs_of (f := .cube) rfl (step 0 (by decide +kernel) rfl rfl (get_vec3Float' hw hf) <|
      step 1 (by decide +kernel) rfl rfl get_bool' rfl) rfl rfl
  | square size center =>
    simp only [Obj.Wf, Obj.fine] at hw hf
    refine fromArgs_of (f := .square) rfl (step 0 (by decide +kernel) rfl rfl (get_vec2Float' hw hf) <|
      step 1 (by decide +kernel) rfl rfl get_bool' rfl) rfl rfl
  | cylinder h r1 r2 center d =>
    simp only [Obj.Wf, Obj.fine, Obj.coarse, List.mem_cons, List.not_mem_nil, or_false, forall_eq_or_imp, forall_eq] at hw hf hg
    refine fromArgs_of (f := .cylinder) rfl (step 0 (by decide +kernel) rfl rfl (get_float' hf.1) <|
      step 1 (by decide +kernel) rfl rfl (get_float' hf.2.1) <| step 2 (by decide +kernel) rfl rfl (get_float' hf.2.2) <|
      step 3 (by decide +kernel) rfl rfl get_bool' <|
      step 10 (by decide +kernel) rfl rfl (get_uint' hw) <| step 8 (by decide +kernel) rfl rfl (get_float' hg.1) <|
      step 9 (by decide +kernel) rfl rfl (get_float' hg.2) rfl) rfl rfl
  | polyhedron points faces =>
    simp only [Obj.Wf, Obj.fine, List.mem_flatten, forall_exists_index, and_imp] at hw hf
    refine fromArgs_of (f := .polyhedron) rfl (step 0 (by decide +kernel) rfl rfl rfl <|
      step 1 (by decide +kernel) rfl rfl rfl rfl) rfl ?_
    have e1 : ((points.map (nums pr.ff)).map (Value.printed id)).mapM (getVec 3) = some points := by
      rw [List.map_map]
      exact mapM_map fun p hp => getVec_nums (hw.1 p hp) fun x hx => hf x p hp hx
    have e2 : ((faces.map nats).map (Value.printed id)).mapM (getFace points.length) = some faces := by
      rw [List.map_map]
      refine mapM_map fun f h => ?_
      show getFace _ ((nats f).printed id) = _
      rw [nats_printed]
      have := hw.2 f h
      simp only [getFace, elems, Option.bind_eq_bind, Option.bind_some, List.length_map]
      rw [if_neg (by omega)]
      refine mapM_map fun i hi => ?_
      have := this.2 i hi
      simp only [getIndex, trySize, tryInt, Option.bind_eq_bind, Option.bind_some, Int.toNat_natCast]
      rw [if_neg (by omega), Option.bind_some, if_pos this]
    show polyhedron _ = _
    simp only [Arg.printed, key, arr_printed]
    show Out.bind (Out.orFail (some _)) _ = _
    show Out.bind (Out.bind (Out.orCrash (some _)) _) _ = _
    show Out.bind (Out.bind (Out.orFail (some _)) _) _ = _
    show Out.bind (Out.orFail (List.mapM (getVec 3) _)) _ = _
    rw [e1]
    show Out.bind (Out.orFail (List.mapM (getFace points.length) _)) _ = _
    rw [e2]
    rfl
  | polygon points paths =>
    simp only [Obj.Wf, Obj.fine, Obj.Dumpable, List.mem_flatten, forall_exists_index, and_imp] at hw hf hd
    refine fromArgs_of (f := .polygon) rfl (step 0 (by decide +kernel) rfl rfl rfl <|
      step 1 (by decide +kernel) rfl rfl rfl rfl) rfl ?_
    have e1 : ((points.map (nums pr.ff)).map (Value.printed id)).mapM (getVec 2) = some points := by
      rw [List.map_map]
      exact mapM_map fun p hp => getVec_nums (hw.1 p hp) fun x hx => hf x p hp hx
    have e2 : ((paths.map nats).map (Value.printed id)).mapM (getFace points.length) = some paths := by
      rw [List.map_map]
      refine mapM_map fun f h => ?_
      show getFace _ ((nats f).printed id) = _
      rw [nats_printed]
      have := hw.2 f h
      have h3 := hd.2 f h
      simp only [getFace, elems, Option.bind_eq_bind, Option.bind_some, List.length_map]
      rw [if_neg (by omega)]
      refine mapM_map fun i hi => ?_
      have := this i hi
      simp only [getIndex, trySize, tryInt, Option.bind_eq_bind, Option.bind_some, Int.toNat_natCast]
      rw [if_neg (by omega), Option.bind_some, if_pos this]
    show polygon _ = _
    simp only [Arg.printed, key, arr_printed]
    show Out.bind (Out.bind (Out.orCrash (some _)) _) _ = _
    show Out.bind (Out.bind (Out.orFail (some _)) _) _ = _
    show Out.bind (Out.orFail (List.mapM (getVec 2) _)) _ = _
    rw [e1]
    show Out.bind (getPaths points.length (some (.arr _))) _ = _
    simp only [getPaths, evaluate, getFaces, elems, Option.bind_eq_bind, Option.bind_some, e2]
    rfl
  | import_ => exact hd.elim
  | surface => exact hd.elim
  | text => exact hd.elim

/-! ## Text -/

def ValOk (v : Value) : Prop := v.All LeafTxt ∧ v.All (PrintsNumber id)

theorem allList_iff (p : Value → Prop) (l : List Value) : Value.AllList p l ↔ ∀ v ∈ l, v.All p := by
  induction l with
  | nil => simp [Value.AllList]
  | cons v l ih => simp [Value.AllList, ih]

theorem valOk_arr {l : List Value} (h : ∀ v ∈ l, ValOk v) : ValOk (.arr l) := by
  unfold ValOk
  rw [Value.All, Value.All, allList_iff, allList_iff]
  exact ⟨fun v hv => (h v hv).1, fun v hv => (h v hv).2⟩

theorem valOk_float {t : Text} {x : F} (h : PrintsAs t x) : ValOk (.float t) := by
  unfold ValOk
  simp only [Value.All, LeafTxt, PrintsNumber, true_and, id]
  exact ⟨h.1, h.2.1⟩

theorem valOk_int {n : Nat} (h : n < 2 ^ 63) : ValOk (.int n) := by
  unfold ValOk
  simp only [Value.All, LeafTxt, PrintsNumber, and_true]
  omega

theorem valOk_word (b : Bool) : ValOk (word b) := by
  unfold ValOk word
  simp only [Value.All, LeafTxt, PrintsNumber, and_true]
  cases b <;> exact idText_of (by decide +kernel) (by decide +kernel)

theorem valOk_nums {ff : F → Text} {l : List F} (h : ∀ x ∈ l, PrintsAs (ff x) x) : ValOk (nums ff l) := by
  refine valOk_arr fun v hv => ?_
  obtain ⟨x, hx, rfl⟩ := List.mem_map.mp hv
  exact valOk_float (h x hx)

theorem valOk_nats {l : List Nat} (h : ∀ i ∈ l, i < 2 ^ 63) : ValOk (nats l) := by
  refine valOk_arr fun v hv => ?_
  obtain ⟨x, hx, rfl⟩ := List.mem_map.mp hv
  exact valOk_int (h x hx)

theorem argOk_key {k : String} {v : Value} (hk : IdText (txt k)) (hv : ValOk v) : ArgOk id (key k v) :=
  ⟨fun k' e => by cases e; exact hk, hv.1, hv.2⟩

theorem detail_text {pr : Printf F} {d : Detail F} (h : d.fn < 2 ^ 32) (h1 : PrintsAs (pr.gg d.fa) d.fa)
    (h2 : PrintsAs (pr.gg d.fs) d.fs) : ∀ a ∈ detailArgs pr d, ArgOk id a := by
  simp only [detailArgs, List.mem_cons, List.not_mem_nil, or_false, forall_eq_or_imp, forall_eq]
  exact ⟨argOk_key (idText_of (by decide +kernel) (by decide +kernel)) (valOk_int (by omega)),
    argOk_key (idText_of (by decide +kernel) (by decide +kernel)) (valOk_float h1),
    argOk_key (idText_of (by decide +kernel) (by decide +kernel)) (valOk_float h2)⟩

theorem objText_dump (pr : Printf F) (hc : ∀ n ≤ 255, PrintsGrey F (pr.cc n) n) (o : Obj F) (hw : o.Wf) (hd : o.Dumpable)
    (he : o.Exact pr) : ObjText pr o := by
  obtain ⟨hf, hg⟩ := he
  have K : ∀ {k : String} {v : Value}, IdText (txt k) → ValOk v → ArgOk id (key k v) := argOk_key
  unfold ObjText
  cases o with
  | union => simp [objArgs]
  | difference => simp [objArgs]
  | intersection => simp [objArgs]
  | hull => simp [objArgs]
  | multmatrix rows =>
    simp only [Obj.fine, List.mem_flatten, forall_exists_index, and_imp] at hf
    simp only [objArgs, List.mem_cons, List.not_mem_nil, or_false, forall_eq]
    refine K (idText_of (by decide +kernel) (by decide +kernel)) (valOk_arr fun v hv => ?_)
    rcases List.mem_append.mp hv with hv | hv
    · obtain ⟨r, hr, rfl⟩ := List.mem_map.mp hv
      exact valOk_nums fun x hx => hf x r hr hx
    · simp only [List.mem_cons, List.not_mem_nil, or_false] at hv
      subst hv
      refine valOk_arr ?_
      simp only [List.mem_cons, List.not_mem_nil, or_false, forall_eq_or_imp, forall_eq]
      have h0 := valOk_int (n := 0) (by omega)
      have h1 := valOk_int (n := 1) (by omega)
      exact ⟨h0, h0, h0, h1⟩
  | translate v =>
    simp only [Obj.fine] at hf
    simp only [objArgs, List.mem_cons, List.not_mem_nil, or_false, forall_eq]
    exact K (idText_of (by decide +kernel) (by decide +kernel)) (valOk_nums hf)
  | mirror v =>
    simp only [Obj.fine] at hf
    simp only [objArgs, List.mem_cons, List.not_mem_nil, or_false, forall_eq]
    exact K (idText_of (by decide +kernel) (by decide +kernel)) (valOk_nums hf)
  | scale v =>
    simp only [Obj.fine] at hf
    simp only [objArgs, List.mem_cons, List.not_mem_nil, or_false, forall_eq]
    exact K (idText_of (by decide +kernel) (by decide +kernel)) (valOk_nums hf)
  | rotate around n a =>
    simp only [Obj.fine] at hf
    cases around with
    | false =>
      simp only [Bool.false_eq_true, if_false] at hf
      simp only [objArgs, Bool.false_eq_true, if_false, List.mem_cons, List.not_mem_nil, or_false, forall_eq]
      exact K (idText_of (by decide +kernel) (by decide +kernel)) (valOk_nums hf)
    | true =>
      simp only [if_true, List.mem_cons, forall_eq_or_imp] at hf
      simp only [objArgs, if_true, List.mem_cons, List.not_mem_nil, or_false, forall_eq_or_imp, forall_eq]
      exact ⟨K (idText_of (by decide +kernel) (by decide +kernel)) (valOk_float hf.1),
        K (idText_of (by decide +kernel) (by decide +kernel)) (valOk_nums hf.2)⟩
  | color c =>
    cases c with
    | none => exact hd.elim
    | some c =>
      simp only [Obj.Wf] at hw
      simp only [objArgs, List.mem_cons, List.not_mem_nil, or_false, forall_eq]
      refine K (idText_of (by decide +kernel) (by decide +kernel)) (valOk_arr fun v hv => ?_)
      obtain ⟨n, hn, rfl⟩ := List.mem_map.mp hv
      obtain ⟨x, hx, -⟩ := hc n (hw.2 n hn)
      exact valOk_float hx
  | linext height twist scale slices center d =>
    simp only [Obj.Wf, Obj.fine, Obj.coarse, List.mem_cons, List.not_mem_nil, or_false, forall_eq_or_imp, forall_eq] at hw hf hg
    intro a ha
    simp only [objArgs] at ha
    rcases List.mem_append.mp ha with ha | ha
    · simp only [List.mem_cons, List.not_mem_nil, or_false] at ha
      rcases ha with rfl | rfl | rfl | rfl | rfl
      · exact K (idText_of (by decide +kernel) (by decide +kernel)) (valOk_float hf.1)
      · exact K (idText_of (by decide +kernel) (by decide +kernel)) (valOk_nums hf.2.2)
      · exact K (idText_of (by decide +kernel) (by decide +kernel)) (valOk_float hf.2.1)
      · exact K (idText_of (by decide +kernel) (by decide +kernel)) (valOk_int (by omega))
      · exact K (idText_of (by decide +kernel) (by decide +kernel)) (valOk_word _)
    · exact detail_text hw.2.2 hg.1 hg.2 a ha
  | rotext angle d =>
    simp only [Obj.Wf, Obj.coarse, List.mem_cons, List.not_mem_nil, or_false, forall_eq_or_imp, forall_eq] at hw hg
    intro a ha
    simp only [objArgs] at ha
    rcases List.mem_cons.mp ha with rfl | ha
    · exact K (idText_of (by decide +kernel) (by decide +kernel)) (valOk_float hg.1)
    · exact detail_text hw hg.2.1 hg.2.2 a ha
  | projection cut =>
    simp only [objArgs, List.mem_cons, List.not_mem_nil, or_false, forall_eq]
    exact K (idText_of (by decide +kernel) (by decide +kernel)) (valOk_word _)
  | sphere r d =>
    simp only [Obj.Wf, Obj.fine, Obj.coarse, List.mem_cons, List.not_mem_nil, or_false, forall_eq_or_imp, forall_eq] at hw hf hg
    intro a ha
    simp only [objArgs] at ha
    rcases List.mem_cons.mp ha with rfl | ha
    · exact K (idText_of (by decide +kernel) (by decide +kernel)) (valOk_float hf)
    · exact detail_text hw hg.1 hg.2 a ha
  | circle r d =>
    simp only [Obj.Wf, Obj.fine, Obj.coarse, List.mem_cons, List.not_mem_nil, or_false, forall_eq_or_imp, forall_eq] at hw hf hg
    intro a ha
    simp only [objArgs] at ha
    rcases List.mem_cons.mp ha with rfl | ha
    · exact K (idText_of (by decide +kernel) (by decide +kernel)) (valOk_float hf)
    · exact detail_text hw hg.1 hg.2 a ha
  | cube size center =>
    simp only [Obj.fine] at hf
    simp only [objArgs, List.mem_cons, List.not_mem_nil, or_false, forall_eq_or_imp, forall_eq]
    exact ⟨K (idText_of (by decide +kernel) (by decide +kernel)) (valOk_nums hf),
      K (idText_of (by decide +kernel) (by decide +kernel)) (valOk_word _)⟩
  | square size center =>
    simp only [Obj.fine] at hf
    simp only [objArgs, List.mem_cons, List.not_mem_nil, or_false, forall_eq_or_imp, forall_eq]
    exact ⟨K (idText_of (by decide +kernel) (by decide +kernel)) (valOk_nums hf),
      K (idText_of (by decide +kernel) (by decide +kernel)) (valOk_word _)⟩
  | cylinder h r1 r2 center d =>
    simp only [Obj.Wf, Obj.fine, Obj.coarse, List.mem_cons, List.not_mem_nil, or_false, forall_eq_or_imp, forall_eq] at hw hf hg
    intro a ha
    simp only [objArgs] at ha
    rcases List.mem_append.mp ha with ha | ha
    · simp only [List.mem_cons, List.not_mem_nil, or_false] at ha
      rcases ha with rfl | rfl | rfl | rfl
      · exact K (idText_of (by decide +kernel) (by decide +kernel)) (valOk_float hf.1)
      · exact K (idText_of (by decide +kernel) (by decide +kernel)) (valOk_float hf.2.1)
      · exact K (idText_of (by decide +kernel) (by decide +kernel)) (valOk_float hf.2.2)
      · exact K (idText_of (by decide +kernel) (by decide +kernel)) (valOk_word _)
    · exact detail_text hw hg.1 hg.2 a ha
  | polyhedron points faces =>
    simp only [Obj.Wf, Obj.fine, Obj.Dumpable, List.mem_flatten, forall_exists_index, and_imp] at hw hf hd
    simp only [objArgs, List.mem_cons, List.not_mem_nil, or_false, forall_eq_or_imp, forall_eq]
    refine ⟨K (idText_of (by decide +kernel) (by decide +kernel)) (valOk_arr fun v hv => ?_),
      K (idText_of (by decide +kernel) (by decide +kernel)) (valOk_arr fun v hv => ?_)⟩
    · obtain ⟨p, hp, rfl⟩ := List.mem_map.mp hv
      exact valOk_nums fun x hx => hf x p hp hx
    · obtain ⟨f, h, rfl⟩ := List.mem_map.mp hv
      refine valOk_nats fun i hi => ?_
      have := (hw.2 f h).2 i hi
      omega
  | polygon points paths =>
    simp only [Obj.Wf, Obj.fine, Obj.Dumpable, List.mem_flatten, forall_exists_index, and_imp] at hw hf hd
    simp only [objArgs, List.mem_cons, List.not_mem_nil, or_false, forall_eq_or_imp, forall_eq]
    refine ⟨K (idText_of (by decide +kernel) (by decide +kernel)) (valOk_arr fun v hv => ?_),
      K (idText_of (by decide +kernel) (by decide +kernel)) (valOk_arr fun v hv => ?_)⟩
    · obtain ⟨p, hp, rfl⟩ := List.mem_map.mp hv
      exact valOk_nums fun x hx => hf x p hp hx
    · obtain ⟨f, h, rfl⟩ := List.mem_map.mp hv
      refine valOk_nats fun i hi => ?_
      have := hw.2 f h i hi
      omega
  | import_ => exact hd.elim
  | surface => exact hd.elim
  | text => exact hd.elim

end Hob3l.Args
