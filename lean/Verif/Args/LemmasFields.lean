import Verif.Args.Props
import Verif.Args.SpecFields

/-!
# Lemmas about the fields of the objects made from the arguments
-/
namespace Hob3l.Args

open Hob3l.Syn (Text txt Value Arg)

variable {F : Type} [Flt F]

theorem tryInt_iff (v : Value) (i : Int) : tryInt v = some i ↔ IsInt v i := by
  constructor
  · intro h
    cases v with
    | int j => simp only [tryInt, Option.some.injEq] at h; subst h; exact .int _
    | id s =>
      simp only [tryInt, evaluate] at h
      by_cases h1 : s = txt "PI"
      · rw [if_pos h1] at h; simp at h
      · rw [if_neg h1] at h
        by_cases h2 : s = txt "true"
        · rw [if_pos h2] at h; simp only [Option.some.injEq] at h; subst h; subst h2; exact .one
        · rw [if_neg h2] at h
          by_cases h3 : s = txt "false"
          · rw [if_pos h3] at h; simp only [Option.some.injEq] at h; subst h; subst h3; exact .zero
          · rw [if_neg h3] at h
            by_cases h4 : s = txt "undef"
            · rw [if_pos h4] at h; simp at h
            · rw [if_neg h4] at h; simp at h
    | float s => simp [tryInt, evaluate] at h
    | str s => simp [tryInt, evaluate] at h
    | range a b => simp [tryInt, evaluate] at h
    | range3 a b c => simp [tryInt, evaluate] at h
    | arr l => simp [tryInt, evaluate] at h
  · intro h
    cases h with
    | int => rfl
    | one => decide
    | zero => decide

theorem tryFloat_iff (v : Value) (x : F) : tryFloat v = some x ↔ IsNum v x := by
  constructor
  · intro h
    cases ht : tryInt v with
    | some i =>
      have hi := (tryInt_iff v i).mp ht
      have : tryFloat v = some (Flt.ofInt i : F) := by
        cases hi <;> simp [tryFloat, ht]
      rw [this, Option.some.injEq] at h
      subst h
      exact .int hi
    | none =>
      cases v with
      | float s => simp only [tryFloat, Option.some.injEq] at h; subst h; exact .float _
      | id s =>
        simp only [tryFloat, ht] at h
        by_cases h1 : s = txt "PI"
        · subst h1
          simp only [evaluate, if_true, Option.some.injEq] at h
          subst h
          exact .pi
        · have : ¬ evaluate (.id s) = some .pi := by
            simp only [evaluate, if_neg h1]
            intro e
            split at e
            · simp at e
            · split at e
              · simp at e
              · split at e <;> simp at e
          rw [if_neg this] at h
          exact absurd h (by simp)
      | int j => simp [tryInt] at ht
      | str s => simp [tryFloat, tryInt, evaluate] at h
      | range a b => simp [tryFloat, tryInt, evaluate] at h
      | range3 a b c => simp [tryFloat, tryInt, evaluate] at h
      | arr l => simp [tryFloat, tryInt, evaluate] at h
  · intro h
    cases h with
    | float => rfl
    | pi => rfl
    | int hi =>
      have ht := (tryInt_iff _ _).mpr hi
      cases hi <;> simp [tryFloat, ht]

theorem tryU32_iff (v : Value) (n : Nat) : tryU32 v = some n ↔ IsCount v n := by
  unfold tryU32 IsCount
  rw [← tryInt_iff]
  cases tryInt v with
  | none => simp
  | some i =>
    simp only [Option.bind_eq_bind, Option.bind_some, Option.some.injEq]
    by_cases h1 : i < 0
    · rw [if_pos h1]; simp only [reduceCtorEq, false_iff]; omega
    · rw [if_neg h1]
      by_cases h2 : i ≥ 2 ^ 32
      · rw [if_pos h2]; simp only [reduceCtorEq, false_iff]; omega
      · rw [if_neg h2]; simp only [Option.some.injEq]; omega

theorem isInt_unique {v : Value} {i j : Int} (h : IsInt v i) (h' : IsInt v j) : i = j := by
  rw [← tryInt_iff] at h h'
  rw [h] at h'
  simpa using h'

theorem tryBool_iff (v : Value) (b : Bool) : tryBool v = some b ↔ IsBool v b := by
  unfold tryBool IsBool
  constructor
  · intro h
    cases hu : tryU32 v with
    | none => rw [hu] at h; simp at h
    | some n =>
      rw [hu] at h
      simp only [Option.bind_eq_bind, Option.bind_some, Option.some.injEq] at h
      refine ⟨n, (tryU32_iff v n).mp hu, ?_⟩
      subst h
      simp
  · rintro ⟨n, hn, hb⟩
    rw [(tryU32_iff v n).mpr hn]
    simp only [Option.bind_eq_bind, Option.bind_some, Option.some.injEq]
    cases b with
    | false => simp [hb.mp rfl]
    | true =>
      have : ¬ n = 0 := fun e => absurd (hb.mpr e) (by simp)
      simp [this]

theorem tryGrey_iff (v : Value) (n : Nat) : tryGrey F v = some n ↔ IsGrey F v n := by
  unfold tryGrey IsGrey
  constructor
  · intro h
    cases hu : (tryFloat v : Option F) with
    | none => rw [hu] at h; simp at h
    | some x =>
      rw [hu] at h
      simp only [Option.bind_eq_bind, Option.bind_some] at h
      by_cases h1 : Flt.unit x = true
      · rw [if_pos h1, Option.some.injEq] at h
        exact ⟨x, (tryFloat_iff v x).mp hu, h1, h.symm⟩
      · rw [if_neg h1] at h; simp at h
  · rintro ⟨x, hx, h1, rfl⟩
    rw [(tryFloat_iff v x).mpr hx]
    simp [h1]

theorem tryStr_iff (v : Value) (s : Text) : tryStr v = some s ↔ IsStr v s := by
  unfold IsStr
  cases v <;> simp [tryStr]

theorem forall2_num (c : List Value) (l : List F) : List.Forall₂ (fun a b => tryFloat a = some b) c l ↔ List.Forall₂ IsNum c l := by
  have : (fun (a : Value) (b : F) => tryFloat a = some b) = IsNum := by
    funext a b; exact propext (tryFloat_iff a b)
  rw [this]

theorem isVec_iff (n : Nat) (v : Value) (l : List F) : getVec n v = some l ↔ IsVec n v l := by
  unfold IsVec
  cases v with
  | arr c =>
    simp only [getVec, Value.arr.injEq]
    by_cases h : c.length ≠ n
    · rw [if_pos h]
      simp only [reduceCtorEq, false_iff]
      rintro ⟨c', rfl, h1, -⟩
      exact h h1
    · rw [if_neg h, mapM_forall2, forall2_num]
      constructor
      · intro h2; exact ⟨c, rfl, by omega, h2⟩
      · rintro ⟨c', rfl, -, h2⟩; exact h2
  | _ => simp [getVec]

theorem isNum_not_arr {c : List Value} {x : F} (h : IsNum (.arr c) x) : False := by
  rw [← tryFloat_iff] at h
  simp [tryFloat, tryInt, evaluate] at h

theorem vec2Float_iff (v : Value) (y : Val F) : getVec2Float v = some y ↔ ∃ l, y = .vec l ∧ IsSize 2 v l := by
  unfold getVec2Float IsSize
  cases ht : (tryFloat v : Option F) with
  | some x =>
    have hx := (tryFloat_iff v x).mp ht
    simp only [Option.some.injEq]
    constructor
    · rintro rfl; exact ⟨_, rfl, .inr ⟨x, hx, rfl⟩⟩
    · rintro ⟨l, rfl, h⟩
      rcases h with ⟨c, rfl, -⟩ | ⟨x', hx', rfl⟩
      · exact (isNum_not_arr hx).elim
      · rw [← tryFloat_iff, ht] at hx'
        simp only [Option.some.injEq] at hx'
        subst hx'
        rfl
  | none =>
    simp only [getVec2, Option.bind_eq_bind, Option.bind_eq_some_iff, isVec_iff, Option.some.injEq]
    constructor
    · rintro ⟨l, h, rfl⟩; exact ⟨l, rfl, .inl h⟩
    · rintro ⟨l, rfl, h⟩
      rcases h with h | ⟨x, hx, -⟩
      · exact ⟨l, h, rfl⟩
      · rw [← tryFloat_iff, ht] at hx; simp at hx

theorem vec3Float_iff (v : Value) (y : Val F) : getVec3Float v = some y ↔ ∃ l, y = .vec l ∧ IsSize 3 v l := by
  unfold getVec3Float IsSize
  cases ht : (tryFloat v : Option F) with
  | some x =>
    have hx := (tryFloat_iff v x).mp ht
    simp only [Option.some.injEq]
    constructor
    · rintro rfl; exact ⟨_, rfl, .inr ⟨x, hx, rfl⟩⟩
    · rintro ⟨l, rfl, h⟩
      rcases h with ⟨c, rfl, -⟩ | ⟨x', hx', rfl⟩
      · exact (isNum_not_arr hx).elim
      · rw [← tryFloat_iff, ht] at hx'
        simp only [Option.some.injEq] at hx'
        subst hx'
        rfl
  | none =>
    simp only [getVec3, Option.bind_eq_bind, Option.bind_eq_some_iff, isVec_iff, Option.some.injEq]
    constructor
    · rintro ⟨l, h, rfl⟩; exact ⟨l, rfl, .inl h⟩
    · rintro ⟨l, rfl, h⟩
      rcases h with h | ⟨x, hx, -⟩
      · exact ⟨l, h, rfl⟩
      · rw [← tryFloat_iff, ht] at hx; simp at hx

theorem orFail_ok {α : Type} (o : Option α) (x : α) : Out.orFail o = .ok x ↔ o = some x := by
  cases o <;> simp [Out.orFail]

theorem orCrash_ok {α : Type} (o : Option α) (x : α) : Out.orCrash o = .ok x ↔ o = some x := by
  cases o <;> simp [Out.orCrash]

/-! ### What a getter stores -/

theorem get_bool (v : Value) (y : Val F) : get .bool none v = .ok y ↔ ∃ x, y = .bool x ∧ IsBool v x := by
  simp only [get, orFail_ok, Option.map_eq_some_iff, tryBool_iff]
  exact ⟨fun ⟨a, h, e⟩ => ⟨a, e.symm, h⟩, fun ⟨a, e, h⟩ => ⟨a, h, e.symm⟩⟩

theorem get_uint (v : Value) (y : Val F) : get .uint32 none v = .ok y ↔ ∃ x, y = .uint x ∧ IsCount v x := by
  simp only [get, orFail_ok, Option.map_eq_some_iff, tryU32_iff]
  exact ⟨fun ⟨a, h, e⟩ => ⟨a, e.symm, h⟩, fun ⟨a, e, h⟩ => ⟨a, h, e.symm⟩⟩

theorem get_num (v : Value) (y : Val F) : get .float none v = .ok y ↔ ∃ x, y = .num x ∧ IsNum v x := by
  simp only [get, orFail_ok, Option.map_eq_some_iff, tryFloat_iff]
  exact ⟨fun ⟨a, h, e⟩ => ⟨a, e.symm, h⟩, fun ⟨a, e, h⟩ => ⟨a, h, e.symm⟩⟩

theorem get_grey (v : Value) (y : Val F) : get .grey none v = .ok y ↔ ∃ x, y = .grey x ∧ IsGrey F v x := by
  simp only [get, orFail_ok, Option.map_eq_some_iff, tryGrey_iff]
  exact ⟨fun ⟨a, h, e⟩ => ⟨a, e.symm, h⟩, fun ⟨a, e, h⟩ => ⟨a, h, e.symm⟩⟩

theorem get_str (v : Value) (y : Val F) : get .str none v = .ok y ↔ ∃ x, y = .str x ∧ IsStr v x := by
  simp only [get, orFail_ok, Option.map_eq_some_iff, tryStr_iff]
  exact ⟨fun ⟨a, h, e⟩ => ⟨a, e.symm, h⟩, fun ⟨a, e, h⟩ => ⟨a, h, e.symm⟩⟩

theorem get_size2 (v : Value) (y : Val F) : get .vec2Float none v = .ok y ↔ ∃ x, y = .vec x ∧ IsSize 2 v x := by
  simp only [get, orFail_ok, vec2Float_iff]

theorem get_size3 (v : Value) (y : Val F) : get .vec3Float none v = .ok y ↔ ∃ x, y = .vec x ∧ IsSize 3 v x := by
  simp only [get, orFail_ok, vec3Float_iff]

theorem get_vec3 (v : Value) (y : Val F) : get .vec3 none v = .ok y ↔ ∃ x, y = .vec x ∧ IsVec 3 v x := by
  simp only [get, orFail_ok, getVec3, Option.bind_eq_bind, Option.bind_eq_some_iff, isVec_iff, Option.some.injEq]
  exact ⟨fun ⟨a, h, e⟩ => ⟨a, e.symm, h⟩, fun ⟨a, e, h⟩ => ⟨a, h, e.symm⟩⟩

theorem get_raw (v : Value) (y : Val F) : get .raw none v = .ok y ↔ ∃ x, y = .raw x ∧ x = v := by
  simp only [get, Out.ok.injEq]
  exact ⟨fun h => ⟨v, h.symm, rfl⟩, fun ⟨a, e, h⟩ => by rw [e, h]⟩

/-! ### Fields -/

theorem names_pos (f : Fn) : namesOf (posParams f : List (Param F)) = (posNames f).map txt := by
  cases f <;> rfl

theorem names_key (f : Fn) : namesOf (nameParams f : List (Param F)) = (keyNames f).map txt := by
  cases f <;> rfl

/-- the parameters of functor `f` are stored -/
abbrev Sto (f : Fn) (args : List Arg) (s : List (Slot F)) : Prop :=
  StoredArgs (namesOf (posParams f : List (Param F))) (params f) args s

theorem field_val {f : Fn} {args : List Arg} {s : List (Slot F)} (h : Sto f args s) {k : Nat} {p : Param F} {n : String}
    (hp : (params f : List (Param F))[k]? = some p) (hn : p.name = txt n) (hk : p.kind ≠ .vec23 ∧ p.kind ≠ .vec23Float) :
    match given f n args with
    | none => (⟨s, false⟩ : Got F).val k = p.init
    | some v => ∃ x, (⟨s, false⟩ : Got F).val k = some x ∧ get p.kind none v = .ok x := by
  obtain ⟨o, h1, h2, -⟩ := h.2 k p hp
  unfold given
  rw [names_pos, hn] at h2
  simp only [Got.val, h1, Option.bind_eq_bind, Option.bind_some]
  cases hg : (values ((posNames f).map txt) (txt n) 0 args).getLast? with
  | none =>
    rw [List.getLast?_eq_none_iff] at hg
    rw [hg] at h2
    simp only [convAll, Out.ok.injEq] at h2
    exact h2.symm
  | some v =>
    obtain ⟨l, e⟩ := List.getLast?_eq_some_iff.mp hg
    rw [e] at h2
    obtain ⟨x, hx, hr⟩ := convAll_last p.kind hk l v _ _ h2
    exact ⟨x, hr, hx⟩

theorem field_of {α : Type} {f : Fn} {args : List Arg} {s : List (Slot F)} (h : Sto f args s) (k : Nat) {p : Param F} (n : String)
    (hp : (params f : List (Param F))[k]? = some p) (hn : p.name = txt n) (hk : p.kind ≠ .vec23 ∧ p.kind ≠ .vec23Float)
    (wrap : α → Val F) (d : α) (hi : p.init = some (wrap d)) (R : Value → α → Prop)
    (hR : ∀ v y, get p.kind none v = .ok y ↔ ∃ x, y = wrap x ∧ R v x) :
    ∃ x, (⟨s, false⟩ : Got F).val k = some (wrap x) ∧ Field f args n R d x := by
  have := field_val h hp hn hk
  unfold Field
  cases hg : given f n args with
  | none => rw [hg] at this; exact ⟨d, by rw [this, hi], rfl⟩
  | some v =>
    rw [hg] at this
    obtain ⟨y, h1, h2⟩ := this
    obtain ⟨x, rfl, h3⟩ := (hR v y).mp h2
    exact ⟨x, h1, h3⟩

theorem field_opt {α : Type} {f : Fn} {args : List Arg} {s : List (Slot F)} (h : Sto f args s) (k : Nat) {p : Param F} (n : String)
    (hp : (params f : List (Param F))[k]? = some p) (hn : p.name = txt n) (hk : p.kind ≠ .vec23 ∧ p.kind ≠ .vec23Float)
    (wrap : α → Val F) (hi : p.init = none) (R : Value → α → Prop)
    (hR : ∀ v y, get p.kind none v = .ok y ↔ ∃ x, y = wrap x ∧ R v x) :
    ∃ x, (⟨s, false⟩ : Got F).val k = Option.map wrap x ∧ FieldOpt f args n R x := by
  have := field_val h hp hn hk
  unfold FieldOpt
  cases hg : given f n args with
  | none => rw [hg] at this; exact ⟨none, by rw [this, hi]; rfl, rfl⟩
  | some v =>
    rw [hg] at this
    obtain ⟨y, h1, h2⟩ := this
    obtain ⟨x, rfl, h3⟩ := (hR v y).mp h2
    exact ⟨some x, h1, x, rfl, h3⟩

theorem field_man {α : Type} {f : Fn} {args : List Arg} {s : List (Slot F)} (h : Sto f args s) (k : Nat) {p : Param F} (n : String)
    (hp : (params f : List (Param F))[k]? = some p) (hn : p.name = txt n) (hk : p.kind ≠ .vec23 ∧ p.kind ≠ .vec23Float)
    (wrap : α → Val F) (hm : ∀ p ∈ (params f : List (Param F)), p.mandatory = true → valuesFor F f p.name args ≠ [])
    (hpm : p.mandatory = true) (R : Value → α → Prop)
    (hR : ∀ v y, get p.kind none v = .ok y ↔ ∃ x, y = wrap x ∧ R v x) :
    ∃ x, (⟨s, false⟩ : Got F).val k = some (wrap x) ∧ Must f args n R x := by
  have := field_val h hp hn hk
  have hne := hm p (List.mem_of_getElem? hp) hpm
  unfold valuesFor at hne
  rw [names_pos, hn] at hne
  unfold Must
  cases hg : given f n args with
  | none => unfold given at hg; rw [List.getLast?_eq_none_iff] at hg; exact absurd hg hne
  | some v =>
    rw [hg] at this
    obtain ⟨y, h1, h2⟩ := this
    obtain ⟨x, rfl, h3⟩ := (hR v y).mp h2
    exact ⟨x, h1, v, rfl, h3⟩

theorem detail_of {f : Fn} {args : List Arg} {s : List (Slot F)} (h : Sto f args s) (k : Nat)
    (h0 : (params f : List (Param F))[k]? = some (opt "$fa" .float (.num (con 12))))
    (h1 : (params f : List (Param F))[k + 1]? = some (opt "$fs" .float (.num (con 2))))
    (h2 : (params f : List (Param F))[k + 2]? = some (opt "$fn" .uint32 (.uint 0))) :
    ∃ d, (⟨s, false⟩ : Got F).detail k = .ok d ∧ DetailOf f args d := by
  obtain ⟨a, ha, fa⟩ := field_of h k "$fa" h0 rfl (by simp [opt]) .num (con 12) rfl IsNum get_num
  obtain ⟨b, hb, fb⟩ := field_of h (k + 1) "$fs" h1 rfl (by simp [opt]) .num (con 2) rfl IsNum get_num
  obtain ⟨c, hc, fc⟩ := field_of h (k + 2) "$fn" h2 rfl (by simp [opt]) .uint 0 rfl IsCount get_uint
  exact ⟨⟨c, b, a⟩, by simp [Got.detail, Got.num, Got.uint, ha, hb, hc, Bind.bind, Out.bind], fc, fb, fa⟩

/-- the parameters of an accepted item -/
theorem accepted_sto {strict : Bool} {colors : Colors} {f : Fn} {args : List Arg} {o : Obj F} (hf : reads f = true)
    (hp : Proper ((posNames f).map txt) ((posNames f ++ keyNames f).map txt) args)
    (h : fromArgs strict colors f args = .ok o) :
    ∃ s, getArg strict (posParams f) (nameParams f) args = .ok ⟨s, false⟩ ∧ Sto f args s ∧
      (∀ p ∈ (params f : List (Param F)), p.mandatory = true → valuesFor F f p.name args ≠ []) ∧
      build colors f ⟨s, false⟩ = .ok o := by
  have hp' : ProperFor F f args := by
    unfold ProperFor
    have : namesOf (params f : List (Param F)) = (posNames f ++ keyNames f).map txt := by
      rw [List.map_append, ← names_pos (F := F), ← names_key (F := F)]
      simp [params, namesOf]
    rw [this, names_pos]
    exact hp
  simp only [fromArgs, hf, if_true, Out.bind_ok] at h
  obtain ⟨⟨s, b⟩, h1, h2⟩ := h
  have he := getArg_fn_early strict f _ _ hp' h1
  simp only at he
  subst he
  have := (getArg_fn strict f args s).mp h1
  exact ⟨s, h1, this.2.1, this.2.2, h2⟩

end Hob3l.Args
