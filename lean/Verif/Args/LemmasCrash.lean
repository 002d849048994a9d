import Verif.Args.LemmasItem

namespace Hob3l.Args

open Hob3l.Syn (Text txt Value Arg Item Stmt)

variable {F : Type} [Flt F]

/-- the type of what is stored -/
def okVal : Kind → Val F → Bool
  | .bool, .bool _ => true
  | .uint32, .uint _ => true
  | .float, .num _ => true
  | .grey, .grey _ => true
  | .str, .str _ => true
  | .vec2Float, .vec l => l.length == 2
  | .vec3, .vec l | .vec23, .vec l | .vec3Float, .vec l | .vec23Float, .vec l => l.length == 3
  | .mat3w, .mat _ => true
  | .raw, .raw _ => true
  | _, _ => false

theorem mapM_length {α β : Type} (f : α → Option β) (l : List α) : ∀ r, l.mapM f = some r → r.length = l.length := by
  induction l with
  | nil => intro r h; simp at h; subst h; rfl
  | cons a l ih =>
    intro r h
    simp only [List.mapM_cons, Option.bind_eq_bind, Option.bind_eq_some_iff, Option.pure_def, Option.some.injEq] at h
    obtain ⟨x, _, y, hy, rfl⟩ := h
    simp [ih y hy]

theorem getVec_length (n : Nat) (v : Value) (l : List F) (h : getVec n v = some l) : l.length = n := by
  unfold getVec at h
  split at h
  · split at h
    · simp at h
    · rename_i hn
      rw [mapM_length _ _ _ h]
      simpa using hn
  · simp at h

theorem getVec2_ok {v : Value} {x : Val F} (h : getVec2 v = some x) : ∃ l, x = .vec l ∧ l.length = 2 := by
  unfold getVec2 at h
  simp only [Option.bind_eq_bind, Option.bind_eq_some_iff, Option.some.injEq] at h
  obtain ⟨l, hl, rfl⟩ := h
  exact ⟨l, rfl, getVec_length _ _ _ hl⟩

theorem getVec3_ok {v : Value} {x : Val F} (h : getVec3 v = some x) : ∃ l, x = .vec l ∧ l.length = 3 := by
  unfold getVec3 at h
  simp only [Option.bind_eq_bind, Option.bind_eq_some_iff, Option.some.injEq] at h
  obtain ⟨l, hl, rfl⟩ := h
  exact ⟨l, rfl, getVec_length _ _ _ hl⟩

theorem getVec3Float_ok {v : Value} {x : Val F} (h : getVec3Float v = some x) : ∃ l, x = .vec l ∧ l.length = 3 := by
  unfold getVec3Float at h
  split at h
  · simp only [Option.some.injEq] at h; exact ⟨_, h.symm, rfl⟩
  · exact getVec3_ok h

theorem getVec2Float_ok {v : Value} {x : Val F} (h : getVec2Float v = some x) : ∃ l, x = .vec l ∧ l.length = 2 := by
  unfold getVec2Float at h
  split at h
  · simp only [Option.some.injEq] at h; exact ⟨_, h.symm, rfl⟩
  · exact getVec2_ok h

theorem getXY_ok {old : Option (Val F)} {v : Value} {x : Val F} (h : getXY old v = .ok x) : ∃ l, x = .vec l ∧ l.length = 3 := by
  unfold getXY at h
  simp only [Out.bind_ok, Out.orFail_ok, Out.orCrash_ok, Out.ok.injEq] at h
  obtain ⟨l, hl, z, _, rfl⟩ := h
  exact ⟨_, rfl, by simp [getVec_length _ _ _ hl]⟩

theorem get_okVal (k : Kind) (old : Option (Val F)) (v : Value) (x : Val F) (h : get k old v = .ok x) : okVal k x = true := by
  cases k <;> simp only [get, Out.orFail_ok, Option.map_eq_some_iff, Out.ok.injEq] at h
  case bool => obtain ⟨_, _, rfl⟩ := h; rfl
  case uint32 => obtain ⟨_, _, rfl⟩ := h; rfl
  case float => obtain ⟨_, _, rfl⟩ := h; rfl
  case grey => obtain ⟨_, _, rfl⟩ := h; rfl
  case str => obtain ⟨_, _, rfl⟩ := h; rfl
  case vec2Float => obtain ⟨l, rfl, hl⟩ := getVec2Float_ok h; simp [okVal, hl]
  case vec3 => obtain ⟨l, rfl, hl⟩ := getVec3_ok h; simp [okVal, hl]
  case vec23 =>
    unfold getVec23 at h
    split at h
    · obtain ⟨l, rfl, hl⟩ := getXY_ok h; simp [okVal, hl]
    · rw [Out.orFail_ok] at h; obtain ⟨l, rfl, hl⟩ := getVec3_ok h; simp [okVal, hl]
  case vec3Float => obtain ⟨l, rfl, hl⟩ := getVec3Float_ok h; simp [okVal, hl]
  case vec23Float =>
    unfold getVec23Float at h
    split at h
    · obtain ⟨l, rfl, hl⟩ := getXY_ok h; simp [okVal, hl]
    · rw [Out.orFail_ok] at h; obtain ⟨l, rfl, hl⟩ := getVec3Float_ok h; simp [okVal, hl]
  case mat3w =>
    unfold getMat3w at h
    rw [Out.bind_ok] at h
    obtain ⟨m, _, h2⟩ := h
    split at h2
    · simp only [Out.ok.injEq] at h2; subst h2; rfl
    · simp at h2
  case raw => subst h; rfl

/-- what the getter needs about the value stored before -/
def needs (k : Kind) (old : Option (Val F)) : Prop := k = .vec23 ∨ k = .vec23Float → ∃ x, old = some x ∧ okVal k x = true

theorem getXY_ne_crash (old : Option (Val F)) (v : Value) (x y z : F) (h : old = some (.vec [x, y, z])) :
    getXY old v ≠ .crash := by
  unfold getXY
  apply Out.bind_ne_crash Out.orFail_crash
  intro l _
  subst h
  intro e
  cases e

theorem get_ne_crash (k : Kind) (hk : k ≠ .mat3w) (old : Option (Val F)) (v : Value) (h : needs k old) :
    get k old v ≠ .crash := by
  have vec3 : ∀ x : Val F, (okVal .vec23 x = true ∨ okVal .vec23Float x = true) → ∃ a b c, x = .vec [a, b, c] := by
    intro x hx
    cases x <;> simp [okVal] at hx
    rename_i l
    match l, hx with
    | [a, b, c], _ => exact ⟨a, b, c, rfl⟩
  cases k <;> simp only [get]
  case mat3w => exact absurd rfl hk
  case raw => intro e; cases e
  case vec23 =>
    obtain ⟨x, hx, ho⟩ := h (.inl rfl)
    obtain ⟨a, b, c, rfl⟩ := vec3 x (.inl ho)
    unfold getVec23
    split
    · exact getXY_ne_crash _ _ _ _ _ hx
    · exact Out.orFail_crash
  case vec23Float =>
    obtain ⟨x, hx, ho⟩ := h (.inr rfl)
    obtain ⟨a, b, c, rfl⟩ := vec3 x (.inr ho)
    unfold getVec23Float
    split
    · exact getXY_ne_crash _ _ _ _ _ hx
    · exact Out.orFail_crash
  all_goals exact Out.orFail_crash

/-- the getters can be applied -/
def Ready (ps : List (Param F)) (s : List (Slot F)) : Prop :=
  s.length = ps.length ∧ ∀ (k : Nat) (p : Param F) (o : Slot F), ps[k]? = some p → s[k]? = some o → p.kind ≠ .mat3w ∧ needs p.kind o.val

theorem target_lt (pos names : List (Param F)) (need : Bool) (i : Nat) (a : Arg) (k : Nat)
    (h : target pos names need i a = .at k) : k < (pos ++ names).length := by
  unfold target at h
  split at h
  · split at h
    · simp at h
    · rename_i hc; simp only [Target.at.injEq] at h; subst h; simp; omega
  · split at h
    · rename_i j hj
      simp only [Target.at.injEq] at h; subst h
      rw [List.findIdx?_eq_some_iff_getElem] at hj
      exact hj.1
    · simp at h

theorem getLoop_ne_crash (strict : Bool) (pos names : List (Param F)) (args : List Arg) :
    ∀ (need : Bool) (i : Nat) (s : List (Slot F)), Ready (pos ++ names) s →
      getLoop strict pos names need i args s ≠ .crash := by
  induction args with
  | nil => intro need i s _ e; cases e
  | cons a l ih =>
    intro need i s hr
    unfold getLoop
    split
    · intro e; cases e
    · split <;> (intro e; cases e)
    · rename_i k hk
      have hl := target_lt _ _ _ _ _ _ hk
      have hs : k < s.length := by rw [hr.1]; exact hl
      have hk' := hr.2 k _ _ (List.getElem?_eq_getElem hl) (List.getElem?_eq_getElem hs)
      apply Out.bind_ne_crash
      · unfold store
        rw [List.getElem?_eq_getElem hl, List.getElem?_eq_getElem hs]
        simp only [Out.orCrash]
        have := get_ne_crash _ hk'.1 _ a.value hk'.2
        intro e
        simp only [Bind.bind, Out.bind] at e
        split at e <;> simp_all
      · intro s1 hs1
        apply ih
        simp only [store, Out.bind_ok, Out.orCrash_ok] at hs1
        obtain ⟨p, hp, o, ho, x, hx, e⟩ := hs1
        simp only [Out.ok.injEq] at e
        subst e
        refine ⟨by simp [hr.1], ?_⟩
        intro j q oj hq hoj
        by_cases hjk : j = k
        · subst hjk
          rw [List.getElem?_set_self hs] at hoj
          simp only [Option.some.injEq] at hoj
          subst hoj
          rw [hp] at hq
          simp only [Option.some.injEq] at hq
          subst hq
          exact ⟨(hr.2 j p o hp ho).1, fun _ => ⟨x, rfl, get_okVal _ _ _ _ hx⟩⟩
        · rw [List.getElem?_set_ne (by omega)] at hoj
          exact hr.2 j q oj hq hoj

theorem params_ready (f : Fn) (hf : f ≠ .multmatrix) :
    ∀ p ∈ (params f : List (Param F)), p.kind ≠ .mat3w ∧ needs p.kind p.init := by
  cases f <;> first
    | exact absurd rfl hf
    | simp [params, posParams, nameParams, detailParams, opt, optU, man, needs, okVal]

theorem ready_start (f : Fn) (hf : f ≠ .multmatrix) : Ready (params f : List (Param F)) (start (params f)) := by
  refine ⟨by simp [start], ?_⟩
  intro k p o hp ho
  rw [start_getElem?, hp] at ho
  simp only [Option.map_some, Option.some.injEq] at ho
  subst ho
  exact params_ready f hf p (List.mem_of_getElem? hp)

theorem getArg_ne_crash (strict : Bool) (f : Fn) (hf : f ≠ .multmatrix) (args : List Arg) :
    getArg strict (posParams f) (nameParams f : List (Param F)) args ≠ .crash := by
  unfold getArg
  apply Out.bind_ne_crash (getLoop_ne_crash strict _ _ _ _ _ _ (ready_start f hf))
  intro g _
  split
  · intro e; cases e
  · split <;> (intro e; cases e)

theorem convAll_okVal (k : Kind) (l : List Value) : ∀ (old r : Option (Val F)), (∀ x, old = some x → okVal k x = true) →
    convAll k old l = .ok r → (∀ x, r = some x → okVal k x = true) ∧ (r = none → old = none ∧ l = []) := by
  induction l with
  | nil =>
    intro old r ho h
    simp only [convAll, Out.ok.injEq] at h
    subst h
    exact ⟨ho, fun e => ⟨e, rfl⟩⟩
  | cons v l ih =>
    intro old r ho h
    simp only [convAll] at h
    cases hg : get k old v with
    | ok x =>
      rw [hg] at h
      have := ih (some x) r (fun y hy => by simp only [Option.some.injEq] at hy; exact hy ▸ get_okVal _ _ _ _ hg) h
      exact ⟨this.1, fun e => absurd (this.2 e).1 (by simp)⟩
    | fail => rw [hg] at h; simp [Out.bind] at h
    | crash => rw [hg] at h; simp [Out.bind] at h

/-- what is known of a stored value -/
theorem slot_val {pos : List Text} {ps : List (Param F)} {args : List Arg} {s : List (Slot F)}
    (h : StoredArgs pos ps args s) {k : Nat} {p : Param F} (hp : ps[k]? = some p)
    (hi : ∀ x, p.init = some x → okVal p.kind x = true) :
    (∀ x, (⟨s, false⟩ : Got F).val k = some x → okVal p.kind x = true) ∧
    ((⟨s, false⟩ : Got F).val k = none → p.init = none ∧ values pos p.name 0 args = []) := by
  obtain ⟨o, h1, h2, _⟩ := h.2 k p hp
  simp only [Got.val, h1, Option.bind_eq_bind, Option.bind_some]
  exact convAll_okVal _ _ _ _ hi h2

/-- a parameter that has a value is read -/
theorem slot_some {pos : List Text} {ps : List (Param F)} {args : List Arg} {s : List (Slot F)}
    (h : StoredArgs pos ps args s) {k : Nat} {p : Param F} (hp : ps[k]? = some p)
    (hi : ∀ x, p.init = some x → okVal p.kind x = true) (hs : p.init ≠ none ∨ values pos p.name 0 args ≠ []) :
    ∃ x, (⟨s, false⟩ : Got F).val k = some x ∧ okVal p.kind x = true := by
  have := slot_val h hp hi
  cases hv : (⟨s, false⟩ : Got F).val k with
  | some x => exact ⟨x, rfl, this.1 x hv⟩
  | none =>
    have := this.2 hv
    rcases hs with h | h
    · exact absurd this.1 h
    · exact absurd this.2 h

theorem num_ok {pos : List Text} {ps : List (Param F)} {args : List Arg} {s : List (Slot F)}
    (h : StoredArgs pos ps args s) (k : Nat) {n : String} {v : F} (hp : ps[k]? = some (opt n .float (.num v))) :
    ∃ x, (⟨s, false⟩ : Got F).num k = .ok x := by
  obtain ⟨x, hx, ho⟩ := slot_some h hp (by simp [opt, okVal]) (by simp [opt])
  simp only [opt] at ho
  cases x <;> simp [okVal] at ho
  rename_i y
  exact ⟨y, by simp [Got.num, hx]⟩

theorem uint_ok {pos : List Text} {ps : List (Param F)} {args : List Arg} {s : List (Slot F)}
    (h : StoredArgs pos ps args s) (k : Nat) {n : String} {v : Nat} (hp : ps[k]? = some (opt n .uint32 (.uint v))) :
    ∃ x, (⟨s, false⟩ : Got F).uint k = .ok x := by
  obtain ⟨x, hx, ho⟩ := slot_some h hp (by simp [opt, okVal]) (by simp [opt])
  simp only [opt] at ho
  cases x <;> simp [okVal] at ho
  rename_i y
  exact ⟨y, by simp [Got.uint, hx]⟩

theorem bool_ok {pos : List Text} {ps : List (Param F)} {args : List Arg} {s : List (Slot F)}
    (h : StoredArgs pos ps args s) (k : Nat) {n : String} {v : Bool} (hp : ps[k]? = some (opt n .bool (.bool v))) :
    ∃ x, (⟨s, false⟩ : Got F).bool k = .ok x := by
  obtain ⟨x, hx, ho⟩ := slot_some h hp (by simp [opt, okVal]) (by simp [opt])
  simp only [opt] at ho
  cases x <;> simp [okVal] at ho
  rename_i y
  exact ⟨y, by simp [Got.bool, hx]⟩

theorem grey_ok {pos : List Text} {ps : List (Param F)} {args : List Arg} {s : List (Slot F)}
    (h : StoredArgs pos ps args s) (k : Nat) {n : String} {v : Nat} (hp : ps[k]? = some (opt n .grey (.grey v))) :
    ∃ x, (⟨s, false⟩ : Got F).grey k = .ok x := by
  obtain ⟨x, hx, ho⟩ := slot_some h hp (by simp [opt, okVal]) (by simp [opt])
  simp only [opt] at ho
  cases x <;> simp [okVal] at ho
  rename_i y
  exact ⟨y, by simp [Got.grey, hx]⟩

theorem vec_ok {pos : List Text} {ps : List (Param F)} {args : List Arg} {s : List (Slot F)}
    (h : StoredArgs pos ps args s) (k : Nat) {p : Param F} {v : List F} (hp : ps[k]? = some p)
    (hi : p.init = some (.vec v)) (ho' : okVal p.kind (.vec v) = true) :
    ∃ x, (⟨s, false⟩ : Got F).vec k = .ok x := by
  obtain ⟨x, hx, ho⟩ := slot_some h hp (by simp [hi, ho']) (by simp [hi])
  cases x with
  | vec l => exact ⟨l, by simp [Got.vec, hx]⟩
  | _ => revert ho ho'; cases p.kind <;> simp [okVal]

theorem detail_ok {pos : List Text} {ps : List (Param F)} {args : List Arg} {s : List (Slot F)}
    (h : StoredArgs pos ps args s) (k : Nat) (h0 : ps[k]? = some (opt "$fa" .float (.num (con 12))))
    (h1 : ps[k + 1]? = some (opt "$fs" .float (.num (con 2)))) (h2 : ps[k + 2]? = some (opt "$fn" .uint32 (.uint 0))) :
    ∃ x, (⟨s, false⟩ : Got F).detail k = .ok x := by
  obtain ⟨a, ha⟩ := num_ok h k h0
  obtain ⟨b, hb⟩ := num_ok h (k + 1) h1
  obtain ⟨c, hc⟩ := uint_ok h (k + 2) h2
  exact ⟨⟨c, b, a⟩, by simp [Got.detail, ha, hb, hc, Bind.bind, Out.bind]⟩

theorem flag_ok {pos : List Text} {ps : List (Param F)} {args : List Arg} {s : List (Slot F)}
    (h : StoredArgs pos ps args s) (k : Nat) (hk : k < ps.length) :
    ∃ x, (⟨s, false⟩ : Got F).have_ ps k = .ok x := by
  obtain ⟨o, h1, _, _⟩ := h.2 k _ (List.getElem?_eq_getElem hk)
  exact ⟨o.have_, by simp [Got.have_, Got.flag, h1, Out.orCrash]⟩

/-- a mandatory raw value is not NULL -/
theorem raw_ok {pos : List Text} {ps : List (Param F)} {args : List Arg} {s : List (Slot F)}
    (h : StoredArgs pos ps args s) (k : Nat) {n : String} (hp : ps[k]? = some (man n .raw none))
    (hm : values pos (txt n) 0 args ≠ []) : ∃ x, (⟨s, false⟩ : Got F).raw k = some x := by
  obtain ⟨x, hx, ho⟩ := slot_some h hp (by simp [man]) (.inr hm)
  simp only [man] at ho
  cases x <;> simp [okVal] at ho
  rename_i y
  exact ⟨y, by simp [Got.raw, hx]⟩

/-- a mandatory text is not NULL -/
theorem str_ok {pos : List Text} {ps : List (Param F)} {args : List Arg} {s : List (Slot F)}
    (h : StoredArgs pos ps args s) (k : Nat) {n : String} (hp : ps[k]? = some (man n .str none))
    (hm : values pos (txt n) 0 args ≠ []) : ∃ x, (⟨s, false⟩ : Got F).str k = some x := by
  obtain ⟨x, hx, ho⟩ := slot_some h hp (by simp [man]) (.inr hm)
  simp only [man] at ho
  cases x <;> simp [okVal] at ho
  rename_i y
  exact ⟨y, by simp [Got.str, hx]⟩

theorem ite_ne_crash {α : Type} {c : Prop} [Decidable c] {x y : Out α} (hx : x ≠ .crash) (hy : y ≠ .crash) :
    (if c then x else y) ≠ .crash := by
  split <;> assumption

theorem ok_ne_crash {α : Type} {a : α} : Out.ok a ≠ .crash := fun e => by cases e

theorem fail_ne_crash {α : Type} : (Out.fail : Out α) ≠ .crash := fun e => by cases e

theorem radii_ne_crash {args : List Arg} {s : List (Slot F)}
    (h : StoredArgs (namesOf (posParams .cylinder : List (Param F))) (params .cylinder) args s) :
    radii (⟨s, false⟩ : Got F) ≠ .crash := by
  have hr1 := have_eq h (k := 1) (p := opt "r1" .float (.num (con 1))) rfl rfl
  have hr2 := have_eq h (k := 2) (p := opt "r2" .float (.num (con 1))) rfl rfl
  have hd := have_eq h (k := 4) (p := optU "d" .float (some false)) rfl rfl
  have hd1 := have_eq h (k := 5) (p := optU "d1" .float (some false)) rfl rfl
  have hd2 := have_eq h (k := 6) (p := optU "d2" .float (some false)) rfl rfl
  have hr := have_eq h (k := 7) (p := optU "r" .float (some false)) rfl rfl
  have n1 := num_default h (k := 1) (p := opt "r1" .float (.num (con 1))) rfl rfl _ rfl
  have n2 := num_default h (k := 2) (p := opt "r2" .float (.num (con 1))) rfl rfl _ rfl
  have n4 := num_eq h (k := 4) (p := optU "d" .float (some false)) rfl rfl rfl
  have n5 := num_eq h (k := 5) (p := optU "d1" .float (some false)) rfl rfl rfl
  have n6 := num_eq h (k := 6) (p := optU "d2" .float (some false)) rfl rfl rfl
  have n7 := num_eq h (k := 7) (p := optU "r" .float (some false)) rfl rfl rfl
  unfold radii
  simp only [opt, optU] at *
  simp only [hr1, hr2, hd, hd1, hd2, hr]
  generalize (values (namesOf (posParams .cylinder : List (Param F))) (txt "r1") 0 args).getLast?.bind (tryFloat (F := F)) = o1 at *
  generalize (values (namesOf (posParams .cylinder : List (Param F))) (txt "r2") 0 args).getLast?.bind (tryFloat (F := F)) = o2 at *
  generalize (values (namesOf (posParams .cylinder : List (Param F))) (txt "d") 0 args).getLast?.bind (tryFloat (F := F)) = o4 at *
  generalize (values (namesOf (posParams .cylinder : List (Param F))) (txt "d1") 0 args).getLast?.bind (tryFloat (F := F)) = o5 at *
  generalize (values (namesOf (posParams .cylinder : List (Param F))) (txt "d2") 0 args).getLast?.bind (tryFloat (F := F)) = o6 at *
  generalize (values (namesOf (posParams .cylinder : List (Param F))) (txt "r") 0 args).getLast?.bind (tryFloat (F := F)) = o7 at *
  cases o1 <;> cases o2 <;> cases o4 <;> cases o5 <;> cases o6 <;> cases o7 <;>
    simp [Bind.bind, Out.bind, n1, n2, n4, n5, n6, n7, Out.orCrash]

theorem radius_ne_crash (f : Fn) (hf : f = .sphere ∨ f = .circle) {args : List Arg} {s : List (Slot F)}
    (h : StoredArgs (namesOf (posParams f : List (Param F))) (params f) args s) :
    radius f (⟨s, false⟩ : Got F) ≠ .crash := by
  have hp0 : (params f : List (Param F))[0]? = some (opt "r" .float (.num (con 1))) := by rcases hf with rfl | rfl <;> rfl
  have hp1 : (params f : List (Param F))[1]? = some (optU "d" .float (some false)) := by rcases hf with rfl | rfl <;> rfl
  have hr := have_eq h hp0 rfl
  have hd := have_eq h hp1 rfl
  have n0 := num_default h hp0 rfl _ rfl
  have n1 := num_eq h hp1 rfl rfl
  unfold radius
  simp only [opt, optU] at *
  simp only [hr, hd]
  generalize (values (namesOf (posParams f : List (Param F))) (txt "r") 0 args).getLast?.bind (tryFloat (F := F)) = o1 at *
  generalize (values (namesOf (posParams f : List (Param F))) (txt "d") 0 args).getLast?.bind (tryFloat (F := F)) = o2 at *
  cases o1 <;> cases o2 <;> simp [Bind.bind, Out.bind, n0, n1, Out.orCrash]

theorem rgba_ne_crash (colors : Colors) (b : Bool) (v : Option Value) : rgba F colors b v ≠ .crash := by
  unfold rgba
  split
  · exact ok_ne_crash
  · split
    · exact ok_ne_crash
    · split
      · split
        · exact fail_ne_crash
        · exact ite_ne_crash fail_ne_crash (Out.bind_ne_crash Out.orFail_crash fun _ _ => ok_ne_crash)
      · exact Out.bind_ne_crash Out.orFail_crash fun _ _ => ok_ne_crash
      · exact fail_ne_crash

theorem build_ne_crash (colors : Colors) (f : Fn) {args : List Arg} {s : List (Slot F)}
    (h : StoredArgs (namesOf (posParams f : List (Param F))) (params f) args s)
    (hm : ∀ p ∈ (params f : List (Param F)), p.mandatory = true → valuesFor F f p.name args ≠ []) :
    build colors f (⟨s, false⟩ : Got F) ≠ .crash := by
  cases f <;> simp only [build]
  case union => exact ok_ne_crash
  case difference => exact ok_ne_crash
  case intersection => exact ok_ne_crash
  case hull => exact ok_ne_crash
  case multmatrix => split <;> exact ok_ne_crash
  case cube =>
    obtain ⟨x, hx⟩ := vec_ok h 0 (p := opt "size" .vec3Float (.vec [con 1, con 1, con 1])) rfl rfl rfl
    obtain ⟨y, hy⟩ := bool_ok h 1 (n := "center") rfl
    rw [hx, hy]; exact ok_ne_crash
  case square =>
    obtain ⟨x, hx⟩ := vec_ok h 0 (p := opt "size" .vec2Float (.vec [con 1, con 1])) rfl rfl rfl
    obtain ⟨y, hy⟩ := bool_ok h 1 (n := "center") rfl
    rw [hx, hy]; exact ok_ne_crash
  case sphere =>
    apply Out.bind_ne_crash (radius_ne_crash _ (.inl rfl) h)
    intro r _
    obtain ⟨x, hx⟩ := detail_ok h 2 rfl rfl rfl
    rw [hx]; exact ok_ne_crash
  case circle =>
    apply Out.bind_ne_crash (radius_ne_crash _ (.inr rfl) h)
    intro r _
    obtain ⟨x, hx⟩ := detail_ok h 2 rfl rfl rfl
    rw [hx]; exact ok_ne_crash
  case polyhedron =>
    obtain ⟨v, hv⟩ := raw_ok h 0 (n := "points") rfl (hm (man "points" .raw none) (by simp [params, posParams]) rfl)
    unfold polyhedron
    apply Out.bind_ne_crash Out.orFail_crash
    intro fv _
    apply Out.bind_ne_crash
    · unfold getPoints
      rw [hv]
      exact Out.bind_ne_crash (x := .orCrash (some v)) ok_ne_crash fun _ _ =>
        Out.bind_ne_crash Out.orFail_crash fun _ _ => Out.orFail_crash
    · intro _ _
      exact Out.bind_ne_crash Out.orFail_crash fun _ _ => ok_ne_crash
  case polygon =>
    obtain ⟨v, hv⟩ := raw_ok h 0 (n := "points") rfl (hm (man "points" .raw none) (by simp [params, posParams]) rfl)
    unfold polygon
    apply Out.bind_ne_crash
    · unfold getPoints
      rw [hv]
      exact Out.bind_ne_crash (x := .orCrash (some v)) ok_ne_crash fun _ _ =>
        Out.bind_ne_crash Out.orFail_crash fun _ _ => Out.orFail_crash
    · intro _ _
      apply Out.bind_ne_crash
      · unfold getPaths
        split
        · exact ok_ne_crash
        · split
          · exact ok_ne_crash
          · exact Out.orFail_crash
      · exact fun _ _ => ok_ne_crash
  case mirror =>
    obtain ⟨x, hx⟩ := vec_ok h 0 (p := man "v" .vec23 (some (.vec [con 0, con 0, con 0]))) rfl rfl rfl
    rw [hx]; exact ok_ne_crash
  case translate =>
    obtain ⟨x, hx⟩ := vec_ok h 0 (p := man "v" .vec23 (some (.vec [con 0, con 0, con 0]))) rfl rfl rfl
    rw [hx]; exact ok_ne_crash
  case scale =>
    obtain ⟨x, hx⟩ := vec_ok h 0 (p := man "v" .vec23Float (some (.vec [con 0, con 0, con 1]))) rfl rfl rfl
    rw [hx]; exact ok_ne_crash
  case color =>
    unfold color
    obtain ⟨b, hb⟩ := flag_ok h 1 (by simp [params, posParams])
    obtain ⟨a, ha⟩ := grey_ok h 1 (n := "alpha") rfl
    rw [hb]
    apply Out.bind_ne_crash ok_ne_crash
    intro b' _
    apply Out.bind_ne_crash (rgba_ne_crash _ _ _)
    intro c _
    split
    · rw [ha]; exact ok_ne_crash
    · exact ok_ne_crash
  case rotate =>
    obtain ⟨v, hv⟩ := raw_ok h 0 (n := "a") rfl (hm (man "a" .raw none) (by simp [params, posParams]) rfl)
    obtain ⟨b, hb⟩ := flag_ok h 1 (by simp [params, posParams])
    obtain ⟨x, hx⟩ := vec_ok h 1 (p := ⟨txt "v", .vec3, some (.vec [con 0, con 0, con 1]), false, none⟩) rfl rfl rfl
    unfold rotate
    rw [hv]
    apply Out.bind_ne_crash ok_ne_crash
    intro a _
    split
    · rw [hb]
      apply Out.bind_ne_crash ok_ne_crash
      intro b' _
      split
      · exact fail_ne_crash
      · exact Out.bind_ne_crash Out.orFail_crash fun _ _ => ok_ne_crash
    · apply Out.bind_ne_crash Out.orFail_crash
      intro _ _
      rw [hx]; exact ok_ne_crash
  case linext =>
    obtain ⟨a, ha, hao⟩ := slot_some h (k := 0) (p := man "height" .float (some (.num (con 0)))) rfl
      (by simp [man, okVal]) (by simp [man])
    obtain ⟨b, hb⟩ := num_ok h 3 (n := "twist") rfl
    obtain ⟨c, hc⟩ := vec_ok h 4 (p := opt "scale" .vec2Float (.vec [con 1, con 1])) rfl rfl rfl
    obtain ⟨d, hd⟩ := uint_ok h 2 (n := "slices") rfl
    obtain ⟨e, he⟩ := bool_ok h 1 (n := "center") rfl
    obtain ⟨x, hx⟩ := detail_ok h 6 rfl rfl rfl
    cases a <;> simp [man, okVal] at hao
    rename_i a
    have ha' : (⟨s, false⟩ : Got F).num 0 = .ok a := by simp [Got.num, ha]
    rw [ha', hb, hc, hd, he, hx]; exact ok_ne_crash
  case rotext =>
    obtain ⟨a, ha⟩ := num_ok h 0 (n := "angle") rfl
    obtain ⟨x, hx⟩ := detail_ok h 2 rfl rfl rfl
    rw [ha, hx]; exact ok_ne_crash
  case cylinder =>
    apply Out.bind_ne_crash (radii_ne_crash h)
    intro r _
    obtain ⟨a, ha⟩ := num_ok h 0 (n := "h") rfl
    obtain ⟨b, hb⟩ := bool_ok h 3 (n := "center") rfl
    obtain ⟨x, hx⟩ := detail_ok h 8 rfl rfl rfl
    rw [ha, hb, hx]; exact ok_ne_crash
  case import_ =>
    obtain ⟨v, hv⟩ := str_ok h 0 (n := "file") rfl (hm (man "file" .str none) (by simp [params, posParams]) rfl)
    obtain ⟨a, ha⟩ := bool_ok h 3 (n := "center") rfl
    obtain ⟨b, hb⟩ := num_ok h 5 (n := "dpi") rfl
    obtain ⟨x, hx⟩ := detail_ok h 6 rfl rfl rfl
    rw [hv, ha, hb, hx]
    apply Out.bind_ne_crash ok_ne_crash
    intro _ _
    apply Out.bind_ne_crash Out.orFail_crash
    intro _ _
    apply Out.bind_ne_crash Out.orFail_crash
    intro _ _
    exact ok_ne_crash
  case surface =>
    obtain ⟨v, hv⟩ := str_ok h 0 (n := "file") rfl (hm (man "file" .str none) (by simp [params, posParams]) rfl)
    obtain ⟨a, ha⟩ := bool_ok h 1 (n := "center") rfl
    rw [hv, ha]
    apply Out.bind_ne_crash ok_ne_crash
    intro _ _
    exact Out.bind_ne_crash Out.orFail_crash fun _ _ => ok_ne_crash
  case text =>
    obtain ⟨a, ha⟩ := num_ok h 1 (n := "size") rfl
    obtain ⟨b, hb⟩ := num_ok h 8 (n := "spacing") rfl
    obtain ⟨c, hc⟩ := num_ok h 9 (n := "tracking") rfl
    rw [ha, hb, hc]; exact ok_ne_crash
  case projection =>
    obtain ⟨a, ha⟩ := bool_ok h 0 (n := "cut") rfl
    rw [ha]; exact ok_ne_crash

end Hob3l.Args
