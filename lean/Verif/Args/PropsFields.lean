import Verif.Args.LemmasFields

/-!
# Theorems about the objects made from the arguments (C92) and about the names of functors (C93)
-/
namespace Hob3l.Args

open Hob3l.Syn (Text txt Value Arg)

variable {F : Type} [Flt F]

/-! ## C92: every parameter sets its field -/

/-- C92: the functors have the documented parameters, with these positions. -/
theorem C92_names (f : Fn) : namesOf (posParams f : List (Param F)) = (posNames f).map txt ∧
    namesOf (nameParams f : List (Param F)) = (keyNames f).map txt := ⟨names_pos f, names_key f⟩

/-- C92: what a value means. -/
theorem C92_values (v : Value) :
    (∀ x : F, tryFloat v = some x ↔ IsNum v x) ∧ (∀ n, tryU32 v = some n ↔ IsCount v n) ∧
    (∀ b, tryBool v = some b ↔ IsBool v b) ∧ (∀ n, tryGrey F v = some n ↔ IsGrey F v n) ∧
    (∀ s, tryStr v = some s ↔ IsStr v s) :=
  ⟨tryFloat_iff v, tryU32_iff v, tryBool_iff v, tryGrey_iff v, tryStr_iff v⟩

theorem have_given {f : Fn} {args : List Arg} {s : List (Slot F)} (h : Sto f args s) {k : Nat} {p : Param F} {n : String}
    (hp : (params f : List (Param F))[k]? = some p) (hn : p.name = txt n) :
    (⟨s, false⟩ : Got F).have_ (params f) k = .ok (given f n args).isSome := by
  obtain ⟨o, h1, -, h3⟩ := h.2 k p hp
  rw [names_pos, hn] at h3
  simp only [Got.have_, Got.flag, h1, Bool.false_eq_true, if_false, Option.bind_eq_bind, Option.bind_some, Out.orCrash, Out.ok.injEq, h3,
    given]
  cases values ((posNames f).map txt) (txt n) 0 args <;> simp

theorem vec23_of {f : Fn} {args : List Arg} {s : List (Slot F)} (h : Sto f args s) (z : Int) (num : Bool) {p : Param F} (a b : F)
    (hp : (params f : List (Param F))[0]? = some p) (hn : p.name = txt "v") (hi : p.init = some (.vec [a, b, con z]))
    (hk : p.kind = if num then .vec23Float else .vec23) (l : List F) (hl : (⟨s, false⟩ : Got F).vec 0 = .ok l) :
    Vec23Of f args z num l := by
  intro v hv
  obtain ⟨o, h1, h2, -⟩ := h.2 0 p hp
  rw [names_pos, hn, hv, hi] at h2
  simp only [Got.vec, Got.val, h1, Option.bind_eq_bind, Option.bind_some] at hl
  have key : ∀ x, get p.kind (some (.vec [a, b, con z])) v = .ok x → ∀ l, x = .vec l →
      IsVec 3 v l ∨ (∃ x y, IsVec 2 v [x, y] ∧ l = [x, y, con z]) ∨ (num = true ∧ ∃ x, IsNum v x ∧ l = [x, x, x]) := by
    intro x hx l e
    subst e
    have xy : ∀ c1 c2, v = .arr [c1, c2] → getXY (some (.vec [a, b, con z] : Val F)) v = .ok (.vec l) →
        ∃ x y, IsVec 2 v [x, y] ∧ l = [x, y, con z] := by
      intro c1 c2 e h
      simp only [getXY, Out.bind_ok, orFail_ok, orCrash_ok, zOf, Option.some.injEq, Out.ok.injEq, Val.vec.injEq] at h
      obtain ⟨l', h4, z', rfl, rfl⟩ := h
      rw [isVec_iff] at h4
      obtain ⟨c, hc, hlen, hf⟩ := h4
      match l', hf.length_eq ▸ hlen with
      | [x, y], _ => exact ⟨x, y, ⟨c, hc, hlen, hf⟩, rfl⟩
    cases num with
    | false =>
      simp only [Bool.false_eq_true, if_false] at hk
      rw [hk] at hx
      simp only [get, getVec23] at hx
      split at hx
      · exact .inr (.inl (xy _ _ rfl hx))
      · simp only [orFail_ok, getVec3, Option.bind_eq_bind, Option.bind_eq_some_iff, isVec_iff, Option.some.injEq, Val.vec.injEq] at hx
        obtain ⟨l', h3, rfl⟩ := hx
        exact .inl h3
    | true =>
      simp only [if_true] at hk
      rw [hk] at hx
      simp only [get, getVec23Float] at hx
      split at hx
      · exact .inr (.inl (xy _ _ rfl hx))
      · simp only [orFail_ok, vec3Float_iff, Val.vec.injEq] at hx
        obtain ⟨l', rfl, h3⟩ := hx
        rcases h3 with h3 | ⟨x, h3, rfl⟩
        · exact .inl h3
        · exact .inr (.inr ⟨rfl, x, h3, rfl⟩)
  simp only [convAll] at h2
  cases hg : get p.kind (some (.vec [a, b, con z])) v with
  | ok x =>
    rw [hg] at h2
    simp only [Out.bind, Out.ok.injEq] at h2
    rw [← h2] at hl
    cases x with
    | vec l' => simp only [Out.ok.injEq] at hl; exact key _ hg l (by rw [hl])
    | _ => simp at hl
  | fail => rw [hg] at h2; simp [Out.bind] at h2
  | crash => rw [hg] at h2; simp [Out.bind] at h2

theorem forall2_grey (c : List Value) (l : List Nat) :
    List.Forall₂ (fun a b => tryGrey F a = some b) c l ↔ List.Forall₂ (IsGrey F) c l := by
  have : (fun (a : Value) (b : Nat) => tryGrey F a = some b) = IsGrey F := by
    funext a b; exact propext (tryGrey_iff a b)
  rw [this]

theorem evaluate_undef (v : Value) : evaluate v = some .undef ↔ v = .id (txt "undef") := by
  constructor
  · intro h
    cases v with
    | id s =>
      simp only [evaluate] at h
      by_cases h1 : s = txt "PI"
      · rw [if_pos h1] at h; simp at h
      · rw [if_neg h1] at h
        by_cases h2 : s = txt "true"
        · rw [if_pos h2] at h; simp at h
        · rw [if_neg h2] at h
          by_cases h3 : s = txt "false"
          · rw [if_pos h3] at h; simp at h
          · rw [if_neg h3] at h
            by_cases h4 : s = txt "undef"
            · rw [h4]
            · rw [if_neg h4] at h; simp at h
    | _ => simp [evaluate] at h
  · rintro rfl; decide

/-- the colour that is stored, with and without alpha -/
theorem rgba_iff (colors : Colors) (hc : ∀ s c, colors s = some c → c.length = 3) (v : Value) (alpha : Option Nat)
    (c : Option (List Nat)) :
    (∃ r, rgba F colors alpha.isSome (some v) = .ok r ∧
      c = match alpha with | none => r | some a => r.map fun c => c.take 3 ++ [a]) ↔ ColorOf F colors v alpha c := by
  unfold ColorOf
  simp only [rgba]
  by_cases hu : evaluate v = some .undef
  · rw [if_pos hu]
    rw [evaluate_undef] at hu
    subst hu
    simp only [Out.ok.injEq, reduceCtorEq, false_and, exists_const, or_false, true_and]
    constructor
    · rintro ⟨r, rfl, rfl⟩; cases alpha <;> rfl
    · rintro rfl; exact ⟨none, rfl, by cases alpha <;> rfl⟩
  · rw [if_neg hu]
    rw [evaluate_undef] at hu
    cases v with
    | arr l =>
      simp only [reduceCtorEq, false_and, exists_const, or_false, false_or, Value.arr.injEq, and_assoc]
      by_cases h3 : l.length < 3
      · rw [if_pos h3]
        simp only [reduceCtorEq, false_and, exists_const, false_iff, not_or, not_exists]
        constructor
        · rintro l' r g b ⟨rfl, hf, -⟩; have := hf.length_eq; simp at this; omega
        · rintro l' r g b a ⟨rfl, -, hf, -⟩; have := hf.length_eq; simp at this; omega
      · rw [if_neg h3]
        by_cases h4 : l.length > 3 + (if alpha.isSome = true then 0 else 1)
        · rw [if_pos h4]
          simp only [reduceCtorEq, false_and, exists_const, false_iff, not_or, not_exists]
          constructor
          · rintro l' r g b ⟨rfl, hf, -⟩; have := hf.length_eq; simp at this; omega
          · rintro l' r g b a ⟨rfl, rfl, hf, -⟩; have := hf.length_eq; simp at this h4; omega
        · rw [if_neg h4]
          constructor
          · rintro ⟨r, hr, e⟩
            simp only [Out.bind_ok, orFail_ok, mapM_forall2, forall2_grey] at hr
            obtain ⟨ch, hf, hr⟩ := hr
            simp only [Out.ok.injEq] at hr
            have hlen := hf.length_eq
            match ch, hlen, hf, hr with
            | [r, g, b], hlen, hf, hr =>
              left
              refine ⟨l, r, g, b, rfl, hf, ?_⟩
              rw [e, ← hr]
              cases alpha <;> rfl
            | [r, g, b, a], hlen, hf, hr =>
              right
              cases alpha with
              | some a' => simp at h4 hlen; omega
              | none => exact ⟨l, r, g, b, a, rfl, rfl, hf, by rw [e, ← hr]; rfl⟩
            | [], hlen, _, _ => simp at hlen; simp [hlen] at h3
            | [_], hlen, _, _ => simp at hlen; omega
            | [_, _], hlen, _, _ => simp at hlen; omega
            | _ :: _ :: _ :: _ :: _ :: _, hlen, _, _ =>
              simp at hlen
              cases alpha <;> simp at h4 <;> omega
          · intro h
            simp only [Out.bind_ok, orFail_ok, mapM_forall2, forall2_grey]
            rcases h with ⟨l', r, g, b, rfl, hf, rfl⟩ | ⟨l', r, g, b, a, rfl, rfl, hf, rfl⟩
            · exact ⟨_, ⟨_, hf, rfl⟩, by cases alpha <;> rfl⟩
            · exact ⟨_, ⟨_, hf, rfl⟩, rfl⟩
    | str s =>
      simp only [reduceCtorEq, false_and, exists_const, false_or, Value.str.injEq, Out.bind_ok, orFail_ok, Out.ok.injEq]
      constructor
      · rintro ⟨r, ⟨ch, h1, h2⟩, e⟩
        match ch, hc s ch h1, h1, h2 with
        | [r, g, b], _, h1, h2 =>
          refine ⟨s, r, g, b, rfl, h1, ?_⟩
          rw [e, ← h2]
          cases alpha <;> rfl
      · rintro ⟨s', r, g, b, rfl, h1, rfl⟩
        exact ⟨_, ⟨_, h1, rfl⟩, by cases alpha <;> rfl⟩
    | id s => simp only [Value.id.injEq] at hu; simp [hu]
    | _ => simp

theorem color_iff (colors : Colors) (hc : ∀ s c, colors s = some c → c.length = 3) {args : List Arg} {s : List (Slot F)}
    (h : Sto .color args s) (hm : ∀ p ∈ (params .color : List (Param F)), p.mandatory = true → valuesFor F .color p.name args ≠ [])
    (o : Obj F) :
    color colors (⟨s, false⟩ : Got F) = .ok o ↔ ∃ c, o = .color c ∧ ∃ v alpha, given .color "c" args = some v ∧
      FieldOpt .color args "alpha" (IsGrey F) alpha ∧ ColorOf F colors v alpha c := by
  obtain ⟨v, hv, w, hw, rfl⟩ := field_man h 0 "c" (p := man "c" .raw none) rfl rfl (by simp [man]) .raw hm rfl _ get_raw
  have hh := have_given h (k := 1) (p := opt "alpha" .grey (.grey 0)) (n := "alpha") rfl rfl
  have fv := field_val h (k := 1) (p := opt "alpha" .grey (.grey 0)) (n := "alpha") rfl rfl (by simp [opt])
  have hraw : (⟨s, false⟩ : Got F).raw 0 = some v := by simp [Got.raw, hv]
  unfold color FieldOpt
  simp only [hh, hraw, Bind.bind, Out.bind]
  cases hg : given .color "alpha" args with
  | none =>
    simp only [Option.isSome_none, Bool.false_eq_true, if_false]
    have := rgba_iff (F := F) colors hc v none
    simp only [Option.isSome_none] at this
    constructor
    · intro e
      cases hr : rgba F colors false (some v) with
      | ok r =>
        rw [hr] at e
        simp only [Out.ok.injEq] at e
        exact ⟨r, e.symm, v, none, hw, rfl, (this r).mp ⟨r, hr, rfl⟩⟩
      | fail => rw [hr] at e; simp at e
      | crash => rw [hr] at e; simp at e
    · rintro ⟨c, rfl, v', alpha, hv', rfl, hco⟩
      rw [hw, Option.some.injEq] at hv'
      subst hv'
      obtain ⟨r, hr, rfl⟩ := (this c).mpr hco
      rw [hr]
  | some va =>
    rw [hg] at fv
    obtain ⟨x, hx, hgx⟩ := fv
    obtain ⟨a, rfl, ha⟩ := (get_grey va x).mp hgx
    have hgr : (⟨s, false⟩ : Got F).grey 1 = .ok a := by simp [Got.grey, hx]
    have hau : ∀ b, IsGrey F va b → b = a := by
      intro b hb
      rw [← tryGrey_iff] at hb ha
      rw [hb] at ha
      simpa using ha
    simp only [Option.isSome_some, if_true, hgr]
    have := rgba_iff (F := F) colors hc v (some a)
    simp only [Option.isSome_some] at this
    constructor
    · intro e
      cases hr : rgba F colors true (some v) with
      | ok r =>
        rw [hr] at e
        simp only [Out.ok.injEq] at e
        exact ⟨_, e.symm, v, some a, hw, ⟨a, rfl, ha⟩, (this _).mp ⟨r, hr, rfl⟩⟩
      | fail => rw [hr] at e; simp at e
      | crash => rw [hr] at e; simp at e
    · rintro ⟨c, rfl, v', alpha, hv', ⟨b, rfl, hb⟩, hco⟩
      rw [hau b hb] at hco
      rw [hw, Option.some.injEq] at hv'
      subst hv'
      obtain ⟨r, hr, rfl⟩ := (this c).mpr hco
      rw [hr]

theorem isNum_arr_none (c : List Value) : (tryFloat (.arr c) : Option F) = none := rfl

theorem rotate_iff {args : List Arg} {s : List (Slot F)} (h : Sto .rotate args s)
    (hm : ∀ p ∈ (params .rotate : List (Param F)), p.mandatory = true → valuesFor F .rotate p.name args ≠ []) (o : Obj F) :
    rotate (⟨s, false⟩ : Got F) = .ok o ↔ ∃ around n a, o = .rotate around n a ∧
      ((around = false ∧ a = con 0 ∧ Must .rotate args "a" (IsVec 3) n ∧ given .rotate "v" args = none) ∨
       (around = true ∧ Must .rotate args "a" IsNum a ∧ Field .rotate args "v" (IsVec 3) [con 0, con 0, con 1] n)) := by
  obtain ⟨v, hv, w, hw, rfl⟩ := field_man h 0 "a" (p := man "a" .raw none) rfl rfl (by simp [man]) .raw hm rfl _ get_raw
  have hh := have_given h (k := 1) (p := ⟨txt "v", .vec3, some (.vec [con 0, con 0, con 1]), false, none⟩) (n := "v") rfl rfl
  obtain ⟨n, hn, fn⟩ := field_of h 1 "v" (p := ⟨txt "v", .vec3, some (.vec [con 0, con 0, con 1]), false, none⟩) rfl rfl
    (by simp) .vec [con 0, con 0, con 1] rfl (IsVec 3) get_vec3
  have hraw : (⟨s, false⟩ : Got F).raw 0 = some v := by simp [Got.raw, hv]
  have hvec : (⟨s, false⟩ : Got F).vec 1 = .ok n := by simp [Got.vec, hn]
  have hnu : ∀ n', Field .rotate args "v" (IsVec 3) [con 0, con 0, con 1] n' → n' = n := by
    intro n' h'
    unfold Field at h' fn
    cases hg : given .rotate "v" args with
    | none => rw [hg] at h' fn; rw [h', fn]
    | some u =>
      rw [hg] at h' fn
      simp only [← isVec_iff] at h' fn
      rw [h'] at fn
      simpa using fn
  unfold rotate Must
  simp only [hraw, hw, Option.some.injEq, exists_eq_left', Out.orCrash, Bind.bind, Out.bind]
  cases v with
  | arr l =>
    simp only [hh]
    cases hg : given .rotate "v" args with
    | some u =>
      simp only [Option.isSome_some, if_true, reduceCtorEq, and_false, false_or, false_iff, not_exists]
      rintro around n a ⟨-, -, hN, -⟩
      exact isNum_not_arr hN
    | none =>
      simp only [Option.isSome_none, Bool.false_eq_true, if_false]
      constructor
      · intro e
        cases hgv : (getVec 3 (.arr l) : Option (List F)) with
        | none => rw [hgv] at e; simp [Out.orFail] at e
        | some n' =>
          rw [hgv] at e
          simp only [Out.orFail, Out.ok.injEq] at e
          exact ⟨false, n', con 0, e.symm, .inl ⟨rfl, rfl, (isVec_iff _ _ _).mp hgv, trivial⟩⟩
      · rintro ⟨around, n', a, rfl, ⟨rfl, rfl, hN, -⟩ | ⟨-, hN, -⟩⟩
        · rw [(isVec_iff _ _ _).mpr hN]; rfl
        · exact (isNum_not_arr hN).elim
  | _ =>
    simp only [hvec]
    constructor
    · intro e
      split at e <;> try (simp at e; done)
      rename_i x hx
      rw [orFail_ok, tryFloat_iff] at hx
      simp only [Out.ok.injEq] at e
      exact ⟨true, n, x, e.symm, .inr ⟨rfl, hx, fn⟩⟩
    · rintro ⟨around, n', a, rfl, ⟨-, -, ⟨c, hN, -⟩, -⟩ | ⟨rfl, hN, hf⟩⟩
      · exact absurd hN (by simp)
      · rw [(tryFloat_iff _ _).mpr hN, hnu n' hf]; rfl

/-- C92: the object has in every field what the parameter of this name says, and the documented default if it is not given. -/
theorem C92_fields (strict : Bool) (colors : Colors) (hc : ∀ s c, colors s = some c → c.length = 3) (f : Fn) (args : List Arg)
    (o : Obj F) (hp : Proper ((posNames f).map txt) ((posNames f ++ keyNames f).map txt) args)
    (h : fromArgs strict colors f args = .ok o) : o.fn = f ∧ Describes colors args o := by
  by_cases hr : reads f = true
  · obtain ⟨s, -, hs, hm, hb⟩ := accepted_sto hr hp h
    cases f with
    | union => simp [reads] at hr
    | difference => simp [reads] at hr
    | intersection => simp [reads] at hr
    | hull => simp [reads] at hr
    | multmatrix =>
      simp only [build] at hb
      split at hb <;> (simp only [Out.ok.injEq] at hb; subst hb; exact ⟨rfl, trivial⟩)
    | polyhedron =>
      simp only [build, polyhedron, Out.bind_ok, Out.ok.injEq] at hb
      obtain ⟨_, _, _, _, _, _, rfl⟩ := hb
      exact ⟨rfl, trivial⟩
    | polygon =>
      simp only [build, polygon, Out.bind_ok, Out.ok.injEq] at hb
      obtain ⟨_, _, _, _, rfl⟩ := hb
      exact ⟨rfl, trivial⟩
    | translate =>
      simp only [build, Out.bind_ok, Out.ok.injEq] at hb
      obtain ⟨l, hl, rfl⟩ := hb
      exact ⟨rfl, vec23_of hs 0 false (p := man "v" .vec23 (some (.vec [con 0, con 0, con 0]))) _ _ rfl rfl rfl rfl l hl⟩
    | mirror =>
      simp only [build, Out.bind_ok, Out.ok.injEq] at hb
      obtain ⟨l, hl, rfl⟩ := hb
      exact ⟨rfl, vec23_of hs 0 false (p := man "v" .vec23 (some (.vec [con 0, con 0, con 0]))) _ _ rfl rfl rfl rfl l hl⟩
    | scale =>
      simp only [build, Out.bind_ok, Out.ok.injEq] at hb
      obtain ⟨l, hl, rfl⟩ := hb
      exact ⟨rfl, vec23_of hs 1 true (p := man "v" .vec23Float (some (.vec [con 0, con 0, con 1]))) _ _ rfl rfl rfl rfl l hl⟩
    | rotate =>
      obtain ⟨ar, n, a, rfl, hd⟩ := (rotate_iff hs hm o).mp hb
      exact ⟨rfl, hd⟩
    | color =>
      obtain ⟨c, rfl, hd⟩ := (color_iff colors hc hs hm o).mp hb
      exact ⟨rfl, hd⟩
    | linext =>
      obtain ⟨x0, e0, f0⟩ := field_man hs 0 "height" (p := man "height" .float (some (.num (con 0)))) rfl rfl (by simp [man]) .num hm
        rfl _ get_num
      obtain ⟨x1, e1, f1⟩ := field_of hs 1 "center" (p := opt "center" .bool (.bool false)) rfl rfl (by simp [opt]) .bool false rfl _
        get_bool
      obtain ⟨x2, e2, f2⟩ := field_of hs 2 "slices" (p := opt "slices" .uint32 (.uint 1)) rfl rfl (by simp [opt]) .uint 1 rfl _ get_uint
      obtain ⟨x3, e3, f3⟩ := field_of hs 3 "twist" (p := opt "twist" .float (.num (con 0))) rfl rfl (by simp [opt]) .num (con 0) rfl _
        get_num
      obtain ⟨x4, e4, f4⟩ := field_of hs 4 "scale" (p := opt "scale" .vec2Float (.vec [con 1, con 1])) rfl rfl (by simp [opt]) .vec
        [con 1, con 1] rfl _ get_size2
      obtain ⟨d, ed, fd⟩ := detail_of hs 6 rfl rfl rfl
      simp only [build, Got.num, Got.bool, Got.uint, Got.vec, e0, e1, e2, e3, e4, ed, Bind.bind, Out.bind, Out.ok.injEq] at hb
      subst hb
      exact ⟨rfl, f0, f3, f4, f2, f1, fd⟩
    | rotext =>
      obtain ⟨x0, e0, f0⟩ := field_of hs 0 "angle" (p := opt "angle" .float (.num (con 360))) rfl rfl (by simp [opt]) .num (con 360) rfl _
        get_num
      obtain ⟨d, ed, fd⟩ := detail_of hs 2 rfl rfl rfl
      simp only [build, Got.num, e0, ed, Bind.bind, Out.bind, Out.ok.injEq] at hb
      subst hb
      exact ⟨rfl, f0, fd⟩
    | projection =>
      obtain ⟨x0, e0, f0⟩ := field_of hs 0 "cut" (p := opt "cut" .bool (.bool false)) rfl rfl (by simp [opt]) .bool false rfl _ get_bool
      simp only [build, Got.bool, e0, Bind.bind, Out.bind, Out.ok.injEq] at hb
      subst hb
      exact ⟨rfl, f0⟩
    | sphere =>
      obtain ⟨d, ed, fd⟩ := detail_of hs 2 rfl rfl rfl
      simp only [build, ed, Out.bind_ok, Out.ok.injEq] at hb
      obtain ⟨r, -, d', rfl, rfl⟩ := hb
      exact ⟨rfl, fd⟩
    | circle =>
      obtain ⟨d, ed, fd⟩ := detail_of hs 2 rfl rfl rfl
      simp only [build, ed, Out.bind_ok, Out.ok.injEq] at hb
      obtain ⟨r, -, d', rfl, rfl⟩ := hb
      exact ⟨rfl, fd⟩
    | cube =>
      obtain ⟨x0, e0, f0⟩ := field_of hs 0 "size" (p := opt "size" .vec3Float (.vec [con 1, con 1, con 1])) rfl rfl (by simp [opt]) .vec
        [con 1, con 1, con 1] rfl _ get_size3
      obtain ⟨x1, e1, f1⟩ := field_of hs 1 "center" (p := opt "center" .bool (.bool false)) rfl rfl (by simp [opt]) .bool false rfl _
        get_bool
      simp only [build, Got.vec, Got.bool, e0, e1, Bind.bind, Out.bind, Out.ok.injEq] at hb
      subst hb
      exact ⟨rfl, f0, f1⟩
    | square =>
      obtain ⟨x0, e0, f0⟩ := field_of hs 0 "size" (p := opt "size" .vec2Float (.vec [con 1, con 1])) rfl rfl (by simp [opt]) .vec
        [con 1, con 1] rfl _ get_size2
      obtain ⟨x1, e1, f1⟩ := field_of hs 1 "center" (p := opt "center" .bool (.bool false)) rfl rfl (by simp [opt]) .bool false rfl _
        get_bool
      simp only [build, Got.vec, Got.bool, e0, e1, Bind.bind, Out.bind, Out.ok.injEq] at hb
      subst hb
      exact ⟨rfl, f0, f1⟩
    | cylinder =>
      obtain ⟨x0, e0, f0⟩ := field_of hs 0 "h" (p := opt "h" .float (.num (con 1))) rfl rfl (by simp [opt]) .num (con 1) rfl _ get_num
      obtain ⟨x1, e1, f1⟩ := field_of hs 3 "center" (p := opt "center" .bool (.bool false)) rfl rfl (by simp [opt]) .bool false rfl _
        get_bool
      obtain ⟨d, ed, fd⟩ := detail_of hs 8 rfl rfl rfl
      simp only [build, Got.num, Got.bool, e0, e1, ed, Out.bind_ok, Out.ok.injEq] at hb
      obtain ⟨⟨r1, r2⟩, -, x, rfl, y, rfl, d', rfl, rfl⟩ := hb
      exact ⟨rfl, f0, f1, fd⟩
    | import_ =>
      obtain ⟨x0, e0, v0, g0, f0⟩ := field_man hs 0 "file" (p := man "file" .str none) rfl rfl (by simp [man]) .str hm rfl _ get_str
      obtain ⟨x1, e1, f1⟩ := field_opt hs 1 "layer" (p := optU "layer" .str (some false)) rfl rfl (by simp [optU]) .str rfl _ get_str
      obtain ⟨x3, e3, f3⟩ := field_of hs 3 "center" (p := opt "center" .bool (.bool false)) rfl rfl (by simp [opt]) .bool false rfl _
        get_bool
      obtain ⟨x4, e4, f4⟩ := field_opt hs 4 "id" (p := optU "id" .str (some false)) rfl rfl (by simp [optU]) .str rfl _ get_str
      obtain ⟨x5, e5, f5⟩ := field_of hs 5 "dpi" (p := opt "dpi" .float (.num (con 72))) rfl rfl (by simp [opt]) .num (con 72) rfl _
        get_num
      obtain ⟨d, ed, fd⟩ := detail_of hs 6 rfl rfl rfl
      have s1 : (⟨s, false⟩ : Got F).str 1 = x1 := by cases x1 <;> simp [Got.str, e1]
      have s4 : (⟨s, false⟩ : Got F).str 4 = x4 := by cases x4 <;> simp [Got.str, e4]
      simp only [build, s1, s4, ed, Out.bind_ok, orCrash_ok, orFail_ok] at hb
      obtain ⟨t, ht, file, hfile, id, hid, c, hcen, dpi, hdpi, d', hd, hb⟩ := hb
      simp only [Got.str, e0, Option.some.injEq] at ht
      simp only [Got.bool, e3, Out.ok.injEq] at hcen
      simp only [Got.num, e5, Out.ok.injEq] at hdpi
      simp only [Out.ok.injEq] at hd hb
      subst ht hcen hdpi hd hb
      refine ⟨rfl, ⟨v0, g0, _, f0, (C84_unquote _ _).mp hfile⟩, f1, f3, ?_, f5, fd⟩
      unfold FieldOpt at f4 ⊢
      cases hg : given .import_ "id" args with
      | none =>
        rw [hg] at f4
        simp only at f4
        subst f4
        simp only [unquoteOpt, Option.some.injEq] at hid
        exact hid.symm
      | some v =>
        rw [hg] at f4
        obtain ⟨y, rfl, hy⟩ := f4
        simp only [unquoteOpt, Option.map_eq_some_iff] at hid
        obtain ⟨z, hz, rfl⟩ := hid
        exact ⟨z, rfl, y, hy, (C84_unquote _ _).mp hz⟩
    | surface =>
      obtain ⟨x0, e0, v0, g0, f0⟩ := field_man hs 0 "file" (p := man "file" .str none) rfl rfl (by simp [man]) .str hm rfl _ get_str
      obtain ⟨x1, e1, f1⟩ := field_of hs 1 "center" (p := opt "center" .bool (.bool false)) rfl rfl (by simp [opt]) .bool false rfl _
        get_bool
      simp only [build, Out.bind_ok, orCrash_ok, orFail_ok] at hb
      obtain ⟨t, ht, file, hfile, c, hcen, hb⟩ := hb
      simp only [Got.str, e0, Option.some.injEq] at ht
      simp only [Got.bool, e1, Out.ok.injEq] at hcen
      simp only [Out.ok.injEq] at hb
      subst ht hcen hb
      exact ⟨rfl, ⟨v0, g0, _, f0, (C84_unquote _ _).mp hfile⟩, f1⟩
    | text =>
      obtain ⟨x0, e0, f0⟩ := field_man hs 0 "text" (p := man "text" .str none) rfl rfl (by simp [man]) .str hm rfl _ get_str
      obtain ⟨x1, e1, f1⟩ := field_of hs 1 "size" (p := opt "size" .float (.num (con 10))) rfl rfl (by simp [opt]) .num (con 10) rfl _ get_num
      obtain ⟨x2, e2, f2⟩ := field_of hs 2 "font" (p := opt "font" .str (.str (txt "Nozzl3 Sans"))) rfl rfl (by simp [opt]) .str
        (txt "Nozzl3 Sans") rfl _ get_str
      obtain ⟨x3, e3, f3⟩ := field_of hs 3 "halign" (p := opt "halign" .str (.str (txt "left"))) rfl rfl (by simp [opt]) .str
        (txt "left") rfl _ get_str
      obtain ⟨x4, e4, f4⟩ := field_of hs 4 "valign" (p := opt "valign" .str (.str (txt "baseline"))) rfl rfl (by simp [opt]) .str
        (txt "baseline") rfl _ get_str
      obtain ⟨x5, e5, f5⟩ := field_of hs 5 "direction" (p := opt "direction" .str (.str (txt "ltr"))) rfl rfl (by simp [opt]) .str
        (txt "ltr") rfl _ get_str
      obtain ⟨x6, e6, f6⟩ := field_of hs 6 "language" (p := opt "language" .str (.str (txt "en"))) rfl rfl (by simp [opt]) .str
        (txt "en") rfl _ get_str
      obtain ⟨x7, e7, f7⟩ := field_of hs 7 "script" (p := opt "script" .str (.str (txt "latin"))) rfl rfl (by simp [opt]) .str
        (txt "latin") rfl _ get_str
      obtain ⟨x8, e8, f8⟩ := field_of hs 8 "spacing" (p := opt "spacing" .float (.num (con 1))) rfl rfl (by simp [opt]) .num (con 1) rfl _
        get_num
      obtain ⟨x9, e9, f9⟩ := field_of hs 9 "tracking" (p := opt "tracking" .float (.num (con 0))) rfl rfl (by simp [opt]) .num (con 0)
        rfl _ get_num
      simp only [build, Got.num, Got.str, e0, e1, e2, e3, e4, e5, e6, e7, e8, e9, Bind.bind, Out.bind, Out.ok.injEq] at hb
      subst hb
      exact ⟨rfl, ⟨_, rfl, f0⟩, f1, ⟨_, rfl, f2⟩, ⟨_, rfl, f3⟩, ⟨_, rfl, f4⟩, ⟨_, rfl, f5⟩, ⟨_, rfl, f6⟩, ⟨_, rfl, f7⟩, f8, f9⟩
  · simp only [fromArgs, hr, if_false, Bool.false_eq_true] at h
    cases f <;> simp [reads] at hr <;> (simp only [build, Out.ok.injEq] at h; subst h; exact ⟨rfl, trivial⟩)

/-- C92: a colour is made from any arguments that say one. -/
theorem C92_color (strict : Bool) (colors : Colors) (hc : ∀ s c, colors s = some c → c.length = 3) (args : List Arg)
    (s : List (Slot F)) (h : getArg strict (posParams .color) (nameParams .color) args = .ok ⟨s, false⟩) (c : Option (List Nat)) :
    fromArgs strict colors .color args = .ok (.color c : Obj F) ↔ ∃ v alpha, given .color "c" args = some v ∧
      FieldOpt .color args "alpha" (IsGrey F) alpha ∧ ColorOf F colors v alpha c := by
  have hg := (getArg_fn strict .color args s).mp h
  have := color_iff colors hc hg.2.1 hg.2.2 (.color c)
  simp only [fromArgs, reads, if_true, h, Bind.bind, Out.bind, build]
  rw [this]
  simp

/-- C92: a rotation is made from any arguments that say one. -/
theorem C92_rotate (strict : Bool) (colors : Colors) (args : List Arg) (s : List (Slot F))
    (h : getArg strict (posParams .rotate) (nameParams .rotate) args = .ok ⟨s, false⟩) (around : Bool) (n : List F) (a : F) :
    fromArgs strict colors .rotate args = .ok (.rotate around n a) ↔
      (around = false ∧ a = con 0 ∧ Must .rotate args "a" (IsVec 3) n ∧ given .rotate "v" args = none) ∨
      (around = true ∧ Must .rotate args "a" IsNum a ∧ Field .rotate args "v" (IsVec 3) [con 0, con 0, con 1] n) := by
  have hg := (getArg_fn strict .rotate args s).mp h
  have := rotate_iff hg.2.1 hg.2.2 (.rotate around n a)
  simp only [fromArgs, reads, if_true, h, Bind.bind, Out.bind, build]
  rw [this]
  constructor
  · rintro ⟨x, y, z, e, hd⟩
    simp only [Obj.rotate.injEq] at e
    obtain ⟨rfl, rfl, rfl⟩ := e
    exact hd
  · intro hd; exact ⟨_, _, _, rfl, hd⟩

/-- C92: the other shapes and transformations whose arguments are accepted are made: nothing else is checked. -/
theorem C92_made (strict : Bool) (colors : Colors) (f : Fn) (hf : f ∈ [Fn.cube, .square, .linext, .rotext, .projection, .text])
    (args : List Arg) (s : List (Slot F)) (h : getArg strict (posParams f) (nameParams f) args = .ok ⟨s, false⟩) :
    ∃ o : Obj F, fromArgs strict colors f args = .ok o := by
  have hg := (getArg_fn strict f args s).mp h
  obtain ⟨-, hs, hm⟩ := hg
  simp only [List.mem_cons, List.not_mem_nil, or_false] at hf
  have hr : reads f = true := by rcases hf with rfl | rfl | rfl | rfl | rfl | rfl <;> rfl
  simp only [fromArgs, hr, if_true, h, Bind.bind, Out.bind]
  rcases hf with rfl | rfl | rfl | rfl | rfl | rfl
  · obtain ⟨x0, e0, f0⟩ := field_of hs 0 "size" (p := opt "size" .vec3Float (.vec [con 1, con 1, con 1])) rfl rfl (by simp [opt]) .vec
      [con 1, con 1, con 1] rfl _ get_size3
    obtain ⟨x1, e1, f1⟩ := field_of hs 1 "center" (p := opt "center" .bool (.bool false)) rfl rfl (by simp [opt]) .bool false rfl _
      get_bool
    exact ⟨_, by simp only [build, Got.vec, Got.bool, e0, e1, Bind.bind, Out.bind]; rfl⟩
  · obtain ⟨x0, e0, f0⟩ := field_of hs 0 "size" (p := opt "size" .vec2Float (.vec [con 1, con 1])) rfl rfl (by simp [opt]) .vec
      [con 1, con 1] rfl _ get_size2
    obtain ⟨x1, e1, f1⟩ := field_of hs 1 "center" (p := opt "center" .bool (.bool false)) rfl rfl (by simp [opt]) .bool false rfl _
      get_bool
    exact ⟨_, by simp only [build, Got.vec, Got.bool, e0, e1, Bind.bind, Out.bind]; rfl⟩
  · obtain ⟨x0, e0, f0⟩ := field_man hs 0 "height" (p := man "height" .float (some (.num (con 0)))) rfl rfl (by simp [man]) .num hm
      rfl _ get_num
    obtain ⟨x1, e1, f1⟩ := field_of hs 1 "center" (p := opt "center" .bool (.bool false)) rfl rfl (by simp [opt]) .bool false rfl _
      get_bool
    obtain ⟨x2, e2, f2⟩ := field_of hs 2 "slices" (p := opt "slices" .uint32 (.uint 1)) rfl rfl (by simp [opt]) .uint 1 rfl _ get_uint
    obtain ⟨x3, e3, f3⟩ := field_of hs 3 "twist" (p := opt "twist" .float (.num (con 0))) rfl rfl (by simp [opt]) .num (con 0) rfl _
      get_num
    obtain ⟨x4, e4, f4⟩ := field_of hs 4 "scale" (p := opt "scale" .vec2Float (.vec [con 1, con 1])) rfl rfl (by simp [opt]) .vec
      [con 1, con 1] rfl _ get_size2
    obtain ⟨d, ed, fd⟩ := detail_of hs 6 rfl rfl rfl
    exact ⟨_, by simp only [build, Got.num, Got.bool, Got.uint, Got.vec, e0, e1, e2, e3, e4, ed, Bind.bind, Out.bind]; rfl⟩
  · obtain ⟨x0, e0, f0⟩ := field_of hs 0 "angle" (p := opt "angle" .float (.num (con 360))) rfl rfl (by simp [opt]) .num (con 360) rfl _
      get_num
    obtain ⟨d, ed, fd⟩ := detail_of hs 2 rfl rfl rfl
    exact ⟨_, by simp only [build, Got.num, e0, ed, Bind.bind, Out.bind]; rfl⟩
  · obtain ⟨x0, e0, f0⟩ := field_of hs 0 "cut" (p := opt "cut" .bool (.bool false)) rfl rfl (by simp [opt]) .bool false rfl _ get_bool
    exact ⟨_, by simp only [build, Got.bool, e0, Bind.bind, Out.bind]; rfl⟩
  · obtain ⟨x1, e1, f1⟩ := field_of hs 1 "size" (p := opt "size" .float (.num (con 10))) rfl rfl (by simp [opt]) .num (con 10) rfl _ get_num
    obtain ⟨x8, e8, f8⟩ := field_of hs 8 "spacing" (p := opt "spacing" .float (.num (con 1))) rfl rfl (by simp [opt]) .num (con 1) rfl _
      get_num
    obtain ⟨x9, e9, f9⟩ := field_of hs 9 "tracking" (p := opt "tracking" .float (.num (con 0))) rfl rfl (by simp [opt]) .num (con 0)
      rfl _ get_num
    exact ⟨_, by simp only [build, Got.num, e1, e8, e9, Bind.bind, Out.bind]; rfl⟩

/-- `linear_extrude(5, center = true, scale = 2)` -/
example : ∃ (scale : List Int) (d : Detail Int), fromArgs true (fun _ => none) .linext
    [pos (.int 5), named "center" (.id (txt "true")), named "scale" (.int 2)] = .ok (.linext 5 0 scale 1 true d) ∧
    Field .linext [pos (.int 5), named "center" (.id (txt "true")), named "scale" (.int 2)] "scale" (IsSize 2) [con 1, con 1] scale := by
  have h : fromArgs true (fun _ => none) .linext
      [pos (.int 5), named "center" (.id (txt "true")), named "scale" (.int 2)] =
      .ok (.linext (5 : Int) 0 [2, 2] 1 true ⟨0, 2, 12⟩) := rfl
  refine ⟨_, _, h, ?_⟩
  refine (C92_fields true _ (by simp) .linext _ _ ⟨?_, ?_⟩ h).2.2.2.1
  · intro i a ha hk
    match i, ha with
    | 0, _ => exact ⟨by decide, by simp⟩
    | 1, ha => simp only [List.getElem?_cons_succ, List.getElem?_cons_zero, Option.some.injEq] at ha; subst ha; simp [named] at hk
    | 2, ha => simp only [List.getElem?_cons_succ, List.getElem?_cons_zero, Option.some.injEq] at ha; subst ha; simp [named] at hk
  · intro a ha n hn
    simp only [List.mem_cons, List.not_mem_nil, or_false] at ha
    rcases ha with rfl | rfl | rfl
    · simp [pos] at hn
    · simp only [named, Option.some.injEq] at hn; subst hn; decide
    · simp only [named, Option.some.injEq] at hn; subst hn; decide

/-- `color("red", alpha = 1)`, `color([1, 0, 0, 1])` and `rotate(5, [1, 0, 0])` -/
example : fromArgs (F := Int) true (fun s => if s = txt "red" then some [255, 0, 0] else none) .color
    [pos (.str (txt "red")), named "alpha" (.int 1)] = .ok (.color (some [255, 0, 0, 255])) ∧
    fromArgs (F := Int) true (fun _ => none) .color [pos (ints [1, 0, 0, 1])] = .ok (.color (some [255, 0, 0, 255])) ∧
    fromArgs true (fun _ => none) .rotate [pos (.int 5), pos (ints [1, 0, 0])] = .ok (.rotate true [(1 : Int), 0, 0] 5) :=
  ⟨rfl, rfl, rfl⟩

/-- a negative count is refused -/
example : fromArgs (F := Int) true (fun _ => none) .linext [pos (.int 5), named "slices" (.int (-1))] = .fail := rfl

/-! ## C93: the names of functors -/

/-- C93: a text is the name of a functor if and only if it is in the documented list of its names; no text is the name of two. -/
theorem C93_names (s : Text) (f : Fn) : cmdFind s = some f ↔ s ∈ (fnNames f).map txt := by
  constructor
  · intro h
    unfold cmdFind at h
    have hmem : ∀ (t : List (Text × Fn)), t.lookup s = some f → (s, f) ∈ t := by
      intro t
      induction t with
      | nil => simp
      | cons p t ih =>
        obtain ⟨a, b⟩ := p
        rw [List.lookup_cons]
        intro h
        by_cases e : (s == a) = true
        · rw [e] at h
          simp only [Option.some.injEq] at h
          have := eq_of_beq e
          subst this
          subst h
          exact List.mem_cons_self
        · simp only [e] at h
          exact List.mem_cons_of_mem _ (ih h)
    have : ∀ p ∈ cmdTable, p.1 ∈ (fnNames p.2).map txt := by decide
    exact this _ (hmem _ h)
  · intro h
    have : ∀ t ∈ (fnNames f).map txt, cmdFind t = some f := by cases f <;> decide
    exact this s h

/-- C93: the functors that make a shape have no children, all others have. -/
theorem C93_children (f : Fn) : hasChild f = !isShape f := by cases f <;> rfl

example : cmdFind (txt "render") = some .union ∧ cmdFind (txt "minkowski") = none := by decide

end Hob3l.Args
