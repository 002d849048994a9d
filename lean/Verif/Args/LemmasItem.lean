import Verif.Args.LemmasArg
import Mathlib.Tactic.SplitIfs

namespace Hob3l.Args

open Hob3l.Syn (Text txt Value Arg Item Stmt)

variable {F : Type} [Flt F]

/-- names do not depend on the numbers -/
instance unitFlt : Flt Unit := ⟨fun _ => (), fun _ => (), (), id, fun _ => true, fun _ => 0, fun _ _ => true⟩

theorem names_unit (f : Fn) : namesOf (params f : List (Param F)) = namesOf (params f : List (Param Unit)) := by
  cases f <;> rfl

theorem params_nodup (f : Fn) : (namesOf (posParams f ++ nameParams f : List (Param F))).Nodup := by
  have := names_unit (F := F) f
  unfold params at this
  rw [this]
  cases f <;> decide

theorem getArg_fn (strict : Bool) (f : Fn) (args : List Arg) (s : List (Slot F)) :
    getArg strict (posParams f) (nameParams f) args = .ok ⟨s, false⟩ ↔
      ProperFor F f args ∧ StoredArgs (namesOf (posParams f : List (Param F))) (params f) args s ∧
      ∀ p ∈ (params f : List (Param F)), p.mandatory = true → valuesFor F f p.name args ≠ [] :=
  getArg_iff strict (posParams f) (nameParams f) (params_nodup f) args s

theorem getArg_fn_early (strict : Bool) (f : Fn) (args : List Arg) (g : Got F) (hp : ProperFor F f args)
    (h : getArg strict (posParams f) (nameParams f) args = .ok g) : g.early = false :=
  getLoop_proper strict (posParams f) (nameParams f) (params_nodup f) args _ _ _ _ hp.known (getArg_early _ _ _ _ _ h)

theorem convAll_float (l : List Value) : ∀ (old r : Option (Val F)), convAll .float old l = .ok r →
    l = [] ∧ r = old ∨ ∃ x : F, l.getLast?.bind tryFloat = some x ∧ r = some (.num x) := by
  induction l with
  | nil => intro old r h; simp only [convAll, Out.ok.injEq] at h; exact .inl ⟨rfl, h.symm⟩
  | cons v l ih =>
    intro old r h
    right
    simp only [convAll] at h
    cases hg : get .float old v with
    | ok x =>
      rw [hg] at h
      simp only [Out.bind] at h
      simp only [get, Out.orFail_ok, Option.map_eq_some_iff] at hg
      obtain ⟨y, hy, rfl⟩ := hg
      rcases ih _ _ h with ⟨rfl, rfl⟩ | ⟨z, hz, rfl⟩
      · exact ⟨y, by simpa using hy, rfl⟩
      · refine ⟨z, ?_, rfl⟩
        cases l with
        | nil => simp at hz
        | cons b l => simpa [List.getLast?_cons_cons] using hz
    | fail => rw [hg] at h; simp [Out.bind] at h
    | crash => rw [hg] at h; simp [Out.bind] at h

theorem float_slot {pos : List Text} {ps : List (Param F)} {args : List Arg} {s : List (Slot F)}
    (h : StoredArgs pos ps args s) {k : Nat} {p : Param F} (hp : ps[k]? = some p) (hk : p.kind = .float) :
    (⟨s, false⟩ : Got F).flag ps k = some ((values pos p.name 0 args).getLast?.bind (tryFloat (F := F))).isSome ∧
    (⟨s, false⟩ : Got F).val k = (((values pos p.name 0 args).getLast?.bind tryFloat).map Val.num).or p.init := by
  obtain ⟨o, h1, h2, h3⟩ := h.2 k p hp
  rw [hk] at h2
  simp only [Got.flag, Got.val, h1, Bool.false_eq_true, if_false, Option.bind_eq_bind, Option.bind_some]
  rcases convAll_float _ _ _ h2 with ⟨e, e2⟩ | ⟨x, hx, e2⟩
  · rw [e, h3, e]
    simp [e2]
  · rw [hx, h3, e2]
    constructor
    · cases hv : values pos p.name 0 args with
      | nil => rw [hv] at hx; simp at hx
      | cons => simp
    · simp

/-- the converse: conversions -/
theorem convAll_float_ok (l : List Value) : ∀ (old : Option (Val F)), (∀ v ∈ l, (tryFloat v : Option F).isSome) →
    ∃ r, convAll .float old l = .ok r := by
  induction l with
  | nil => intro old _; exact ⟨old, rfl⟩
  | cons v l ih =>
    intro old h
    obtain ⟨x, hx⟩ := Option.isSome_iff_exists.mp (h v List.mem_cons_self)
    obtain ⟨r, hr⟩ := ih (some (.num x)) (fun w hw => h w (List.mem_cons_of_mem _ hw))
    refine ⟨r, ?_⟩
    simp only [convAll, get, hx, Option.map_some, Out.orFail, Out.bind]
    exact hr

/-- whether a value can be converted, for the kinds that are independent of the value stored before -/
def convertible (F : Type) [Flt F] (k : Kind) (v : Value) : Prop := ∃ x, (get k (none : Option (Val F)) v) = .ok x

theorem get_indep (k : Kind) (hk : k ≠ .vec23 ∧ k ≠ .vec23Float) (old : Option (Val F)) (v : Value) :
    get k old v = get k none v := by
  cases k <;> simp_all [get]

theorem convAll_ok (k : Kind) (hk : k ≠ .vec23 ∧ k ≠ .vec23Float) (l : List Value) : ∀ (old : Option (Val F)),
    ((∃ r, convAll k old l = .ok r) ↔ ∀ v ∈ l, convertible F k v) := by
  induction l with
  | nil => intro old; simp [convAll]
  | cons v l ih =>
    intro old
    simp only [convAll, get_indep k hk old v, List.mem_cons, forall_eq_or_imp]
    unfold convertible
    cases hg : get k (none : Option (Val F)) v with
    | ok x => simpa [Out.bind, convertible] using ih (some x)
    | fail => simp [Out.bind]
    | crash => simp [Out.bind]

theorem convAll_last (k : Kind) (hk : k ≠ .vec23 ∧ k ≠ .vec23Float) (l : List Value) (v : Value) :
    ∀ (old r : Option (Val F)), convAll k old (l ++ [v]) = .ok r → ∃ x, get k none v = .ok x ∧ r = some x := by
  induction l with
  | nil =>
    intro old r h
    simp only [List.nil_append, convAll, get_indep k hk old v] at h
    cases hg : get k (none : Option (Val F)) v with
    | ok x => rw [hg] at h; simp only [Out.bind, Out.ok.injEq] at h; exact ⟨x, rfl, h.symm⟩
    | fail => rw [hg] at h; simp [Out.bind] at h
    | crash => rw [hg] at h; simp [Out.bind] at h
  | cons w l ih =>
    intro old r h
    simp only [List.cons_append, convAll] at h
    cases hg : get k old w with
    | ok x => rw [hg] at h; exact ih _ _ h
    | fail => rw [hg] at h; simp [Out.bind] at h
    | crash => rw [hg] at h; simp [Out.bind] at h

/-- the values of the parameters can be chosen -/
theorem storedArgs_exists (pos : List Text) (args : List Arg) (ps : List (Param F))
    (h : ∀ p ∈ ps, ∃ r, convAll p.kind p.init (values pos p.name 0 args) = .ok r) : ∃ s, StoredArgs pos ps args s := by
  induction ps with
  | nil => exact ⟨[], rfl, by simp⟩
  | cons p ps ih =>
    obtain ⟨s, hs1, hs2⟩ := ih (fun q hq => h q (List.mem_cons_of_mem _ hq))
    obtain ⟨r, hr⟩ := h p List.mem_cons_self
    refine ⟨⟨r, !(values pos p.name 0 args).isEmpty⟩ :: s, by simp [hs1], ?_⟩
    intro k q hq
    cases k with
    | zero =>
      simp only [List.getElem?_cons_zero, Option.some.injEq] at hq ⊢
      subst hq
      exact ⟨_, rfl, hr, rfl⟩
    | succ k => simpa using hs2 k q (by simpa using hq)

/-- The source of a number. -/
theorem num_eq {pos : List Text} {ps : List (Param F)} {args : List Arg} {s : List (Slot F)}
    (h : StoredArgs pos ps args s) {k : Nat} {p : Param F} (hp : ps[k]? = some p) (hk : p.kind = .float)
    (hi : p.init = none) :
    (⟨s, false⟩ : Got F).num k = .orCrash ((values pos p.name 0 args).getLast?.bind tryFloat) := by
  simp only [Got.num, (float_slot h hp hk).2, hi]
  cases (values pos p.name 0 args).getLast?.bind (tryFloat (F := F)) <;> simp [Out.orCrash]

theorem num_default {pos : List Text} {ps : List (Param F)} {args : List Arg} {s : List (Slot F)}
    (h : StoredArgs pos ps args s) {k : Nat} {p : Param F} (hp : ps[k]? = some p) (hk : p.kind = .float) (x : F)
    (hi : p.init = some (.num x)) :
    (⟨s, false⟩ : Got F).num k = .ok (((values pos p.name 0 args).getLast?.bind tryFloat).getD x) := by
  simp only [Got.num, (float_slot h hp hk).2, hi]
  cases (values pos p.name 0 args).getLast?.bind (tryFloat (F := F)) <;> simp

theorem have_eq {pos : List Text} {ps : List (Param F)} {args : List Arg} {s : List (Slot F)}
    (h : StoredArgs pos ps args s) {k : Nat} {p : Param F} (hp : ps[k]? = some p) (hk : p.kind = .float) :
    (⟨s, false⟩ : Got F).have_ ps k = .ok ((values pos p.name 0 args).getLast?.bind (tryFloat (F := F))).isSome := by
  simp [Got.have_, (float_slot h hp hk).1, Out.orCrash]

/-- `radii` as a function of what is given -/
theorem radii_eq {args : List Arg} {s : List (Slot F)}
    (h : StoredArgs (namesOf (posParams .cylinder : List (Param F))) (params .cylinder) args s) (a b : F) :
    radii (⟨s, false⟩ : Got F) = .ok (a, b) ↔
      OneOf [numFor .cylinder "r" args, numFor .cylinder "r1" args, (numFor .cylinder "d" args).map Flt.half,
        (numFor .cylinder "d1" args).map Flt.half] (con 1) a ∧
      OneOf [numFor .cylinder "r" args, numFor .cylinder "r2" args, (numFor .cylinder "d" args).map Flt.half,
        (numFor .cylinder "d2" args).map Flt.half] (con 1) b := by
  have hr1 := have_eq h (k := 1) (p := opt "r1" .float (.num (con 1))) rfl rfl
  have hr2 := have_eq h (k := 2) (p := opt "r2" .float (.num (con 1))) rfl rfl
  have hd := have_eq h (k := 4) (p := optU "d" .float (some false)) rfl rfl
  have hd1 := have_eq h (k := 5) (p := optU "d1" .float (some false)) rfl rfl
  have hd2 := have_eq h (k := 6) (p := optU "d2" .float (some false)) rfl rfl
  have hr := have_eq h (k := 7) (p := optU "r" .float (some false)) rfl rfl
  have n1 := num_default h (k := 1) (p := opt "r1" .float (.num (con 1))) rfl rfl _ rfl
  have n2 := num_default h (k := 2) (p := opt "r2" .float (.num (con 1))) rfl rfl _ rfl
  have n4 := num_eq h (k := 4) (p := optU "d" .float (some false)) rfl rfl rfl
  have n5 := num_eq h (k := 5) (p := optU "d1" .float (some false)) rfl rfl rfl
  have n6 := num_eq h (k := 6) (p := optU "d2" .float (some false)) rfl rfl rfl
  have n7 := num_eq h (k := 7) (p := optU "r" .float (some false)) rfl rfl rfl
  unfold radii
  simp only [opt, optU] at *
  simp only [numFor, lastFor] 
  simp only [hr1, hr2, hd, hd1, hd2, hr]
  generalize (values (namesOf (posParams .cylinder : List (Param F))) (txt "r1") 0 args).getLast?.bind (tryFloat (F := F)) = o1 at *
  generalize (values (namesOf (posParams .cylinder : List (Param F))) (txt "r2") 0 args).getLast?.bind (tryFloat (F := F)) = o2 at *
  generalize (values (namesOf (posParams .cylinder : List (Param F))) (txt "d") 0 args).getLast?.bind (tryFloat (F := F)) = o4 at *
  generalize (values (namesOf (posParams .cylinder : List (Param F))) (txt "d1") 0 args).getLast?.bind (tryFloat (F := F)) = o5 at *
  generalize (values (namesOf (posParams .cylinder : List (Param F))) (txt "d2") 0 args).getLast?.bind (tryFloat (F := F)) = o6 at *
  generalize (values (namesOf (posParams .cylinder : List (Param F))) (txt "r") 0 args).getLast?.bind (tryFloat (F := F)) = o7 at *
  cases o1 <;> cases o2 <;> cases o4 <;> cases o5 <;> cases o6 <;> cases o7 <;>
    simp [Bind.bind, Out.bind, OneOf, n1, n2, n4, n5, n6, n7, Out.orCrash, @eq_comm F (con 1)]

theorem radius_eq (f : Fn) (hf : f = .sphere ∨ f = .circle) {args : List Arg} {s : List (Slot F)}
    (h : StoredArgs (namesOf (posParams f : List (Param F))) (params f) args s) (a : F) :
    radius f (⟨s, false⟩ : Got F) = .ok a ↔
      OneOf [numFor f "r" args, (numFor f "d" args).map Flt.half] (con 1) a := by
  have hp0 : (params f : List (Param F))[0]? = some (opt "r" .float (.num (con 1))) := by rcases hf with rfl | rfl <;> rfl
  have hp1 : (params f : List (Param F))[1]? = some (optU "d" .float (some false)) := by rcases hf with rfl | rfl <;> rfl
  have hr := have_eq h hp0 rfl
  have hd := have_eq h hp1 rfl
  have n0 := num_default h hp0 rfl _ rfl
  have n1 := num_eq h hp1 rfl rfl
  unfold radius
  simp only [opt, optU] at *
  simp only [numFor, lastFor, hr, hd]
  generalize (values (namesOf (posParams f : List (Param F))) (txt "r") 0 args).getLast?.bind (tryFloat (F := F)) = o1 at *
  generalize (values (namesOf (posParams f : List (Param F))) (txt "d") 0 args).getLast?.bind (tryFloat (F := F)) = o2 at *
  cases o1 <;> cases o2 <;> simp [Bind.bind, Out.bind, OneOf, n0, n1, Out.orCrash, @eq_comm F (con 1)]

end Hob3l.Args
