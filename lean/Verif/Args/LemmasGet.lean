import Verif.Args.Spec
import Mathlib.Data.List.Nodup
import Mathlib.Data.List.Basic

namespace Hob3l.Args

open Hob3l.Syn (Text txt Value Arg Item Stmt)

variable {F : Type} [Flt F]

theorem Out.bind_ok {α β : Type} {x : Out α} {f : α → Out β} {b : β} :
    (x >>= f) = .ok b ↔ ∃ a, x = .ok a ∧ f a = .ok b := by
  cases x <;> simp [Bind.bind, Out.bind]

theorem Out.orFail_ok {α : Type} {x : Option α} {a : α} : Out.orFail x = .ok a ↔ x = some a := by
  cases x <;> simp [Out.orFail]

theorem Out.orCrash_ok {α : Type} {x : Option α} {a : α} : Out.orCrash x = .ok a ↔ x = some a := by
  cases x <;> simp [Out.orCrash]

theorem Out.orFail_crash {α : Type} {x : Option α} : Out.orFail x ≠ .crash := by
  cases x <;> simp [Out.orFail]

theorem Out.bind_ne_crash {α β : Type} {x : Out α} {f : α → Out β} (h : x ≠ .crash) (h2 : ∀ a, x = .ok a → f a ≠ .crash) :
    (x >>= f) ≠ .crash := by
  cases x with
  | ok a => exact h2 a rfl
  | fail => exact fun e => by cases e
  | crash => exact absurd rfl h

/-- All values given for a parameter are converted in order. -/
def convAll (k : Kind) : Option (Val F) → List Value → Out (Option (Val F))
  | old, [] => .ok old
  | old, v :: l => (get k old v).bind fun x => convAll k (some x) l

/-- `Proper` in the loop. -/
def ProperFrom (pos all : List Text) : Bool → Nat → List Arg → Prop
  | _, _, [] => True
  | need, i, a :: l =>
    (match a.key with
      | none => i < pos.length ∧ need = false
      | some n => n ∈ all) ∧ ProperFrom pos all (need || a.key.isSome) (i + 1) l

theorem target_at_iff (pos names : List (Param F)) (nd : (namesOf (pos ++ names)).Nodup) (need : Bool) (i : Nat) (a : Arg)
    (k : Nat) :
    target pos names need i a = .at k ↔
      (match a.key with
        | none => i < pos.length ∧ need = false
        | some n => n ∈ namesOf (pos ++ names)) ∧
      k < (pos ++ names).length ∧ ∀ p, (pos ++ names)[k]? = some p → isFor (namesOf pos) p.name i a = true := by
  unfold target isFor
  cases hk : a.key with
  | none =>
    simp only [Bool.not_eq_true]
    constructor
    · intro h
      split at h
      · simp at h
      · rename_i hc
        simp only [Target.at.injEq] at h
        subst h
        push Not at hc
        have hc1 : i < pos.length := by omega
        have hn : need = false := by simpa using hc.2
        refine ⟨⟨hc1, hn⟩, ?_, ?_⟩
        · simp; omega
        · intro p hp
          rw [List.getElem?_append_left hc1] at hp
          simp [namesOf, hp]
    · rintro ⟨⟨h1, h2⟩, h3, h4⟩
      rw [if_neg (by simp [h2]; omega)]
      congr 1
      have := h4 _ (List.getElem?_eq_getElem h3)
      simp only [beq_iff_eq] at this
      have e1 : (namesOf (pos ++ names))[i]? = (namesOf (pos ++ names))[k]? := by
        have : (namesOf (pos ++ names))[i]? = (namesOf pos)[i]? := by
          unfold namesOf
          rw [List.map_append, List.getElem?_append_left (by simpa using h1)]
        rw [this, ‹(namesOf pos)[i]? = _›]
        unfold namesOf
        rw [List.getElem?_map, List.getElem?_eq_getElem h3]
        rfl
      have hi : i < (namesOf (pos ++ names)).length := by simp [namesOf]; omega
      exact (List.nodup_iff_getElem?_ne_getElem? |>.mp nd |> fun hh => by
        by_contra hne
        rcases Nat.lt_or_gt_of_ne hne with h | h
        · exact hh _ _ h (by simpa [namesOf] using h3) e1
        · exact hh _ _ h hi e1.symm)
  | some n =>
    simp only
    constructor
    · intro h
      split at h
      · rename_i j hj
        simp only [Target.at.injEq] at h
        subst h
        rw [List.findIdx?_eq_some_iff_getElem] at hj
        obtain ⟨hl, hp, _⟩ := hj
        simp only [beq_iff_eq] at hp
        refine ⟨?_, hl, ?_⟩
        · rw [← hp]; unfold namesOf; exact List.mem_map_of_mem (List.getElem_mem _)
        · intro p hp'
          rw [List.getElem?_eq_getElem hl] at hp'
          simp only [Option.some.injEq] at hp'
          subst hp'
          simp [hp]
      · simp at h
    · rintro ⟨h1, h2, h3⟩
      have := h3 _ (List.getElem?_eq_getElem h2)
      simp only [beq_iff_eq] at this
      have hf : List.findIdx? (fun p => p.name == n) (pos ++ names) = some k := by
        rw [List.findIdx?_eq_some_iff_getElem]
        refine ⟨h2, by simp [this], ?_⟩
        intro j hj
        simp only [beq_iff_eq]
        intro e
        have hh := List.nodup_iff_getElem?_ne_getElem?.mp nd j k hj (by simpa [namesOf] using h2)
        apply hh
        unfold namesOf
        rw [List.getElem?_map, List.getElem?_map, List.getElem?_eq_getElem h2, List.getElem?_eq_getElem (by omega)]
        simp [e, this]
      rw [hf]

theorem target_proper (pos names : List (Param F)) (nd : (namesOf (pos ++ names)).Nodup) (need : Bool) (i : Nat) (a : Arg)
    (h : match a.key with
        | none => i < pos.length ∧ need = false
        | some n => n ∈ namesOf (pos ++ names)) :
    ∃ k, target pos names need i a = .at k := by
  unfold target
  cases hk : a.key with
  | none =>
    simp only [hk] at h ⊢
    rw [if_neg (by simp [h.2]; omega)]
    exact ⟨i, rfl⟩
  | some n =>
    simp only [hk] at h ⊢
    cases hf : List.findIdx? (fun p => p.name == n) (pos ++ names) with
    | some j => exact ⟨j, rfl⟩
    | none =>
      exfalso
      rw [List.findIdx?_eq_none_iff] at hf
      unfold namesOf at h
      obtain ⟨p, hp, e⟩ := List.mem_map.mp h
      simpa [e] using hf p hp

/-- what the loop does to the parameters -/
def Stored (pos : List Text) (ps : List (Param F)) (i : Nat) (args : List Arg) (s s' : List (Slot F)) : Prop :=
  s'.length = s.length ∧ ∀ (k : Nat) (p : Param F) (o : Slot F), ps[k]? = some p → s[k]? = some o →
    ∃ o', s'[k]? = some o' ∧ convAll p.kind o.val (values pos p.name i args) = .ok o'.val ∧
      o'.have_ = (o.have_ || !(values pos p.name i args).isEmpty)

/-- other parameters are not meant -/
theorem isFor_unique (pos names : List (Param F)) (nd : (namesOf (pos ++ names)).Nodup) (need : Bool) (i : Nat) (a : Arg)
    (k j : Nat) (p : Param F) (h : target pos names need i a = .at k) (hj : (pos ++ names)[j]? = some p)
    (hf : isFor (namesOf pos) p.name i a = true) : j = k := by
  have h' := (target_at_iff pos names nd need i a k).mp h
  have : target pos names need i a = .at j := by
    rw [target_at_iff pos names nd]
    refine ⟨h'.1, (List.getElem?_eq_some_iff.mp hj).1, ?_⟩
    intro q hq
    rw [hj] at hq
    simp only [Option.some.injEq] at hq
    rw [← hq]
    exact hf
  rw [h] at this
  simpa using this.symm

theorem getLoop_iff (strict : Bool) (pos names : List (Param F)) (nd : (namesOf (pos ++ names)).Nodup)
    (args : List Arg) : ∀ (need : Bool) (i : Nat) (s s' : List (Slot F)), s.length = (pos ++ names).length →
    (getLoop strict pos names need i args s = .ok ⟨s', false⟩ ↔
      ProperFrom (namesOf pos) (namesOf (pos ++ names)) need i args ∧
      Stored (namesOf pos) (pos ++ names) i args s s') := by
  induction args with
  | nil =>
    intro need i s s' hs
    simp only [getLoop, Out.ok.injEq, Got.mk.injEq, and_true, ProperFrom, Stored, values, convAll, true_and]
    constructor
    · rintro rfl
      exact ⟨rfl, fun k p o _ h => ⟨o, h, rfl, by simp⟩⟩
    · rintro ⟨h1, h2⟩
      apply List.ext_getElem? 
      intro k
      by_cases hk : k < s.length
      · have hp : k < (pos ++ names).length := by omega
        obtain ⟨o', ho, h3, h4⟩ := h2 k _ _ (List.getElem?_eq_getElem hp) (List.getElem?_eq_getElem hk)
        rw [ho, List.getElem?_eq_getElem hk]
        cases o' ; cases hsk : s[k]
        simp_all
      · rw [List.getElem?_eq_none (by omega), List.getElem?_eq_none (by omega)]
  | cons a l ih =>
    intro need i s s' hs
    have step : ∀ k, target pos names need i a = .at k → ∀ s1, store (pos ++ names) s k a.value = .ok s1 →
        (Stored (namesOf pos) (pos ++ names) (i + 1) l s1 s' ↔ Stored (namesOf pos) (pos ++ names) i (a :: l) s s') := by
      intro k hk s1 hs1
      have hk' := (target_at_iff pos names nd need i a k).mp hk
      simp only [store, Out.bind_ok, Out.orCrash_ok] at hs1
      obtain ⟨p, hp, o, ho, x, hx, e⟩ := hs1
      simp only [Out.ok.injEq] at e
      subst e
      have hkl : k < s.length := (List.getElem?_eq_some_iff.mp ho).1
      unfold Stored
      rw [List.length_set]
      apply and_congr_right
      intro _
      constructor
      · intro H j q oj hq hoj
        by_cases hjk : j = k
        · subst hjk
          have e1 : q = p := by rw [hp] at hq; simpa using hq.symm
          have e2 : oj = o := by rw [ho] at hoj; simpa using hoj.symm
          subst e1 e2
          obtain ⟨o', h1, h2, h3⟩ := H j q ⟨some x, true⟩ hq (by rw [List.getElem?_set_self hkl])
          refine ⟨o', h1, ?_, ?_⟩
          · simp only [values, hk'.2.2 _ hq, if_true, List.cons_append, List.nil_append, convAll, hx, Out.bind]
            exact h2
          · simp [h3, values, hk'.2.2 _ hq]
        · have hne : isFor (namesOf pos) q.name i a = false := by
            by_contra hc
            exact hjk (isFor_unique pos names nd need i a k j q hk hq (by simpa using hc))
          obtain ⟨o', h1, h2, h3⟩ := H j q oj hq (by rw [List.getElem?_set_ne (by omega)]; exact hoj)
          refine ⟨o', h1, ?_, ?_⟩
          · simpa [values, hne] using h2
          · simpa [values, hne] using h3
      · intro H j q oj hq hoj
        by_cases hjk : j = k
        · subst hjk
          have e1 : q = p := by rw [hp] at hq; simpa using hq.symm
          rw [List.getElem?_set_self hkl] at hoj
          simp only [Option.some.injEq] at hoj
          subst e1 hoj
          obtain ⟨o', h1, h2, h3⟩ := H j q o hq ho
          refine ⟨o', h1, ?_, ?_⟩
          · simpa only [values, hk'.2.2 _ hq, if_true, List.cons_append, List.nil_append, convAll, hx, Out.bind] using h2
          · simp [h3, values, hk'.2.2 _ hq]
        · have hne : isFor (namesOf pos) q.name i a = false := by
            by_contra hc
            exact hjk (isFor_unique pos names nd need i a k j q hk hq (by simpa using hc))
          rw [List.getElem?_set_ne (by omega)] at hoj
          obtain ⟨o', h1, h2, h3⟩ := H j q oj hq hoj
          refine ⟨o', h1, ?_, ?_⟩
          · simpa [values, hne] using h2
          · simpa [values, hne] using h3
    constructor
    · intro h
      unfold getLoop at h
      split at h
      · simp at h
      · split at h <;> simp at h
      · rename_i k hk
        rw [Out.bind_ok] at h
        obtain ⟨s1, hs1, h2⟩ := h
        have hl : s1.length = s.length := by
          simp only [store, Out.bind_ok, Out.orCrash_ok] at hs1
          obtain ⟨_, _, _, _, _, _, e⟩ := hs1
          simp only [Out.ok.injEq] at e
          subst e
          simp
        rw [ih _ _ _ _ (by omega)] at h2
        refine ⟨⟨?_, h2.1⟩, (step k hk s1 hs1).mp h2.2⟩
        have := ((target_at_iff pos names nd need i a k).mp hk).1
        cases hkey : a.key <;> simp_all [namesOf]
    · rintro ⟨⟨h1, h2⟩, h3⟩
      obtain ⟨k, hk⟩ := target_proper pos names nd need i a (by cases hkey : a.key <;> simp_all [namesOf])
      have hk' := (target_at_iff pos names nd need i a k).mp hk
      have hkl : k < s.length := by omega
      have hst : ∃ s1, store (pos ++ names) s k a.value = .ok s1 := by
        obtain ⟨o', _, hc, _⟩ := h3.2 k _ _ (List.getElem?_eq_getElem hk'.2.1) (List.getElem?_eq_getElem hkl)
        simp only [values, hk'.2.2 _ (List.getElem?_eq_getElem hk'.2.1), if_true, List.cons_append, List.nil_append, convAll] at hc
        unfold store
        rw [List.getElem?_eq_getElem hk'.2.1, List.getElem?_eq_getElem hkl]
        cases hg : get ((pos ++ names)[k]).kind (s[k]).val a.value with
        | ok x => exact ⟨_, by simp only [Out.orCrash, Bind.bind, Out.bind, hg]; rfl⟩
        | fail => rw [hg] at hc; simp [Out.bind] at hc
        | crash => rw [hg] at hc; simp [Out.bind] at hc
      obtain ⟨s1, hs1⟩ := hst
      unfold getLoop
      rw [hk]
      simp only
      rw [Out.bind_ok]
      refine ⟨s1, hs1, ?_⟩
      have hl : s1.length = s.length := by
        simp only [store, Out.bind_ok, Out.orCrash_ok] at hs1
        obtain ⟨_, _, _, _, _, _, e⟩ := hs1
        simp only [Out.ok.injEq] at e
        subst e
        simp
      rw [ih _ _ _ _ (by omega)]
      exact ⟨h2, (step k hk s1 hs1).mpr h3⟩

end Hob3l.Args
