import Verif.Args.LemmasGet

namespace Hob3l.Args

open Hob3l.Syn (Text txt Value Arg Item Stmt)

variable {F : Type} [Flt F]

theorem properFrom_true (pos all : List Text) (args : List Arg) : ∀ i,
    ProperFrom pos all true i args ↔ ∀ a ∈ args, ∃ n, a.key = some n ∧ n ∈ all := by
  induction args with
  | nil => intro i; simp [ProperFrom]
  | cons a l ih =>
    intro i
    simp only [ProperFrom, Bool.true_or, ih, List.mem_cons, forall_eq_or_imp]
    apply and_congr_left
    intro _
    cases a.key <;> simp

theorem properFrom_false (pos all : List Text) (args : List Arg) : ∀ i,
    ProperFrom pos all false i args ↔
      (∀ (j : Nat) (a : Arg), args[j]? = some a → a.key = none → i + j < pos.length ∧ ∀ b ∈ args.take j, b.key = none) ∧
      ∀ a ∈ args, ∀ n : Text, a.key = some n → n ∈ all := by
  induction args with
  | nil => intro i; simp [ProperFrom]
  | cons a l ih =>
    intro i
    cases hk : a.key with
    | none =>
      simp only [ProperFrom, hk, Option.isSome_none, Bool.or_self, ih, and_true]
      constructor
      · rintro ⟨h0, h1, h2⟩
        refine ⟨?_, ?_⟩
        · intro j b hb hn
          cases j with
          | zero => simpa using h0
          | succ j =>
            have := h1 j b (by simpa using hb) hn
            refine ⟨by omega, ?_⟩
            intro c hc
            rw [List.take_succ_cons, List.mem_cons] at hc
            rcases hc with rfl | hc
            · exact hk
            · exact this.2 c hc
        · intro b hb n hn
          rcases List.mem_cons.mp hb with rfl | hb
          · simp [hk] at hn
          · exact h2 b hb n hn
      · rintro ⟨h1, h2⟩
        refine ⟨by simpa using (h1 0 a (by simp) hk).1, ?_, fun b hb => h2 b (List.mem_cons_of_mem _ hb)⟩
        intro j b hb hn
        have := h1 (j + 1) b (by simpa using hb) hn
        exact ⟨by omega, fun c hc => this.2 c (by rw [List.take_succ_cons]; exact List.mem_cons_of_mem _ hc)⟩
    | some m =>
      simp only [ProperFrom, hk, Option.isSome_some, Bool.or_true, properFrom_true]
      constructor
      · rintro ⟨h0, h1⟩
        refine ⟨?_, ?_⟩
        · intro j b hb hn
          exfalso
          have hm : b ∈ a :: l := List.mem_of_getElem? hb
          rcases List.mem_cons.mp hm with rfl | hm
          · simp [hk] at hn
          · obtain ⟨n, hn', _⟩ := h1 b hm
            simp [hn] at hn'
        · intro b hb n hn
          rcases List.mem_cons.mp hb with rfl | hb
          · rw [hk] at hn; simp only [Option.some.injEq] at hn; exact hn ▸ h0
          · obtain ⟨n', hn', hm⟩ := h1 b hb
            rw [hn] at hn'; simp only [Option.some.injEq] at hn'; exact hn' ▸ hm
      · rintro ⟨h1, h2⟩
        refine ⟨h2 a List.mem_cons_self m hk, ?_⟩
        intro b hb
        cases hbk : b.key with
        | some n => exact ⟨n, rfl, h2 b (List.mem_cons_of_mem _ hb) n hbk⟩
        | none =>
          exfalso
          obtain ⟨j, hj, e⟩ := List.mem_iff_getElem.mp hb
          have := (h1 (j + 1) b (by simp [List.getElem?_eq_getElem hj, e]) hbk).2 a (by simp)
          simp [hk] at this

theorem properFrom_iff (pos all : List Text) (args : List Arg) : ProperFrom pos all false 0 args ↔ Proper pos all args := by
  rw [properFrom_false]
  constructor
  · rintro ⟨h1, h2⟩; exact ⟨by simpa using h1, h2⟩
  · rintro ⟨h1, h2⟩; exact ⟨by simpa using h1, h2⟩

theorem start_getElem? (ps : List (Param F)) (k : Nat) : (start ps)[k]? = ps[k]?.map fun p => ⟨p.init, false⟩ := by
  simp [start]

/-- what is stored by `get_arg` -/
def StoredArgs (pos : List Text) (ps : List (Param F)) (args : List Arg) (s : List (Slot F)) : Prop :=
  s.length = ps.length ∧ ∀ (k : Nat) (p : Param F), ps[k]? = some p →
    ∃ o, s[k]? = some o ∧ convAll p.kind p.init (values pos p.name 0 args) = .ok o.val ∧
      o.have_ = !(values pos p.name 0 args).isEmpty

theorem stored_start (pos : List Text) (ps : List (Param F)) (args : List Arg) (s : List (Slot F)) :
    Stored pos ps 0 args (start ps) s ↔ StoredArgs pos ps args s := by
  unfold Stored StoredArgs
  have : (start ps).length = ps.length := by simp [start]
  rw [this]
  apply and_congr_right
  intro _
  constructor
  · intro H k p hp
    obtain ⟨o', h1, h2, h3⟩ := H k p ⟨p.init, false⟩ hp (by rw [start_getElem?, hp]; rfl)
    exact ⟨o', h1, h2, by simpa using h3⟩
  · intro H k p o hp ho
    rw [start_getElem?, hp] at ho
    simp only [Option.map_some, Option.some.injEq] at ho
    subst ho
    obtain ⟨o', h1, h2, h3⟩ := H k p hp
    exact ⟨o', h1, h2, by simpa using h3⟩

theorem missing_iff (ps : List (Param F)) (s : List (Slot F)) (h : s.length = ps.length) :
    missing ps s = false ↔ ∀ (k : Nat) (p : Param F) (o : Slot F), ps[k]? = some p → s[k]? = some o → p.mandatory = true →
      o.have_ = true := by
  unfold missing
  rw [List.any_eq_false]
  constructor
  · intro H k p o hp ho hm
    have : (p, o) ∈ ps.zip s := by
      apply List.mem_of_getElem? (i := k)
      rw [List.getElem?_zip_eq_some]
      exact ⟨hp, ho⟩
    have := H _ this
    simpa [hm] using this
  · intro H x hx
    obtain ⟨k, hk, e⟩ := List.mem_iff_getElem.mp hx
    have : (ps.zip s)[k]? = some x := by rw [List.getElem?_eq_getElem hk, e]
    obtain ⟨a, b⟩ := x
    rw [List.getElem?_zip_eq_some] at this
    have := H k a b this.1 this.2
    simp
    exact this

theorem getArg_iff (strict : Bool) (pos names : List (Param F)) (nd : (namesOf (pos ++ names)).Nodup) (args : List Arg)
    (s : List (Slot F)) :
    getArg strict pos names args = .ok ⟨s, false⟩ ↔
      Proper (namesOf pos) (namesOf (pos ++ names)) args ∧ StoredArgs (namesOf pos) (pos ++ names) args s ∧
      ∀ p ∈ pos ++ names, p.mandatory = true → values (namesOf pos) p.name 0 args ≠ [] := by
  have key := getLoop_iff strict pos names nd args false 0 (start (pos ++ names)) 
  unfold getArg
  rw [Out.bind_ok]
  constructor
  · rintro ⟨⟨s1, e⟩, h1, h2⟩
    cases e with
    | true => simp at h2
    | false =>
      simp only [Bool.false_eq_true, if_false] at h2
      split at h2
      · simp at h2
      · rename_i hm
        simp only [Out.ok.injEq, Got.mk.injEq, and_true] at h2
        subst h2
        rw [key _ (by simp [start]), properFrom_iff, stored_start] at h1
        refine ⟨h1.1, h1.2, ?_⟩
        intro p hp hpm
        obtain ⟨k, hk, e⟩ := List.mem_iff_getElem.mp hp
        have hk' : (pos ++ names)[k]? = some p := by rw [List.getElem?_eq_getElem hk, e]
        obtain ⟨o, ho, _, hh⟩ := h1.2.2 k p hk'
        have := (missing_iff _ _ h1.2.1).mp (by simpa using hm) k p o hk' ho hpm
        rw [hh] at this
        intro hc
        simp [hc] at this
  · rintro ⟨h1, h2, h3⟩
    refine ⟨⟨s, false⟩, ?_, ?_⟩
    · rw [key _ (by simp [start]), properFrom_iff, stored_start]
      exact ⟨h1, h2⟩
    · simp only [Bool.false_eq_true, if_false]
      rw [if_neg]
      rw [Bool.not_eq_true, missing_iff _ _ h2.1]
      intro k p o hp ho hm
      obtain ⟨o', ho', _, hh⟩ := h2.2 k p hp
      rw [ho] at ho'
      simp only [Option.some.injEq] at ho'
      subst ho'
      have := h3 p (List.mem_of_getElem? hp) hm
      rw [hh]
      cases hv : values (namesOf pos) p.name 0 args with
      | nil => exact absurd hv this
      | cons => simp

/-- strict: never early -/
theorem getLoop_strict (pos names : List (Param F)) (args : List Arg) : ∀ (need : Bool) (i : Nat) (s : List (Slot F)) (g : Got F),
    getLoop true pos names need i args s = .ok g → g.early = false := by
  induction args with
  | nil => intro need i s g h; simp only [getLoop, Out.ok.injEq] at h; subst h; rfl
  | cons a l ih =>
    intro need i s g h
    unfold getLoop at h
    split at h
    · simp at h
    · simp at h
    · rw [Out.bind_ok] at h
      obtain ⟨s1, _, h2⟩ := h
      exact ih _ _ _ _ h2

/-- proper arguments: never early -/
theorem getLoop_proper (strict : Bool) (pos names : List (Param F)) (nd : (namesOf (pos ++ names)).Nodup) (args : List Arg) :
    ∀ (need : Bool) (i : Nat) (s : List (Slot F)) (g : Got F),
    (∀ a ∈ args, ∀ n : Text, a.key = some n → n ∈ namesOf (pos ++ names)) →
    getLoop strict pos names need i args s = .ok g → g.early = false := by
  induction args with
  | nil => intro need i s g _ h; simp only [getLoop, Out.ok.injEq] at h; subst h; rfl
  | cons a l ih =>
    intro need i s g hn h
    unfold getLoop at h
    split at h
    · simp at h
    · rename_i hu
      exfalso
      cases hk : a.key with
      | none => unfold target at hu; simp only [hk] at hu; split at hu <;> simp at hu
      | some n =>
        have hm := hn a List.mem_cons_self n hk
        obtain ⟨k, hk'⟩ := target_proper pos names nd need i a (by rw [hk]; exact hm)
        rw [hu] at hk'
        simp at hk'
    · rw [Out.bind_ok] at h
      obtain ⟨s1, _, h2⟩ := h
      exact ih _ _ _ _ (fun b hb => hn b (List.mem_cons_of_mem _ hb)) h2

theorem getArg_early (strict : Bool) (pos names : List (Param F)) (args : List Arg) (g : Got F)
    (h : getArg strict pos names args = .ok g) : getLoop strict pos names false 0 args (start (pos ++ names)) = .ok g := by
  unfold getArg at h
  rw [Out.bind_ok] at h
  obtain ⟨g', h1, h2⟩ := h
  have : g' = g := by
    split at h2
    · simpa using h2
    · split at h2
      · simp at h2
      · simpa using h2
  exact this ▸ h1

/-- an unknown name ends the processing -/
theorem getLoop_unknown (pos names : List (Param F)) (l rest : List Arg) (a : Arg) (n : Text) (hk : a.key = some n)
    (hn : n ∉ namesOf (pos ++ names)) : ∀ (strict need : Bool) (i : Nat) (s s' : List (Slot F)),
    getLoop strict pos names need i l s = .ok ⟨s', false⟩ →
    getLoop strict pos names need i (l ++ a :: rest) s = if strict then .fail else .ok ⟨s', true⟩ := by
  induction l with
  | nil =>
    intro strict need i s s' h
    simp only [getLoop, Out.ok.injEq, Got.mk.injEq, and_true] at h
    subst h
    have : target pos names need i a = .unknown := by
      unfold target
      simp only [hk]
      have : List.findIdx? (fun p => p.name == n) (pos ++ names) = none := by
        rw [List.findIdx?_eq_none_iff]
        intro p hp
        by_contra hc
        simp only [Bool.not_eq_false, beq_iff_eq] at hc
        exact hn (by unfold namesOf; rw [← hc]; exact List.mem_map_of_mem hp)
      rw [this]
    simp [getLoop, this]
  | cons b l ih =>
    intro strict need i s s' h
    unfold getLoop at h
    rw [List.cons_append, getLoop]
    split at h
    · simp at h
    · split at h <;> simp at h
    · rename_i k hk'
      rw [Out.bind_ok] at h
      obtain ⟨s1, h1, h2⟩ := h
      rw [h1]
      exact ih _ _ _ _ _ h2

end Hob3l.Args
