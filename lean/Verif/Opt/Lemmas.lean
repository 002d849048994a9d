import Verif.Opt.Spec
import Mathlib.Data.List.Lex
import Mathlib.Data.List.Basic
import Mathlib.Order.Lattice
import Mathlib.Tactic.SplitIfs

namespace Hob3l.Opt

/-! ### comparison of strings -/

theorem strncmp_spec : ∀ (n : Nat) (s t : Str), n ≤ s.length →
    (strncmp n s t = .lt → s.take n < t) ∧ (strncmp n s t = .gt → t < s.take n) ∧
    (strncmp n s t = .eq → ∃ r, t = s.take n ++ r) := by
  intro n
  induction n with
  | zero =>
    intro s t _
    exact ⟨fun h => absurd h (by simp [strncmp]), fun h => absurd h (by simp [strncmp]), fun _ => ⟨t, by simp⟩⟩
  | succ n ih =>
    intro s t hn
    match s, t with
    | [], _ => simp at hn
    | a :: s, [] =>
      exact ⟨fun h => absurd h (by simp [strncmp]), fun _ => by simp, fun h => absurd h (by simp [strncmp])⟩
    | a :: s, b :: t =>
      have hn' : n ≤ s.length := by simpa using hn
      obtain ⟨h1, h2, h3⟩ := ih s t hn'
      simp only [strncmp, List.take_succ_cons]
      by_cases hab : a < b
      · rw [if_pos hab]
        exact ⟨fun _ => List.cons_lt_cons_iff.2 (Or.inl hab), fun h => absurd h (by simp), fun h => absurd h (by simp)⟩
      · rw [if_neg hab]
        by_cases hba : b < a
        · rw [if_pos hba]
          exact ⟨fun h => absurd h (by simp), fun _ => List.cons_lt_cons_iff.2 (Or.inl hba), fun h => absurd h (by simp)⟩
        · rw [if_neg hba]
          have e : a = b := by omega
          subst e
          refine ⟨fun h => List.cons_lt_cons_iff.2 (Or.inr ⟨rfl, h1 h⟩),
            fun h => List.cons_lt_cons_iff.2 (Or.inr ⟨rfl, h2 h⟩), fun h => ?_⟩
          obtain ⟨r, hr⟩ := h3 h
          exact ⟨r, by rw [hr, List.cons_append]⟩

theorem charAt_append (s r : Str) : charAt (s ++ r) s.length = some (match r with | [] => 0 | c :: _ => c) := by
  induction s with
  | nil => cases r <;> rfl
  | cons a s ih => simpa [charAt] using ih

theorem lt_append (s : Str) (c : Nat) (r : Str) : s < s ++ c :: r := by
  induction s with
  | nil => simp
  | cons a s ih => rw [List.cons_append]; exact List.cons_lt_cons_iff.2 (Or.inr ⟨rfl, ih⟩)

/-- the comparison of the part of the argument with a name -/
theorem optCmp_spec (s : Str) (n : Nat) (t : Str) (hn : n ≤ s.length) (ht : 0 ∉ t) :
    (optCmp s n t = some .lt ∧ s.take n < t) ∨ (optCmp s n t = some .gt ∧ t < s.take n) ∨
    (optCmp s n t = some .eq ∧ t = s.take n) := by
  obtain ⟨h1, h2, h3⟩ := strncmp_spec n s t hn
  unfold optCmp
  rcases h : strncmp n s t with _ | _ | _
  · exact Or.inl ⟨rfl, h1 h⟩
  · obtain ⟨r, hr⟩ := h3 h
    have hl : (s.take n).length = n := by simp [hn]
    have hc := charAt_append (s.take n) r
    rw [hl, ← hr] at hc
    dsimp only
    rw [hc]
    match r, hr with
    | [], hr => exact Or.inr (Or.inr ⟨by simp, by simpa using hr⟩)
    | c :: r, hr =>
      have hc0 : c ≠ 0 := by
        rintro rfl
        exact ht (by rw [hr]; simp)
      left
      refine ⟨by simp [hc0], ?_⟩
      conv => rhs; rw [hr]
      exact lt_append _ _ _
  · exact Or.inr (Or.inl ⟨rfl, h2 h⟩)

/-! ### binary search -/

variable {D : Type}

theorem bsearch_spec (s : Str) (n : Nat) (hn : n ≤ s.length) (t : List (Entry D)) (hz : ∀ e ∈ t, 0 ∉ e.name)
    (hs : t.Pairwise (fun a b => a.name < b.name)) :
    ∀ (k l u : Nat), u - l ≤ k → u ≤ t.length →
      (∀ i (h : i < t.length), i < l → t[i].name < s.take n) →
      (∀ i (h : i < t.length), u ≤ i → s.take n < t[i].name) →
      (∃ e ∈ t, e.name = s.take n ∧ bsearch s n t l u = some (some e)) ∨
      ((∀ e ∈ t, e.name ≠ s.take n) ∧ bsearch s n t l u = some none) := by
  intro k
  induction k with
  | zero =>
    intro l u hk hu hl hr
    right
    refine ⟨?_, ?_⟩
    · intro e he hname
      obtain ⟨i, hi, rfl⟩ := List.mem_iff_getElem.1 he
      by_cases h : i < l
      · exact absurd hname (ne_of_lt (hl i hi h))
      · exact absurd hname.symm (ne_of_lt (hr i hi (by omega)))
    · rw [bsearch, if_neg (by omega)]
  | succ k ih =>
    intro l u hk hu hl hr
    by_cases hlu : l < u
    swap
    · exact ih l u (by omega) hu hl hr
    have hm : (l + u) / 2 < t.length := by omega
    rw [bsearch, if_pos hlu, List.getElem?_eq_getElem hm]
    dsimp only
    have hpw := List.pairwise_iff_getElem.1 hs
    rcases optCmp_spec s n t[(l + u) / 2].name hn (hz _ (List.getElem_mem hm)) with ⟨h1, h2⟩ | ⟨h1, h2⟩ | ⟨h1, h2⟩
    · rw [h1]; dsimp only
      refine ih l _ (by omega) (by omega) hl ?_
      intro i hi hle
      by_cases he : i = (l + u) / 2
      · subst he; exact h2
      · exact lt_trans h2 (hpw _ _ hm hi (by omega))
    · rw [h1]; dsimp only
      refine ih _ u (by omega) hu ?_ hr
      intro i hi hlt
      by_cases he : i = (l + u) / 2
      · subst he; exact h2
      · exact lt_trans (hpw _ _ hi hm (by omega)) h2
    · rw [h1]; dsimp only
      exact Or.inl ⟨_, List.getElem_mem hm, h2, rfl⟩

/-! ### the sorted table -/

theorem strLe_iff : ∀ (a b : Str), strLe a b = true ↔ a ≤ b
  | [], b => by
    refine ⟨fun _ => ?_, fun _ => rfl⟩
    cases b with
    | nil => exact le_rfl
    | cons c b => exact le_of_lt (by simp)
  | a :: s, [] => by simp [strLe]
  | a :: s, b :: t => by
    have ih := strLe_iff s t
    simp only [strLe]
    by_cases hab : a < b
    · rw [if_pos hab]
      exact ⟨fun _ => le_of_lt (List.cons_lt_cons_iff.2 (Or.inl hab)), fun _ => rfl⟩
    · rw [if_neg hab]
      by_cases hba : b < a
      · rw [if_pos hba]
        refine ⟨fun h => absurd h (by simp), fun h => ?_⟩
        exact absurd (lt_of_lt_of_le (List.cons_lt_cons_iff.2 (Or.inl hba)) h) (lt_irrefl _)
      · rw [if_neg hba, ih]
        have e : a = b := by omega
        subst e
        constructor
        · intro h
          rcases lt_or_eq_of_le h with h | h
          · exact le_of_lt (List.cons_lt_cons_iff.2 (Or.inr ⟨rfl, h⟩))
          · rw [h]
        · intro h
          by_contra hc
          exact absurd (lt_of_lt_of_le (List.cons_lt_cons_iff.2 (Or.inr ⟨rfl, not_le.1 hc⟩)) h) (lt_irrefl _)

theorem insertEntry_perm (e : Entry D) (l : List (Entry D)) : (insertEntry e l).Perm (e :: l) := by
  induction l with
  | nil => exact List.Perm.refl _
  | cons f l ih =>
    unfold insertEntry
    split_ifs
    · exact List.Perm.refl _
    · exact (List.Perm.cons f ih).trans (List.Perm.swap e f l)

theorem sortEntries_perm (l : List (Entry D)) : (sortEntries l).Perm l := by
  induction l with
  | nil => exact List.Perm.refl _
  | cons e l ih => exact (insertEntry_perm e _).trans (List.Perm.cons e ih)

theorem insertEntry_sorted (e : Entry D) (l : List (Entry D)) (h : l.Pairwise (fun a b => a.name ≤ b.name)) :
    (insertEntry e l).Pairwise (fun a b => a.name ≤ b.name) := by
  induction l with
  | nil => simp [insertEntry]
  | cons f l ih =>
    rw [List.pairwise_cons] at h
    unfold insertEntry
    split_ifs with hc
    · have hef := (strLe_iff _ _).1 hc
      rw [List.pairwise_cons, List.pairwise_cons]
      refine ⟨?_, h⟩
      intro g hg
      rcases List.mem_cons.1 hg with rfl | hg
      · exact hef
      · exact le_trans hef (h.1 g hg)
    · have hfe : f.name ≤ e.name := le_of_lt (not_le.1 (fun h' => hc ((strLe_iff _ _).2 h')))
      rw [List.pairwise_cons]
      refine ⟨?_, ih h.2⟩
      intro g hg
      rcases List.mem_cons.1 ((insertEntry_perm e l).mem_iff.1 hg) with rfl | hg
      · exact hfe
      · exact h.1 g hg

theorem sortEntries_sorted (l : List (Entry D)) : (sortEntries l).Pairwise (fun a b => a.name ≤ b.name) := by
  induction l with
  | nil => exact List.Pairwise.nil
  | cons e l ih => exact insertEntry_sorted e _ ih

/-- the names do not depend on the type of doubles -/
theorem names_eq (D : Type) : (entries D).map (·.name) = (entries Unit).map (·.name) := rfl

theorem names_nodup : ((entries Unit).map (·.name)).Nodup := by decide +kernel

/-- names are words without dash in front, without `=`, and without zero bytes -/
theorem names_ok : ∀ w ∈ (entries Unit).map (·.name), w.head? ≠ some dash ∧ equ ∉ w ∧ 0 ∉ w ∧ w ≠ [] := by decide +kernel

theorem entry_ok {e : Entry D} (he : e ∈ entries D) :
    e.name.head? ≠ some dash ∧ equ ∉ e.name ∧ 0 ∉ e.name ∧ e.name ≠ [] := by
  refine names_ok _ ?_
  rw [← names_eq D]
  exact List.mem_map_of_mem he

theorem optList_mem {e : Entry D} : e ∈ optList D ↔ e ∈ entries D := (sortEntries_perm _).mem_iff

theorem optList_sorted : (optList D).Pairwise (fun a b => a.name < b.name) := by
  have h1 := sortEntries_sorted (entries D)
  have h2 : ((optList D).map (·.name)).Nodup := by
    have hp : ((optList D).map (·.name)).Perm ((entries D).map (·.name)) := (sortEntries_perm _).map _
    rw [hp.nodup_iff, names_eq]
    exact names_nodup
  have h3 : (optList D).Pairwise (fun a b => a.name ≠ b.name) := by
    rw [List.Nodup, List.pairwise_map] at h2
    exact h2
  exact (h1.and h3).imp (fun h => lt_of_le_of_ne h.1 h.2)

/-- the search in the table of options -/
theorem find_spec (s : Str) (n : Nat) (hn : n ≤ s.length) :
    (∃ e ∈ entries D, e.name = s.take n ∧ bsearch s n (optList D) 0 (optList D).length = some (some e)) ∨
    ((∀ e ∈ entries D, e.name ≠ s.take n) ∧ bsearch s n (optList D) 0 (optList D).length = some none) := by
  have hz : ∀ e ∈ optList D, 0 ∉ e.name := fun e he => (entry_ok (optList_mem.1 he)).2.2.1
  have := bsearch_spec s n hn (optList D) hz optList_sorted (optList D).length 0 (optList D).length (by omega) le_rfl
    (fun _ _ h => absurd h (by omega)) (fun _ h1 h2 => absurd h1 (by omega))
  simpa only [optList_mem] using this

/-- names are unique -/
theorem entry_unique {e f : Entry D} (he : e ∈ entries D) (hf : f ∈ entries D) (h : e.name = f.name) : e = f := by
  have hn : ((entries D).map (·.name)).Nodup := by rw [names_eq]; exact names_nodup
  have hp : (entries D).Pairwise (fun a b => a.name ≠ b.name) := by
    rwa [List.Nodup, List.pairwise_map] at hn
  obtain ⟨i, hi, rfl⟩ := List.mem_iff_getElem.1 he
  obtain ⟨j, hj, rfl⟩ := List.mem_iff_getElem.1 hf
  have hpw := List.pairwise_iff_getElem.1 hp
  rcases Nat.lt_trichotomy i j with hlt | heq | hgt
  · exact absurd h (hpw i j hi hj hlt)
  · subst heq; rfl
  · exact absurd h.symm (hpw j i hj hi hgt)

/-! ### parsing -/

theorem skipDash_dashed (k : Nat) (w : Str) (h : w.head? ≠ some dash) : skipDash (dashed k w) = w := by
  unfold dashed
  induction k with
  | zero =>
    show (if dash = dash then skipDash w else _) = w
    rw [if_pos rfl]
    cases w with
    | nil => rfl
    | cons c s =>
      have : c ≠ dash := fun hc => h (by simp [hc])
      simp [skipDash, this]
  | succ k ih =>
    rw [List.replicate_succ, List.cons_append]
    show (if dash = dash then skipDash _ else _) = w
    rw [if_pos rfl]; exact ih

theorem keyLen_plain (w : Str) (h : equ ∉ w) : keyLen w = w.length := by
  induction w with
  | nil => rfl
  | cons c s ih =>
    have h1 : c ≠ equ := fun hc => h (by simp [hc])
    have h2 : equ ∉ s := fun hc => h (by simp [hc])
    simp [keyLen, h1, ih h2]

theorem keyLen_value (w v : Str) (h : equ ∉ w) : keyLen (withValue w v) = w.length := by
  unfold withValue
  induction w with
  | nil => simp [keyLen]
  | cons c s ih =>
    have h1 : c ≠ equ := fun hc => h (by simp [hc])
    have h2 : equ ∉ s := fun hc => h (by simp [hc])
    simp [keyLen, h1, ih h2]

theorem charAt_end (w : Str) : charAt w w.length = some 0 := by
  have := charAt_append w []
  simpa using this

theorem charAt_equ (w v : Str) : charAt (withValue w v) w.length = some equ := charAt_append w (equ :: v)

theorem drop_value (w v : Str) : (withValue w v).drop (w.length + 1) = v := by
  unfold withValue
  induction w with
  | nil => rfl
  | cons c s ih => simpa using ih

/-- an option without `=` -/
theorem parseOpt_plain (env : Env D) (o : Opts D) (k : Nat) {e : Entry D} (he : e ∈ entries D) (rest : List Str) :
    parseOpt env o (dashed k e.name) rest =
      if e.arg.need = 2 then
        match rest with
        | [] => .fail
        | a :: _ => (handle env e.arg e.act o (some a)).used 1
      else (handle env e.arg e.act o none).used 0 := by
  obtain ⟨h1, h2, h3, _⟩ := entry_ok he
  unfold parseOpt
  rw [skipDash_dashed k _ h1]
  dsimp only
  rw [keyLen_plain _ h2, charAt_end]
  have hfind : bsearch e.name e.name.length (optList D) 0 (optList D).length = some (some e) := by
    rcases find_spec (D := D) e.name e.name.length le_rfl with ⟨f, hf, hname, hr⟩ | ⟨hno, _⟩
    · rw [List.take_length] at hname
      rw [hr, entry_unique hf he hname]
    · exact absurd (by rw [List.take_length]) (hno e he)
  rw [hfind]
  dsimp only
  have hne : ¬ (some 0 = some equ) := by decide
  rw [if_neg hne]
  by_cases hneed : e.arg.need = 2
  · rw [if_pos (by omega : e.arg.need > 0), if_pos hneed, if_pos hneed]
    cases rest with
    | nil => rfl
    | cons a r => dsimp only; cases handle env e.arg e.act o (some a) <;> rfl
  · rw [if_neg hneed, if_neg hneed]
    cases handle env e.arg e.act o none <;> simp [Res.used]

/-- an option with `=` -/
theorem parseOpt_value (env : Env D) (o : Opts D) (k : Nat) {e : Entry D} (he : e ∈ entries D) (v : Str) (rest : List Str) :
    parseOpt env o (dashed k (withValue e.name v)) rest =
      (handle env e.arg e.act o (if e.arg.need = 0 then none else some v)).used 0 := by
  obtain ⟨h1, h2, h3, h4⟩ := entry_ok he
  have h1' : (withValue e.name v).head? ≠ some dash := by
    unfold withValue
    cases hn : e.name with
    | nil => exact absurd hn h4
    | cons c s => rw [hn] at h1; simpa using h1
  unfold parseOpt
  rw [skipDash_dashed k _ h1']
  dsimp only
  rw [keyLen_value _ _ h2, charAt_equ, drop_value]
  have hlen : e.name.length ≤ (withValue e.name v).length := by unfold withValue; simp
  have htake : (withValue e.name v).take e.name.length = e.name := by unfold withValue; simp
  have hfind : bsearch (withValue e.name v) e.name.length (optList D) 0 (optList D).length = some (some e) := by
    rcases find_spec (D := D) (withValue e.name v) e.name.length hlen with ⟨f, hf, hname, hr⟩ | ⟨hno, _⟩
    · rw [htake] at hname
      rw [hr, entry_unique hf he hname]
    · exact absurd htake.symm (hno e he)
  rw [hfind]
  dsimp only
  rw [if_pos rfl]
  by_cases hneed : e.arg.need = 0
  · rw [if_neg (by omega : ¬ e.arg.need > 0), if_pos hneed]
    cases handle env e.arg e.act o none <;> rfl
  · rw [if_pos (by omega : e.arg.need > 0), if_neg hneed]
    cases handle env e.arg e.act o (some v) <;> rfl

theorem keyLen_le (s : Str) : keyLen s ≤ s.length := by
  induction s with
  | nil => simp [keyLen]
  | cons c s ih => simp only [keyLen]; split_ifs <;> simp; omega

/-- an argument that is no option -/
theorem parseOpt_unknown (env : Env D) (o : Opts D) (a : Str) (rest : List Str)
    (h : ∀ e ∈ entries D, e.name ≠ (skipDash a).take (keyLen (skipDash a))) : parseOpt env o a rest = .fail := by
  unfold parseOpt
  dsimp only
  rcases find_spec (D := D) (skipDash a) (keyLen (skipDash a)) (keyLen_le _) with ⟨f, hf, hname, _⟩ | ⟨_, hr⟩
  · exact absurd hname (h f hf)
  · rw [hr]

/-- an option depends on what follows only if it needs a value -/
theorem parseOpt_append (env : Env D) (o : Opts D) (a : Str) (pre rest : List Str) (h : parseOpt env o a pre ≠ .fail) :
    parseOpt env o a (pre ++ rest) = parseOpt env o a pre ∧ ∀ o' k, parseOpt env o a pre = .ok (o', k) → k ≤ pre.length := by
  unfold parseOpt at h ⊢
  dsimp only at h ⊢
  rcases hb : bsearch (skipDash a) (keyLen (skipDash a)) (optList D) 0 (optList D).length with _ | _ | e
  · exact ⟨rfl, fun _ _ h => by simp at h⟩
  · rw [hb] at h; exact absurd rfl h
  · rw [hb] at h
    dsimp only at h ⊢
    by_cases h1 : e.arg.need > 0
    · rw [if_pos h1] at h ⊢
      rw [if_pos h1]
      by_cases h2 : charAt (skipDash a) (keyLen (skipDash a)) = some equ
      · rw [if_pos h2] at h ⊢
        rw [if_pos h2]
        refine ⟨rfl, ?_⟩
        intro o' k hk
        split at hk <;> simp at hk
        omega
      · rw [if_neg h2] at h ⊢
        rw [if_neg h2]
        by_cases h3 : e.arg.need = 2
        · rw [if_pos h3] at h ⊢
          rw [if_pos h3]
          cases pre with
          | nil => exact absurd rfl h
          | cons x pre =>
            refine ⟨rfl, ?_⟩
            intro o' k hk
            dsimp only at hk
            split at hk <;> simp at hk
            simp only [List.length_cons]; omega
        · rw [if_neg h3] at h ⊢
          rw [if_neg h3]
          refine ⟨rfl, ?_⟩
          intro o' k hk
          split at hk <;> simp at hk
          omega
    · rw [if_neg h1] at h ⊢
      rw [if_neg h1]
      refine ⟨rfl, ?_⟩
      intro o' k hk
      split at hk <;> simp at hk
      omega

/-- the rest of the command line after arguments that are complete -/
def andThen (r : Res (Opts D × Option Str)) (f : Opts D → Option Str → Res (Opts D × Option Str)) : Res (Opts D × Option Str) :=
  match r with
  | .ok (o, i) => f o i
  | .fail => .fail
  | .help => .help
  | .ub => .ub

theorem parseFrom_cons (env : Env D) (o : Opts D) (f : Option Str) (a : Str) (rest : List Str) :
    parseFrom env 0 o f (a :: rest) =
      if a.head? = some dash then
        match parseOpt env o a rest with
        | .ok (o, k) => parseFrom env k o f rest
        | .fail => .fail
        | .help => .help
        | .ub => .ub
      else match f with
        | none => parseFrom env 0 o (some a) rest
        | some _ => .fail := rfl

theorem parseFrom_append (env : Env D) (rest : List Str) : ∀ (pre : List Str) (s : Nat) (o : Opts D) (f : Option Str),
    s ≤ pre.length → parseFrom env s o f pre ≠ .fail →
    parseFrom env s o f (pre ++ rest) = andThen (parseFrom env s o f pre) (fun o f => parseFrom env 0 o f rest)
  | [], s, o, f, hs, _ => by
    have : s = 0 := by simpa using hs
    subst this
    simp [parseFrom, andThen]
  | a :: pre, s + 1, o, f, hs, h => by
    simp only [List.cons_append, parseFrom] at h ⊢
    exact parseFrom_append env rest pre s o f (by simpa using hs) h
  | a :: pre, 0, o, f, _, h => by
    simp only [List.cons_append, parseFrom] at h ⊢
    by_cases hd : a.head? = some dash
    · rw [if_pos hd] at h ⊢
      rw [if_pos hd]
      have hne : parseOpt env o a pre ≠ .fail := by
        intro hc; rw [hc] at h; exact h rfl
      obtain ⟨e1, e2⟩ := parseOpt_append env o a pre rest hne
      rw [e1]
      rcases hr : parseOpt env o a pre with ⟨o', k⟩ | _ | _ | _
      · rw [hr] at h
        dsimp only at h ⊢
        exact parseFrom_append env rest pre k o' f (e2 o' k hr) h
      · exact absurd hr hne
      · rfl
      · rfl
    · rw [if_neg hd] at h ⊢
      rw [if_neg hd]
      cases f with
      | none =>
        dsimp only at h ⊢
        exact parseFrom_append env rest pre 0 o (some a) (by omega) h
      | some x => exact absurd rfl h

/-! ### repeated options -/

/-- a first use of the option has no effect on the second one -/
def Good (e : Entry D) : Prop := ∀ (env : Env D) (o o1 : Opts D) (a1 a2 : Option Str),
  handle env e.arg e.act o a1 = .ok o1 → handle env e.arg e.act o1 a2 = handle env e.arg e.act o a2

/-- a setter whose effect replaces an earlier one -/
def Over {α : Type} (set : Opts D → α → Opts D) (act : Loc D → Opts D → Res (Opts D)) : Prop :=
  ∀ o v w o1, act .none (set o v) = .ok o1 → act .none (set o1 w) = act .none (set o w)

theorem good_none (w : Str) (f : Opts D → Opts D) (hf : ∀ o, f (f o) = f o) : Good ⟨w, .none, act f⟩ := by
  intro env o o1 a1 a2 h
  simp only [handle, act, Res.ok.injEq] at h ⊢
  rw [← h, hf]

theorem good_help (w : Str) : Good (⟨w, .none, fun _ _ => .help⟩ : Entry D) := by
  intro env o o1 a1 a2 h
  simp [handle] at h

theorem good_unused (w : Str) (a : Loc D → Opts D → Res (Opts D)) : Good (⟨w, .unused, a⟩ : Entry D) := by
  intro env o o1 a1 a2 h
  simp only [handle, Res.ok.injEq] at h ⊢
  rw [h]

theorem good_str (w : Str) (set : Opts D → Str → Opts D) (act : Loc D → Opts D → Res (Opts D)) (H : Over set act) :
    Good ⟨w, .str set, act⟩ := by
  intro env o o1 a1 a2 h
  cases a1 with
  | none => simp [handle] at h
  | some s1 =>
    cases a2 with
    | none => rfl
    | some s2 => exact H o s1 s2 o1 h

theorem good_dim (w : Str) (set : Opts D → D → Opts D) (act : Loc D → Opts D → Res (Opts D)) (H : Over set act) :
    Good ⟨w, .dim set, act⟩ := by
  intro env o o1 a1 a2 h
  cases a1 with
  | none => simp [handle] at h
  | some s1 =>
    simp only [handle] at h
    cases hv : getDim env s1 with
    | none => rw [hv] at h; simp at h
    | some v =>
      rw [hv] at h
      cases a2 with
      | none => rfl
      | some s2 =>
        simp only [handle]
        cases getDim env s2 with
        | none => rfl
        | some x => exact H o v x o1 h

theorem good_size (w : Str) (set : Opts D → Nat → Opts D) (act : Loc D → Opts D → Res (Opts D)) (H : Over set act) :
    Good ⟨w, .size set, act⟩ := by
  intro env o o1 a1 a2 h
  cases a1 with
  | none => simp [handle] at h
  | some s1 =>
    simp only [handle] at h
    cases hv : getSize s1 with
    | none => rw [hv] at h; simp at h
    | some v =>
      rw [hv] at h
      cases a2 with
      | none => rfl
      | some s2 =>
        simp only [handle]
        cases getSize s2 with
        | none => rfl
        | some x => exact H o v x o1 h

theorem good_uint32 (w : Str) (set : Opts D → Nat → Opts D) (act : Loc D → Opts D → Res (Opts D)) (H : Over set act) :
    Good ⟨w, .uint32 set, act⟩ := by
  intro env o o1 a1 a2 h
  cases a1 with
  | none => simp [handle] at h
  | some s1 =>
    simp only [handle] at h
    cases hv : getUint32 s1 with
    | none => rw [hv] at h; simp at h
    | some v =>
      rw [hv] at h
      cases a2 with
      | none => rfl
      | some s2 =>
        simp only [handle]
        cases getUint32 s2 with
        | none => rfl
        | some x => exact H o v x o1 h

theorem good_uint8 (w : Str) (set : Opts D → Nat → Opts D) (act : Loc D → Opts D → Res (Opts D)) (H : Over set act) :
    Good ⟨w, .uint8 set, act⟩ := by
  intro env o o1 a1 a2 h
  cases a1 with
  | none => simp [handle] at h
  | some s1 =>
    simp only [handle] at h
    cases hv : getUint8 s1 with
    | none => rw [hv] at h; simp at h
    | some v =>
      rw [hv] at h
      cases a2 with
      | none => rfl
      | some s2 =>
        simp only [handle]
        cases getUint8 s2 with
        | none => rfl
        | some x => exact H o v x o1 h

theorem good_err (w : Str) (set : Opts D → Err → Opts D) (act : Loc D → Opts D → Res (Opts D)) (H : Over set act) :
    Good ⟨w, .err set, act⟩ := by
  intro env o o1 a1 a2 h
  cases a1 with
  | none => simp [handle] at h
  | some s1 =>
    simp only [handle] at h
    cases hv : getErr s1 with
    | none => rw [hv] at h; simp at h
    | some v =>
      rw [hv] at h
      cases a2 with
      | none => rfl
      | some s2 =>
        simp only [handle]
        cases getErr s2 with
        | none => rfl
        | some x => exact H o v x o1 h

theorem good_rgb (w : Str) (set : Opts D → Rgb → Opts D) (act : Loc D → Opts D → Res (Opts D)) (H : Over set act) :
    Good ⟨w, .rgb set, act⟩ := by
  intro env o o1 a1 a2 h
  cases a1 with
  | none => simp [handle] at h
  | some s1 =>
    simp only [handle] at h
    cases hv : getRgb s1 with
    | none => rw [hv] at h; simp at h
    | some v =>
      rw [hv] at h
      cases a2 with
      | none => rfl
      | some s2 =>
        simp only [handle]
        cases getRgb s2 with
        | none => rfl
        | some x => exact H o v x o1 h

theorem good_bool (w : Str) (neg : Bool) (set : Opts D → Bool → Opts D) (act : Loc D → Opts D → Res (Opts D))
    (H : Over set act) : Good ⟨w, .bool neg set, act⟩ := by
  intro env o o1 a1 a2 h
  simp only [handle] at h ⊢
  cases hv : getBool a1 with
  | none => rw [hv] at h; simp at h
  | some v =>
    rw [hv] at h
    cases getBool a2 with
    | none => rfl
    | some x => exact H o _ _ o1 h

theorem good_boolLoc (w : Str) (neg : Bool) (act : Loc D → Opts D → Res (Opts D))
    (H : ∀ o v x o1, act (.bool v) o = .ok o1 → act (.bool x) o1 = act (.bool x) o) : Good ⟨w, .boolLoc neg, act⟩ := by
  intro env o o1 a1 a2 h
  simp only [handle] at h ⊢
  cases hv : getBool a1 with
  | none => rw [hv] at h; simp at h
  | some v =>
    rw [hv] at h
    cases getBool a2 with
    | none => rfl
    | some x => exact H o _ _ o1 h

theorem good_unusedBool (w : Str) (neg : Bool) (a : Loc D → Opts D → Res (Opts D)) :
    Good (⟨w, .unusedBool neg, a⟩ : Entry D) := by
  intro env o o1 a1 a2 h
  simp only [handle, Res.ok.injEq] at h ⊢
  rw [h]

/-- all options of a case -/
structure GoodCase (c : Case D) : Prop where
  good : ∀ e ∈ learnCase c, e.name ∈ accumulating ∨ Good e

theorem gc_plain (c : Case D) (hn : c.arg.negated = none) (h : ∀ w, Good ⟨w, c.arg, c.act⟩) : GoodCase c := by
  constructor
  intro e he
  unfold learnCase at he
  rw [hn, List.append_nil, List.mem_map] at he
  obtain ⟨w, _, rfl⟩ := he
  exact Or.inr (h w)

theorem gc_acc (c : Case D) (hn : c.arg.negated = none) (h : ∀ w ∈ c.words, w ∈ accumulating) : GoodCase c := by
  constructor
  intro e he
  unfold learnCase at he
  rw [hn, List.append_nil, List.mem_map] at he
  obtain ⟨w, hw, rfl⟩ := he
  exact Or.inl (h w hw)

theorem gc_neg (c : Case D) (a : Arg D) (hn : c.arg.negated = some a) (h : ∀ w, Good ⟨w, c.arg, c.act⟩)
    (h' : ∀ w, Good ⟨w, a, fun _ o => .ok o⟩) : GoodCase c := by
  constructor
  intro e he
  unfold learnCase at he
  rw [hn, List.mem_append, List.mem_map, List.mem_map] at he
  rcases he with ⟨w, _, rfl⟩ | ⟨w, _, rfl⟩
  · exact Or.inr (h w)
  · exact Or.inr (h' w)

theorem over_ok {α : Type} (set : Opts D → α → Opts D) (f : Opts D → Opts D)
    (h : ∀ o v w, f (set (f (set o v)) w) = f (set o w)) : Over set (act f) := by
  intro o v w o1 he
  simp only [act, Res.ok.injEq] at he ⊢
  rw [← he, h]

theorem over_id {α : Type} (set : Opts D → α → Opts D) (h : ∀ o v w, set (set o v) w = set o w) :
    Over set (fun _ o => .ok o) := by
  intro o v w o1 he
  simp only [Res.ok.injEq] at he ⊢
  rw [← he, h]

theorem over_simultaneous : Over (fun (o : Opts D) v => { o with maxSimultaneous := v })
    (fun _ o => if o.maxSimultaneous < 2 then .fail else .ok o) := by
  intro o v x o1 h
  dsimp only at h ⊢
  split_ifs at h
  cases h; rfl

theorem all_good : ∀ c ∈ cases D, GoodCase c := by
  unfold cases
  refine List.forall_mem_cons.2 ⟨gc_plain _ rfl good_help, ?_⟩
  refine List.forall_mem_cons.2 ⟨gc_plain _ rfl (fun w => good_none w _ (fun _ => rfl)), ?_⟩
  refine List.forall_mem_cons.2 ⟨gc_acc _ rfl (by dsimp only; decide), ?_⟩
  refine List.forall_mem_cons.2 ⟨gc_plain _ rfl (fun w => good_str w _ _ (over_id _ (fun _ _ _ => rfl))), ?_⟩
  refine List.forall_mem_cons.2 ⟨gc_plain _ rfl (fun w => good_none w _ (fun _ => rfl)), ?_⟩
  refine List.forall_mem_cons.2 ⟨gc_plain _ rfl (fun w => good_none w _ (fun _ => rfl)), ?_⟩
  refine List.forall_mem_cons.2 ⟨gc_plain _ rfl (fun w => good_dim w _ _ (over_id _ (fun _ _ _ => rfl))), ?_⟩
  refine List.forall_mem_cons.2 ⟨gc_plain _ rfl (fun w => good_dim w _ _ (over_ok _ _ (fun _ _ _ => rfl))), ?_⟩
  refine List.forall_mem_cons.2 ⟨gc_plain _ rfl (fun w => good_dim w _ _ (over_ok _ _ (fun _ _ _ => rfl))), ?_⟩
  refine List.forall_mem_cons.2 ⟨gc_plain _ rfl (fun w => good_dim w _ _ (over_id _ (fun _ _ _ => rfl))), ?_⟩
  refine List.forall_mem_cons.2 ⟨gc_plain _ rfl (fun w => good_dim w _ _ (over_ok _ _ (fun _ _ _ => rfl))), ?_⟩
  refine List.forall_mem_cons.2 ⟨gc_plain _ rfl (fun w => good_uint32 w _ _ (over_id _ (fun _ _ _ => rfl))), ?_⟩
  refine List.forall_mem_cons.2 ⟨gc_neg _ _ rfl (fun w => good_boolLoc w _ _ (fun _ _ _ _ h => by cases h; rfl))
      (fun w => good_boolLoc w _ _ (fun _ _ _ _ h => by cases h; rfl)), ?_⟩
  refine List.forall_mem_cons.2 ⟨gc_neg _ _ rfl (fun w => good_boolLoc w _ _ (fun _ _ _ _ h => by cases h; rfl))
      (fun w => good_boolLoc w _ _ (fun _ _ _ _ h => by cases h; rfl)), ?_⟩
  refine List.forall_mem_cons.2 ⟨gc_plain _ rfl (fun w => good_size w _ _ over_simultaneous), ?_⟩
  refine List.forall_mem_cons.2 ⟨gc_plain _ rfl (fun w => good_dim w _ _ (over_id _ (fun _ _ _ => rfl))), ?_⟩
  refine List.forall_mem_cons.2 ⟨gc_plain _ rfl (fun w => good_none w _ (fun _ => rfl)), ?_⟩
  refine List.forall_mem_cons.2 ⟨gc_plain _ rfl (fun w => good_none w _ (fun _ => rfl)), ?_⟩
  refine List.forall_mem_cons.2 ⟨gc_plain _ rfl (fun w => good_none w _ (fun _ => rfl)), ?_⟩
  refine List.forall_mem_cons.2 ⟨gc_plain _ rfl (fun w => good_dim w _ _ (over_id _ (fun _ _ _ => rfl))), ?_⟩
  refine List.forall_mem_cons.2 ⟨gc_plain _ rfl (fun w => good_dim w _ _ (over_id _ (fun _ _ _ => rfl))), ?_⟩
  refine List.forall_mem_cons.2 ⟨gc_plain _ rfl (fun w => good_dim w _ _ (over_id _ (fun _ _ _ => rfl))), ?_⟩
  refine List.forall_mem_cons.2 ⟨gc_plain _ rfl (fun w => good_err w _ _ (over_id _ (fun _ _ _ => rfl))), ?_⟩
  refine List.forall_mem_cons.2 ⟨gc_plain _ rfl (fun w => good_err w _ _ (over_id _ (fun _ _ _ => rfl))), ?_⟩
  refine List.forall_mem_cons.2 ⟨gc_plain _ rfl (fun w => good_err w _ _ (over_id _ (fun _ _ _ => rfl))), ?_⟩
  refine List.forall_mem_cons.2 ⟨gc_plain _ rfl (fun w => good_err w _ _ (over_id _ (fun _ _ _ => rfl))), ?_⟩
  refine List.forall_mem_cons.2 ⟨gc_plain _ rfl (fun w => good_err w _ _ (over_id _ (fun _ _ _ => rfl))), ?_⟩
  refine List.forall_mem_cons.2 ⟨gc_plain _ rfl (fun w => good_err w _ _ (over_id _ (fun _ _ _ => rfl))), ?_⟩
  refine List.forall_mem_cons.2 ⟨gc_plain _ rfl (fun w => good_err w _ _ (over_id _ (fun _ _ _ => rfl))), ?_⟩
  refine List.forall_mem_cons.2 ⟨gc_plain _ rfl (fun w => good_none w _ (fun _ => rfl)), ?_⟩
  refine List.forall_mem_cons.2 ⟨gc_plain _ rfl (fun w => good_none w _ (fun _ => rfl)), ?_⟩
  refine List.forall_mem_cons.2 ⟨gc_plain _ rfl (fun w => good_none w _ (fun _ => rfl)), ?_⟩
  refine List.forall_mem_cons.2 ⟨gc_plain _ rfl (fun w => good_none w _ (fun _ => rfl)), ?_⟩
  refine List.forall_mem_cons.2 ⟨gc_plain _ rfl (fun w => good_none w _ (fun _ => rfl)), ?_⟩
  refine List.forall_mem_cons.2 ⟨gc_plain _ rfl (fun w => good_none w _ (fun _ => rfl)), ?_⟩
  refine List.forall_mem_cons.2 ⟨gc_plain _ rfl (fun w => good_none w _ (fun _ => rfl)), ?_⟩
  refine List.forall_mem_cons.2 ⟨gc_plain _ rfl (fun w => good_none w _ (fun _ => rfl)), ?_⟩
  refine List.forall_mem_cons.2 ⟨gc_neg _ _ rfl (fun w => good_bool w _ _ _ (over_id _ (fun _ _ _ => rfl)))
      (fun w => good_bool w _ _ _ (over_id _ (fun _ _ _ => rfl))), ?_⟩
  refine List.forall_mem_cons.2 ⟨gc_neg _ _ rfl (fun w => good_bool w _ _ _ (over_id _ (fun _ _ _ => rfl)))
      (fun w => good_bool w _ _ _ (over_id _ (fun _ _ _ => rfl))), ?_⟩
  refine List.forall_mem_cons.2 ⟨gc_neg _ _ rfl (fun w => good_bool w _ _ _ (over_id _ (fun _ _ _ => rfl)))
      (fun w => good_bool w _ _ _ (over_id _ (fun _ _ _ => rfl))), ?_⟩
  refine List.forall_mem_cons.2 ⟨gc_neg _ _ rfl (fun w => good_bool w _ _ _ (over_id _ (fun _ _ _ => rfl)))
      (fun w => good_bool w _ _ _ (over_id _ (fun _ _ _ => rfl))), ?_⟩
  refine List.forall_mem_cons.2 ⟨gc_plain _ rfl (fun w => good_uint8 w _ _ (over_id _ (fun _ _ _ => rfl))), ?_⟩
  refine List.forall_mem_cons.2 ⟨gc_acc _ rfl (by dsimp only; decide), ?_⟩
  refine List.forall_mem_cons.2 ⟨gc_neg _ _ rfl (fun w => good_bool w _ _ _ (over_id _ (fun _ _ _ => rfl)))
      (fun w => good_bool w _ _ _ (over_id _ (fun _ _ _ => rfl))), ?_⟩
  refine List.forall_mem_cons.2 ⟨gc_plain _ rfl (fun w => good_none w _ (fun _ => rfl)), ?_⟩
  refine List.forall_mem_cons.2 ⟨gc_plain _ rfl (fun w => good_none w _ (fun _ => rfl)), ?_⟩
  refine List.forall_mem_cons.2 ⟨gc_neg _ _ rfl (fun w => good_bool w _ _ _ (over_id _ (fun _ _ _ => rfl)))
      (fun w => good_bool w _ _ _ (over_id _ (fun _ _ _ => rfl))), ?_⟩
  refine List.forall_mem_cons.2 ⟨gc_neg _ _ rfl (fun w => good_bool w _ _ _ (over_id _ (fun _ _ _ => rfl)))
      (fun w => good_bool w _ _ _ (over_id _ (fun _ _ _ => rfl))), ?_⟩
  refine List.forall_mem_cons.2 ⟨gc_neg _ _ rfl (fun w => good_bool w _ _ _ (over_id _ (fun _ _ _ => rfl)))
      (fun w => good_bool w _ _ _ (over_id _ (fun _ _ _ => rfl))), ?_⟩
  refine List.forall_mem_cons.2 ⟨gc_neg _ _ rfl (fun w => good_bool w _ _ _ (over_id _ (fun _ _ _ => rfl)))
      (fun w => good_bool w _ _ _ (over_id _ (fun _ _ _ => rfl))), ?_⟩
  refine List.forall_mem_cons.2 ⟨gc_plain _ rfl (fun w => good_none w _ (fun _ => rfl)), ?_⟩
  refine List.forall_mem_cons.2 ⟨gc_acc _ rfl (by dsimp only; decide), ?_⟩
  refine List.forall_mem_cons.2 ⟨gc_acc _ rfl (by dsimp only; decide), ?_⟩
  refine List.forall_mem_cons.2 ⟨gc_acc _ rfl (by dsimp only; decide), ?_⟩
  refine List.forall_mem_cons.2 ⟨gc_acc _ rfl (by dsimp only; decide), ?_⟩
  refine List.forall_mem_cons.2 ⟨gc_plain _ rfl (fun w => good_dim w _ _ (over_id _ (fun _ _ _ => rfl))), ?_⟩
  refine List.forall_mem_cons.2 ⟨gc_plain _ rfl (fun w => good_rgb w _ _ (over_id _ (fun _ _ _ => rfl))), ?_⟩
  refine List.forall_mem_cons.2 ⟨gc_plain _ rfl (fun w => good_rgb w _ _ (over_id _ (fun _ _ _ => rfl))), ?_⟩
  refine List.forall_mem_cons.2 ⟨gc_plain _ rfl (fun w => good_rgb w _ _ (over_id _ (fun _ _ _ => rfl))), ?_⟩
  refine List.forall_mem_cons.2 ⟨gc_plain _ rfl (fun w => good_rgb w _ _ (over_id _ (fun _ _ _ => rfl))), ?_⟩
  refine List.forall_mem_cons.2 ⟨gc_plain _ rfl (fun w => good_rgb w _ _ (over_id _ (fun _ _ _ => rfl))), ?_⟩
  refine List.forall_mem_cons.2 ⟨gc_plain _ rfl (fun w => good_dim w _ _ (over_id _ (fun _ _ _ => rfl))), ?_⟩
  refine List.forall_mem_cons.2 ⟨gc_plain _ rfl (fun w => good_unused w _), ?_⟩
  refine List.forall_mem_cons.2 ⟨gc_plain _ rfl (fun w => good_unused w _), ?_⟩
  refine List.forall_mem_cons.2 ⟨gc_plain _ rfl (fun w => good_unused w _), ?_⟩
  refine List.forall_mem_cons.2 ⟨gc_plain _ rfl (fun w => good_unused w _), ?_⟩
  refine List.forall_mem_cons.2 ⟨gc_plain _ rfl (fun w => good_unused w _), ?_⟩
  refine List.forall_mem_cons.2 ⟨gc_plain _ rfl (fun w => good_unused w _), ?_⟩
  refine List.forall_mem_cons.2 ⟨gc_plain _ rfl (fun w => good_unused w _), ?_⟩
  refine List.forall_mem_cons.2 ⟨gc_plain _ rfl (fun w => good_unused w _), ?_⟩
  refine List.forall_mem_cons.2 ⟨gc_neg _ _ rfl (fun w => good_unusedBool w _ _) (fun w => good_unusedBool w _ _), ?_⟩
  exact List.forall_mem_nil _

/-! ### file endings -/

theorem hasSuffix_iff (h n : Str) : hasSuffix h n = true ↔ ∃ b, h = b ++ n := by
  unfold hasSuffix
  split_ifs with hc
  · refine ⟨fun h => absurd h (by simp), ?_⟩
    rintro ⟨b, rfl⟩
    rw [List.length_append] at hc
    omega
  · rw [beq_iff_eq]
    constructor
    · intro he
      refine ⟨h.take (h.length - n.length), ?_⟩
      have := (List.take_append_drop (h.length - n.length) h).symm
      rw [he] at this
      exact this
    · rintro ⟨b, rfl⟩
      simp

/-! ### numbers -/

theorem digit_char (base x : Nat) (hb : base ≤ 16) (hx : x < base) : digit base (digitChar x) = some x := by
  unfold digit digitChar
  by_cases h : x < 10
  · rw [if_pos h]
    simp only [show 48 ≤ x + 48 ∧ x + 48 ≤ 57 from ⟨by omega, by omega⟩, if_true, and_self]
    simp [hx]
  · rw [if_neg h]
    have h1 : ¬ (48 ≤ x + 87 ∧ x + 87 ≤ 57) := by omega
    have h2 : 97 ≤ x + 87 ∧ x + 87 ≤ 102 := ⟨by omega, by omega⟩
    rw [if_neg h1, if_pos h2]
    simp [hx]

theorem digits_map (base : Nat) (hb : base ≤ 16) : ∀ (d : List Nat) (acc : Nat) (r : Str), (∀ x ∈ d, x < base) →
    (∀ c, r.head? = some c → digit base c = none) →
    digits base acc (d.map digitChar ++ r) = (d.foldl (fun a x => a * base + x) acc, r)
  | [], acc, [], _, _ => rfl
  | [], acc, c :: r, _, hr => by
    have := hr c rfl
    simp [digits, this]
  | x :: d, acc, r, hd, hr => by
    have hx := hd x (by simp)
    simp only [List.map_cons, List.cons_append, digits, digit_char base x hb hx, List.foldl_cons]
    exact digits_map base hb d _ r (fun y hy => hd y (by simp [hy])) hr

end Hob3l.Opt
