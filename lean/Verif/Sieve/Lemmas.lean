import Verif.Sieve.Model
import Mathlib.Tactic.SplitIfs

namespace Hob3l.Sieve

open Hob3l.Matq

theorem mem_succ {set : List (List Nat × Nat)} {c : Nat} {r : List Nat} {i : Nat} :
    (r, i) ∈ succ set c ↔ (c :: r, i) ∈ set := by
  unfold succ
  rw [List.mem_filterMap]
  constructor
  · rintro ⟨⟨k, j⟩, h1, h2⟩
    cases k with
    | nil => simp at h2
    | cons x rest =>
      simp only at h2
      split_ifs at h2 with h
      simp only [Option.some.injEq, Prod.mk.injEq] at h2
      rw [← h, ← h2.1, ← h2.2]
      exact h1
  · intro h
    exact ⟨_, h, by simp⟩

/-- what a step tells about a set of keys: whatever string of the right length is read, it ends after a prefix of the
string; failure: the string is not among the keys; final: the prefix is that of the key, and the string is no other key -/
def Good (set : List (List Nat × Nat)) (n : Nat) (st : Step) : Prop :=
  ∀ s t : List Nat, s.length = n → ∃ st' p q, s = p ++ q ∧ run st (s ++ t) = some (st', q ++ t) ∧
    (st' = .fail ∧ (∀ i, (s, i) ∉ set) ∨
      ∃ k i, st' = .final i ∧ (p ++ k, i) ∈ set ∧ ∀ j, (s, j) ∈ set → q = k)

theorem run_final (i : Nat) (s : List Nat) : run (.final i) s = some (.final i, s) := by cases s <;> rfl
theorem run_fail (s : List Nat) : run .fail s = some (.fail, s) := by cases s <;> rfl

/-- the three cases of a table entry -/
def choose (n : Nat) (es : List (List Nat × Nat)) : Step :=
  match es with
  | [] => .fail
  | [e] => .final e.2
  | es => mkState n es

theorem good_choose (n : Nat) : ∀ (es : List (List Nat × Nat)), (∀ e ∈ es, e.1.length = n) → (es.map Prod.fst).Nodup →
    Good es n (choose n es) := by
  induction n with
  | zero =>
    intro es hl hd s t hs
    have hs0 : s = [] := List.length_eq_zero_iff.1 hs
    subst hs0
    match es, hl, hd with
    | [], _, _ => exact ⟨.fail, [], [], rfl, run_fail _, Or.inl ⟨rfl, by simp⟩⟩
    | [e], hl, _ =>
      have he : e.1 = [] := List.length_eq_zero_iff.1 (hl e (by simp))
      refine ⟨.final e.2, [], [], rfl, run_final _ _, Or.inr ⟨[], e.2, rfl, ?_, fun _ _ => rfl⟩⟩
      simp only [List.append_nil, List.mem_singleton]
      rw [← he]
    | e :: f :: es, hl, hd =>
      have he : e.1 = [] := List.length_eq_zero_iff.1 (hl e (by simp))
      have hf : f.1 = [] := List.length_eq_zero_iff.1 (hl f (by simp))
      simp [he, hf] at hd
  | succ n ih =>
    intro es hl hd s t hs
    match es, hl, hd with
    | [], _, _ => exact ⟨.fail, [], s, rfl, run_fail _, Or.inl ⟨rfl, by simp⟩⟩
    | [e], hl, _ =>
      refine ⟨.final e.2, [], s, rfl, run_final _ _, Or.inr ⟨e.1, e.2, rfl, by simp, ?_⟩⟩
      intro j hj
      simp only [List.mem_singleton] at hj
      rw [← hj]
    | e :: f :: es, hl, hd =>
      generalize hE : e :: f :: es = E at *
      cases s with
      | nil => simp at hs
      | cons c s =>
        have hs' : s.length = n := by simpa using hs
        have hst : choose (n + 1) E = .state fun c => choose n (succ E c) := by
          subst hE
          rfl
        rw [hst]
        obtain ⟨st', p, q, h1, h2, h3⟩ := ih (succ E c) (by
            rintro ⟨k, i⟩ hk
            have := hl _ (mem_succ.1 hk)
            simpa using this) (by
            rw [List.nodup_iff_pairwise_ne, List.pairwise_map] at hd ⊢
            unfold succ
            rw [List.pairwise_filterMap]
            refine hd.imp ?_
            intro a b hab a' ha' b' hb' heq
            rcases a with ⟨_ | ⟨x, a⟩, i⟩
            · simp at ha'
            rcases b with ⟨_ | ⟨y, b⟩, j⟩
            · simp at hb'
            simp only at ha' hb'
            split_ifs at ha' hb' with hx hy
            injection ha' with ha'
            injection hb' with hb'
            subst ha' hb' hx hy
            simp at heq hab
            exact hab heq) s t hs'
        refine ⟨st', c :: p, q, by rw [h1]; rfl, ?_, ?_⟩
        · show run _ (c :: (s ++ t)) = _
          rw [run]
          exact h2
        · rcases h3 with ⟨h3, h4⟩ | ⟨k, i, h3, h4, h5⟩
          · exact Or.inl ⟨h3, fun i hi => h4 i (mem_succ.2 hi)⟩
          · exact Or.inr ⟨k, i, h3, mem_succ.1 h4, fun j hj => h5 j (mem_succ.2 hj)⟩

theorem mkLen_eq (keys : List (List Nat)) (len : Nat) :
    mkLen keys len = choose len (keys.zipIdx.filter (fun e => e.1.length = len)) := rfl

end Hob3l.Sieve
