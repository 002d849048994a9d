import Verif.Stream.Model
import Mathlib.Tactic.SplitIfs

/-!
C56: writing either writes everything or stops with an error.  This fails for short writes, and writing nothing stops.
-/

namespace Hob3l.Stream

theorem streamFwrite_eq (acc : Nat) (file buff : List Nat) : streamFwrite acc file buff =
    if min acc buff.length = 0 then .panic (file ++ buff.take acc) else .ok (file ++ buff.take acc) := rfl

theorem streamVfprintf_eq (acc : Nat) (file text : List Nat) : streamVfprintf acc file text =
    if acc < text.length then .panic (file ++ text.take acc) else .ok (file ++ text.take acc) := by
  simp only [streamVfprintf, vfprintf]
  by_cases h : acc < text.length <;> simp [h]

/-- C56 fails: if a part of the buffer is accepted only, the call returns normally. -/
theorem C56_wrong : ∃ (acc : Nat) (file buff : List Nat) (f : List Nat),
    streamFwrite acc file buff = .ok f ∧ f ≠ file ++ buff :=
  ⟨1, [], [65, 66], [65], by decide, by decide⟩

/-- C56 fails for every buffer of at least two bytes: if one byte is accepted, the call returns normally and the rest is
missing. -/
theorem C56_wrong_everywhere (file : List Nat) (a b : Nat) (rest : List Nat) :
    streamFwrite 1 file (a :: b :: rest) = .ok (file ++ [a]) := by
  simp [streamFwrite, fwrite]

/-- Writing an empty buffer stops the program, although nothing is missing. -/
theorem C56_empty_wrong (acc : Nat) (file : List Nat) : streamFwrite acc file [] = .panic file := by
  simp [streamFwrite, fwrite]

/-- What the calls do, for every behaviour of the environment: if they return, a non-empty beginning of the buffer was
appended, and the whole text by formatted printing.

Missing for C56: that the whole buffer was written. -/
theorem C56_call_partial (acc : Nat) (file buff : List Nat) :
    (∀ f, streamFwrite acc file buff = .ok f → ∃ n, 0 < n ∧ n ≤ buff.length ∧ f = file ++ buff.take n) ∧
    (∀ f, streamVfprintf acc file buff = .ok f → f = file ++ buff) := by
  constructor
  · intro f h
    rw [streamFwrite_eq] at h
    split_ifs at h with h0
    injection h with h
    refine ⟨min acc buff.length, by omega, by omega, ?_⟩
    rw [← h]
    congr 1
    rw [List.take_eq_take_iff]
    omega
  · intro f h
    rw [streamVfprintf_eq] at h
    split_ifs at h with h0
    injection h with h
    rw [← h, List.take_of_length_le (by omega)]

example : streamFwrite 5 [1] [2, 3] = .ok [1, 2, 3] ∧ streamVfprintf 5 [1] [2, 3] = .ok [1, 2, 3] := by decide

/-- If the environment accepts all or nothing in each call, and no empty buffer is written, then a sequence of calls that
returns has written everything, in order; and if everything is accepted, then it does return.

Missing for C56: environments that accept a part of a buffer. -/
theorem C56_run_partial (acc : Nat → Nat) (cs : List Call) (i : Nat) (file : List Nat)
    (h : ∀ k c, cs[k]? = some c → acc (i + k) = 0 ∨ c.text.length ≤ acc (i + k))
    (hne : ∀ b, Call.write b ∈ cs → b ≠ []) :
    (∀ f, run acc cs i file = .ok f → f = file ++ (cs.map Call.text).flatten) ∧
    ((∀ k c, cs[k]? = some c → c.text.length ≤ acc (i + k)) → run acc cs i file = .ok (file ++ (cs.map Call.text).flatten)) := by
  induction cs generalizing i file with
  | nil => simp [run]
  | cons c cs ih =>
    have hstep : ∀ f, step (acc i) file c = .ok f → f = file ++ c.text := by
      intro f hf
      have h0 := h 0 c rfl
      rw [Nat.add_zero] at h0
      cases c with
      | write b =>
        rw [step, streamFwrite_eq] at hf
        split_ifs at hf with h1
        injection hf with hf
        simp only [Call.text] at h0 ⊢
        rw [← hf, List.take_of_length_le (by omega)]
      | printf t => exact (C56_call_partial _ _ _).2 f hf
    have hk : ∀ k d, cs[k]? = some d → acc (i + 1 + k) = 0 ∨ d.text.length ≤ acc (i + 1 + k) := by
      intro k d hd
      have := h (k + 1) d hd
      rwa [show i + (k + 1) = i + 1 + k by omega] at this
    have hne' : ∀ b, Call.write b ∈ cs → b ≠ [] := fun b hb => hne b (List.mem_cons_of_mem _ hb)
    constructor
    · intro f hf
      rw [run] at hf
      split at hf
      · cases hf
      · rename_i f' hf'
        have := (ih (i + 1) f' hk hne').1 f hf
        rw [this, hstep f' hf']
        simp
    · intro hall
      have h0 := hall 0 c rfl
      rw [Nat.add_zero] at h0
      have hok : step (acc i) file c = .ok (file ++ c.text) := by
        cases c with
        | write b =>
          have hb := hne b (by simp)
          simp only [Call.text] at h0 ⊢
          rw [step, streamFwrite_eq]
          have : 0 < b.length := List.length_pos_iff.2 hb
          rw [if_neg (by omega), List.take_of_length_le h0]
        | printf t =>
          simp only [Call.text] at h0 ⊢
          rw [step, streamVfprintf_eq, if_neg (by omega), List.take_of_length_le h0]
      rw [run, hok]
      have := (ih (i + 1) (file ++ c.text) hk hne').2 (fun k d hd => by
        have := hall (k + 1) d hd
        rwa [show i + (k + 1) = i + 1 + k by omega] at this)
      simp only [this]
      simp

example : (∀ k c, [Call.write [1, 2], .printf [], .write [3]][k]? = some c → (fun _ => 9) (0 + k) = 0 ∨ c.text.length ≤ 9) ∧
    (∀ b, Call.write b ∈ [Call.write [1, 2], .printf [], .write [3]] → b ≠ []) ∧
    run (fun _ => 9) [.write [1, 2], .printf [], .write [3]] 0 [] = .ok [1, 2, 3] := by
  refine ⟨?_, ?_, by decide⟩
  · intro k c hc
    right
    have := List.mem_of_getElem? hc
    simp at this
    rcases this with rfl | rfl | rfl <;> simp [Call.text]
  · intro b hb
    simp at hb
    rcases hb with rfl | rfl <;> simp

end Hob3l.Stream
