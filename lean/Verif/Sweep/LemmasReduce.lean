import Verif.Sweep.Lemmas
import Verif.Bitmap.Lemmas

namespace Hob3l.Sweep

open Hob3l.Matq

theorem xorAll_append (a b : List (BitVec 64)) : xorAll (a ++ b) = xorAll a ^^^ xorAll b := by
  induction a with
  | nil => simp [xorAll]
  | cons x xs ih => simp only [List.cons_append, xorAll, ih, BitVec.xor_assoc]

theorem xor_lt (n : Nat) (hn : n ≤ 64) {a b : BitVec 64} (ha : a.toNat < 2 ^ n) (hb : b.toNat < 2 ^ n) :
    (a ^^^ b).toNat < 2 ^ n := by
  rw [BitVec.toNat_xor]; exact Nat.xor_lt_two_pow ha hb

theorem xorAll_lt (n : Nat) (hn : n ≤ 64) {l : List (BitVec 64)} (h : ∀ m ∈ l, m.toNat < 2 ^ n) :
    (xorAll l).toNat < 2 ^ n := by
  induction l with
  | nil => simp [xorAll]
  | cons x xs ih =>
    exact xor_lt n hn (h x (List.mem_cons_self ..)) (ih (fun m hm => h m (List.mem_cons_of_mem _ hm)))

theorem insertIdx_at {α} (A B : List α) (x : α) : (A ++ B).insertIdx A.length x = A ++ x :: B := by
  induction A with
  | nil => simp
  | cons a as ih => simp [ih]

/-- annotated state for a list of masks, `b` = XOR of what is below the first one -/
def annot (f : BitVec 64 → Bool) : BitVec 64 → List (BitVec 64) → RState
  | _, [] => []
  | b, m :: ms => ⟨m, b, f b != f (b ^^^ m)⟩ :: annot f (b ^^^ m) ms

theorem annot_length (f b l) : (annot f b l).length = l.length := by
  induction l generalizing b with
  | nil => rfl
  | cons m ms ih => simp [annot, ih]

theorem annot_append (f b l l') : annot f b (l ++ l') = annot f b l ++ annot f (b ^^^ xorAll l) l' := by
  induction l generalizing b with
  | nil => simp [annot, xorAll]
  | cons m ms ih => simp [annot, ih, xorAll, BitVec.xor_assoc]

theorem annot_last (f b l) (x : REdge) (h : (annot f b l)[l.length - 1]? = some x) :
    x.below ^^^ x.member = b ^^^ xorAll l := by
  induction l generalizing b with
  | nil => simp [annot] at h
  | cons m ms ih =>
    cases ms with
    | nil =>
      simp only [annot, List.length_cons, List.length_nil] at h
      simp at h
      subst h; simp [xorAll]
    | cons m' ms' =>
      have := ih (b ^^^ m) (by
        rw [annot] at h
        simp only [List.length_cons, Nat.add_sub_cancel] at h ⊢
        rw [List.getElem?_cons_succ] at h
        exact h)
      rw [this]
      show b ^^^ m ^^^ xorAll (m' :: ms') = b ^^^ (m ^^^ xorAll (m' :: ms'))
      rw [BitVec.xor_assoc]

section
variable {comb : Bitmap.Mem} {n : Nat} (hn : n ≤ 10)
include hn

theorem combEval_some {i : BitVec 64} (h : i.toNat < 2 ^ n) :
    combEval comb (2 ^ n) i = some (comb.getLsbD i.toNat) := by
  have : 2 ^ n ≤ 2 ^ 10 := Nat.pow_le_pow_right (by omega) hn
  unfold combEval
  rw [ass_true h]
  exact Bitmap.get_spec comb i.toNat (by omega)

theorem evLeft_some (P : List (BitVec 64)) (tail : RState) (m : BitVec 64)
    (hP : ∀ x ∈ P, x.toNat < 2 ^ n) (hm : m.toNat < 2 ^ n) :
    evLeft comb (2 ^ n) (annot (fun i => comb.getLsbD i.toNat) 0 P ++ tail) P.length m =
      some (annot (fun i => comb.getLsbD i.toNat) 0 (P ++ [m]) ++ tail) := by
  have hbelow : belowOf (annot (fun i => comb.getLsbD i.toNat) 0 P ++ tail) P.length = xorAll P := by
    unfold belowOf
    cases P with
    | nil => simp [xorAll]
    | cons p ps =>
      rw [List.getElem?_append_left (by simp [annot_length])]
      rw [List.getElem?_eq_getElem (by simp [annot_length])]
      simp only [List.length_cons, Nat.add_eq_zero_iff, Nat.one_ne_zero, and_false, if_false]
      have := annot_last (fun i => comb.getLsbD i.toNat) 0 (p :: ps) _
        (List.getElem?_eq_getElem (by simp [annot_length]))
      simpa using this
  have l1 : (xorAll P).toNat < 2 ^ n := xorAll_lt n (by omega) hP
  have l2 : (xorAll P ^^^ m).toNat < 2 ^ n := xor_lt n (by omega) l1 hm
  unfold evLeft
  simp only [hbelow, combEval_some hn l1, combEval_some hn l2, Option.bind_eq_bind, Option.bind_some, Option.pure_def]
  rw [annot_append]
  congr 1
  have : P.length = (annot (fun i => comb.getLsbD i.toNat) 0 P).length := (annot_length ..).symm
  rw [this, insertIdx_at]
  simp [annot]

theorem evLefts_some (P M : List (BitVec 64)) (tail : RState)
    (hP : ∀ x ∈ P, x.toNat < 2 ^ n) (hM : ∀ m ∈ M, m.toNat < 2 ^ n) :
    evLefts comb (2 ^ n) (annot (fun i => comb.getLsbD i.toNat) 0 P ++ tail) P.length M =
      some (annot (fun i => comb.getLsbD i.toNat) 0 (P ++ M) ++ tail) := by
  induction M generalizing P with
  | nil => simp [evLefts]
  | cons m ms ih =>
    have hm := hM m (List.mem_cons_self ..)
    unfold evLefts
    rw [evLeft_some hn P tail m hP hm]
    simp only [Option.bind_eq_bind, Option.bind_some]
    have := ih (P ++ [m]) (by
      intro x hx
      rcases List.mem_append.mp hx with h | h
      · exact hP x h
      · rw [List.mem_singleton.mp h]; exact hm) (fun x hx => hM x (List.mem_cons_of_mem _ hx))
    rw [List.length_append] at this
    simpa using this

end

theorem evRigts_some (A B C : RState) : evRigts (A ++ B ++ C) A.length B.length = some (A ++ C) := by
  induction B with
  | nil => simp [evRigts]
  | cons b bs ih =>
    simp only [List.length_cons]
    unfold evRigts evRigt
    rw [ass_true (by simp)]
    simp only [Option.bind_eq_bind, Option.bind_some, Option.pure_def]
    have : (A ++ b :: bs ++ C).eraseIdx A.length = A ++ bs ++ C := by
      rw [List.append_assoc, List.eraseIdx_append_of_length_le (le_refl _)]; simp
    rw [this]
    exact ih

theorem evVertex_some {comb : Bitmap.Mem} {n : Nat} (hn : n ≤ 10) (ms : List (BitVec 64)) (v : RVertex)
    (hms : ∀ m ∈ ms, m.toNat < 2 ^ n) (hv : VertexOk n ms v) :
    evVertex comb (2 ^ n) (annot (fun i => comb.getLsbD i.toNat) 0 ms) v =
      some (annot (fun i => comb.getLsbD i.toNat) 0 (stepMasks ms v)) := by
  obtain ⟨k, e, st⟩ := v
  obtain ⟨h1, h2, h3⟩ := hv
  simp only at h1 h2 h3
  obtain ⟨A, B, C, rfl, rfl, rfl⟩ : ∃ A B C, ms = A ++ B ++ C ∧ k = A.length ∧ e = B.length := by
    refine ⟨ms.take k, (ms.drop k).take e, ms.drop (k + e), ?_, ?_, ?_⟩
    · rw [List.append_assoc, ← List.drop_drop, List.take_append_drop, List.take_append_drop]
    · simp; omega
    · simp; omega
  have e1 : List.take B.length (List.drop A.length (A ++ B ++ C)) = B := by simp
  rw [e1] at h2
  have e2 : stepMasks (A ++ B ++ C) ⟨A.length, B.length, st⟩ = A ++ st ++ C := by
    unfold stepMasks
    have : List.take A.length (A ++ B ++ C) = A := by rw [List.append_assoc]; simp
    rw [this]
    congr 1
    rw [← List.length_append]; simp
  unfold evVertex
  rw [e2]
  simp only
  rw [annot_append, annot_append]
  have a1 := evRigts_some (annot (fun i => comb.getLsbD i.toNat) 0 A)
    (annot (fun i => comb.getLsbD i.toNat) (0 ^^^ xorAll A) B)
    (annot (fun i => comb.getLsbD i.toNat) (0 ^^^ xorAll (A ++ B)) C)
  rw [annot_length, annot_length] at a1
  rw [a1]
  simp only [Option.bind_eq_bind, Option.bind_some]
  rw [evLefts_some hn A st _ (fun x hx => hms x (by simp [hx])) h3]
  rw [annot_append _ _ (A ++ st), xorAll_append, xorAll_append, h2]

theorem stepMasks_mem {n : Nat} {ms : List (BitVec 64)} {v : RVertex} (hms : ∀ m ∈ ms, m.toNat < 2 ^ n)
    (hv : VertexOk n ms v) : ∀ m ∈ stepMasks ms v, m.toNat < 2 ^ n := by
  intro m hm
  unfold stepMasks at hm
  simp only [List.mem_append] at hm
  rcases hm with (hm | hm) | hm
  · exact hms m (List.mem_of_mem_take hm)
  · exact hv.2.2 m hm
  · exact hms m (List.mem_of_mem_drop hm)

theorem reduceRun_some {comb : Bitmap.Mem} {n : Nat} (hn : n ≤ 10) (vs : List RVertex) (ms : List (BitVec 64))
    (hms : ∀ m ∈ ms, m.toNat < 2 ^ n) (hv : RunOk n ms vs) :
    reduceRun comb (2 ^ n) (annot (fun i => comb.getLsbD i.toNat) 0 ms) vs =
      some (annot (fun i => comb.getLsbD i.toNat) 0 (runMasks ms vs)) := by
  induction vs generalizing ms with
  | nil => rfl
  | cons v vs ih =>
    unfold reduceRun
    rw [evVertex_some hn ms v hms hv.1]
    exact ih _ (stepMasks_mem hms hv.1) hv.2

theorem annot_get (f b l i) (h : i < l.length) :
    (annot f b l)[i]? = some ⟨l[i], b ^^^ xorAll (l.take i), f (b ^^^ xorAll (l.take i)) != f (b ^^^ xorAll (l.take (i + 1)))⟩ := by
  induction l generalizing b i with
  | nil => simp at h
  | cons m ms ih =>
    cases i with
    | zero => simp [annot, xorAll]
    | succ i =>
      simp only [List.length_cons, Nat.add_lt_add_iff_right] at h
      simp only [annot, List.getElem?_cons_succ]
      rw [ih _ _ h]
      simp [xorAll, BitVec.xor_assoc]

theorem annot_parity (f : BitVec 64 → Bool) (b l) :
    ((annot f b l).filter (·.keep)).length % 2 = (f b ^^ f (b ^^^ xorAll l)).toNat := by
  induction l generalizing b with
  | nil => simp [annot, xorAll]
  | cons m ms ih =>
    have h := ih (b ^^^ m)
    rw [annot, xorAll, ← BitVec.xor_assoc, List.filter_cons]
    generalize f (b ^^^ m ^^^ xorAll ms) = z at *
    generalize f (b ^^^ m) = y at *
    generalize f b = x at *
    cases x <;> cases y <;> cases z <;> simp at h ⊢ <;> omega

end Hob3l.Sweep
