import Verif.VChar.Spec
import Verif.Vec.Lemmas

/-
C41: growing strings.
-/

namespace Hob3l.VChar

open Hob3l.Matq Hob3l.Vec

theorem growLoop_ok (n : Nat) :
    ∀ k a : Nat, 0 < a → n ≤ a + k → ∃ b, growLoop k a n = some b ∧ n ≤ b ∧ a ≤ b := by
  intro k
  induction k with
  | zero =>
    intro a _ h2
    exact ⟨a, by simp [growLoop]; omega, by omega, Nat.le_refl _⟩
  | succ k ih =>
    intro a h1 h2
    by_cases h : a < n
    · obtain ⟨b, hb, hb1, hb2⟩ := ih (a * 2) (by omega) (by omega)
      refine ⟨b, ?_, hb1, by omega⟩
      simp only [growLoop, if_pos h]
      exact hb
    · exact ⟨a, by simp [growLoop, h], by omega, Nat.le_refl _⟩

theorem grow_ok (junk : Nat → Nat) (v : VChar) (n : Nat) :
    ∃ xs, grow junk v n = some ⟨v.mem ++ xs, v.size⟩ ∧ n ≤ (v.mem ++ xs).length ∧ (n ≤ v.mem.length → xs = []) := by
  unfold grow
  split
  · exact ⟨[], by simp, by simp; omega, fun _ => rfl⟩
  · have : 0 < (if v.mem.length < 4 then 4 else v.mem.length) := by split_ifs <;> omega
    obtain ⟨b, hb, h1, h2⟩ := growLoop_ok n n _ this (by omega)
    rw [hb]
    refine ⟨_, rfl, ?_, fun h => by omega⟩
    simp only [List.length_append, List.length_map, List.length_range]
    omega

theorem valid_le {v : VChar} (h : Valid v) : v.size ≤ v.mem.length ∧ (text v).length = v.size := by
  have : v.size ≤ v.mem.length := by
    rcases h with ⟨_, h⟩ | h
    · omega
    · by_contra hc
      rw [List.getElem?_eq_none (by omega)] at h
      cases h
  refine ⟨this, ?_⟩
  rw [text, List.length_take]; omega

/-- writing `xs` behind the contents, and a zero -/
theorem write_ok {mem xs : List Nat} {s : Nat} (h : s + xs.length + 1 ≤ mem.length) :
    ∃ m, put mem s xs = some m ∧ ∃ m', put m (s + xs.length) [0] = some m' ∧ m'.length = mem.length ∧
      m'.take (s + xs.length) = mem.take s ++ xs ∧ m'[s + xs.length]? = some 0 := by
  refine ⟨_, put_ok _ _ _ (by omega), ?_⟩
  have hl : (mem.take s ++ xs ++ mem.drop (s + xs.length)).length = mem.length := by
    simp only [List.length_append, List.length_take, List.length_drop]; omega
  have ht := take_put_grow mem xs s (by omega)
  refine ⟨_, put_ok _ _ _ (by rw [hl]; simp; omega), ?_, ?_, ?_⟩
  · simp only [List.length_append, List.length_take, List.length_drop, List.length_cons, List.length_nil]; omega
  · rw [List.append_assoc, List.take_append_of_le_length (by rw [List.length_take, hl]; omega), List.take_take,
      Nat.min_self, ht]
  · have : (List.take (s + xs.length) (mem.take s ++ xs ++ mem.drop (s + xs.length))).length = s + xs.length := by
      rw [List.length_take, hl]; omega
    rw [get3, this, if_neg (by omega), if_pos (by simp)]
    simp

/-- Appending an array. -/
theorem C41_append_arr (junk : Nat → Nat) {v : VChar} (hv : Valid v) (xs : List Nat) :
    ∃ w, appendArr junk v xs = some w ∧ Valid w ∧ text w = text v ++ xs := by
  obtain ⟨hle, hl⟩ := valid_le hv
  obtain ⟨ys, hg, hgl, _⟩ := grow_ok junk v (v.size + xs.length + 1)
  obtain ⟨m, h1, m', h2, h3, h4, h5⟩ := write_ok (mem := v.mem ++ ys) (xs := xs) (s := v.size) (by omega)
  unfold appendArr
  simp only [hg, h1, h2, Option.bind_eq_bind, Option.bind_some]
  refine ⟨_, rfl, .inr h5, ?_⟩
  show m'.take (v.size + xs.length) = _
  rw [h4, List.take_append_of_le_length hle, text]

example : appendArr (fun _ => 9) ⟨[65, 0, 9, 9], 1⟩ [66, 67] = some ⟨[65, 66, 67, 0], 3⟩ := by decide

/-- Appending a character, another string, a C string. -/
theorem C41_append (junk : Nat → Nat) {v u : VChar} (hv : Valid v) (c : Nat) (pre post : List Nat) (hp : 0 ∉ pre) :
    (∃ w, push junk v c = some w ∧ Valid w ∧ text w = text v ++ [c]) ∧
    (∃ w, append junk v u = some w ∧ Valid w ∧ text w = text v ++ text u) ∧
    (∃ w, appendStr junk v (pre ++ 0 :: post) = some w ∧ Valid w ∧ text w = text v ++ pre) := by
  refine ⟨C41_append_arr junk hv [c], C41_append_arr junk hv _, ?_⟩
  have : cString (pre ++ 0 :: post) = some pre := by
    induction pre with
    | nil => rfl
    | cons a pre ih =>
      simp only [List.mem_cons, not_or] at hp
      rw [List.cons_append, cString, if_neg (Ne.symm hp.1), ih hp.2]
      rfl
  obtain ⟨w, h⟩ := C41_append_arr junk hv pre
  refine ⟨w, ?_, h.2⟩
  simp only [appendStr, this, Option.bind_eq_bind, Option.bind_some]
  exact h.1

example : appendStr (fun _ => 9) ⟨[65, 0, 9, 9], 1⟩ [66, 0, 67] = some ⟨[65, 66, 0, 9], 2⟩ := by decide

/-- Formatted printing appends the whole output; the loop ends after at most two rounds. -/
theorem C41_print (junk : Nat → Nat) {v : VChar} (hv : Valid v) (out : List Nat) :
    ∃ w, print junk v out = some w ∧ Valid w ∧ text w = text v ++ out := by
  obtain ⟨hle, hl⟩ := valid_le hv
  obtain ⟨ys, hg, hgl, hgk⟩ := grow_ok junk v 1
  -- there is space for at least one character
  have hsz : v.size < (v.mem ++ ys).length := by
    rcases hv with ⟨h1, h2⟩ | h
    · omega
    · have : v.size < v.mem.length := by
        by_contra hc
        rw [List.getElem?_eq_none (by omega)] at h
        cases h
      rw [List.length_append]; omega
  have htx : (v.mem ++ ys).take v.size = text v := by rw [List.take_append_of_le_length hle, text]
  unfold print
  simp only [hg, Option.bind_eq_bind, Option.bind_some]
  generalize v.mem ++ ys = mem at *
  -- a round with enough space
  have fin : ∀ (k : Nat) (mem : List Nat), mem.take v.size = text v → v.size + out.length < mem.length →
      ∃ w, printLoop junk out (k + 1) ⟨mem, v.size⟩ = some w ∧ Valid w ∧ text w = text v ++ out := by
    intro k mem ht hs
    have e : (if mem.length - v.size = 0 then [] else out.take (mem.length - v.size - 1) ++ [0]) = out ++ [0] := by
      rw [if_neg (by omega), List.take_of_length_le (by omega)]
    simp only [printLoop, e, Option.bind_eq_bind]
    rw [put_ok _ _ _ (by simp; omega), Option.bind_some, if_pos (by omega),
      show ass (v.size + out.length < mem.length) = some () by simp [ass, hs], Option.bind_some]
    have hl2 : (mem.take v.size).length = v.size := by rw [List.length_take]; omega
    refine ⟨_, rfl, .inr ?_, ?_⟩
    · show (mem.take v.size ++ (out ++ [0]) ++ _)[v.size + out.length]? = some 0
      rw [get3, hl2, if_neg (by omega), if_pos (by simp)]
      rw [show v.size + out.length - v.size = out.length by omega]
      simp
    · show (mem.take v.size ++ (out ++ [0]) ++ _).take (v.size + out.length) = _
      rw [← List.append_assoc, List.append_assoc, List.take_append_of_le_length (by rw [List.length_append]; omega),
        List.take_of_length_le (by rw [List.length_append]; omega), ht]
  by_cases hs : v.size + out.length < mem.length
  · exact fin 1 mem htx hs
  · rw [printLoop]
    have e : (if mem.length - v.size = 0 then [] else out.take (mem.length - v.size - 1) ++ [0]) =
        out.take (mem.length - v.size - 1) ++ [0] := by rw [if_neg (by omega)]
    simp only [e, Option.bind_eq_bind]
    have hlen : (out.take (mem.length - v.size - 1) ++ [0]).length = mem.length - v.size := by
      rw [List.length_append, List.length_take]; simp; omega
    rw [put_ok _ _ _ (by omega), Option.bind_some, if_neg (by omega),
      show ass (out.length > 0) = some () by unfold ass; rw [if_pos (by omega)], Option.bind_some]
    obtain ⟨zs, hg2, hgl2, _⟩ := grow_ok junk ⟨mem.take v.size ++ (out.take (mem.length - v.size - 1) ++ [0]) ++
      mem.drop (v.size + (out.take (mem.length - v.size - 1) ++ [0]).length), v.size⟩ (v.size + out.length + 1)
    rw [hg2, Option.bind_some]
    refine fin 0 _ ?_ (by simp only [] at hgl2 ⊢; omega)
    have hl2 : (mem.take v.size).length = v.size := by rw [List.length_take]; omega
    simp only [List.append_assoc]
    rw [List.take_append_of_le_length (by omega), List.take_take, Nat.min_self, htx]

example : print (fun _ => 9) ⟨[65, 66, 67, 0], 3⟩ [68, 69] = some ⟨[65, 66, 67, 68, 69, 0, 9, 9], 5⟩ := by decide

/-- Clearing and removing the last character. -/
theorem C41_shrink {v : VChar} (hv : Valid v) :
    (∃ w, clear v = some w ∧ Valid w ∧ text w = []) ∧
    (∀ L c, text v = L ++ [c] → ∃ w, pop v = some (c, w) ∧ Valid w ∧ text w = L) := by
  obtain ⟨hle, hl⟩ := valid_le hv
  constructor
  · unfold clear
    split
    · rename_i h
      exact ⟨v, rfl, hv, by rw [text, h]; rfl⟩
    · rw [put_ok _ _ _ (by simp; omega)]
      exact ⟨_, rfl, .inr (by simp), by simp [text]⟩
  · intro L c h
    have hs : v.size = L.length + 1 := by rw [← hl, h]; simp
    have hc : v.mem[v.size - 1]? = some c := by
      have : (text v)[v.size - 1]? = v.mem[v.size - 1]? := by
        rw [text, List.getElem?_take_of_lt (by omega)]
      rw [← this, h, show v.size - 1 = L.length by omega]
      simp
    unfold pop
    rw [show ass (v.size > 0) = some () by simp [ass]; omega]
    simp only [Option.bind_eq_bind, Option.bind_some, hc]
    rw [put_ok _ _ _ (by simp; omega), Option.bind_some]
    have hl2 : (v.mem.take (v.size - 1)).length = v.size - 1 := by rw [List.length_take]; omega
    refine ⟨_, rfl, .inr ?_, ?_⟩
    · show (v.mem.take (v.size - 1) ++ [0] ++ _)[v.size - 1]? = some 0
      rw [get3, hl2, if_neg (by omega), if_pos (by simp)]
      simp
    · show (v.mem.take (v.size - 1) ++ [0] ++ _).take (v.size - 1) = L
      rw [List.append_assoc, List.take_append_of_le_length (by omega), List.take_take, Nat.min_self]
      have : L = (text v).take (v.size - 1) := by
        rw [h, show v.size - 1 = L.length by omega]; simp
      rw [this, text, List.take_take, Nat.min_eq_left (by omega)]

example : pop ⟨[65, 66, 0, 9], 2⟩ = some (66, ⟨[65, 0, 0, 9], 1⟩) := by decide

theorem cString_ok {L : List Nat} : ∀ {i : Nat}, L[i]? = some 0 → cString L = some ((L.take i).takeWhile (· ≠ 0)) := by
  induction L with
  | nil => intro i h; simp at h
  | cons c L ih =>
    intro i h
    rw [cString]
    by_cases hc : c = 0
    · rw [if_pos hc]
      cases i with
      | zero => simp
      | succ i => simp [hc]
    · rw [if_neg hc]
      cases i with
      | zero => simp at h; exact absurd h hc
      | succ i =>
        rw [ih (i := i) (by simpa using h), List.take_succ_cons, List.takeWhile_cons, if_pos (by simpa using hc)]
        rfl

/-- Reading the result as a C string stays inside of the allocated memory and gives the contents up to the first zero, so all
of it if it contains none. -/
theorem C41_cstr (junk : Nat → Nat) {v : VChar} (hv : Valid v) :
    ∃ w p, cstr junk v = some (w, p) ∧ Valid w ∧ text w = text v ∧
      cString p = some ((text v).takeWhile (· ≠ 0)) ∧ (0 ∉ text v → cString p = some (text v)) := by
  have fin : ∀ s : List Nat, 0 ∉ s → s.takeWhile (· ≠ 0) = s := by
    intro s hs
    induction s with
    | nil => rfl
    | cons c s ih =>
      simp only [List.mem_cons, not_or] at hs
      rw [List.takeWhile_cons, if_pos (by simpa using Ne.symm hs.1), ih hs.2]
  unfold cstr
  split
  · rename_i h0
    obtain ⟨w, h1, h2, h3⟩ := C41_append_arr junk hv [0]
    have ht : text v = [] := by rw [text, h0]; rfl
    rw [ht, List.nil_append] at h3
    have hw : w.mem[0]? = some 0 := by
      have : (text w)[0]? = some 0 := by rw [h3]; rfl
      rw [text] at this
      by_cases hs : 0 < w.size
      · rwa [List.getElem?_take_of_lt hs] at this
      · have : w.size = 0 := by omega
        simp_all
    simp only [push, h1, Option.bind_eq_bind, Option.bind_some]
    refine ⟨_, _, rfl, .inr hw, by rw [ht]; simp [text], ?_, ?_⟩
    · rw [cString_ok hw, ht]; rfl
    · intro _
      rw [cString_ok hw, ht]; rfl
  · rename_i h0
    have hz : v.mem[v.size]? = some 0 := by
      rcases hv with ⟨_, h⟩ | h
      · exact absurd h h0
      · exact h
    refine ⟨v, v.mem, rfl, hv, rfl, cString_ok hz, ?_⟩
    intro hn
    rw [cString_ok hz]
    exact congrArg some (fin _ hn)

example : cstr (fun _ => 9) init = some (⟨[0, 0, 9, 9], 0⟩, [0, 0, 9, 9]) := by decide

/-- the operations on a string -/
inductive Op where
  | append (xs : List Nat)
  | print (out : List Nat)
  | clear
  | cstr

def step (junk : Nat → Nat) (v : VChar) : Op → Option VChar
  | .append xs => appendArr junk v xs
  | .print out => print junk v out
  | .clear => clear v
  | .cstr => (cstr junk v).map (·.1)

/-- the text after the operations -/
def stepText (t : List Nat) : Op → List Nat
  | .append xs => t ++ xs
  | .print out => t ++ out
  | .clear => []
  | .cstr => t

/-- After any sequence of operations the string holds exactly what was appended since it was last cleared. -/
theorem C41_history (junk : Nat → Nat) (ops : List Op) :
    ∃ w, ops.foldlM (step junk) init = some w ∧ Valid w ∧ text w = ops.foldl stepText [] := by
  have key : ∀ (ops : List Op) (v : VChar), Valid v →
      ∃ w, ops.foldlM (step junk) v = some w ∧ Valid w ∧ text w = ops.foldl stepText (text v) := by
    intro ops
    induction ops with
    | nil => intro v hv; exact ⟨v, rfl, hv, rfl⟩
    | cons o ops ih =>
      intro v hv
      have h1 : ∃ w, step junk v o = some w ∧ Valid w ∧ text w = stepText (text v) o := by
        cases o with
        | append xs => exact C41_append_arr junk hv xs
        | print out => exact C41_print junk hv out
        | clear => exact (C41_shrink hv).1
        | cstr =>
          obtain ⟨w, p, h, h2, h3, _⟩ := C41_cstr junk hv
          exact ⟨w, by simp [step, h], h2, h3⟩
      obtain ⟨u, g1, g2, g3⟩ := h1
      obtain ⟨w, k1, k2, k3⟩ := ih u g2
      refine ⟨w, ?_, k2, ?_⟩
      · rw [List.foldlM_cons, g1]; exact k1
      · rw [List.foldl_cons, ← g3]; exact k3
  obtain ⟨w, h⟩ := key ops init (.inl ⟨rfl, rfl⟩)
  exact ⟨w, h⟩

/-- Appending a string to itself is only safe while no memory has to be allocated: otherwise freed memory is read. -/
theorem C41_append_self_wrong (junk : Nat → Nat) {v : VChar} (hv : Valid v) :
    (appendSelf junk v).isSome ↔ v.size + v.size + 1 ≤ v.mem.length := by
  obtain ⟨hle, hl⟩ := valid_le hv
  obtain ⟨ys, hg, hgl, hk⟩ := grow_ok junk v (v.size + v.size + 1)
  unfold appendSelf appendSelfArr
  simp only [hg, Option.bind_eq_bind, Option.bind_some]
  by_cases h : v.size + v.size + 1 ≤ v.mem.length
  · have := hk h
    subst this
    rw [List.append_nil, show ass (v.mem.length = v.mem.length) = some () by simp [ass], Option.bind_some,
      get_ok _ _ _ (by omega), Option.bind_some]
    have hl2 : ((v.mem.drop 0).take v.size).length = v.size := by simp; omega
    obtain ⟨m, h1, m', h2, _⟩ := write_ok (mem := v.mem) (xs := (v.mem.drop 0).take v.size) (s := v.size) (by omega)
    rw [hl2] at h2
    simp only [h1, h2, Option.bind_some]
    simp [h]
  · rw [show ass ((v.mem ++ ys).length = v.mem.length) = none by simp [ass]; intro e; simp [e] at hgl; omega,
      Option.bind_none]
    simp [h]

example : appendSelf (fun _ => 9) ⟨[65, 66, 0, 9], 2⟩ = none := by decide
example : appendSelf (fun _ => 9) ⟨[65, 66, 0, 9, 9], 2⟩ = some ⟨[65, 66, 65, 66, 0], 4⟩ := by decide

end Hob3l.VChar
