import Verif.Vec.Lemmas

/-
C36: vector operations are the list operations.
C37: binary search.
-/

namespace Hob3l.Vec

open Hob3l.Matq

variable {α : Type}

/-! ### C36 -/

/-- an environment for the examples: 8 is the zero element, new cells contain 9 -/
def exEnv : Env Nat := ⟨8, fun _ => 9, 1000⟩

/-- Inserting zeroed elements. -/
theorem C36_inflate {env : Env α} {v : Vec α} {pos n : Nat} (hv : Valid v) (hp : pos ≤ v.size)
    (hf : env.Fits (v.size + n)) :
    ∃ w, inflate env v pos n = some w ∧ Valid w ∧
      elems w = (elems v).take pos ++ List.replicate n env.zero ++ (elems v).drop pos := by
  unfold Valid at hv
  unfold inflate
  rw [show ass (pos ≤ v.size) = some () by simp [ass, hp]]
  simp only [Option.bind_eq_bind, Option.bind_some]
  by_cases hn : n = 0
  · subst hn
    exact ⟨v, by simp, hv, by simp⟩
  · rw [if_neg hn]
    obtain ⟨xs, hg, hgl⟩ := grow_ok hf v
    rw [hg]
    simp only [Option.bind_some]
    have hl : ((v.mem ++ xs).drop pos).length = (v.mem ++ xs).length - pos := by simp
    rw [memmove_ok _ _ _ _ (by omega) (by omega)]
    simp only [Option.bind_some]
    have hlen : ((v.mem ++ xs).take (pos + n) ++ ((v.mem ++ xs).drop pos).take (v.size - pos) ++
      (v.mem ++ xs).drop (pos + n + (v.size - pos))).length = (v.mem ++ xs).length := by
      rw [List.length_append, List.length_append, List.length_take, List.length_take, List.length_drop, List.length_drop]
      omega
    rw [put_ok _ _ _ (by rw [hlen]; simp only [List.length_replicate]; omega)]
    refine ⟨_, rfl, ?_, ?_⟩
    · simp only [Valid, List.length_append, List.length_take, List.length_drop, List.length_replicate] at *
      omega
    · rw [elems]
      simp only []
      rw [take_put _ _ _ _ (by simp; omega) (by rw [hlen]; omega)]
      have hA : ((v.mem ++ xs).take (pos + n) ++ ((v.mem ++ xs).drop pos).take (v.size - pos) ++
          (v.mem ++ xs).drop (pos + n + (v.size - pos))).take (v.size + n) =
          (v.mem ++ xs).take (pos + n) ++ ((v.mem ++ xs).drop pos).take (v.size - pos) := by
        have : ((v.mem ++ xs).take (pos + n) ++ ((v.mem ++ xs).drop pos).take (v.size - pos)).length = v.size + n := by
          rw [List.length_append, List.length_take, List.length_take, List.length_drop]
          omega
        rw [List.take_append_of_le_length (by omega), List.take_of_length_le (by omega)]
      rw [hA]
      have hB : ((v.mem ++ xs).take (pos + n)).length = pos + n := by
        rw [List.length_take]; omega
      rw [List.take_append_of_le_length (by omega), List.take_take, List.length_replicate,
        List.drop_append_of_le_length (by omega), List.drop_of_length_le (by omega), List.nil_append,
        List.drop_append_of_le_length (by omega), Nat.min_eq_left (by omega),
        List.take_append_of_le_length (by omega)]
      have hC : (v.mem.drop pos ++ xs).take (v.size - pos) = (elems v).drop pos := by
        rw [List.take_append_of_le_length (by rw [List.length_drop]; omega), elems, List.drop_take]
      rw [hC, elems, List.take_take, Nat.min_eq_left hp]

example : inflate exEnv ⟨[1, 2, 3, 9], 3⟩ 1 2 = some ⟨[1, 8, 8, 2, 3, 9, 9, 9], 5⟩ := by decide

/-- Growing with zeroed elements. -/
theorem growZero_ok {env : Env α} {v : Vec α} {n : Nat} (hv : Valid v) (hn : v.size ≤ n) (hf : env.Fits n) :
    ∃ w, growZero env v n = some w ∧ Valid w ∧ elems w = elems v ++ List.replicate (n - v.size) env.zero := by
  unfold Valid at hv
  unfold growZero
  obtain ⟨xs, hg, hgl⟩ := grow_ok hf v
  rw [hg]
  simp only [Option.bind_eq_bind, Option.bind_some]
  rw [put_ok _ _ _ (by rw [List.length_replicate]; omega)]
  refine ⟨_, rfl, ?_, ?_⟩
  · simp only [Valid, List.length_append, List.length_take, List.length_drop, List.length_replicate] at *
    omega
  · rw [elems]
    simp only []
    have := take_put_grow (v.mem ++ xs) (List.replicate (n - v.size) env.zero) v.size
      (by rw [List.length_replicate]; omega)
    have e : v.size + (List.replicate (n - v.size) env.zero).length = n := by rw [List.length_replicate]; omega
    rw [e] at this
    rw [e, this, List.take_append_of_le_length hv, elems]

/-- Setting the size truncates the list or appends zeroed elements. -/
theorem C36_set_size {env : Env α} {v : Vec α} {n : Nat} (hv : Valid v) (hf : env.Fits n) :
    ∃ w, setSize env v n = some w ∧ Valid w ∧
      elems w = (elems v).take n ++ List.replicate (n - v.size) env.zero := by
  have hl := elems_length hv
  unfold setSize
  split
  · obtain ⟨w, h1, h2, h3⟩ := growZero_ok hv (by omega) hf
    exact ⟨w, h1, h2, by rw [h3, List.take_of_length_le (by omega)]⟩
  · refine ⟨_, rfl, ?_, ?_⟩
    · unfold Valid at *; simp only []; omega
    · rw [show n - v.size = 0 by omega]
      simp only [elems, List.take_take, List.replicate_zero, List.append_nil]
      rw [Nat.min_eq_left (by omega)]

example : setSize exEnv ⟨[1, 2, 3, 9], 3⟩ 5 = some ⟨[1, 2, 3, 8, 8, 9, 9, 9], 5⟩ := by decide

/-- Ensuring a minimal size appends zeroed elements if needed. -/
theorem C36_ensure_size {env : Env α} {v : Vec α} {n : Nat} (hv : Valid v) (hf : env.Fits n) :
    ∃ w, ensureSize env v n = some w ∧ Valid w ∧
      elems w = elems v ++ List.replicate (n - v.size) env.zero := by
  unfold ensureSize
  split
  · exact growZero_ok hv (by omega) hf
  · exact ⟨v, rfl, hv, by rw [show n - v.size = 0 by omega]; simp⟩

example : ensureSize exEnv ⟨[1, 2, 3, 9], 3⟩ 2 = some ⟨[1, 2, 3, 9], 3⟩ := by decide

/-- Clearing; `pre` elements are then available without growing. -/
theorem C36_clear {env : Env α} {v : Vec α} {pre : Nat} (hf : env.Fits pre) :
    ∃ w, clear env v pre = some w ∧ Valid w ∧ elems w = [] ∧ pre ≤ w.mem.length := by
  obtain ⟨xs, hg, hgl⟩ := grow_ok hf v
  unfold clear
  rw [hg]
  exact ⟨_, rfl, Nat.zero_le _, by simp [elems], hgl⟩

example : clear exEnv ⟨[1, 2, 3, 9], 3⟩ 2 = some ⟨[1, 2, 3, 9], 0⟩ := by decide

/-- the elements denoted by a source with respect to the vector before the operation -/
def Src.elems (src : Src α) (v : Vec α) (n : Nat) : List α :=
  match src with
  | .ext xs _ => xs.take n
  | .self pos => ((Vec.elems v).drop pos).take n

/-- the source consists of `n` elements, and if it is another array, it does not start at the end of the vector -/
def Src.Ok (src : Src α) (v : Vec α) (n : Nat) : Prop :=
  match src with
  | .ext xs adjacent => n ≤ xs.length ∧ adjacent = false
  | .self pos => pos + n ≤ v.size

theorem aliasAss_ok {v : Vec α} {src : Src α} {n : Nat} (h : src.Ok v n) : aliasAss v src n = some () := by
  cases src with
  | ext xs adj =>
    obtain ⟨_, h2⟩ := h
    subst h2
    simp [aliasAss, aliased]
  | self pos =>
    have h' : pos + n ≤ v.size := h
    unfold aliasAss aliased
    by_cases hc : v.mem.length > 0 ∧ pos ≤ v.size
    · simp [hc, ass, h']
    · simp [hc]

theorem read_ok {v : Vec α} {src : Src α} {n : Nat} (hv : Valid v) (h : src.Ok v n) (xs : List α) :
    src.read (v.mem ++ xs) n = some (src.elems v n) ∧ (src.elems v n).length = n := by
  unfold Valid at hv
  cases src with
  | ext ys adj =>
    have h1 : n ≤ ys.length := h.1
    constructor
    · simp only [Src.read, Src.elems]
      rw [get_ok _ _ _ (by omega), List.drop_zero]
    · simp only [Src.elems, List.length_take]; omega
  | self pos =>
    have h1 : pos + n ≤ v.size := h
    constructor
    · simp only [Src.read, Src.elems]
      rw [get_ok _ _ _ (by rw [List.length_append]; omega), elems, List.drop_append_of_le_length (by omega),
        List.take_append_of_le_length (by rw [List.length_drop]; omega), List.drop_take, List.take_take,
        Nat.min_eq_left (by omega)]
    · simp only [Src.elems, elems, List.length_take, List.length_drop]; omega

/-- Overwriting (and extending) a part of a vector with the elements of an array or of the vector itself, where the latter
means its contents before the operation. -/
theorem C36_copy_arr {env : Env α} {v : Vec α} {pos n : Nat} {src : Src α} (hv : Valid v) (hp : pos ≤ v.size)
    (hs : src.Ok v n) (hf : env.Fits (pos + n)) :
    ∃ w, copyArr env v pos src n = some w ∧ Valid w ∧
      elems w = (elems v).take pos ++ src.elems v n ++ (elems v).drop (pos + n) := by
  have hl := elems_length hv
  have hv' := hv
  unfold Valid at hv'
  unfold copyArr
  rw [show ass (pos ≤ v.size) = some () by simp [ass, hp]]
  simp only [Option.bind_eq_bind, Option.bind_some]
  by_cases hn : n = 0
  · subst hn
    refine ⟨v, by simp, hv, ?_⟩
    have : src.elems v 0 = [] := by cases src <;> simp [Src.elems]
    rw [this]; simp
  · rw [if_neg hn]
    unfold copyGrow
    by_cases hgr : pos + n > v.size
    · rw [if_pos hgr]
      obtain ⟨ys, hg, hgl⟩ := grow_ok hf v
      obtain ⟨r1, r2⟩ := read_ok hv hs ys
      rw [hg]
      simp only [Option.bind_eq_bind, Option.bind_some, aliasAss_ok hs, r1]
      rw [put_ok _ _ _ (by omega)]
      refine ⟨_, rfl, ?_, ?_⟩
      · simp only [Valid, List.length_append, List.length_take, List.length_drop] at *
        omega
      · rw [elems]
        simp only []
        have e := take_put_grow (v.mem ++ ys) (src.elems v n) pos (by omega)
        rw [r2] at e ⊢
        rw [e, List.drop_of_length_le (by omega), List.append_nil, List.take_append_of_le_length (by omega), elems,
          List.take_take, Nat.min_eq_left hp]
    · rw [if_neg hgr]
      obtain ⟨r1, r2⟩ := read_ok hv hs []
      rw [List.append_nil] at r1
      simp only [Option.bind_some, r1]
      rw [put_ok _ _ _ (by omega)]
      refine ⟨_, rfl, ?_, ?_⟩
      · simp only [Valid, List.length_append, List.length_take, List.length_drop] at *
        omega
      · rw [elems]
        simp only []
        rw [take_put _ _ _ _ (by omega) hv', r2, elems]

example : copyArr exEnv ⟨[1, 2, 3, 4], 4⟩ 3 (.self 1) 3 = some ⟨[1, 2, 3, 2, 3, 4, 9, 9], 6⟩ := by decide

/-- Copying from another vector; the count is reduced to what is available. -/
theorem C36_copy {env : Env α} {v u : Vec α} {pos upos n : Nat} (hv : Valid v) (hu : Valid u) (hp : pos ≤ v.size)
    (hup : upos ≤ u.size) (hf : env.Fits (pos + min n (u.size - upos))) :
    ∃ w, copy env v pos u upos n = some w ∧ Valid w ∧
      elems w = (elems v).take pos ++ ((elems u).drop upos).take n ++ (elems v).drop (pos + min n (u.size - upos)) := by
  unfold Valid at hu
  unfold copy
  rw [show ass (upos ≤ u.size) = some () by simp [ass, hup]]
  simp only [Option.bind_eq_bind, Option.bind_some]
  obtain ⟨w, h1, h2, h3⟩ := C36_copy_arr (src := .ext (u.mem.drop upos) false) (n := min n (u.size - upos)) hv hp
    ⟨by rw [List.length_drop]; omega, rfl⟩ hf
  refine ⟨w, h1, h2, ?_⟩
  rw [h3]
  simp only [Src.elems]
  have : ((elems u).drop upos).take n = (u.mem.drop upos).take (min n (u.size - upos)) := by
    rw [elems, List.drop_take, List.take_take]
  rw [this]

example : copy exEnv ⟨[1, 2, 3, 4], 4⟩ 1 ⟨[5, 6, 7], 3⟩ 1 100 = some ⟨[1, 6, 7, 4], 4⟩ := by decide

/-- Copying from the vector itself uses its old contents; the count is reduced to what is available. -/
theorem C36_copy_self {env : Env α} {v : Vec α} {pos upos n : Nat} (hv : Valid v) (hp : pos ≤ v.size)
    (hup : upos ≤ v.size) (hf : env.Fits (pos + min n (v.size - upos))) :
    ∃ w, copySelf env v pos upos n = some w ∧ Valid w ∧
      elems w = (elems v).take pos ++ ((elems v).drop upos).take n ++ (elems v).drop (pos + min n (v.size - upos)) := by
  unfold copySelf
  rw [show ass (upos ≤ v.size) = some () by simp [ass, hup]]
  simp only [Option.bind_eq_bind, Option.bind_some]
  obtain ⟨w, h1, h2, h3⟩ := C36_copy_arr (src := .self upos) (n := min n (v.size - upos)) hv hp
    (show upos + min n (v.size - upos) ≤ v.size by omega) hf
  refine ⟨w, h1, h2, ?_⟩
  have hl : ((elems v).drop upos).length = v.size - upos := by rw [List.length_drop, elems_length hv]
  rw [h3]
  simp only [Src.elems]
  have : ((elems v).drop upos).take n = ((elems v).drop upos).take (min n (v.size - upos)) := by
    apply List.take_eq_take_iff.2
    omega
  rw [this]

example : copySelf exEnv ⟨[1, 2, 3, 4], 4⟩ 4 0 100 = some ⟨[1, 2, 3, 4, 1, 2, 3, 4], 8⟩ := by decide

/-- overwriting a gap -/
theorem gap {A B C X : List α} {pos n : Nat} (hA : A.length = pos) (hB : B.length = n) :
    (A ++ B ++ C).take pos ++ X ++ (A ++ B ++ C).drop (pos + n) = A ++ X ++ C := by
  subst hA hB
  rw [List.append_assoc A B C, List.take_left' rfl, ← List.append_assoc A B C, List.drop_left' (by simp)]

/-- Inserting the elements of another array.  (What is missing for C36: the array must not start at the end of the
vector, see `C36_adjacent_wrong`.) -/
theorem C36_insert_partial {env : Env α} {v : Vec α} {pos n : Nat} {xs : List α} (hv : Valid v) (hp : pos ≤ v.size)
    (hn : n ≤ xs.length) (hf : env.Fits (v.size + n)) :
    ∃ w, insertArr env v pos (.ext xs false) n = some w ∧ Valid w ∧
      elems w = (elems v).take pos ++ xs.take n ++ (elems v).drop pos := by
  have hl := elems_length hv
  unfold insertArr
  by_cases h0 : n = 0
  · subst h0
    exact ⟨v, by simp, hv, by simp⟩
  · rw [if_neg h0]
    have ha : aliased v (.ext xs false) = none := by simp [aliased]
    unfold insertBranch
    rw [ha]
    obtain ⟨w, h1, h2, h3⟩ := C36_inflate hv hp hf
    simp only [h1, Option.bind_eq_bind, Option.bind_some]
    have hw : w.size = v.size + n := by
      rw [← elems_length h2, h3]; simp; omega
    obtain ⟨u, g1, g2, g3⟩ := C36_copy_arr (env := env) (v := w) (pos := pos) (src := .ext xs false) (n := n) h2
      (by omega) ⟨hn, rfl⟩ ⟨by have := hf.1; omega, hf.2⟩
    refine ⟨u, g1, g2, ?_⟩
    rw [g3, h3, gap (by rw [List.length_take]; omega) (by simp)]
    rfl

example : insertArr exEnv ⟨[1, 2, 3, 9], 3⟩ 1 (.ext [5, 6, 7] false) 2 = some ⟨[1, 5, 6, 2, 3, 9, 9, 9], 5⟩ := by decide

/-- Inserting a part of the vector into itself, when that part lies completely before the insertion point, or starts at
least its length behind it.  (What is missing for C36: the other positions, where the operation fails, see
`C36_insert_self_wrong`.) -/
theorem C36_insert_self_partial {env : Env α} {v : Vec α} {pos src n : Nat} (hv : Valid v) (hp : pos ≤ v.size)
    (hs : src + n ≤ v.size) (hf : env.Fits (v.size + n)) (hd : src + n ≤ pos ∨ pos + n ≤ src) :
    ∃ w, insertArr env v pos (.self src) n = some w ∧ Valid w ∧
      elems w = (elems v).take pos ++ ((elems v).drop src).take n ++ (elems v).drop pos := by
  have hl := elems_length hv
  have hv' := hv
  unfold Valid at hv'
  unfold insertArr
  by_cases h0 : n = 0
  · subst h0
    exact ⟨v, by simp, hv, by simp⟩
  · rw [if_neg h0]
    have ha : aliased v (.self src) = some src := by
      simp only [aliased]
      rw [if_pos (by omega)]
    unfold insertBranch
    rw [ha]
    obtain ⟨w, h1, h2, h3⟩ := C36_inflate hv hp hf
    simp only [h1, Option.bind_eq_bind, Option.bind_some, show ass (src + n ≤ v.size) = some () by simp [ass, hs]]
    have hw : w.size = v.size + n := by
      rw [← elems_length h2, h3]; simp; omega
    have hA : ((elems v).take pos).length = pos := by rw [List.length_take]; omega
    have hf' : env.Fits (pos + n) := ⟨by have := hf.1; omega, hf.2⟩
    unfold insertSelf
    by_cases hc : src + n ≤ pos
    · rw [if_pos hc]
      obtain ⟨u, g1, g2, g3⟩ := C36_copy_self (env := env) (v := w) (pos := pos) (upos := src) (n := n) h2
        (by omega) (by omega) (by rw [Nat.min_eq_left (by omega)]; exact hf')
      refine ⟨u, g1, g2, ?_⟩
      rw [g3, Nat.min_eq_left (by omega), h3, gap hA (by simp)]
      congr 2
      rw [List.append_assoc, List.drop_append_of_le_length (by omega),
        List.take_append_of_le_length (by rw [List.length_drop]; omega), List.drop_take, List.take_take,
        Nat.min_eq_left (by omega)]
    · rw [if_neg hc]
      have hc2 : pos + n ≤ src := by omega
      rw [if_pos hc2]
      obtain ⟨u, g1, g2, g3⟩ := C36_copy_self (env := env) (v := w) (pos := pos) (upos := src + n) (n := n) h2
        (by omega) (by omega) (by rw [Nat.min_eq_left (by omega)]; exact hf')
      refine ⟨u, g1, g2, ?_⟩
      rw [g3, Nat.min_eq_left (by omega), h3, gap hA (by simp)]
      congr 2
      rw [List.drop_append, List.drop_of_length_le (by simp; omega), List.nil_append, List.drop_drop]
      congr 2
      rw [List.length_append, hA, List.length_replicate]
      omega

example : insertArr exEnv ⟨[1, 2, 3, 4, 5], 5⟩ 1 (.self 3) 2 = some ⟨[1, 4, 5, 2, 3, 4, 5, 9, 9, 9], 7⟩ := by decide

/-- C36 does not hold when the inserted part overlaps the insertion point or starts less than its length behind it: an
assertion fails for every such call.  (The comment in the code calls the first case "tricky": its two copies would be
correct, but the assertion before the second one can never be true.) -/
theorem C36_insert_self_wrong {env : Env α} {v : Vec α} {pos src n : Nat} (hs : src + n ≤ v.size)
    (hn : 0 < n) (h1 : pos < src + n) (h2 : src < pos + n) (hv : Valid v) :
    insertArr env v pos (.self src) n = none := by
  unfold Valid at hv
  unfold insertArr
  rw [if_neg (by omega)]
  have ha : aliased v (.self src) = some src := by
    simp only [aliased]
    rw [if_pos (by omega)]
  unfold insertBranch
  rw [ha]
  simp only [Option.bind_eq_bind, Option.bind_some, show ass (src + n ≤ v.size) = some () by simp [ass, hs]]
  cases inflate env v pos n with
  | none => rfl
  | some w =>
    simp only [Option.bind_some]
    unfold insertSelf
    rw [if_neg (by omega), if_neg (by omega)]
    by_cases h : src < pos
    · have e3 : ass (pos + n < src + n) = none := by simp [ass]; omega
      simp only [Option.bind_eq_bind, show ass (src < pos) = some () by simp [ass, h], Option.bind_some, e3,
        Option.bind_none, show ass (pos - src < n) = some () by simp [ass]; omega]
      cases copySelf env w pos src (pos - src) <;> rfl
    · simp [ass, h]

example : insertArr exEnv ⟨[1, 2, 3, 4], 4⟩ 1 (.self 0) 2 = none := by decide
example : insertArr exEnv ⟨[1, 2, 3, 4], 4⟩ 1 (.self 1) 2 = none := by decide

/-- C36 does not hold for another array that starts at the address where the used part of the vector ends (possible with
adjacent allocations): it is taken for a part of the vector and an assertion fails. -/
theorem C36_adjacent_wrong {env : Env α} {v : Vec α} {pos n : Nat} {xs : List α} (hn : 0 < n)
    (hm : 0 < v.mem.length) : insertArr env v pos (.ext xs true) n = none := by
  unfold insertArr
  rw [if_neg (by omega)]
  have ha : aliased v (.ext xs true) = some v.size := by simp [aliased, hm]
  unfold insertBranch
  rw [ha]
  simp only [show ass (v.size + n ≤ v.size) = none by simp [ass]; omega]
  rfl

example : insertArr exEnv ⟨[1, 2, 3, 4], 4⟩ 4 (.ext [7] true) 1 = none := by decide

/-- Pushing appends an element. -/
theorem C36_push {env : Env α} {v : Vec α} {x : α} (hv : Valid v) (hf : env.Fits (v.size + 1)) :
    ∃ w, push env v x = some w ∧ Valid w ∧ elems w = elems v ++ [x] := by
  have hl := elems_length hv
  obtain ⟨w, h1, h2, h3⟩ := C36_insert_partial (pos := v.size) (n := 1) (xs := [x]) hv (Nat.le_refl _) (by simp) hf
  refine ⟨w, h1, h2, ?_⟩
  rw [h3, List.take_of_length_le (by omega), List.drop_of_length_le (by omega)]
  simp

example : push exEnv ⟨[1, 2, 3, 4], 4⟩ 5 = some ⟨[1, 2, 3, 4, 5, 9, 9, 9], 5⟩ := by decide

/-- Appending another vector. -/
theorem C36_append {env : Env α} {v u : Vec α} (hv : Valid v) (hu : Valid u) (hf : env.Fits (v.size + u.size)) :
    ∃ w, append env v u = some w ∧ Valid w ∧ elems w = elems v ++ elems u := by
  have hl := elems_length hv
  obtain ⟨w, h1, h2, h3⟩ := C36_insert_partial (pos := v.size) (n := u.size) (xs := u.mem) hv (Nat.le_refl _) hu hf
  refine ⟨w, h1, h2, ?_⟩
  rw [h3, List.take_of_length_le (by omega), List.drop_of_length_le (by omega), List.append_nil]
  rfl

example : append exEnv ⟨[1, 2, 3, 4], 3⟩ ⟨[5, 6], 1⟩ = some ⟨[1, 2, 3, 5], 4⟩ := by decide

/-- Appending a vector to itself. -/
theorem C36_append_self {env : Env α} {v : Vec α} (hv : Valid v) (hf : env.Fits (v.size + v.size)) :
    ∃ w, appendSelf env v = some w ∧ Valid w ∧ elems w = elems v ++ elems v := by
  have hl := elems_length hv
  obtain ⟨w, h1, h2, h3⟩ := C36_insert_self_partial (pos := v.size) (src := 0) (n := v.size) hv (Nat.le_refl _)
    (by omega) hf (.inl (by omega))
  refine ⟨w, h1, h2, ?_⟩
  rw [h3, List.drop_zero, List.take_of_length_le (by omega), List.drop_of_length_le (by omega), List.append_nil]

example : appendSelf exEnv ⟨[1, 2, 3, 9], 3⟩ = some ⟨[1, 2, 3, 1, 2, 3, 9, 9], 6⟩ := by decide

/-- Removing elements; the count is reduced to what is available. -/
theorem C36_remove {v : Vec α} {pos n : Nat} (hv : Valid v) (hp : pos ≤ v.size) :
    ∃ w, remove v pos n = some w ∧ Valid w ∧ elems w = (elems v).take pos ++ (elems v).drop (pos + n) := by
  have hv' := hv
  unfold Valid at hv'
  unfold remove
  simp only [Option.bind_eq_bind, Option.bind_some, show ass (pos ≤ v.size) = some () by simp [ass, hp]]
  have h1 : pos + min n (v.size - pos) ≤ v.size := by omega
  have h2 : (elems v).drop (pos + n) = (elems v).drop (pos + min n (v.size - pos)) := by
    by_cases h : n ≤ v.size - pos
    · rw [Nat.min_eq_left h]
    · rw [List.drop_of_length_le (by rw [elems_length hv]; omega), List.drop_of_length_le (by rw [elems_length hv]; omega)]
  rw [h2]
  generalize min n (v.size - pos) = m at *
  rw [memmove_ok _ _ _ _ (by omega) (by omega)]
  have hl : (v.mem.take pos ++ (v.mem.drop (pos + m)).take (v.size - pos - m)).length = v.size - m := by
    rw [List.length_append, List.length_take, List.length_take, List.length_drop]; omega
  refine ⟨_, rfl, ?_, ?_⟩
  · simp only [Valid, List.length_append, List.length_take, List.length_drop] at *
    omega
  · rw [elems]
    simp only []
    rw [List.take_append_of_le_length (by omega), List.take_of_length_le (by omega), elems, List.take_take,
      Nat.min_eq_left hp, List.drop_take, Nat.sub_add_eq]

example : remove ⟨[1, 2, 3, 4, 5], 5⟩ 1 2 = some ⟨[1, 4, 5, 4, 5], 3⟩ := by decide
example : remove ⟨[1, 2, 3, 4, 5], 5⟩ 3 100 = some ⟨[1, 2, 3, 4, 5], 3⟩ := by decide

/-- Extracting an element returns it and removes exactly it. -/
theorem C36_extract {v : Vec α} {pos : Nat} (hv : Valid v) (hp : pos < v.size) :
    ∃ x w, extract v pos = some (x, w) ∧ Valid w ∧ (elems v)[pos]? = some x ∧ elems w = (elems v).eraseIdx pos := by
  obtain ⟨w, h1, h2, h3⟩ := C36_remove (n := 1) hv (Nat.le_of_lt hp)
  have hm : pos < v.mem.length := by unfold Valid at hv; omega
  refine ⟨v.mem[pos], w, ?_, h2, ?_, ?_⟩
  · unfold extract
    simp only [Option.bind_eq_bind, Option.bind_some, show ass (pos < v.size) = some () by simp [ass, hp],
      List.getElem?_eq_getElem hm, h1]
  · rw [elems, List.getElem?_take_of_lt hp, List.getElem?_eq_getElem hm]
  · rw [h3, List.eraseIdx_eq_take_drop_succ]

example : extract ⟨[1, 2, 3, 4, 5], 5⟩ 1 = some (2, ⟨[1, 3, 4, 5, 5], 4⟩) := by decide

/-- Popping returns and removes the last element; it fails for an empty vector. -/
theorem C36_pop {v : Vec α} (hv : Valid v) :
    (elems v = [] → pop v = none) ∧
    (∀ L x, elems v = L ++ [x] → ∃ w, pop v = some (x, w) ∧ Valid w ∧ elems w = L) := by
  have hl := elems_length hv
  constructor
  · intro h
    rw [h] at hl
    simp [pop, ← hl]
  · intro L x h
    have hs : v.size = L.length + 1 := by rw [← hl, h]; simp
    obtain ⟨y, w, h1, h2, h3, h4⟩ := C36_extract (pos := v.size - 1) hv (by omega)
    rw [h, show v.size - 1 = L.length by omega] at h3 h4
    simp only [List.getElem?_concat_length, Option.some.injEq] at h3
    subst h3
    refine ⟨w, ?_, h2, ?_⟩
    · rw [pop, if_neg (by omega), h1]
    · rw [h4, List.eraseIdx_append_of_length_le (Nat.le_refl _)]
      simp

example : pop ⟨[1, 2, 3], 2⟩ = some (2, ⟨[1, 2, 3], 1⟩) := by decide

/-- Reversing a part; the count is reduced to what is available. -/
theorem C36_reverse {v : Vec α} {pos n : Nat} (hv : Valid v) (hp : pos ≤ v.size) :
    ∃ w, reverse v pos n = some w ∧ Valid w ∧
      elems w = (elems v).take pos ++ (((elems v).drop pos).take n).reverse ++ (elems v).drop (pos + n) := by
  have hl := elems_length hv
  have hv' := hv
  unfold Valid at hv'
  unfold reverse
  simp only [Option.bind_eq_bind, Option.bind_some, show ass (pos ≤ v.size) = some () by simp [ass, hp]]
  have h1 : pos + min n (v.size - pos) ≤ v.size := by omega
  have h2 : (elems v).drop (pos + n) = (elems v).drop (pos + min n (v.size - pos)) := by
    by_cases h : n ≤ v.size - pos
    · rw [Nat.min_eq_left h]
    · rw [List.drop_of_length_le (by omega), List.drop_of_length_le (by omega)]
  have h3 : ((elems v).drop pos).take n = ((elems v).drop pos).take (min n (v.size - pos)) := by
    apply List.take_eq_take_iff.2
    rw [List.length_drop]; omega
  rw [h2, h3]
  generalize min n (v.size - pos) = m at *
  rw [reverse_ok _ _ _ (by omega)]
  have hr : (((v.mem.drop pos).take m).reverse).length = m := by simp; omega
  have := take_put v.mem ((v.mem.drop pos).take m).reverse pos v.size (by omega) hv'
  rw [hr] at this
  refine ⟨_, rfl, ?_, ?_⟩
  · simp only [Valid, List.length_append, List.length_take, List.length_drop, List.length_reverse] at *
    omega
  · rw [elems]
    simp only []
    have e : ((elems v).drop pos).take m = (v.mem.drop pos).take m := by
      rw [elems, List.drop_take, List.take_take, Nat.min_eq_left (show m ≤ v.size - pos by omega)]
    rw [this, e, elems]

example : reverse ⟨[1, 2, 3, 4, 5], 5⟩ 1 3 = some ⟨[1, 4, 3, 2, 5], 5⟩ := by decide

/-! ### C37 -/

/-- For every comparison function the search terminates without reading outside of the array, and an index that it returns
is that of an equal element.  If the array is sorted, it returns an index iff there is an equal element. -/
theorem C37_bsearch (cmp : α → Int) (L : List α) :
    ∃ r, bsearch cmp L = some r ∧
      (∀ i, r = some i → ∃ x, L[i]? = some x ∧ cmp x = 0) ∧
      (SortedFor cmp L → (r.isSome ↔ ∃ x ∈ L, cmp x = 0)) := by
  obtain ⟨r, h1, h2⟩ := bsearchLoop_ok cmp L L.length 0 L.length (Nat.le_refl _) (by
    rw [Nat.sub_zero]; exact Nat.lt_two_pow_self)
  refine ⟨r, h1, ?_, ?_⟩
  · intro i hi
    subst hi
    exact h2.2.2
  · intro hS
    cases r with
    | none =>
      simp only [Option.isSome_none, Bool.false_eq_true, false_iff]
      rintro ⟨x, hx, hc⟩
      obtain ⟨i, hi⟩ := List.mem_iff_getElem?.1 hx
      have : i < L.length := by
        by_contra hlt
        rw [List.getElem?_eq_none (by omega)] at hi
        cases hi
      exact h2 hS i (Nat.zero_le _) this x hi hc
    | some i =>
      simp only [Option.isSome_some, true_iff]
      obtain ⟨x, hx, hc⟩ := h2.2.2
      exact ⟨x, List.mem_iff_getElem?.2 ⟨i, hx⟩, hc⟩

example : bsearch (fun x => 7 - x) [1, 3, 5, 7, 9] = some (some 3) := by decide
example : bsearch (fun x => 6 - x) [1, 3, 5, 7, 9] = some none := by decide

/-- Searching a number in a list of numbers in ascending order. -/
theorem C37_sorted (key : Int) (L : List Int) (h : L.Pairwise (· ≤ ·)) :
    ∃ r, bsearch (fun x => key - x) L = some r ∧ (r.isSome ↔ key ∈ L) ∧ (∀ i, r = some i → L[i]? = some key) := by
  obtain ⟨r, h1, h2, h3⟩ := C37_bsearch (fun x => key - x) L
  have hS : SortedFor (fun x => key - x) L := by
    intro i j x y hij hi hj
    have hi' : i < L.length := by
      by_contra hlt
      rw [List.getElem?_eq_none (by omega)] at hi
      cases hi
    have hj' : j < L.length := by
      by_contra hlt
      rw [List.getElem?_eq_none (by omega)] at hj
      cases hj
    have := List.pairwise_iff_getElem.1 h i j hi' hj' hij
    rw [List.getElem?_eq_getElem hi'] at hi
    rw [List.getElem?_eq_getElem hj'] at hj
    injection hi with hi
    injection hj with hj
    subst hi hj
    exact ⟨fun hh => by have hh' : key - L[i] < 0 := hh; show key - L[j] < 0; omega,
      fun hh => by have hh' : key - L[j] > 0 := hh; show key - L[i] > 0; omega⟩
  refine ⟨r, h1, ?_, ?_⟩
  · rw [h3 hS]
    constructor
    · rintro ⟨x, hx, hc⟩
      have : key = x := by omega
      rw [this]; exact hx
    · intro hk
      exact ⟨key, hk, by simp⟩
  · intro i hi
    obtain ⟨x, hx, hc⟩ := h2 i hi
    have : key = x := by omega
    rw [this]; exact hx

example : [1, 3, 5, 7, 9].Pairwise (fun a b : Int => a ≤ b) := by decide

/-- The number of comparisons is logarithmic: an array of fewer than `2 ^ k` elements needs at most `k`. -/
theorem C37_steps (cmp : α → Int) (L : List α) (k : Nat) (h : L.length < 2 ^ k) :
    (bsearchLoop cmp L k 0 L.length).isSome := by
  obtain ⟨r, h1, _⟩ := bsearchLoop_ok cmp L k 0 L.length (Nat.le_refl _) (by omega)
  rw [h1]; rfl

example : bsearchLoop (fun x => 7 - x) [1, 3, 5, 7, 9] 3 0 5 = some (some 3) := by decide

end Hob3l.Vec
