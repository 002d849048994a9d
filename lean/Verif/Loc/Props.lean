import Verif.Loc.Lemmas

/-!
C47: error locations name the line that contains the position.  This fails: a position at the start of a line may be
attributed to the line before, and the end of a file without a final line feed may be attributed to a line after the last
one.
-/

namespace Hob3l.Loc

open Hob3l.Matq

/-- What the code does, for every file and position: it never fails; the line it returns contains the position in the
sense that the position lies between the start of the line and its end (inclusively), and the quoted source text is exactly
the text of that line.  The line number is the number of line feeds before the position except that it may be smaller by
one at a line start, and larger by one at an unterminated end of the file.

Missing for C47: the line number at line starts and at an unterminated end, which is wrong (`C47_wrong`,
`C47_wrong_everywhere`). -/
theorem C47_partial (base : Nat) (text : List Nat) (pos n : Nat) (hp : pos ≤ text.length) :
    ∃ r, inFile n (load base text) (base + pos) = some r ∧ r.file = n ∧
      r.copy = base + r.orig ∧ r.copyEnd = base + r.origEnd ∧
      r.orig ≤ pos ∧ pos ≤ r.origEnd ∧ r.origEnd ≤ text.length ∧
      (text.drop r.orig).take (r.origEnd - r.orig) = lineText text r.line ∧
      (r.line = lineOf text pos ∨ (AtLineStart text pos ∧ r.line + 1 = lineOf text pos) ∨
        (AtOpenEnd text pos ∧ r.line = lineOf text pos + 1)) := by
  obtain ⟨idx, e, h1, h2, h3, h4, h5⟩ := findLine_spec (base := base) hp
  have hidx : idx < (lineTable base text).length := by
    by_contra hn
    rw [List.getElem?_eq_none (by omega)] at h2
    cases h2
  obtain ⟨p, p1, p2, p3⟩ := table_spec h2
  -- the end of the line
  obtain ⟨e1, he1, he1'⟩ : ∃ e1, (if idx + 1 < (lineTable base text).length then (lineTable base text)[idx + 1]? else some e) =
      some e1 ∧ (lineTable base text)[idx + 1]?.getD e = e1 := by
    by_cases h : idx + 1 < (lineTable base text).length
    · rw [if_pos h, List.getElem?_eq_getElem h]; exact ⟨_, rfl, rfl⟩
    · rw [if_neg h, List.getElem?_eq_none (by omega)]; exact ⟨e, rfl, rfl⟩
  have hle : e ≤ e1 ∧ base + pos ≤ e1 ∧ e1 ≤ base + text.length := by
    by_cases h : idx + 1 < (lineTable base text).length
    · rw [if_pos h] at he1
      have := table_mono (Nat.lt_succ_self idx) h2 he1
      obtain ⟨q, q1, q2, -⟩ := table_spec he1
      exact ⟨by omega, h5 _ he1, by omega⟩
    · rw [if_neg h] at he1
      injection he1 with he1
      have := h4 (by omega)
      exact ⟨by omega, by omega, by omega⟩
  have hr : inFile n (load base text) (base + pos) = some ⟨n, idx, e, e1, e - base, e - base + (e1 - e)⟩ := by
    unfold inFile load lineEnd ass
    simp only [h1, Option.bind_eq_bind, Option.bind_some]
    rw [if_pos hidx]
    simp only [h2, Option.bind_some]
    simp only [he1, Option.bind_some]
    rw [if_pos (by omega : base ≤ e), Option.bind_some, if_pos hle.1, Option.bind_some]
  refine ⟨_, hr, rfl, ?_, ?_, ?_, ?_, ?_, ?_, ?_⟩
  · show e = base + (e - base); omega
  · show e1 = base + (e - base + (e1 - e)); omega
  · show e - base ≤ pos; omega
  · show pos ≤ e - base + (e1 - e); omega
  · show e - base + (e1 - e) ≤ text.length; omega
  · show (text.drop (e - base)).take (e - base + (e1 - e) - (e - base)) = lineText text idx
    rw [← table_text h2, he1', Nat.add_sub_cancel_left]
  · show idx = lineOf text pos ∨ (AtLineStart text pos ∧ idx + 1 = lineOf text pos) ∨
      (AtOpenEnd text pos ∧ idx = lineOf text pos + 1)
    rcases p3 with ⟨p3, -⟩ | ⟨p4, p5, p6⟩
    · have hmono := lineOf_mono text (p := p) (q := pos) (by omega)
      by_cases h : idx + 1 < (lineTable base text).length
      · rw [if_pos h] at he1
        obtain ⟨q, q1, q2, q3⟩ := table_spec he1
        have hq := lineOf_mono text (p := pos) (q := q) (by omega)
        rcases q3 with ⟨q3, q4⟩ | ⟨⟨-, q5, -⟩, q6, q7⟩
        · have q4 := q4 (by omega)
          by_cases hpq : pos = q
          · subst hpq
            exact Or.inr (Or.inl ⟨q4, by omega⟩)
          · left
            have a1 := lineOf_lf text (q - 1) q4.2
            rw [Nat.sub_add_cancel q4.1] at a1
            have a2 := lineOf_mono text (p := pos) (q := q - 1) (by have := hle.2.1; omega)
            omega
        · left
          omega
      · left
        have h4 := h4 (by omega)
        have : pos = p := by omega
        rw [this, p3]
    · have h4 := h4 p6
      have : pos = p := by omega
      subst this
      exact Or.inr (Or.inr ⟨p4, p5⟩)

/-- a file of two lines, and its second line -/
example : inFile 0 (load 100 [97, 10, 98, 99, 10]) 103 = some ⟨0, 1, 102, 105, 2, 5⟩ := by decide

/-- Inside of a line, that is, after its first byte (or in the first line), and before the end of the file, the line number
is right. -/
theorem C47_inside_partial (base : Nat) (text : List Nat) (pos n : Nat) (hp : pos < text.length)
    (hs : ¬ AtLineStart text pos) :
    ∃ r, inFile n (load base text) (base + pos) = some r ∧ r.line = lineOf text pos := by
  obtain ⟨r, h1, -, -, -, -, -, -, -, h⟩ := C47_partial base text pos n (Nat.le_of_lt hp)
  refine ⟨r, h1, ?_⟩
  rcases h with h | ⟨h, -⟩ | ⟨⟨-, h, -⟩, -⟩
  · exact h
  · exact absurd h hs
  · omega

example : 3 < [97, 10, 98, 99, 10].length ∧ ¬ AtLineStart [97, 10, 98, 99, 10] 3 := by decide

/-- C47 fails: in a file of four lines the first byte of the fourth one is reported to be in the third one. -/
theorem C47_wrong : ∃ (text : List Nat) (pos : Nat), pos < text.length ∧
    ∃ r, inFile 0 (load 0 text) pos = some r ∧ r.line ≠ lineOf text pos :=
  ⟨[97, 10, 98, 10, 99, 10, 100, 10], 6, by decide, ⟨0, 2, 4, 6, 4, 6⟩, by decide, by decide⟩

/-- C47 fails in every file with at least two line starts after the first line: with `m` entries in the table of lines, the
start of line `m / 2 + 1` is reported to be in line `m / 2`. -/
theorem C47_wrong_everywhere (base : Nat) (text : List Nat) (pos n : Nat)
    (h : (lineTable base text)[(lineTable base text).length / 2 + 1]? = some (base + pos)) (hs : AtLineStart text pos) :
    ∃ r, inFile n (load base text) (base + pos) = some r ∧ r.line + 1 = lineOf text pos := by
  have hlen : (lineTable base text).length / 2 + 1 < (lineTable base text).length := by
    by_contra hn
    rw [List.getElem?_eq_none (by omega)] at h
    cases h
  obtain ⟨p, p1, p2, p3⟩ := table_spec h
  have hpp : p = pos := by omega
  subst hpp
  obtain ⟨e, he⟩ : ∃ e, (lineTable base text)[(lineTable base text).length / 2]? = some e :=
    ⟨_, List.getElem?_eq_getElem (by omega)⟩
  have hlt := table_mono (Nat.lt_succ_self _) he h
  have hc : cmpLine (base + p) (lineTable base text) ((lineTable base text).length / 2) = some 0 := by
    unfold cmpLine ass
    simp only [he, Option.bind_eq_bind, Option.bind_some]
    rw [if_neg (by omega), if_neg (by omega), if_pos hlen]
    simp only [h, Option.bind_some]
    rw [if_neg (by omega)]
  have hf : findLine (base + p) (lineTable base text) = some (some ((lineTable base text).length / 2)) := by
    unfold findLine
    obtain ⟨k, hk⟩ : ∃ k, (lineTable base text).length = k + 1 := ⟨(lineTable base text).length - 1, by omega⟩
    have : ∀ m, m = (lineTable base text).length → findLoop (cmpLine (base + p) (lineTable base text)) m 0 m =
        some (some (m / 2)) := by
      intro m hm
      rw [hm, hk, findLoop, if_pos (by omega)]
      simp only [Nat.zero_add, Nat.sub_zero]
      rw [hk] at hc
      simp only [hc, Option.bind_eq_bind, Option.bind_some]
      rfl
    exact this _ rfl
  obtain ⟨r, h1, -, -, -, -, -, -, -, h3⟩ := C47_partial base text p n p2
  refine ⟨r, h1, ?_⟩
  have hr : r.line = (lineTable base text).length / 2 := by
    unfold inFile load at h1
    simp only [hf, Option.bind_eq_bind, Option.bind_some, Option.bind_eq_some_iff] at h1
    obtain ⟨_, -, _, -, _, -, _, -, _, -, h1⟩ := h1
    injection h1 with h1
    rw [← h1]
  rcases p3 with ⟨p3, -⟩ | ⟨⟨-, p4, p5⟩, -⟩
  · rw [hr, p3]
  · exact absurd hs.2 p5

example : (lineTable 0 [97, 10, 98, 10, 99, 10, 100, 10])[(lineTable 0 [97, 10, 98, 10, 99, 10, 100, 10]).length / 2 + 1]? =
    some (0 + 6) ∧ AtLineStart [97, 10, 98, 10, 99, 10, 100, 10] 6 := by decide

/-- The files do not share addresses (the contents of each one is followed by a NUL byte). -/
def Disjoint (fs : List File) : Prop :=
  fs.Pairwise fun f g => f.base + f.text.length < g.base ∨ g.base + g.text.length < f.base

theorem getLocFrom_spec (token : Nat) : ∀ (fs : List File) (n : Nat),
    (∀ f ∈ fs, f = load f.base f.text) →
    (∃ i f, fs[i]? = some f ∧ f.base ≤ token ∧ token ≤ f.base + f.text.length ∧
      getLocFrom fs n token = (inFile (n + i) f token).map some) ∨
    ((∀ f ∈ fs, token < f.base ∨ f.base + f.text.length < token) ∧ getLocFrom fs n token = some none)
  | [], n, _ => Or.inr ⟨by simp, rfl⟩
  | f :: fs, n, h => by
    rw [getLocFrom]
    by_cases hf : token ≥ f.base ∧ token ≤ f.base + f.text.length
    · rw [if_pos hf]
      exact Or.inl ⟨0, f, rfl, hf.1, hf.2, rfl⟩
    · rw [if_neg hf]
      rcases getLocFrom_spec token fs (n + 1) (fun g hg => h g (List.mem_cons_of_mem _ hg)) with
        ⟨i, g, h1, h2, h3, h4⟩ | ⟨h1, h2⟩
      · refine Or.inl ⟨i + 1, g, by simpa using h1, h2, h3, ?_⟩
        rw [h4, show n + 1 + i = n + (i + 1) by omega]
      · refine Or.inr ⟨?_, h2⟩
        intro g hg
        rcases List.mem_cons.1 hg with hg | hg
        · subst hg; omega
        · exact h1 g hg

/-- Among several files the one is found that contains the position, and the lookup reports failure iff there is none.  It
never fails otherwise. -/
theorem C47_file (fs : List File) (token : Nat) (hl : ∀ f ∈ fs, f = load f.base f.text) (hd : Disjoint fs) :
    (∃ r f, getLoc fs token = some (some r) ∧ fs[r.file]? = some f ∧ f.base ≤ token ∧ token ≤ f.base + f.text.length ∧
      ∀ g ∈ fs, g.base ≤ token → token ≤ g.base + g.text.length → g = f) ∨
    (getLoc fs token = some none ∧ ∀ f ∈ fs, token < f.base ∨ f.base + f.text.length < token) := by
  unfold getLoc
  rcases getLocFrom_spec token fs 0 hl with ⟨i, f, h1, h2, h3, h4⟩ | ⟨h1, h2⟩
  · left
    obtain ⟨q, rfl⟩ := Nat.exists_eq_add_of_le h2
    have hf := hl f (List.mem_of_getElem? h1)
    obtain ⟨r, r1, r2, -⟩ := C47_partial f.base f.text q (0 + i) (by omega)
    rw [← hf] at r1
    refine ⟨r, f, by rw [h4, r1]; rfl, by rw [r2, Nat.zero_add]; exact h1, h2, h3, ?_⟩
    intro g hg hg1 hg2
    obtain ⟨j, hj⟩ := List.mem_iff_getElem?.1 hg
    have hi' : i < fs.length := by
      by_contra hn
      rw [List.getElem?_eq_none (by omega)] at h1
      cases h1
    have hj' : j < fs.length := by
      by_contra hn
      rw [List.getElem?_eq_none (by omega)] at hj
      cases hj
    rw [List.getElem?_eq_getElem hi'] at h1
    rw [List.getElem?_eq_getElem hj'] at hj
    injection h1 with h1
    injection hj with hj
    have hp := List.pairwise_iff_getElem.1 hd
    rcases Nat.lt_trichotomy i j with hij | hij | hij
    · have := hp i j hi' hj' hij
      rw [h1, hj] at this
      omega
    · subst hij; rw [← h1, ← hj]
    · have := hp j i hj' hi' hij
      rw [h1, hj] at this
      omega
  · exact Or.inr ⟨h2, h1⟩

example : (∀ f ∈ [load 10 [97, 10], load 20 [98]], f = load f.base f.text) ∧
    Disjoint [load 10 [97, 10], load 20 [98]] ∧
    getLoc [load 10 [97, 10], load 20 [98]] 20 = some (some ⟨1, 0, 20, 21, 0, 1⟩) ∧
    getLoc [load 10 [97, 10], load 20 [98]] 15 = some none := by
  refine ⟨by decide, ?_, by decide, by decide⟩
  unfold Disjoint
  simp [load]

end Hob3l.Loc
