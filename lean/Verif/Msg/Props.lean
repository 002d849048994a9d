import Verif.Msg.Lemmas

/-!
# C135: messages show the place in the source
-/

namespace Hob3l.Msg

open Hob3l.Matq (ass)
open Hob3l.Loc

theorem getLoc_eq {fs : List File} (hl : ∀ f ∈ fs, f = load f.base f.text) (hd : Disjoint fs) {i : Nat} {f : File} (hf : fs[i]? = some f)
    {pos : Nat} (hp : pos ≤ f.text.length) : getLoc fs (f.base + pos) = (inFile i f (f.base + pos)).map some := by
  rcases getLocFrom_spec (f.base + pos) fs 0 hl with ⟨j, g, h1, h2, h3, h4⟩ | ⟨h1, -⟩
  · obtain ⟨hi, hf'⟩ := List.getElem?_eq_some_iff.1 hf
    obtain ⟨hj, hg'⟩ := List.getElem?_eq_some_iff.1 h1
    have hij : j = i := by
      rcases Nat.lt_trichotomy j i with h | h | h
      · have := List.pairwise_iff_getElem.1 hd j i hj hi h
        rw [hf', hg'] at this
        omega
      · exact h
      · have := List.pairwise_iff_getElem.1 hd i j hi hj h
        rw [hf', hg'] at this
        omega
    subst hij
    rw [hf] at h1
    injection h1 with h1
    subst h1
    rw [Nat.zero_add] at h4
    exact h4
  · have := h1 f (List.mem_of_getElem? hf)
    omega

/-- what is found for a position inside of a line -/
theorem found {fs : List File} (hl : ∀ f ∈ fs, f = load f.base f.text) (hd : Disjoint fs) {i : Nat} {f : File} (hf : fs[i]? = some f)
    {pos k : Nat} (hp : pos < f.text.length) (hs : ¬ AtLineStart f.text pos) (hk : InLine f.text pos k) :
    ∃ r, getLoc fs (f.base + pos) = some (some r) ∧ r.file = i ∧ r.line = lineOf f.text pos ∧ r.copy ≤ f.base + pos ∧
      r.orig ≤ r.origEnd ∧ f.base + pos - r.copy = k ∧
      (f.text.drop r.orig).take (r.origEnd - r.orig) = lineText f.text (lineOf f.text pos) ∧
      (lineText f.text (lineOf f.text pos))[k]? = f.text[pos]? := by
  have hf' := hl f (List.mem_of_getElem? hf)
  obtain ⟨r, e, c1, c2, c2', c3, c4, c5, c6, c7⟩ := C47_partial f.base f.text pos i hp.le
  have hst := inFile_start hp hs hk e
  have hln : r.line = lineOf f.text pos := by
    rcases c7 with c | ⟨c, -⟩ | ⟨⟨-, c, -⟩, -⟩
    · exact c
    · exact absurd c hs
    · omega
  have hlt : pos < r.origEnd := by
    rcases Nat.lt_or_ge pos r.origEnd with h | h
    · exact h
    -- the position would be the start of the next line
    exfalso
    exact hs (atStart_of_end e (by omega) hp)
  refine ⟨r, ?_, c1, hln, by omega, by omega, by omega, by rw [c6, hln], ?_⟩
  · rw [← hf'] at e
    rw [getLoc_eq hl hd hf hp.le, e]; rfl
  · rw [← hln, ← c6, List.getElem?_take_of_lt (by omega), List.getElem?_drop, hst]

theorem pad_eq {p : Nat} (h : p < 2 ^ 31) : pad p = p := by
  unfold pad
  rw [Nat.mod_eq_of_lt (by omega), if_pos h]

/-- `Column line k`: the column at which byte `k` of the line is shown, counted from 0 -/
def column (line : List Nat) (k : Nat) : Nat := (shown 0 (line.take k)).length

/-- **C135** (partial: inside of lines, see C47 for their starts and the end of the file, `C135_end_wrong`; and only for lines of ASCII, see
`C135_binary_wrong`).  The message begins with the name of the file, the number of the line and the column; the line is
quoted with tabs expanded, and the mark on the next line is below the byte that is meant. -/
theorem C135_mark_partial (names : Nat → Str) (fs : List File) (hl : ∀ f ∈ fs, f = load f.base f.text) (hd : Disjoint fs) (i : Nat)
    (f : File) (hf : fs[i]? = some f) (pos k : Nat) (hp : pos < f.text.length) (hs : ¬ AtLineStart f.text pos) (hk : InLine f.text pos k)
    (line : List Nat) (hline : line = lineText f.text (lineOf f.text pos)) (hc : ∀ c ∈ line, Plain c) (hlen : 4 * line.length < 2 ^ 31) :
    ∃ quote mark, formatLoc names fs (f.base + pos) none =
        some (names i ++ (str ":" ++ (dec (lineOf f.text pos + 1) ++ (str ":" ++ (dec (column line k + 1) ++ str ": ")))), quote ++ mark) ∧
      quote = str " " ++ (shown 0 line ++ if 10 ∈ line then [] else [10]) ∧
      mark = str " " ++ (List.replicate (column line k) 32 ++ str "^\n") ∧
      line[k]? = f.text[pos]? ∧ (f.text[pos]? ≠ some 9 → quote[column line k + 1]? = f.text[pos]?) ∧
      mark[column line k + 1]? = some 94 := by
  obtain ⟨r, e, e1, e2, e3, e4, e5, e6, e7⟩ := found hl hd hf hp hs hk
  rw [← hline] at e6 e7
  have hkl : k < line.length := by
    by_contra hn
    rw [List.getElem?_eq_none (by omega), List.getElem?_eq_getElem hp] at e7
    cases e7
  have hcol : column line k < 2 ^ 31 := by
    have := shown_length_le 0 (line.take k)
    rw [List.length_take] at this
    unfold column
    omega
  have hfl := formatLine_plain k line hc (by omega) hkl
  refine ⟨_, _, ?_, rfl, rfl, e7, ?_, ?_⟩
  · have hcol' : pad (shown 0 (line.take k)).length = column line k := pad_eq hcol
    simp only [formatLoc, srcAux, e, Option.bind_eq_bind, Option.bind_some, e1, hf, ass, if_pos e3, if_pos e4, e5, e6, hfl, e2, hcol']
    simp [column, str]
  · intro h9
    have hsplit : line = line.take k ++ line[k] :: line.drop (k + 1) := by
      rw [← List.drop_eq_getElem_cons hkl, List.take_append_drop]
    have hne : line[k] ≠ 9 := by
      intro h
      rw [← e7, List.getElem?_eq_getElem hkl, h] at h9
      exact h9 rfl
    have h1 : shown 0 line = shown 0 (line.take k) ++ line[k] :: shown (column line k + 1) (line.drop (k + 1)) := by
      conv_lhs => rw [hsplit, shown_append]
      rw [shown, if_neg hne, Nat.zero_add]
      rfl
    rw [h1, ← e7, List.getElem?_eq_getElem hkl]
    simp [str, column]
  · simp [str]

/-- **C135** A message with two places shows the second one after the first. -/
theorem C135_second (names : Nat → Str) (fs : List File) (t t2 : Nat) (ht : t2 ≠ t) (p q p2 q2 : Str)
    (h : formatLoc names fs t none = some (p, q)) (h2 : formatLoc names fs t2 none = some (p2, q2)) :
    formatLoc names fs t (some t) = some (p, q) ∧
    formatLoc names fs t (some t2) =
      some (p, q ++ (if p2 = [] then [] else p2 ++ (str "Info: See also here.\n" ++ q2))) := by
  have key : ∀ m pre, srcAux names fs t2 m pre [] = some (pre ++ (if p2 = [] then [] else p2 ++ m), if p2 = [] then [] else q2) := by
    intro m pre
    simp only [formatLoc, Option.bind_eq_bind, Option.bind_some] at h2
    unfold srcAux at h2 ⊢
    cases hg : getLoc fs t2 with
    | none => simp [hg] at h2
    | some r =>
      cases r with
      | none => simp [hg] at h2 ⊢; simp [h2]
      | some l =>
        simp only [hg, Option.bind_eq_bind, Option.bind_some] at h2 ⊢
        cases hff : fs[l.file]? with
        | none => simp [hff] at h2
        | some f =>
          simp only [hff, Option.bind_some, ass] at h2 ⊢
          by_cases c1 : l.copy ≤ t2
          · by_cases c2 : l.orig ≤ l.origEnd
            · simp only [if_pos c1, if_pos c2, Option.bind_some, Option.some.injEq, Prod.mk.injEq] at h2 ⊢
              obtain ⟨rfl, rfl⟩ := h2
              cases hpos : (formatLine [] (t2 - l.copy) ((f.text.drop l.orig).take (l.origEnd - l.orig))).2.1 <;> simp [str]
            · simp [c1, c2] at h2
          · simp [c1] at h2
  have h1 : srcAux names fs t [] [] [] = some (p, q) := by
    simpa [formatLoc] using h
  constructor
  · simp [formatLoc, h1]
  · simp only [formatLoc, h1, Option.bind_eq_bind, Option.bind_some, if_neg ht, key]
    by_cases hp : p2 = [] <;> simp [hp]

/-- **C135** For a place that is in none of the files (such as NULL), nothing is shown. -/
theorem C135_nowhere (names : Nat → Str) (fs : List File) (hl : ∀ f ∈ fs, f = load f.base f.text) (t : Nat)
    (h : ∀ f ∈ fs, t < f.base ∨ f.base + f.text.length < t) : formatLoc names fs t none = some ([], []) := by
  have : getLoc fs t = some none := by
    rcases getLocFrom_spec t fs 0 hl with ⟨j, g, h1, h2, h3, -⟩ | ⟨-, h⟩
    · have := h g (List.mem_of_getElem? h1)
      omega
    · exact h
  simp [formatLoc, srcAux, this]

/-- **C135** (the code is wrong here).  If there is a byte that is not ASCII, such as that of an umlaut in a comment, on the line before the
place, neither column nor mark are shown, and the place is not part of the quoted text. -/
theorem C135_binary_wrong (names : Nat → Str) (fs : List File) (hl : ∀ f ∈ fs, f = load f.base f.text) (hd : Disjoint fs) (i : Nat)
    (f : File) (hf : fs[i]? = some f) (pos k : Nat) (hp : pos < f.text.length) (hs : ¬ AtLineStart f.text pos) (hk : InLine f.text pos k)
    (a : List Nat) (c : Nat) (b : List Nat) (hline : lineText f.text (lineOf f.text pos) = a ++ c :: b) (ha : ∀ c ∈ a, Plain c)
    (h10 : 10 ∉ a) (hc : ¬ Plain c) (hlen : 4 * a.length + 4 < 2 ^ 32) (hak : a.length < k) :
    formatLoc names fs (f.base + pos) none =
      some (names i ++ (str ":" ++ (dec (lineOf f.text pos + 1) ++ str ": ")),
        if a = [] then str " " else str " " ++ (shown 0 a ++ str "[...binary...]\n")) := by
  obtain ⟨r, e, e1, e2, e3, e4, e5, e6, e7⟩ := found hl hd hf hp hs hk
  rw [hline] at e6
  have hfl := formatLine_binary k a c b ha h10 hc hlen hak
  simp only [formatLoc, srcAux, e, Option.bind_eq_bind, Option.bind_some, e1, hf, ass, if_pos e3, if_pos e4, e5, e6, hfl, e2]
  simp [str]

/-- two files: a tab and `ab` on the second line of the first; `ö;` in the second -/
def exFiles : List File := [load 100 [59, 10, 9, 97, 98, 10], load 200 [0xc3, 0xb6, 59]]

/-- **C135** (the code is wrong here).  At the end of a file (where errors like a missing brace are reported) neither column nor
mark are shown: there is a line number only, for every file. -/
theorem C135_end_wrong (names : Nat → Str) (fs : List File) (hl : ∀ f ∈ fs, f = load f.base f.text) (hd : Disjoint fs) (i : Nat)
    (f : File) (hf : fs[i]? = some f) :
    ∃ n k src, formatLoc names fs (f.base + f.text.length) none =
      some (names i ++ (str ":" ++ (dec n ++ str ": ")), (formatLine [] k src).1) := by
  have hf' := hl f (List.mem_of_getElem? hf)
  obtain ⟨r, e, c1, c2, c2', c3, c4, c5, -⟩ := C47_partial f.base f.text f.text.length i (Nat.le_refl _)
  rw [← hf'] at e
  have hg : getLoc fs (f.base + f.text.length) = some (some r) := by
    rw [getLoc_eq hl hd hf (Nat.le_refl _), e]; rfl
  have h1 : r.copy ≤ f.base + f.text.length := by omega
  have h2 : r.orig ≤ r.origEnd := by omega
  have h3 := formatLine_beyond [] (f.base + f.text.length - r.copy) ((f.text.drop r.orig).take (r.origEnd - r.orig))
    (by rw [List.length_take, List.length_drop]; omega)
  refine ⟨r.line + 1, f.base + f.text.length - r.copy, (f.text.drop r.orig).take (r.origEnd - r.orig), ?_⟩
  simp only [formatLoc, srcAux, hg, Option.bind_eq_bind, Option.bind_some, c1, hf, ass, if_pos h1, if_pos h2, h3]
  simp [str]

example : formatLoc (fun _ => str "f") [load 100 [97, 98]] 102 none = some (str "f:2: ", str " ") := by decide +kernel
example : formatLoc (fun _ => str "f") [load 100 [97, 98, 10, 97, 10]] 105 none = some (str "f:2: ", str " a\n") := by decide +kernel
example : ∀ f ∈ exFiles, f = load f.base f.text := by decide
example : Disjoint exFiles := by unfold Disjoint exFiles; decide
example : InLine (load 100 [59, 10, 9, 97, 98, 10]).text 4 2 := ⟨by decide, Or.inr (by decide), by decide⟩
example : ¬ AtLineStart (load 100 [59, 10, 9, 97, 98, 10]).text 4 := by decide
example : formatLoc (fun _ => str "f") exFiles 104 none = some (str "f:2:6: ", str "     ab\n      ^\n") := by decide +kernel
example : formatLoc (fun _ => str "f") exFiles 202 (some 104) =
    some (str "f:1: ", str " f:2:6: Info: See also here.\n     ab\n      ^\n") := by decide +kernel

end Hob3l.Msg
