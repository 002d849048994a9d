import Mathlib.Tactic.NormNum
import Mathlib.Tactic.Linarith
import Verif.Main.Spec
import Verif.Opt.PropsValue

/-!
# C131: a run writes the output of the input, and nothing else
-/
namespace Hob3l.Main

open Hob3l.Opt (Str Opts Dump)

variable {D : Type} (P : Stages) (can : Str → Bool)

theorem doFile_makes {F : Files} {fn : Str} {d : Dump} {t : Str} (h : Makes P F fn d t) : doFile P F fn d = some t := by
  cases h with
  | syn h1 h2 => simp [doFile, h1, h2]
  | scad h1 h2 h3 => simp [doFile, h1, h2, h3]
  | csg3 h1 h2 h3 h4 => simp [doFile, h1, h2, h3, h4]
  | layers d hd h1 h2 h3 h4 h5 =>
    simp only [List.mem_cons, List.not_mem_nil, or_false] at hd
    rcases hd with rfl | rfl | rfl | rfl | rfl <;> simp [doFile, h1, h2, h3, h4, h5, print]
  | nothing h1 h2 h3 h4 h5 => simp [doFile, h1, h2, h3, h4, h5, print]

theorem makes_doFile {F : Files} {fn : Str} {d : Dump} (hd : d ≠ .stl) {t : Str} (h : doFile P F fn d = some t) :
    Makes P F fn d t := by
  unfold doFile at h
  cases h1 : F fn with
  | none => simp [h1] at h
  | some x =>
    simp only [h1] at h
    cases h2 : P.parse F fn x with
    | none => simp [h2] at h
    | some r =>
      simp only [h2] at h
      by_cases e : d = .syn
      · subst e
        simp only [if_true, Option.some.injEq] at h
        subst h; exact .syn h1 h2
      rw [if_neg e] at h
      cases h3 : P.scad F r with
      | none => simp [h3] at h
      | some s =>
        simp only [h3] at h
        by_cases e' : d = .scad
        · subst e'
          simp only [if_true, Option.some.injEq] at h
          subst h; exact .scad h1 h2 h3
        rw [if_neg e'] at h
        cases h4 : P.csg3 F s with
        | none => simp [h4] at h
        | some c =>
          simp only [h4] at h
          by_cases e'' : d = .csg3
          · subst e''
            simp only [if_true, Option.some.injEq] at h
            subst h; exact .csg3 h1 h2 h3 h4
          rw [if_neg e''] at h
          cases h5 : P.csg2 c with
          | none => simp [h5] at h
          | some l =>
            simp only [h5, Option.some.injEq] at h
            subst h
            cases d with
            | none => exact .nothing h1 h2 h3 h4 h5
            | syn => exact absurd rfl e
            | scad => exact absurd rfl e'
            | csg3 => exact absurd rfl e''
            | stl => exact absurd rfl hd
            | csg2 => exact .layers .csg2 (by simp) h1 h2 h3 h4 h5
            | ps => exact .layers .ps (by simp) h1 h2 h3 h4 h5
            | stla => exact .layers .stla (by simp) h1 h2 h3 h4 h5
            | stlb => exact .layers .stlb (by simp) h1 h2 h3 h4 h5
            | js => exact .layers .js (by simp) h1 h2 h3 h4 h5

/-- the chosen format is never the one that is still to be decided -/
theorem format_ne_stl (o : Opts D) {d : Dump} (h : Opt.format o = some d) : d ≠ .stl := by
  rintro rfl
  unfold Opt.format at h
  dsimp only at h
  split at h
  · split at h <;> simp at h
  · rename_i hx
    exact hx h

theorem set_same (F : Files) (w t : Str) : F.set w t w = some t := by simp [Files.set]

theorem set_other (F : Files) {w n : Str} (t : Str) (h : n ≠ w) : F.set w t n = F n := by simp [Files.set, h]

/-- a change of a file that is not used -/
theorem doFile_apart {w fn : Str} (h : Apart P w fn) (F : Files) (t : Str) (d : Dump) :
    doFile P (F.set w t) fn d = doFile P F fn d := by
  obtain ⟨h1, h2⟩ := h
  obtain ⟨a, b, c⟩ := h2 F t
  unfold doFile
  rw [set_other F t h1]
  simp only [a, b, c]

/-- **C131**.  Without an output file no file is changed, the run succeeds if and only if the input is accepted by the stages
that the format needs, and stdout gets the output of the format, or nothing in case of an error. -/
theorem C131_stdout (F : Files) (o : Opts D) (fn : Str) {d : Dump} (ho : o.outFile = none) (hf : Opt.format o = some d) :
    (run P can F o (some fn)).files = F ∧
    (∀ t, Makes P F fn d t → (run P can F o (some fn)).exit = .success ∧ (run P can F o (some fn)).stdout = t) ∧
    ((∀ t, ¬ Makes P F fn d t) → (run P can F o (some fn)).exit = .failure ∧ (run P can F o (some fn)).stdout = []) := by
  unfold run
  simp only [ho, hf]
  cases h : doFile P F fn d with
  | none =>
    refine ⟨rfl, fun t ht => ?_, fun _ => ⟨rfl, rfl⟩⟩
    rw [doFile_makes P ht] at h
    cases h
  | some x =>
    refine ⟨rfl, fun t ht => ?_, fun hn => ?_⟩
    · rw [doFile_makes P ht] at h
      cases h; exact ⟨rfl, rfl⟩
    · exact absurd (makes_doFile P (format_ne_stl o hf) h) (hn x)

/-- **C131** (partial: the input must not use the output file, see `C131_self_wrong`, and the old contents of the output file
are lost in case of an error, see `C131_failure_wrong`).  With an output file that can be opened, the run succeeds if and only if
the input is accepted by the stages that the format needs; then the file has exactly the output of the format. -/
theorem C131_file_partial (F : Files) (o : Opts D) (fn w : Str) {d : Dump} (ho : o.outFile = some w) (hw : can w = true)
    (hf : Opt.format o = some d) (ha : Apart P w fn) :
    (run P can F o (some fn)).stdout = [] ∧
    (∀ t, Makes P F fn d t → (run P can F o (some fn)).exit = .success ∧ (run P can F o (some fn)).files w = some t) ∧
    ((∀ t, ¬ Makes P F fn d t) → (run P can F o (some fn)).exit = .failure) := by
  unfold run
  simp only [ho, hf, hw, if_true, doFile_apart P ha]
  cases h : doFile P F fn d with
  | none =>
    refine ⟨rfl, fun t ht => ?_, fun _ => rfl⟩
    rw [doFile_makes P ht] at h
    cases h
  | some x =>
    refine ⟨rfl, fun t ht => ?_, fun hn => ?_⟩
    · rw [doFile_makes P ht] at h
      cases h; exact ⟨rfl, set_same _ _ _⟩
    · exact absurd (makes_doFile P (format_ne_stl o hf) h) (hn x)

/-- **C131**.  Whatever happens, no file is changed except for the output file; if that cannot be opened or if there is none,
then no file is changed at all. -/
theorem C131_others (F : Files) (o : Opts D) (inFile : Option Str) :
    (∀ n, o.outFile ≠ some n → (run P can F o inFile).files n = F n) ∧
    (∀ w, o.outFile = some w → can w = false →
      (run P can F o inFile).files = F ∧ (run P can F o inFile).exit = .failure) := by
  constructor
  · intro n hn
    unfold run
    cases ho : o.outFile with
    | none =>
      simp only
      split
      · rfl
      · split
        · rfl
        · split <;> rfl
    | some w =>
      have hne : n ≠ w := by
        rintro rfl; exact hn ho
      simp only
      split
      · split
        · exact set_other F _ hne
        · split
          · exact set_other F _ hne
          · split
            · exact set_other F _ hne
            · exact (set_other _ _ hne).trans (set_other F _ hne)
      · rfl
  · intro w ho hw
    simp [run, ho, hw]

/-- **C131** (the code is wrong here).  If the run fails because the ending of the output file is unknown, or because the input
is not accepted, then an output file that has existed before is empty afterwards. -/
theorem C131_failure_wrong (F : Files) (o : Opts D) (fn w : Str) (ho : o.outFile = some w) (hw : can w = true) :
    (Opt.format o = none → (run P can F o (some fn)).exit = .failure ∧ (run P can F o (some fn)).files w = some []) ∧
    (∀ d, Opt.format o = some d → Apart P w fn → (∀ t, ¬ Makes P F fn d t) →
      (run P can F o (some fn)).exit = .failure ∧ (run P can F o (some fn)).files w = some []) := by
  constructor
  · intro hf
    simp [run, ho, hw, hf, set_same]
  · intro d hf ha hn
    unfold run
    simp only [ho, hf, hw, if_true, doFile_apart P ha]
    cases h : doFile P F fn d with
    | none => exact ⟨rfl, set_same _ _ _⟩
    | some x => exact absurd (makes_doFile P (format_ne_stl o hf) h) (hn x)

/-- **C131** (the code is wrong here).  If the output file is also the input file, or is used by it, then its old contents are lost
before they are read: the run does not depend on them. -/
theorem C131_self_wrong (F G : Files) (o : Opts D) (inFile : Option Str) (w : Str) (ho : o.outFile = some w)
    (hw : can w = true) (h : SameBut w F G) : run P can F o inFile = run P can G o inFile := by
  have e : F.set w [] = G.set w [] := by
    funext n
    by_cases hn : n = w
    · subst hn; rw [set_same, set_same]
    · rw [set_other F _ hn, set_other G _ hn, h n hn]
  unfold run
  simp only [ho, hw, if_true, e]

/-- **C131** (the code is wrong here).  Without an input file on the command line the behaviour is undefined: there is no test
before the null pointer is used as a string. -/
theorem C131_input_wrong (F : Files) (o : Opts D) :
    (∀ w d, o.outFile = some w → can w = true → Opt.format o = some d → (run P can F o none).exit = .undef) ∧
    (∀ d, o.outFile = none → Opt.format o = some d → (run P can F o none).exit = .undef) := by
  constructor
  · intro w d ho hw hf
    simp [run, ho, hw, hf]
  · intro d ho hf
    simp [run, ho, hf]

/-- **C131** (partial: for a value of `--gran` that is not below the epsilon).  The scale is the reciprocal of `--gran`; if that
is not given (zero), the scale is the one of `--grid`; the epsilon for squares is never above the other one, and is left
alone otherwise. -/
theorem C131_gran_partial (o : Opts ℚ) :
    (o.gran ≠ 0 → o.eps ≤ |o.gran| → scale o = some (1 / o.gran)) ∧
    (o.gran = 0 → 0 < o.eps → scale o = some o.grid) ∧
    eps2 o ≤ o.eps ∧ (o.eps2 ≤ o.eps → eps2 o = o.eps2) := by
  refine ⟨fun h1 h2 => ?_, fun h1 h2 => ?_, ?_, fun h => ?_⟩
  · have : eq o.eps o.gran 0 = false := by
      simp only [eq, sub_zero, decide_eq_false_iff_not, not_lt]; exact h2
    simp [scale, this, recip, h1]
  · have : eq o.eps o.gran 0 = true := by
      simp only [eq, h1, sub_zero, abs_zero, decide_eq_true_eq]; exact h2
    simp [scale, this]
  · unfold eps2
    by_cases h : o.eps2 > o.eps
    · rw [if_pos h]
    · rw [if_neg h]; exact not_lt.1 h
  · unfold eps2
    rw [if_neg (not_lt.2 h)]

/-- **C131** (the code is wrong here).  `--gran=2^-20`, the example of the documentation, is ignored with the default epsilon
`2^-15`, as is every value below the epsilon: the scale is not the reciprocal, but that of `--grid`.  And with `--eps=0`
the scale is infinite if `--gran` is not given. -/
theorem C131_gran_wrong (o : Opts ℚ) :
    (|o.gran| < o.eps → scale o = some o.grid) ∧
    (o.gran = 1 / 2 ^ 20 → o.eps = 1 / 2 ^ 15 → o.grid = 2 ^ 13 → scale o ≠ some (2 ^ 20)) ∧
    (o.gran = 0 → o.eps = 0 → scale o = none) := by
  have key : |o.gran| < o.eps → scale o = some o.grid := by
    intro h
    have : eq o.eps o.gran 0 = true := by
      simp only [eq, sub_zero, decide_eq_true_eq]; exact h
    simp [scale, this]
  refine ⟨key, fun h1 h2 h3 => ?_, fun h1 h2 => ?_⟩
  · rw [key (by rw [h1, h2, abs_of_pos (by norm_num)]; norm_num), h3]
    intro h
    have := Option.some.inj h
    norm_num at this
  · simp [scale, eq, recip, h1, h2]

/-! ### examples -/

/-- the input is printed as it is, and an empty input is an error -/
def exStages : Stages where
  Syn := Str
  Scad := Str
  Csg3 := Str
  Csg2 := Str
  parse := fun _ _ x => if x = [] then none else some x
  scad := fun _ x => some x
  csg3 := fun _ x => some x
  csg2 := some
  putSyn := id
  putScad := id
  putCsg3 := id
  putCsg2 := fun _ x _ => x

def exFiles : Files := fun n => if n = [1] then some [7] else if n = Opt.str "a.stl" then some [8] else none

def exOpts (out : Option Str) : Opts ℚ :=
  { zMin := 0, zMax := -1, zStep := 1 / 5, psPersp := 0, psLineWidth := 2 / 5, grid := 2 ^ 13, gran := 0, eps := 1 / 2 ^ 15,
    eps2 := 1 / 2 ^ 30, layerGap := -1, outFile := out }

example : Apart exStages (Opt.str "a.stl") [1] := ⟨by decide, fun _ _ => ⟨fun _ _ => rfl, fun _ => rfl, fun _ => rfl⟩⟩

example : Makes exStages exFiles [1] .stla [7] := by
  have h := Makes.layers (P := exStages) (F := exFiles) (fn := [1]) (x := [7]) (r := ([7] : Str)) (s := ([7] : Str)) (c := ([7] : Str))
    (l := ([7] : Str)) .stla (by simp) (by decide) rfl rfl rfl rfl
  exact h

example : (run exStages (fun _ => true) exFiles (exOpts (some (Opt.str "a.stl"))) (some [1])).files (Opt.str "a.stl") =
    some [7] := by decide

example : (run exStages (fun _ => true) exFiles (exOpts (some (Opt.str "a.stl"))) (some [2])).files (Opt.str "a.stl") =
    some [] := by decide

example : scale (exOpts none) = some (2 ^ 13) := by
  simp [scale, eq, exOpts]

end Hob3l.Main
