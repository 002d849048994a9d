import Verif.Opt.Lemmas
import Mathlib.Tactic.NormNum
import Mathlib.Data.List.Infix

/-!
C122: the values of options, and the output format that is selected by the name of the output file.
-/

namespace Hob3l.Opt

variable {D : Type}

theorem digitChar_lt {x : Nat} (h : x < 16) : 48 ≤ digitChar x ∧ digitChar x ≤ 102 ∧ isSpace (digitChar x) = false ∧
    digitChar x ≠ 88 := by
  revert x
  decide

/-- a sequence of digits -/
theorem strtoull_digits (base : Nat) (hb : base ≤ 16) (d : List Nat) (hne : d ≠ []) (hd : ∀ x ∈ d, x < base) :
    strtoull base (d.map digitChar) = some (min (number base d) (2 ^ 64 - 1), []) := by
  cases d with
  | nil => exact absurd rfl hne
  | cons x d =>
    have hx := hd x (by simp)
    obtain ⟨c1, c2, c3, _⟩ := digitChar_lt (x := x) (by omega)
    have e1 : skipSpace (digitChar x :: d.map digitChar) = digitChar x :: d.map digitChar := by simp [skipSpace, c3]
    have hdig := digits_map base hb (x :: d) 0 [] hd (by simp)
    rw [List.append_nil, List.map_cons] at hdig
    have n45 : digitChar x ≠ 45 := by omega
    have n43 : digitChar x ≠ 43 := by omega
    have hneg : isNeg (digitChar x :: d.map digitChar) = false := by simp [isNeg, n45]
    have hsign : skipSign (digitChar x :: d.map digitChar) = digitChar x :: d.map digitChar := by
      simp [skipSign, n45, n43]
    have hx0 : skipHex base (digitChar x :: d.map digitChar) = digitChar x :: d.map digitChar := by
      match d, hd with
      | [], _ => rfl
      | [u], _ => rfl
      | u :: w :: d, hd =>
        have hu := hd u (by simp)
        obtain ⟨u1, u2, _, u4⟩ := digitChar_lt (x := u) (by omega)
        simp only [List.map_cons, skipHex]
        rw [if_neg]
        rintro ⟨_, _, hy | hy, _⟩
        · omega
        · exact u4 hy
    unfold strtoull
    simp only [List.map_cons, e1]
    rw [hneg, hsign, hx0]
    simp only [unsignedAt, digit_char base x hb hx, hdig]
    show (if number base (x :: d) ≥ 2 ^ 64 then _ else _) = _
    by_cases hbig : number base (x :: d) ≥ 2 ^ 64
    · rw [if_pos hbig, Nat.min_eq_right (by omega)]
    · rw [if_neg hbig, if_neg (by simp), Nat.min_eq_left (by omega)]
      rfl

/-- C122.  Sequences of decimal digits are converted to the number they denote, or rejected if it is too large, for
options with a number of 32 bits or 8 bits.  For numbers of arbitrary size, this holds for numbers of 64 bits.  Missing:
larger numbers and negative ones, see `C122_number_wrong`. -/
theorem C122_number_partial (d : List Nat) (hne : d ≠ []) (hd : ∀ x ∈ d, x < 10) :
    (number 10 d < 2 ^ 64 → getSize (d.map digitChar) = some (number 10 d)) ∧
    getUint32 (d.map digitChar) = (if number 10 d < 2 ^ 32 then some (number 10 d) else none) ∧
    getUint8 (d.map digitChar) = (if number 10 d < 2 ^ 8 then some (number 10 d) else none) := by
  have h := strtoull_digits 10 (by omega) d hne hd
  have hs : getSize (d.map digitChar) = some (min (number 10 d) (2 ^ 64 - 1)) := by unfold getSize; rw [h]
  refine ⟨?_, ?_, ?_⟩
  · intro hl
    rw [hs, Nat.min_eq_left (by omega)]
  · unfold getUint32
    rw [hs]
    dsimp only
    by_cases hl : number 10 d < 2 ^ 32
    · rw [if_pos hl, Nat.min_eq_left (by omega), Nat.mod_eq_of_lt hl]
      simp
    · rw [if_neg hl, if_pos]
      intro hc
      have : min (number 10 d) (2 ^ 64 - 1) % 2 ^ 32 < 2 ^ 32 := Nat.mod_lt _ (by norm_num)
      omega
  · unfold getUint8
    rw [hs]
    dsimp only
    by_cases hl : number 10 d < 2 ^ 8
    · rw [if_pos hl, Nat.min_eq_left (by omega), if_neg (by omega)]
    · rw [if_neg hl, if_pos (by omega)]

example : getUint8 (str "255") = some 255 ∧ getUint8 (str "256") = none ∧ [2, 5, 5].map digitChar = str "255" := by
  decide +kernel

/-- C122 fails: negative numbers are accepted where a count is expected and denote large numbers, even 1 if the number is
negative enough; too large numbers are replaced by the largest. -/
theorem C122_number_wrong :
    getSize (str "-1") = some (2 ^ 64 - 1) ∧ getUint8 (str "-18446744073709551615") = some 1 ∧
    getSize (str "99999999999999999999") = some (2 ^ 64 - 1) := by
  decide +kernel

/-- the spaces in front -/
theorem skipSpace_split (s : Str) : ∃ sp : Str, s = sp ++ skipSpace s ∧ ∀ c ∈ sp, isSpace c = true := by
  induction s with
  | nil => exact ⟨[], rfl, by simp⟩
  | cons c s ih =>
    unfold skipSpace
    split_ifs with h
    · obtain ⟨sp, h1, h2⟩ := ih
      refine ⟨c :: sp, by rw [List.cons_append, ← h1], ?_⟩
      intro x hx
      rcases List.mem_cons.1 hx with rfl | hx
      · exact h
      · exact h2 x hx
    · exact ⟨[], rfl, by simp⟩

/-- characters of decimal digits -/
theorem digit10 {c v : Nat} (h : digit 10 c = some v) : 48 ≤ c ∧ c ≤ 57 := by
  unfold digit at h
  dsimp only at h
  by_cases h1 : 48 ≤ c ∧ c ≤ 57
  · exact h1
  · rw [if_neg h1] at h
    split_ifs at h with h2 h3
    all_goals (try simp at h) <;> omega

theorem digits_all : ∀ (s : Str) (acc v : Nat), digits 10 acc s = (v, []) → ∀ c ∈ s, 48 ≤ c ∧ c ≤ 57
  | [], _, _, _ => by simp
  | c :: s, acc, v, h => by
    simp only [digits] at h
    cases hc : digit 10 c with
    | none => rw [hc] at h; simp at h
    | some x =>
      rw [hc] at h
      intro y hy
      rcases List.mem_cons.1 hy with rfl | hy
      · exact digit10 hc
      · exact digits_all s _ v h y hy

/-- C122.  Nothing else is accepted as a number: a number consists of digits, possibly with a sign and white space in
front. -/
theorem C122_number_syntax (s : Str) (v : Nat) (h : getSize s = some v) :
    ∃ sp sg d : Str, s = sp ++ sg ++ d ∧ (∀ c ∈ sp, isSpace c = true) ∧ (sg = [] ∨ sg = str "-" ∨ sg = str "+") ∧
      d ≠ [] ∧ ∀ c ∈ d, 48 ≤ c ∧ c ≤ 57 := by
  obtain ⟨sp, h1, h2⟩ := skipSpace_split s
  have key : ∀ (t : Str) (neg : Bool), unsignedAt 10 neg t = some (v, []) → t ≠ [] ∧ ∀ c ∈ t, 48 ≤ c ∧ c ≤ 57 := by
    intro t neg ht
    cases t with
    | nil => simp [unsignedAt] at ht
    | cons c t =>
      refine ⟨by simp, ?_⟩
      simp only [unsignedAt] at ht
      cases hc : digit 10 c with
      | none => rw [hc] at ht; simp at ht
      | some x =>
        rw [hc] at ht
        dsimp only at ht
        refine digits_all (c :: t) 0 (digits 10 0 (c :: t)).1 ?_
        have : (digits 10 0 (c :: t)).2 = [] := by
          split_ifs at ht <;> simp only [Option.some.injEq, Prod.mk.injEq] at ht <;> exact ht.2
        rw [← this]
  have hz : strtoull 10 s = some (v, []) := by
    unfold getSize at h
    rcases hs : strtoull 10 s with _ | ⟨v', _ | ⟨c, r⟩⟩
    · rw [hs] at h; simp at h
    · rw [hs] at h; simp at h; rw [h]
    · rw [hs] at h; simp at h
  have h16 : ∀ t : Str, skipHex 10 t = t := by
    intro t
    match t with
    | [] => rfl
    | [_] => rfl
    | [_, _] => rfl
    | z :: x :: d :: t => simp [skipHex]
  unfold strtoull at hz
  dsimp only at hz
  rw [h16] at hz
  obtain ⟨k1, k2⟩ := key _ _ hz
  generalize skipSpace s = u at h1 k1 k2
  have hsplit : ∃ sg : Str, u = sg ++ skipSign u ∧ (sg = [] ∨ sg = str "-" ∨ sg = str "+") := by
    cases u with
    | nil => exact ⟨[], rfl, Or.inl rfl⟩
    | cons c t =>
      simp only [skipSign]
      split_ifs with hc
      · rcases hc with rfl | rfl
        · exact ⟨str "-", rfl, Or.inr (Or.inl rfl)⟩
        · exact ⟨str "+", rfl, Or.inr (Or.inr rfl)⟩
      · exact ⟨[], rfl, Or.inl rfl⟩
  obtain ⟨sg, e1, e2⟩ := hsplit
  exact ⟨sp, sg, skipSign u, by rw [List.append_assoc, ← e1]; exact h1, h2, e2, k1, k2⟩

/-- C122.  A color with six hexadecimal digits has the components red, green, blue with two digits each. Missing: other
numbers of digits, see `C122_rgb_wrong`. -/
theorem C122_rgb_partial (a b c d e f : Nat) (h : ∀ x ∈ [a, b, c, d, e, f], x < 16) :
    getRgb ([a, b, c, d, e, f].map digitChar) = some ⟨16 * a + b, 16 * c + d, 16 * e + f⟩ := by
  have hs := strtoull_digits 16 (by omega) [a, b, c, d, e, f] (by simp) h
  simp only [List.mem_cons, List.not_mem_nil, or_false, forall_eq_or_imp, forall_eq] at h
  unfold getRgb
  rw [hs]
  dsimp only
  simp only [number, List.foldl_cons, List.foldl_nil]
  have hm : min ((((((0 * 16 + a) * 16 + b) * 16 + c) * 16 + d) * 16 + e) * 16 + f) (2 ^ 64 - 1) =
      (((((0 * 16 + a) * 16 + b) * 16 + c) * 16 + d) * 16 + e) * 16 + f := Nat.min_eq_left (by omega)
  rw [hm]
  congr 2 <;> omega

example : getRgb (str "ff8000") = some ⟨255, 128, 0⟩ ∧ [15, 15, 8, 0, 0, 0].map digitChar = str "ff8000" := by
  decide +kernel

/-- C122 fails: a color with too many digits is accepted, as is a negative one -/
theorem C122_rgb_wrong : getRgb (str "1000000") = some ⟨0, 0, 0⟩ ∧ getRgb (str "-1") = some ⟨255, 255, 255⟩ := by
  decide +kernel

/-! ### the output format -/

/-- what `.stl` means -/
def Dump.chosen (bin : Bool) : Dump → Dump
  | .stl => if bin then .stlb else .stla
  | d => d

/-- no documented ending is the end of another one -/
theorem endings_apart : ∀ x ∈ endings, ∀ y ∈ endings, x.1 <:+ y.1 → x = y := by decide +kernel

/-- C122.  Without a `--dump-...` option, the format is the documented one for the ending of the name of the output file,
and there is an error message if the name has none of the documented endings.  With such an option, the format does not
depend on the name. -/
theorem C122_format (o : Opts D) :
    (∀ fn, o.outFile = some fn → o.dump = .none → ∀ x ∈ endings, x.1 <:+ fn → format o = some (x.2.chosen o.preferStlBin)) ∧
    (∀ fn, o.outFile = some fn → o.dump = .none → (∀ x ∈ endings, ¬ x.1 <:+ fn) → format o = none) ∧
    (o.dump ≠ .none → format o = some (o.dump.chosen o.preferStlBin)) ∧
    (o.outFile = none → format o = some (o.dump.chosen o.preferStlBin)) := by
  have hsuf : ∀ h n : Str, hasSuffix h n = true ↔ n <:+ h := by
    intro h n
    rw [hasSuffix_iff]
    exact ⟨fun ⟨b, e⟩ => ⟨b, e.symm⟩, fun ⟨b, e⟩ => ⟨b, e.symm⟩⟩
  refine ⟨?_, ?_, ?_, ?_⟩
  · intro fn hf hd x hx hs
    have hother : ∀ y ∈ endings, y ≠ x → hasSuffix fn y.1 = false := by
      intro y hy hne
      rw [Bool.eq_false_iff]
      intro hc
      rcases List.suffix_or_suffix_of_suffix ((hsuf _ _).1 hc) hs with h | h
      · exact hne (endings_apart y hy x hx h)
      · exact hne (endings_apart x hx y hy h).symm
    have hown : hasSuffix fn x.1 = true := (hsuf _ _).2 hs
    unfold format
    simp only [hf, hd, ne_eq, not_true_eq_false, if_false]
    simp only [endings, List.mem_cons, List.not_mem_nil, or_false] at hx
    have o1 := hother (str ".stl", .stl) (by simp [endings])
    have o2 := hother (str ".stlb", .stlb) (by simp [endings])
    have o3 := hother (str ".stb", .stlb) (by simp [endings])
    have o4 := hother (str ".scad", .csg2) (by simp [endings])
    have o5 := hother (str ".csg", .csg2) (by simp [endings])
    have o6 := hother (str ".ps", .ps) (by simp [endings])
    have o7 := hother (str ".js", .js) (by simp [endings])
    rcases hx with rfl | rfl | rfl | rfl | rfl | rfl | rfl
    · simp only [hown, if_true, Dump.chosen]; split_ifs <;> rfl
    · rw [o1 (by decide +kernel)]; simp [hown, Dump.chosen]
    · rw [o1 (by decide +kernel)]; simp [hown, Dump.chosen]
    · rw [o1 (by decide +kernel), o2 (by decide +kernel), o3 (by decide +kernel), o7 (by decide +kernel)]
      simp [hown, Dump.chosen]
    · rw [o1 (by decide +kernel), o2 (by decide +kernel), o3 (by decide +kernel), o7 (by decide +kernel)]
      simp [hown, Dump.chosen]
    · rw [o1 (by decide +kernel), o2 (by decide +kernel), o3 (by decide +kernel), o7 (by decide +kernel),
        o4 (by decide +kernel), o5 (by decide +kernel)]
      simp [hown, Dump.chosen]
    · rw [o1 (by decide +kernel), o2 (by decide +kernel), o3 (by decide +kernel)]
      simp [hown, Dump.chosen]
  · intro fn hf hd hno
    have hn : ∀ y ∈ endings, hasSuffix fn y.1 = false := by
      intro y hy
      rw [Bool.eq_false_iff]
      exact fun hc => hno y hy ((hsuf _ _).1 hc)
    have o1 := hn (str ".stl", .stl) (by simp [endings])
    have o2 := hn (str ".stlb", .stlb) (by simp [endings])
    have o3 := hn (str ".stb", .stlb) (by simp [endings])
    have o4 := hn (str ".scad", .csg2) (by simp [endings])
    have o5 := hn (str ".csg", .csg2) (by simp [endings])
    have o6 := hn (str ".ps", .ps) (by simp [endings])
    have o7 := hn (str ".js", .js) (by simp [endings])
    unfold format
    simp only [hf, hd, ne_eq, not_true_eq_false, if_false, o1, o2, o3, o4, o5, o6, o7, Bool.false_eq_true, Bool.or_self]
  · intro hd
    unfold format
    cases hf : o.outFile with
    | none => cases hdd : o.dump <;> simp [Dump.chosen] <;> split_ifs <;> rfl
    | some fn => simp only [hd, ne_eq, not_false_eq_true, if_true]; cases hdd : o.dump <;> simp [Dump.chosen] <;> split_ifs <;> rfl
  · intro hf
    unfold format
    simp only [hf]
    cases hdd : o.dump <;> simp [Dump.chosen] <;> split_ifs <;> rfl

end Hob3l.Opt
