import Verif.Opt.Lemmas

/-!
C121: options of the command line mean what their names say, in each way of writing them.
-/

namespace Hob3l.Opt

variable {D : Type}

/-- C121.  An argument that starts with a dash is an option exactly if what is between the dashes and the end or the first
`=` is the name of an option: abbreviations and anything else are rejected.  The table is searched without access outside
of it.  If the option takes no value or only an optional one, no further argument is used; otherwise the value is the text
after `=`, if there is `=`, and the next argument, if there is not. -/
theorem C121_parse (env : Env D) (o : Opts D) (k : Nat) (rest : List Str) :
    (∀ e ∈ entries D, e.arg.need = 0 ∨ e.arg.need = 1 →
      parseOpt env o (dashed k e.name) rest = (handle env e.arg e.act o none).used 0) ∧
    (∀ e ∈ entries D, e.arg.need = 2 → ∀ v, parseOpt env o (dashed k e.name) (v :: rest) =
      (handle env e.arg e.act o (some v)).used 1) ∧
    (∀ e ∈ entries D, e.arg.need = 2 → parseOpt env o (dashed k e.name) [] = .fail) ∧
    (∀ e ∈ entries D, e.arg.need = 1 ∨ e.arg.need = 2 → ∀ v, parseOpt env o (dashed k (withValue e.name v)) rest =
      (handle env e.arg e.act o (some v)).used 0) ∧
    (∀ a : Str, (∀ e ∈ entries D, a ≠ e.name ∧ ∀ v, a ≠ withValue e.name v) → a.head? ≠ some dash →
      parseOpt env o (dashed k a) rest = .fail) := by
  refine ⟨?_, ?_, ?_, ?_, ?_⟩
  · intro e he hn
    rw [parseOpt_plain env o k he, if_neg (by omega)]
  · intro e he hn v
    rw [parseOpt_plain env o k he, if_pos hn]
  · intro e he hn
    rw [parseOpt_plain env o k he, if_pos hn]
  · intro e he hn v
    rw [parseOpt_value env o k he, if_neg (by omega)]
  · intro a ha hd
    apply parseOpt_unknown
    rw [skipDash_dashed k a hd]
    intro e he hname
    have hsplit : ∀ s : Str, s.take (keyLen s) = s ∨ ∃ v, s = withValue (s.take (keyLen s)) v := by
      intro s
      unfold withValue
      induction s with
      | nil => left; rfl
      | cons c s ih =>
        by_cases hc : c = equ
        · right; exact ⟨s, by simp [keyLen, hc]⟩
        · simp only [keyLen, if_neg hc, List.take_succ_cons]
          rcases ih with ih | ⟨v, ih⟩
          · left; rw [ih]
          · right; exact ⟨v, by rw [List.cons_append, ← ih]⟩
    rcases hsplit a with h | ⟨v, h⟩
    · exact (ha e he).1 (by rw [hname, h])
    · exact (ha e he).2 v (by rw [hname]; exact h)

/-- C121.  Options with a required value can be written with `=` or with the value as the next argument, which may start
with a dash, e.g., a negative number: the options and the file name that the command line defines are the same. -/
theorem C121_equals (env : Env D) (k : Nat) (v : Str) (pre rest : List Str) :
    ∀ e ∈ entries D, e.arg.need = 2 → ∀ (o : Opts D), parseArgs env o pre ≠ .fail →
      parseArgs env o (pre ++ dashed k (withValue e.name v) :: rest) =
        parseArgs env o (pre ++ dashed k e.name :: v :: rest) := by
  intro e he hn
  have hd : ∀ w, (dashed k w).head? = some dash := fun w => by simp [dashed, List.replicate_succ]
  intro o hpre
  unfold parseArgs at hpre ⊢
  rw [parseFrom_append env _ pre 0 o none (by omega) hpre, parseFrom_append env _ pre 0 o none (by omega) hpre]
  congr 1
  funext o' f
  rw [parseFrom_cons, if_pos (hd _), (C121_parse env o' k rest).2.2.2.1 e he (Or.inr hn) v]
  conv => rhs; rw [parseFrom_cons, if_pos (hd _), (C121_parse env o' k rest).2.1 e he hn v]
  cases handle env e.arg e.act o' (some v) <;> simp [Res.used, parseFrom]

/-- an option that is given by its words, with the argument and the statements -/
theorem mem_at (i : Nat) {e : Entry D} (h : (entries D)[i]? = some e) : e ∈ entries D := List.mem_of_getElem? h

/-- the position of a name in the file -/
def indexOf (w : Str) : Nat := ((entries Unit).map (·.name)).idxOf w

/-- the options in `pairs` -/
theorem pair_entries : ∀ p ∈ pairs, ∃ (neg : Bool) (set : Opts D → Bool → Opts D),
    (⟨p.1, .bool neg set, fun _ o => .ok o⟩ : Entry D) ∈ entries D ∧
    (⟨p.2, .bool (!neg) set, fun _ o => .ok o⟩ : Entry D) ∈ entries D := by
  intro p hp
  simp only [pairs, List.mem_cons, List.not_mem_nil, or_false] at hp
  rcases hp with rfl | rfl | rfl | rfl | rfl | rfl | rfl | rfl | rfl
  · exact ⟨false, fun o v => { o with noCsg := v }, mem_at (indexOf (str "no-csg")) rfl, mem_at (indexOf (str "csg")) rfl⟩
  · exact ⟨false, fun o v => { o with noTri := v }, mem_at (indexOf (str "no-tri")) rfl, mem_at (indexOf (str "tri")) rfl⟩
  · exact ⟨false, fun o v => { o with noDiff := v }, mem_at (indexOf (str "no-diff")) rfl, mem_at (indexOf (str "diff")) rfl⟩
  · exact ⟨true, fun o v => { o with triAddPath := v }, mem_at (indexOf (str "no-path")) rfl,
      mem_at (indexOf (str "path")) rfl⟩
  · exact ⟨true, fun o v => { o with keepCtxt := v }, mem_at (indexOf (str "js-no-keep-ctxt")) rfl,
      mem_at (indexOf (str "js-keep-ctxt")) rfl⟩
  · exact ⟨true, fun o v => { o with psSinglePage := v }, mem_at (indexOf (str "ps-no-single-page")) rfl,
      mem_at (indexOf (str "ps-single-page")) rfl⟩
  · exact ⟨false, fun o v => { o with psNoTri := v }, mem_at (indexOf (str "ps-no-tri")) rfl,
      mem_at (indexOf (str "ps-tri")) rfl⟩
  · exact ⟨false, fun o v => { o with psNoPath := v }, mem_at (indexOf (str "ps-no-path")) rfl,
      mem_at (indexOf (str "ps-path")) rfl⟩
  · exact ⟨false, fun o v => { o with psNoMark := v }, mem_at (indexOf (str "ps-no-mark")) rfl,
      mem_at (indexOf (str "ps-mark")) rfl⟩

/-- the words for yes and no -/
def truth : List (Str × Bool) := [(str "true", true), (str "1", true), (str "yes", true), (str "false", false),
  (str "0", false), (str "no", false)]

theorem getBool_truth : ∀ x ∈ truth, getBool (some x.1) = some x.2 := by decide +kernel

/-- C121.  Each of the nine switches in `pairs` and its opposite set the same thing: an option alone is the same as with
the value yes and as the opposite with the value no, and the option with the value no is the same as the opposite alone.
Missing: two more switches, for which this is false, see `C121_negation_wrong`. -/
theorem C121_negation_partial (env : Env D) (o : Opts D) (k : Nat) (rest : List Str) : ∀ p ∈ pairs, ∀ x ∈ truth,
    parseOpt env o (dashed k (withValue p.1 x.1)) rest =
      parseOpt env o (dashed k (if x.2 then p.1 else p.2)) rest ∧
    parseOpt env o (dashed k (withValue p.2 x.1)) rest =
      parseOpt env o (dashed k (if x.2 then p.2 else p.1)) rest := by
  intro p hp x hx
  obtain ⟨neg, set, h1, h2⟩ := pair_entries (D := D) p hp
  have hv := getBool_truth x hx
  have hn : getBool none = some true := rfl
  obtain ⟨a1, _, _, a4, _⟩ := C121_parse env o k rest
  have e1 := a1 _ h1 (Or.inr rfl)
  have e2 := a1 _ h2 (Or.inr rfl)
  have e3 := a4 _ h1 (Or.inl rfl) x.1
  have e4 := a4 _ h2 (Or.inl rfl) x.1
  dsimp only at e1 e2 e3 e4
  rw [e3, e4]
  cases hb : x.2 with
  | true =>
    rw [hb] at hv
    simp only [if_true]
    rw [e1, e2]
    simp only [handle, hv, hn, and_self]
  | false =>
    rw [hb] at hv
    simp only [Bool.false_eq_true, if_false]
    rw [e1, e2]
    simp only [handle, hv, hn]
    cases neg <;> exact ⟨rfl, rfl⟩

/-- C121 fails: `--opt-skip-empty` and `--opt-drop-collinear`, the opposites of documented options, have no effect,
whatever value they have; so they neither revoke `--opt-no-skip-empty` nor are they the same with the value `no`. -/
theorem C121_negation_wrong (env : Env D) (o : Opts D) (rest : List Str) :
    parseOpt env o (str "--opt-no-skip-empty") rest = .ok ({ o with optSkipEmpty := false }, 0) ∧
    parseOpt env o (str "--opt-skip-empty") rest = .ok (o, 0) ∧
    parseOpt env o (str "--opt-skip-empty=no") rest = .ok (o, 0) ∧
    parseOpt env o (str "--opt-no-drop-collinear") rest = .ok ({ o with optDropCollinear := false }, 0) ∧
    parseOpt env o (str "--opt-drop-collinear") rest = .ok (o, 0) := by
  have m1 : (⟨str "opt-no-skip-empty", .boolLoc true,
    fun l o => match l with | .bool a => .ok { o with optSkipEmpty := a } | _ => .ub⟩ : Entry D) ∈ entries D :=
    mem_at (indexOf (str "opt-no-skip-empty")) rfl
  have m2 : (⟨str "opt-skip-empty", .boolLoc false, fun _ o => .ok o⟩ : Entry D) ∈ entries D :=
    mem_at (indexOf (str "opt-skip-empty")) rfl
  have m3 : (⟨str "opt-no-drop-collinear", .boolLoc true,
    fun l o => match l with | .bool a => .ok { o with optDropCollinear := a } | _ => .ub⟩ : Entry D) ∈ entries D :=
    mem_at (indexOf (str "opt-no-drop-collinear")) rfl
  have m4 : (⟨str "opt-drop-collinear", .boolLoc false, fun _ o => .ok o⟩ : Entry D) ∈ entries D :=
    mem_at (indexOf (str "opt-drop-collinear")) rfl
  obtain ⟨a1, _, _, a4, _⟩ := C121_parse env o 1 rest
  exact ⟨a1 _ m1 (Or.inr rfl), a1 _ m2 (Or.inr rfl), a4 _ m2 (Or.inl rfl) (str "no"), a1 _ m3 (Or.inr rfl),
    a1 _ m4 (Or.inr rfl)⟩

/-- C121 fails: a value for an option that takes none is not rejected but ignored, for all these options; e.g.,
`--stl-bin=no` selects binary STL. -/
theorem C121_ignored_wrong (env : Env D) (o : Opts D) (rest : List Str) :
    parseOpt env o (str "--stl-bin=no") rest = .ok ({ o with preferStlBin := true }, 0) ∧
    ∀ e ∈ entries D, e.arg.need = 0 → ∀ k v,
      parseOpt env o (dashed k (withValue e.name v)) rest = parseOpt env o (dashed k e.name) rest := by
  have key : ∀ e ∈ entries D, e.arg.need = 0 → ∀ k v,
      parseOpt env o (dashed k (withValue e.name v)) rest = parseOpt env o (dashed k e.name) rest := by
    intro e he hn k v
    rw [parseOpt_value env o k he, parseOpt_plain env o k he, if_pos hn, if_neg (by omega)]
  refine ⟨?_, key⟩
  have m1 : (⟨str "stl-bin", .none, act fun o => { o with preferStlBin := true }⟩ : Entry D) ∈ entries D :=
    mem_at (indexOf (str "stl-bin")) rfl
  exact (key _ m1 rfl 1 (str "no")).trans ((C121_parse env o 1 rest).1 _ m1 (Or.inl rfl))

/-- C121.  Except for options that accumulate, the last one counts: if an option is given again, with whatever value, then
the first one has no effect. -/
theorem C121_last (env : Env D) (o o1 : Opts D) (a1 a2 : Option Str) : ∀ e ∈ entries D, e.name ∉ accumulating →
    handle env e.arg e.act o a1 = .ok o1 → handle env e.arg e.act o1 a2 = handle env e.arg e.act o a2 := by
  intro e he hacc h
  rw [entries, List.mem_flatMap] at he
  obtain ⟨c, hc, hce⟩ := he
  rcases (all_good c hc).good e hce with hg | hg
  · exact absurd hg hacc
  · exact hg env o o1 a1 a2 h

/-! ### what is set -/

/-- entries of `dimOptions` -/
theorem dim_entry : ∀ p ∈ dimOptions D, ∃ (set : Opts D → D → Opts D) (f : Opts D → Opts D),
    (∃ e ∈ entries D, e.name = p.1 ∧ e.arg = .dim set ∧ ∀ l o, e.act l o = .ok (f o)) ∧
    ∀ o x, p.2 (f (set o x)) = x ∧ ∀ q ∈ dimOptions D, q.1 ≠ p.1 → q.2 (f (set o x)) = q.2 o := by
  intro p hp
  simp only [dimOptions, List.mem_cons, List.not_mem_nil, or_false] at hp
  rcases hp with rfl | rfl | rfl | rfl | rfl | rfl | rfl | rfl | rfl | rfl
  · refine ⟨fun o v => { o with layerGap := v }, fun o => o,
      ⟨_, mem_at (indexOf (str "layer-gap")) rfl, rfl, rfl, fun _ _ => rfl⟩, fun o x => ⟨rfl, fun q hq hne => ?_⟩⟩
    simp only [dimOptions, List.mem_cons, List.not_mem_nil, or_false] at hq
    rcases hq with rfl | rfl | rfl | rfl | rfl | rfl | rfl | rfl | rfl | rfl <;> first | rfl | exact absurd rfl hne
  · refine ⟨fun o v => { o with zMin := v }, fun o => { o with haveZMin := true },
      ⟨_, mem_at (indexOf (str "min")) rfl, rfl, rfl, fun _ _ => rfl⟩, fun o x => ⟨rfl, fun q hq hne => ?_⟩⟩
    simp only [dimOptions, List.mem_cons, List.not_mem_nil, or_false] at hq
    rcases hq with rfl | rfl | rfl | rfl | rfl | rfl | rfl | rfl | rfl | rfl <;> first | rfl | exact absurd rfl hne
  · refine ⟨fun o v => { o with zMax := v }, fun o => { o with haveZMax := true },
      ⟨_, mem_at (indexOf (str "max")) rfl, rfl, rfl, fun _ _ => rfl⟩, fun o x => ⟨rfl, fun q hq hne => ?_⟩⟩
    simp only [dimOptions, List.mem_cons, List.not_mem_nil, or_false] at hq
    rcases hq with rfl | rfl | rfl | rfl | rfl | rfl | rfl | rfl | rfl | rfl <;> first | rfl | exact absurd rfl hne
  · refine ⟨fun o v => { o with zStep := v }, fun o => o,
      ⟨_, mem_at (indexOf (str "step")) rfl, rfl, rfl, fun _ _ => rfl⟩, fun o x => ⟨rfl, fun q hq hne => ?_⟩⟩
    simp only [dimOptions, List.mem_cons, List.not_mem_nil, or_false] at hq
    rcases hq with rfl | rfl | rfl | rfl | rfl | rfl | rfl | rfl | rfl | rfl <;> first | rfl | exact absurd rfl hne
  · refine ⟨fun o v => { o with grid := v }, fun o => o,
      ⟨_, mem_at (indexOf (str "grid")) rfl, rfl, rfl, fun _ _ => rfl⟩, fun o x => ⟨rfl, fun q hq hne => ?_⟩⟩
    simp only [dimOptions, List.mem_cons, List.not_mem_nil, or_false] at hq
    rcases hq with rfl | rfl | rfl | rfl | rfl | rfl | rfl | rfl | rfl | rfl <;> first | rfl | exact absurd rfl hne
  · refine ⟨fun o v => { o with gran := v }, fun o => o,
      ⟨_, mem_at (indexOf (str "gran")) rfl, rfl, rfl, fun _ _ => rfl⟩, fun o x => ⟨rfl, fun q hq hne => ?_⟩⟩
    simp only [dimOptions, List.mem_cons, List.not_mem_nil, or_false] at hq
    rcases hq with rfl | rfl | rfl | rfl | rfl | rfl | rfl | rfl | rfl | rfl <;> first | rfl | exact absurd rfl hne
  · refine ⟨fun o v => { o with eps := v }, fun o => o,
      ⟨_, mem_at (indexOf (str "eps")) rfl, rfl, rfl, fun _ _ => rfl⟩, fun o x => ⟨rfl, fun q hq hne => ?_⟩⟩
    simp only [dimOptions, List.mem_cons, List.not_mem_nil, or_false] at hq
    rcases hq with rfl | rfl | rfl | rfl | rfl | rfl | rfl | rfl | rfl | rfl <;> first | rfl | exact absurd rfl hne
  · refine ⟨fun o v => { o with eps2 := v }, fun o => o,
      ⟨_, mem_at (indexOf (str "eps2")) rfl, rfl, rfl, fun _ _ => rfl⟩, fun o x => ⟨rfl, fun q hq hne => ?_⟩⟩
    simp only [dimOptions, List.mem_cons, List.not_mem_nil, or_false] at hq
    rcases hq with rfl | rfl | rfl | rfl | rfl | rfl | rfl | rfl | rfl | rfl <;> first | rfl | exact absurd rfl hne
  · refine ⟨fun o v => { o with psPersp := v }, fun o => o,
      ⟨_, mem_at (indexOf (str "ps-persp")) rfl, rfl, rfl, fun _ _ => rfl⟩, fun o x => ⟨rfl, fun q hq hne => ?_⟩⟩
    simp only [dimOptions, List.mem_cons, List.not_mem_nil, or_false] at hq
    rcases hq with rfl | rfl | rfl | rfl | rfl | rfl | rfl | rfl | rfl | rfl <;> first | rfl | exact absurd rfl hne
  · refine ⟨fun o v => { o with psLineWidth := v }, fun o => o,
      ⟨_, mem_at (indexOf (str "ps-line-width")) rfl, rfl, rfl, fun _ _ => rfl⟩, fun o x => ⟨rfl, fun q hq hne => ?_⟩⟩
    simp only [dimOptions, List.mem_cons, List.not_mem_nil, or_false] at hq
    rcases hq with rfl | rfl | rfl | rfl | rfl | rfl | rfl | rfl | rfl | rfl <;> first | rfl | exact absurd rfl hne

/-- entries of `errOptions` -/
theorem err_entry : ∀ p ∈ errOptions D, ∃ (set : Opts D → Err → Opts D) (f : Opts D → Opts D),
    (∃ e ∈ entries D, e.name = p.1 ∧ e.arg = .err set ∧ ∀ l o, e.act l o = .ok (f o)) ∧
    ∀ o x, p.2 (f (set o x)) = x ∧ ∀ q ∈ errOptions D, q.1 ≠ p.1 → q.2 (f (set o x)) = q.2 o := by
  intro p hp
  simp only [errOptions, List.mem_cons, List.not_mem_nil, or_false] at hp
  rcases hp with rfl | rfl | rfl | rfl | rfl | rfl | rfl
  · refine ⟨fun o v => { o with errEmpty := v }, fun o => o,
      ⟨_, mem_at (indexOf (str "empty")) rfl, rfl, rfl, fun _ _ => rfl⟩, fun o x => ⟨rfl, fun q hq hne => ?_⟩⟩
    simp only [errOptions, List.mem_cons, List.not_mem_nil, or_false] at hq
    rcases hq with rfl | rfl | rfl | rfl | rfl | rfl | rfl <;> first | rfl | exact absurd rfl hne
  · refine ⟨fun o v => { o with errCollapse := v }, fun o => o,
      ⟨_, mem_at (indexOf (str "collapse")) rfl, rfl, rfl, fun _ _ => rfl⟩, fun o x => ⟨rfl, fun q hq hne => ?_⟩⟩
    simp only [errOptions, List.mem_cons, List.not_mem_nil, or_false] at hq
    rcases hq with rfl | rfl | rfl | rfl | rfl | rfl | rfl <;> first | rfl | exact absurd rfl hne
  · refine ⟨fun o v => { o with errOutside3d := v }, fun o => o,
      ⟨_, mem_at (indexOf (str "outside-3d")) rfl, rfl, rfl, fun _ _ => rfl⟩, fun o x => ⟨rfl, fun q hq hne => ?_⟩⟩
    simp only [errOptions, List.mem_cons, List.not_mem_nil, or_false] at hq
    rcases hq with rfl | rfl | rfl | rfl | rfl | rfl | rfl <;> first | rfl | exact absurd rfl hne
  · refine ⟨fun o v => { o with errOutside2d := v }, fun o => o,
      ⟨_, mem_at (indexOf (str "outside-2d")) rfl, rfl, rfl, fun _ _ => rfl⟩, fun o x => ⟨rfl, fun q hq hne => ?_⟩⟩
    simp only [errOptions, List.mem_cons, List.not_mem_nil, or_false] at hq
    rcases hq with rfl | rfl | rfl | rfl | rfl | rfl | rfl <;> first | rfl | exact absurd rfl hne
  · refine ⟨fun o v => { o with errUnsupportedFunctor := v }, fun o => o,
      ⟨_, mem_at (indexOf (str "unsupported-functor")) rfl, rfl, rfl, fun _ _ => rfl⟩, fun o x => ⟨rfl, fun q hq hne => ?_⟩⟩
    simp only [errOptions, List.mem_cons, List.not_mem_nil, or_false] at hq
    rcases hq with rfl | rfl | rfl | rfl | rfl | rfl | rfl <;> first | rfl | exact absurd rfl hne
  · refine ⟨fun o v => { o with errUnknownFunctor := v }, fun o => o,
      ⟨_, mem_at (indexOf (str "unknown-functor")) rfl, rfl, rfl, fun _ _ => rfl⟩, fun o x => ⟨rfl, fun q hq hne => ?_⟩⟩
    simp only [errOptions, List.mem_cons, List.not_mem_nil, or_false] at hq
    rcases hq with rfl | rfl | rfl | rfl | rfl | rfl | rfl <;> first | rfl | exact absurd rfl hne
  · refine ⟨fun o v => { o with errUnknownParam := v }, fun o => o,
      ⟨_, mem_at (indexOf (str "unknown-param")) rfl, rfl, rfl, fun _ _ => rfl⟩, fun o x => ⟨rfl, fun q hq hne => ?_⟩⟩
    simp only [errOptions, List.mem_cons, List.not_mem_nil, or_false] at hq
    rcases hq with rfl | rfl | rfl | rfl | rfl | rfl | rfl <;> first | rfl | exact absurd rfl hne

/-- entries of `rgbOptions` -/
theorem rgb_entry : ∀ p ∈ rgbOptions D, ∃ (set : Opts D → Rgb → Opts D) (f : Opts D → Opts D),
    (∃ e ∈ entries D, e.name = p.1 ∧ e.arg = .rgb set ∧ ∀ l o, e.act l o = .ok (f o)) ∧
    ∀ o x, p.2 (f (set o x)) = x ∧ ∀ q ∈ rgbOptions D, q.1 ≠ p.1 → q.2 (f (set o x)) = q.2 o := by
  intro p hp
  simp only [rgbOptions, List.mem_cons, List.not_mem_nil, or_false] at hp
  rcases hp with rfl | rfl | rfl | rfl | rfl
  · refine ⟨fun o v => { o with psColorPath := v }, fun o => o,
      ⟨_, mem_at (indexOf (str "ps-color-path")) rfl, rfl, rfl, fun _ _ => rfl⟩, fun o x => ⟨rfl, fun q hq hne => ?_⟩⟩
    simp only [rgbOptions, List.mem_cons, List.not_mem_nil, or_false] at hq
    rcases hq with rfl | rfl | rfl | rfl | rfl <;> first | rfl | exact absurd rfl hne
  · refine ⟨fun o v => { o with psColorTri := v }, fun o => o,
      ⟨_, mem_at (indexOf (str "ps-color-tri")) rfl, rfl, rfl, fun _ _ => rfl⟩, fun o x => ⟨rfl, fun q hq hne => ?_⟩⟩
    simp only [rgbOptions, List.mem_cons, List.not_mem_nil, or_false] at hq
    rcases hq with rfl | rfl | rfl | rfl | rfl <;> first | rfl | exact absurd rfl hne
  · refine ⟨fun o v => { o with psColorFill := v }, fun o => o,
      ⟨_, mem_at (indexOf (str "ps-color-fill")) rfl, rfl, rfl, fun _ _ => rfl⟩, fun o x => ⟨rfl, fun q hq hne => ?_⟩⟩
    simp only [rgbOptions, List.mem_cons, List.not_mem_nil, or_false] at hq
    rcases hq with rfl | rfl | rfl | rfl | rfl <;> first | rfl | exact absurd rfl hne
  · refine ⟨fun o v => { o with psColorVertex := v }, fun o => o,
      ⟨_, mem_at (indexOf (str "ps-color-vertex")) rfl, rfl, rfl, fun _ _ => rfl⟩, fun o x => ⟨rfl, fun q hq hne => ?_⟩⟩
    simp only [rgbOptions, List.mem_cons, List.not_mem_nil, or_false] at hq
    rcases hq with rfl | rfl | rfl | rfl | rfl <;> first | rfl | exact absurd rfl hne
  · refine ⟨fun o v => { o with psColorMark := v }, fun o => o,
      ⟨_, mem_at (indexOf (str "ps-color-mark")) rfl, rfl, rfl, fun _ _ => rfl⟩, fun o x => ⟨rfl, fun q hq hne => ?_⟩⟩
    simp only [rgbOptions, List.mem_cons, List.not_mem_nil, or_false] at hq
    rcases hq with rfl | rfl | rfl | rfl | rfl <;> first | rfl | exact absurd rfl hne

/-- C121.  Each option with a number as value, given in any of the two ways, keeps its value in its own place and does not
change the values of the other ones.  The same holds for options with a treatment of problems and for colors. -/
theorem C121_values (env : Env D) (o : Opts D) (k : Nat) (v : Str) (rest : List Str) :
    (∀ p ∈ dimOptions D, ∀ x, getDim env v = some x → ∃ o',
      parseOpt env o (dashed k (withValue p.1 v)) rest = .ok (o', 0) ∧
      parseOpt env o (dashed k p.1) (v :: rest) = .ok (o', 1) ∧
      p.2 o' = x ∧ ∀ q ∈ dimOptions D, q.1 ≠ p.1 → q.2 o' = q.2 o) ∧
    (∀ p ∈ errOptions D, ∀ x, getErr v = some x → ∃ o',
      parseOpt env o (dashed k (withValue p.1 v)) rest = .ok (o', 0) ∧
      parseOpt env o (dashed k p.1) (v :: rest) = .ok (o', 1) ∧
      p.2 o' = x ∧ ∀ q ∈ errOptions D, q.1 ≠ p.1 → q.2 o' = q.2 o) ∧
    (∀ p ∈ rgbOptions D, ∀ x, getRgb v = some x → ∃ o',
      parseOpt env o (dashed k (withValue p.1 v)) rest = .ok (o', 0) ∧
      parseOpt env o (dashed k p.1) (v :: rest) = .ok (o', 1) ∧
      p.2 o' = x ∧ ∀ q ∈ rgbOptions D, q.1 ≠ p.1 → q.2 o' = q.2 o) := by
  obtain ⟨_, a2, _, a4, _⟩ := C121_parse env o k rest
  refine ⟨?_, ?_, ?_⟩
  · intro p hp x hx
    obtain ⟨set, f, ⟨e, he, hn, ha, hact⟩, hset⟩ := dim_entry p hp
    have hneed : e.arg.need = 2 := by rw [ha]; rfl
    refine ⟨f (set o x), ?_, ?_, (hset o x).1, (hset o x).2⟩
    · rw [← hn, a4 e he (Or.inr hneed) v, ha]
      simp only [handle, hx, hact, Res.used]
    · rw [← hn, a2 e he hneed v, ha]
      simp only [handle, hx, hact, Res.used]
  · intro p hp x hx
    obtain ⟨set, f, ⟨e, he, hn, ha, hact⟩, hset⟩ := err_entry p hp
    have hneed : e.arg.need = 2 := by rw [ha]; rfl
    refine ⟨f (set o x), ?_, ?_, (hset o x).1, (hset o x).2⟩
    · rw [← hn, a4 e he (Or.inr hneed) v, ha]
      simp only [handle, hx, hact, Res.used]
    · rw [← hn, a2 e he hneed v, ha]
      simp only [handle, hx, hact, Res.used]
  · intro p hp x hx
    obtain ⟨set, f, ⟨e, he, hn, ha, hact⟩, hset⟩ := rgb_entry p hp
    have hneed : e.arg.need = 2 := by rw [ha]; rfl
    refine ⟨f (set o x), ?_, ?_, (hset o x).1, (hset o x).2⟩
    · rw [← hn, a4 e he (Or.inr hneed) v, ha]
      simp only [handle, hx, hact, Res.used]
    · rw [← hn, a2 e he hneed v, ha]
      simp only [handle, hx, hact, Res.used]

/-- entries of `switches` -/
theorem switch_entry : ∀ p ∈ switches D, ∃ (neg : Bool) (set : Opts D → Bool → Opts D),
    (⟨p.1.1, .bool neg set, fun _ o => .ok o⟩ : Entry D) ∈ entries D ∧
    (⟨p.1.2, .bool (!neg) set, fun _ o => .ok o⟩ : Entry D) ∈ entries D ∧ p.2.2 = !neg ∧
    ∀ o x, p.2.1 (set o x) = x ∧ ∀ q ∈ switches D, q.1 ≠ p.1 → q.2.1 (set o x) = q.2.1 o := by
  intro p hp
  simp only [switches, List.mem_cons, List.not_mem_nil, or_false] at hp
  rcases hp with rfl | rfl | rfl | rfl | rfl | rfl | rfl | rfl | rfl
  · refine ⟨false, fun o v => { o with noCsg := v }, mem_at (indexOf (str "no-csg")) rfl, mem_at (indexOf (str "csg")) rfl, rfl,
      fun o x => ⟨rfl, fun q hq hne => ?_⟩⟩
    simp only [switches, List.mem_cons, List.not_mem_nil, or_false] at hq
    rcases hq with rfl | rfl | rfl | rfl | rfl | rfl | rfl | rfl | rfl <;> first | rfl | exact absurd rfl hne
  · refine ⟨false, fun o v => { o with noTri := v }, mem_at (indexOf (str "no-tri")) rfl, mem_at (indexOf (str "tri")) rfl, rfl,
      fun o x => ⟨rfl, fun q hq hne => ?_⟩⟩
    simp only [switches, List.mem_cons, List.not_mem_nil, or_false] at hq
    rcases hq with rfl | rfl | rfl | rfl | rfl | rfl | rfl | rfl | rfl <;> first | rfl | exact absurd rfl hne
  · refine ⟨false, fun o v => { o with noDiff := v }, mem_at (indexOf (str "no-diff")) rfl, mem_at (indexOf (str "diff")) rfl, rfl,
      fun o x => ⟨rfl, fun q hq hne => ?_⟩⟩
    simp only [switches, List.mem_cons, List.not_mem_nil, or_false] at hq
    rcases hq with rfl | rfl | rfl | rfl | rfl | rfl | rfl | rfl | rfl <;> first | rfl | exact absurd rfl hne
  · refine ⟨true, fun o v => { o with triAddPath := v }, mem_at (indexOf (str "no-path")) rfl, mem_at (indexOf (str "path")) rfl, rfl,
      fun o x => ⟨rfl, fun q hq hne => ?_⟩⟩
    simp only [switches, List.mem_cons, List.not_mem_nil, or_false] at hq
    rcases hq with rfl | rfl | rfl | rfl | rfl | rfl | rfl | rfl | rfl <;> first | rfl | exact absurd rfl hne
  · refine ⟨true, fun o v => { o with keepCtxt := v }, mem_at (indexOf (str "js-no-keep-ctxt")) rfl, mem_at (indexOf (str "js-keep-ctxt")) rfl, rfl,
      fun o x => ⟨rfl, fun q hq hne => ?_⟩⟩
    simp only [switches, List.mem_cons, List.not_mem_nil, or_false] at hq
    rcases hq with rfl | rfl | rfl | rfl | rfl | rfl | rfl | rfl | rfl <;> first | rfl | exact absurd rfl hne
  · refine ⟨true, fun o v => { o with psSinglePage := v }, mem_at (indexOf (str "ps-no-single-page")) rfl, mem_at (indexOf (str "ps-single-page")) rfl, rfl,
      fun o x => ⟨rfl, fun q hq hne => ?_⟩⟩
    simp only [switches, List.mem_cons, List.not_mem_nil, or_false] at hq
    rcases hq with rfl | rfl | rfl | rfl | rfl | rfl | rfl | rfl | rfl <;> first | rfl | exact absurd rfl hne
  · refine ⟨false, fun o v => { o with psNoTri := v }, mem_at (indexOf (str "ps-no-tri")) rfl, mem_at (indexOf (str "ps-tri")) rfl, rfl,
      fun o x => ⟨rfl, fun q hq hne => ?_⟩⟩
    simp only [switches, List.mem_cons, List.not_mem_nil, or_false] at hq
    rcases hq with rfl | rfl | rfl | rfl | rfl | rfl | rfl | rfl | rfl <;> first | rfl | exact absurd rfl hne
  · refine ⟨false, fun o v => { o with psNoPath := v }, mem_at (indexOf (str "ps-no-path")) rfl, mem_at (indexOf (str "ps-path")) rfl, rfl,
      fun o x => ⟨rfl, fun q hq hne => ?_⟩⟩
    simp only [switches, List.mem_cons, List.not_mem_nil, or_false] at hq
    rcases hq with rfl | rfl | rfl | rfl | rfl | rfl | rfl | rfl | rfl <;> first | rfl | exact absurd rfl hne
  · refine ⟨false, fun o v => { o with psNoMark := v }, mem_at (indexOf (str "ps-no-mark")) rfl, mem_at (indexOf (str "ps-mark")) rfl, rfl,
      fun o x => ⟨rfl, fun q hq hne => ?_⟩⟩
    simp only [switches, List.mem_cons, List.not_mem_nil, or_false] at hq
    rcases hq with rfl | rfl | rfl | rfl | rfl | rfl | rfl | rfl | rfl <;> first | rfl | exact absurd rfl hne

/-- C121.  Each of the switches, without value, sets its own state, the opposite resets it, and the states of the other
switches are not changed. -/
theorem C121_switches (env : Env D) (o : Opts D) (k : Nat) (rest : List Str) : ∀ p ∈ switches D,
    (∃ o', parseOpt env o (dashed k p.1.1) rest = .ok (o', 0) ∧ p.2.1 o' = p.2.2 ∧
      ∀ q ∈ switches D, q.1 ≠ p.1 → q.2.1 o' = q.2.1 o) ∧
    (∃ o', parseOpt env o (dashed k p.1.2) rest = .ok (o', 0) ∧ p.2.1 o' = !p.2.2 ∧
      ∀ q ∈ switches D, q.1 ≠ p.1 → q.2.1 o' = q.2.1 o) := by
  intro p hp
  obtain ⟨neg, set, h1, h2, h3, hset⟩ := switch_entry p hp
  obtain ⟨a1, _, _, _, _⟩ := C121_parse env o k rest
  have e1 := a1 _ h1 (Or.inr rfl)
  have e2 := a1 _ h2 (Or.inr rfl)
  have hn : getBool none = some true := rfl
  simp only [handle, hn, Res.used] at e1 e2
  refine ⟨⟨_, e1, ?_, (hset o _).2⟩, ⟨_, e2, ?_, (hset o _).2⟩⟩
  · rw [(hset o _).1, h3]; cases neg <;> rfl
  · rw [(hset o _).1, h3]; cases neg <;> rfl

/-- the switches are those of `C121_negation_partial` -/
example : (switches D).map (·.1) = pairs := rfl

/-- entries of `dumps` -/
theorem dump_entry : ∀ p ∈ dumps, (⟨p.1, .none, act fun o => { o with dump := p.2 }⟩ : Entry D) ∈ entries D := by
  intro p hp
  simp only [dumps, List.mem_cons, List.not_mem_nil, or_false] at hp
  rcases hp with rfl | rfl | rfl | rfl | rfl | rfl | rfl | rfl
  · exact mem_at (indexOf (str "dump-syn")) rfl
  · exact mem_at (indexOf (str "dump-scad")) rfl
  · exact mem_at (indexOf (str "dump-csg3")) rfl
  · exact mem_at (indexOf (str "dump-csg2")) rfl
  · exact mem_at (indexOf (str "dump-ps")) rfl
  · exact mem_at (indexOf (str "dump-stl")) rfl
  · exact mem_at (indexOf (str "dump-stlb")) rfl
  · exact mem_at (indexOf (str "dump-js")) rfl

/-- C121.  The options for the output format select the format they name, whatever the name of the output file is, and the
last one counts.  (`--dump-stl` is text even after `--stl-bin`.) -/
theorem C121_dump (env : Env D) (o : Opts D) (k : Nat) (rest : List Str) : ∀ p ∈ dumps, ∃ o',
    parseOpt env o (dashed k p.1) rest = .ok (o', 0) ∧ format o' = some p.2 := by
  intro p hp
  refine ⟨{ o with dump := p.2 }, (C121_parse env o k rest).1 _ (dump_entry p hp) (Or.inl rfl), ?_⟩
  have hne : p.2 ≠ Dump.none ∧ p.2 ≠ Dump.stl := by
    simp only [dumps, List.mem_cons, List.not_mem_nil, or_false] at hp
    rcases hp with rfl | rfl | rfl | rfl | rfl | rfl | rfl | rfl <;> decide
  unfold format
  dsimp only
  cases o.outFile with
  | none => dsimp only; split
            · rename_i h; simp only [Option.some.injEq] at h; exact absurd h hne.2
            · rfl
  | some fn => dsimp only; rw [if_pos hne.1]; split
               · rename_i h; simp only [Option.some.injEq] at h; exact absurd h hne.2
               · rfl

/-! ### concrete cases -/

/-- an option with a required value, after complete arguments, as in `C121_equals` -/
example (env : Env D) (o : Opts D) : parseArgs env o [str "a.scad"] = .ok (o, some (str "a.scad")) ∧
    (∃ e ∈ entries D, e.name = str "grid" ∧ e.arg.need = 2) ∧ dashed 1 (withValue (str "grid") (str "2^10")) = str "--grid=2^10" := by
  refine ⟨rfl, ⟨_, mem_at (indexOf (str "grid")) rfl, rfl, rfl⟩, rfl⟩

/-- an abbreviation is rejected, as in `C121_parse` -/
example (env : Env D) (o : Opts D) (rest : List Str) : parseOpt env o (str "--gri") rest = .fail := by
  apply parseOpt_unknown
  intro e he hname
  have : e.name ∈ (entries Unit).map (·.name) := by rw [← names_eq D]; exact List.mem_map_of_mem he
  rw [hname] at this
  revert this
  decide +kernel

end Hob3l.Opt
