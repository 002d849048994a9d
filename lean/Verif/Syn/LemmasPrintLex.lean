import Verif.Syn.PrintModel
import Verif.Syn.PrintSpec
import Mathlib.Tactic.SplitIfs
/-!
Reading printed text, token by token.
-/
namespace Hob3l.Syn

/-- the text consists of tokens with `P` -/
def Reads (s : Text) (P : List Token → Prop) : Prop := ∃ ts, Lexes false s ts ∧ P ts

/-- the same behind a number or an identifier -/
def ReadsAny (s : Text) (P : List Token → Prop) : Prop := ∀ g, ∃ ts, Lexes g s ts ∧ P ts

theorem ReadsAny.reads {s : Text} {P} (h : ReadsAny s P) : Reads s P := h false

theorem Reads.mono {s : Text} {P Q : List Token → Prop} (h : Reads s P) (hpq : ∀ ts, P ts → Q ts) : Reads s Q := by
  obtain ⟨ts, h1, h2⟩ := h
  exact ⟨ts, h1, hpq ts h2⟩

theorem ReadsAny.mono {s : Text} {P Q : List Token → Prop} (h : ReadsAny s P) (hpq : ∀ ts, P ts → Q ts) :
    ReadsAny s Q := by
  intro g
  obtain ⟨ts, h1, h2⟩ := h g
  exact ⟨ts, h1, hpq ts h2⟩

/-- characters that are neither in a number nor in an identifier -/
def StopChar (c : Nat) : Prop :=
  c = 44 ∨ c = 58 ∨ c = 93 ∨ c = 41 ∨ c = 40 ∨ c = 61 ∨ c = 32

def Stop (s : Text) : Prop := ∃ c r, s = c :: r ∧ StopChar c

/-- characters of the symbols that are printed -/
def SymChar (c : Nat) : Prop :=
  c = 44 ∨ c = 58 ∨ c = 91 ∨ c = 93 ∨ c = 40 ∨ c = 41 ∨ c = 61 ∨ c = 123 ∨ c = 125 ∨ c = 59 ∨ c = 33 ∨
    c = 35 ∨ c = 37 ∨ c = 42

theorem sym_any {c : Nat} {s : Text} {P} (hc : SymChar c) (h : Reads s P) :
    ReadsAny (c :: s) (fun ts => ∃ x ts', ts = .sym c x :: ts' ∧ P ts') := by
  intro g
  obtain ⟨ts, h1, h2⟩ := h
  refine ⟨_, Lexes.sym (g := g) ?_ ?_ ?_ ?_ ?_ ?_ ?_ h1, _, ts, rfl, h2⟩ <;>
    (unfold SymChar at hc; first | omega | (simp only [Space, BeginsNumber, BeginsId, Digit, Letter]; omega))

theorem space_any {c : Nat} {s : Text} {P} (hc : Space c) (h : Reads s P) : ReadsAny (c :: s) P := by
  intro g
  obtain ⟨ts, h1, h2⟩ := h
  exact ⟨ts, Lexes.space hc h1, h2⟩

theorem indent_reads {d : Nat} {s : Text} {P} (h : Reads s P) : Reads (indent d ++ s) P := by
  induction d with
  | zero => exact h
  | succ d ih =>
    unfold indent
    rw [List.replicate_succ, List.cons_append]
    exact (space_any (Or.inl rfl) ih).reads

theorem longest_stop {L : Text → Prop} {l s : Text} (hl : L l) (hs : Stop s)
    (hL : ∀ p c, L p → c ∈ p → ¬ StopChar c) : Longest L l s := by
  refine ⟨hl, ?_⟩
  intro p hp hLp
  by_contra hc
  obtain ⟨c, r, rfl, hstop⟩ := hs
  obtain ⟨t, ht⟩ := hp
  have hlen : l.length < p.length := by omega
  have : p[l.length]? = some c := by
    have h1 : (p ++ t)[l.length]? = p[l.length]? := List.getElem?_append_left hlen
    rw [← h1, ht, List.getElem?_append_right (Nat.le_refl _)]
    simp
  exact hL p c hLp (List.mem_of_getElem? this) hstop

theorem id_chars (p : Text) (c : Nat) (h : IdText p) (hc : c ∈ p) : ¬ StopChar c := by
  obtain ⟨a, r, rfl, h1, h2⟩ := h
  rcases List.mem_cons.mp hc with rfl | hc
  · unfold BeginsId Letter at h1; unfold StopChar; omega
  · have := h2 c hc
    unfold Letter Digit at this; unfold StopChar; omega

theorem digit_stop {c : Nat} (h : Digit c) : ¬ StopChar c := by unfold Digit at h; unfold StopChar; omega

theorem sign_stop {c : Nat} {sg : Text} (h : sg = [] ∨ sg = [43] ∨ sg = [45]) (hc : c ∈ sg) : ¬ StopChar c := by
  unfold StopChar
  rcases h with rfl | rfl | rfl <;> simp at hc <;> omega

theorem num_chars (p : Text) (c : Nat) (h : NumberText p) (hc : c ∈ p) : ¬ StopChar c := by
  obtain ⟨sign, ip, frac, exp, rfl, h1, h2, h3, h4, -⟩ := h
  simp only [List.mem_append] at hc
  rcases hc with ((hc | hc) | hc) | hc
  · exact sign_stop h1 hc
  · exact digit_stop (h2 c hc)
  · rcases h3 with rfl | ⟨d, rfl, hd⟩
    · simp at hc
    · rcases List.mem_cons.mp hc with rfl | hc
      · unfold StopChar; omega
      · exact digit_stop (hd c hc)
  · rcases h4 with rfl | ⟨e, sg, d, rfl, he, hsg, hd⟩
    · simp at hc
    · rcases List.mem_cons.mp hc with rfl | hc
      · unfold StopChar; omega
      · rcases List.mem_append.mp hc with hc | hc
        · exact sign_stop hsg hc
        · exact digit_stop (hd c hc)

theorem id_reads {l s : Text} {P} (hl : IdText l) (hs : Stop s) (h : ReadsAny s P) :
    Reads (l ++ s) (fun ts => ∃ ts', ts = .id l :: ts' ∧ P ts') := by
  obtain ⟨ts, h1, h2⟩ := h true
  exact ⟨_, Lexes.ident (longest_stop hl hs id_chars) h1, ts, rfl, h2⟩

theorem num_reads {l s : Text} {P} (hl : NumberText l) (hp : l.head? ≠ some 43) (hs : Stop s) (h : ReadsAny s P) :
    Reads (l ++ s) (fun ts => ∃ ts', ts = (if IsFloat l then .float l else .int l) :: ts' ∧ P ts') := by
  obtain ⟨ts, h1, h2⟩ := h true
  refine ⟨_, Lexes.number (longest_stop hl hs num_chars) h1, ts, ?_, h2⟩
  unfold numberText
  rw [if_neg hp]

theorem str_reads {b s : Text} {P} (hb : StrBody b) (h : Reads s P) :
    Reads (34 :: (b ++ 34 :: s)) (fun ts => ∃ ts', ts = .str b :: ts' ∧ P ts') := by
  obtain ⟨ts, h1, h2⟩ := h
  exact ⟨_, Lexes.str hb h1, ts, rfl, h2⟩

theorem path_reads {b s : Text} {P} (h1 : 62 ∉ b) (h2 : 0 ∉ b) (h : Reads s P) :
    Reads (60 :: (b ++ 62 :: s)) (fun ts => ∃ ts', ts = .path b :: ts' ∧ P ts') := by
  obtain ⟨ts, h3, h4⟩ := h
  exact ⟨_, Lexes.path h1 h2 h3, ts, rfl, h4⟩

/-! ## Integers -/

theorem natText_digits (n : Nat) : Digits (natText n) := by
  intro c hc
  unfold natText at hc
  split_ifs at hc with h
  · simp at hc; unfold Digit; omega
  · obtain ⟨d, hd, rfl⟩ := List.mem_map.mp hc
    have := Nat.digits_lt_base (by decide : 1 < 10) (List.mem_reverse.mp hd)
    unfold Digit; omega

theorem natText_ne (n : Nat) : natText n ≠ [] := by
  unfold natText
  split_ifs with h
  · simp
  · simpa using Nat.digits_ne_nil_iff_ne_zero.mpr h

theorem decimal_natText (n : Nat) : decimal (natText n) = n := by
  unfold decimal natText
  split_ifs with h
  · subst h; decide
  · rw [List.map_reverse (f := fun x => x + 48), List.reverse_reverse, List.map_map]
    have : ((fun x => x - 48) ∘ (fun x => x + 48)) = (id : Nat → Nat) := by funext x; simp
    rw [this, List.map_id, Nat.ofDigits_digits]

theorem natText_head (n c : Nat) (h : (natText n).head? = some c) : Digit c :=
  natText_digits n c (List.mem_of_mem_head? h)

theorem intText_number (v : Int) : NumberText (intText v) ∧ (intText v).head? ≠ some 43 ∧ ¬ IsFloat (intText v) := by
  unfold intText
  have hd := natText_digits v.natAbs
  have nf : ∀ c, Digit c → c ≠ 46 ∧ c ≠ 101 ∧ c ≠ 69 := by intro c; unfold Digit; omega
  split_ifs with h
  · refine ⟨⟨[45], natText v.natAbs, [], [], by simp, by simp, hd, by simp, by simp, by simp⟩, by simp, ?_⟩
    unfold IsFloat
    simp only [List.mem_cons]
    rintro ((h | h) | (h | h) | h | h)
    · omega
    · exact (nf _ (hd _ h)).1 rfl
    · omega
    · exact (nf _ (hd _ h)).2.1 rfl
    · omega
    · exact (nf _ (hd _ h)).2.2 rfl
  · refine ⟨⟨[], natText v.natAbs, [], [], by simp, by simp, hd, by simp, by simp, by simpa using natText_ne _⟩, ?_, ?_⟩
    · intro h
      have := natText_head _ _ h
      unfold Digit at this; omega
    · unfold IsFloat
      rintro (h | h | h)
      · exact (nf _ (hd _ h)).1 rfl
      · exact (nf _ (hd _ h)).2.1 rfl
      · exact (nf _ (hd _ h)).2.2 rfl

theorem intValue_intText (v : Int) (h1 : -2 ^ 63 ≤ v) (h2 : v < 2 ^ 63) : intValue (intText v) = v := by
  unfold intValue intText
  by_cases h : v < 0
  · rw [if_pos h]
    simp only [List.head?_cons, if_true, List.tail_cons, decimal_natText]
    omega
  · rw [if_neg h]
    have : (natText v.natAbs).head? ≠ some 45 := by
      intro h
      have := natText_head _ _ h
      unfold Digit at this; omega
    rw [if_neg this, decimal_natText]
    omega

end Hob3l.Syn
