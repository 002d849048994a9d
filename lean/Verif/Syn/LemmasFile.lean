import Verif.Syn.Observe
import Verif.Syn.LemmasComplete
/-! # All tokens of a file -/
namespace Hob3l.Syn

theorem tokenOf_spec {p : P} {t : Token} (h : TokIs p t) : tokenOf p = some t := by
  unfold tokenOf
  cases t with
  | sym c s =>
    have h1 := h.1
    have h3 := h.2.2.1
    rw [h.2.2.2]
    simp only [Option.bind_eq_bind, Option.bind_some]
    rw [if_neg (by simp only [tINT]; omega), if_neg (by simp only [tFLOAT]; omega), if_neg (by simp only [tID]; omega),
      if_neg (by simp only [tSTRING]; omega), if_neg (by simp only [tPATH]; omega), h1]
  | int s => rw [h.2.1, h.1]; rfl
  | float s => rw [h.2.1, h.1]; rfl
  | id s => rw [h.2.1, h.1]; rfl
  | str s => rw [h.2.1, h.1]; rfl
  | path s => rw [h.2.1, h.1]; rfl

/-- No paths. -/
def NoPath (ts : List Token) : Prop := ∀ b, Token.path b ∉ ts

theorem tokMain_noPath {l : Lex} {p : P} (h : tokMain l = some p) : p.tok.type ≠ tPATH := by
  unfold tokMain at h
  split_ifs at h with h1 h2 h3
  · unfold tokNumber at h
    obtain ⟨c, -, h⟩ := Option.bind_eq_some_iff.mp h
    split_ifs at h
    · cases h; dsimp only; decide
    · obtain ⟨⟨str, fl, l'⟩, -, h⟩ := Option.bind_eq_some_iff.mp h
      cases h
      cases fl <;> dsimp only <;> decide
  · unfold tokId at h
    obtain ⟨c, -, h⟩ := Option.bind_eq_some_iff.mp h
    split_ifs at h
    · cases h; dsimp only; decide
    · obtain ⟨l', -, h⟩ := Option.bind_eq_some_iff.mp h
      cases h; dsimp only; decide
  · unfold tokString at h
    obtain ⟨l1, -, h⟩ := Option.bind_eq_some_iff.mp h
    obtain ⟨⟨e, l2⟩, -, h⟩ := Option.bind_eq_some_iff.mp h
    cases e with
    | closed =>
      obtain ⟨l3, -, h⟩ := Option.bind_eq_some_iff.mp h
      obtain ⟨l4, -, h⟩ := Option.bind_eq_some_iff.mp h
      cases h; dsimp only; decide
    | eof => cases h; dsimp only; decide
    | high => cases h; dsimp only; decide
  · unfold tokOther at h
    obtain ⟨b1, -, h⟩ := Option.bind_eq_some_iff.mp h
    obtain ⟨b2, -, h⟩ := Option.bind_eq_some_iff.mp h
    split_ifs at h
    · unfold tokLine at h
      obtain ⟨l1, -, h⟩ := Option.bind_eq_some_iff.mp h
      cases h; dsimp only; decide
    · unfold tokBlock at h
      obtain ⟨l1, -, h⟩ := Option.bind_eq_some_iff.mp h
      obtain ⟨l2, -, h⟩ := Option.bind_eq_some_iff.mp h
      obtain ⟨⟨c, l3⟩, -, h⟩ := Option.bind_eq_some_iff.mp h
      obtain ⟨l4, -, h⟩ := Option.bind_eq_some_iff.mp h
      cases h
      cases c <;> dsimp only <;> decide
    · unfold tokSym at h
      split_ifs at h with h4
      · cases h; dsimp only; decide
      · obtain ⟨l', -, h⟩ := Option.bind_eq_some_iff.mp h
        cases h; dsimp only [tPATH]; omega

theorem tokLoop_noPath {n : Nat} {p q : P} (h : tokLoop n p = some q) : q.tok.type ≠ tPATH := by
  induction n generalizing p with
  | zero => cases h
  | succ n ih =>
    rw [tokLoop] at h
    obtain ⟨p', e, h⟩ := Option.bind_eq_some_iff.mp h
    split_ifs at h with h1
    · exact ih h
    · cases h
      unfold tokAux at e
      split_ifs at e with h2
      · cases e; rw [h2]; decide
      · obtain ⟨l, -, e⟩ := Option.bind_eq_some_iff.mp e
        exact tokMain_noPath e

theorem lexAll_spec (n : Nat) (p : P) (h : Good p) (hp : p.tok.type ≠ tPATH) (hn : left p < n) :
    (∃ ts, lexAll n p = .ok ts ∧ NoPath ts ∧ ∀ ts', NoPath ts' → (Rem p ts' ↔ ts' = ts)) ∨
    (lexAll n p = .fail ∧ ∀ ts', NoPath ts' → ¬ Rem p ts') := by
  induction n generalizing p with
  | zero => omega
  | succ n ih =>
    rw [lexAll]
    rcases h.kind with h1 | h1 | ⟨t, h1⟩
    · right
      rw [if_neg (by rw [h1]; decide), if_pos h1]
      exact ⟨rfl, fun ts' _ => rem_error h1 ts'⟩
    · left
      rw [if_pos h1.1]
      exact ⟨[], rfl, fun b hb => (nomatch hb), fun ts' _ => rem_eof h1 ts'⟩
    · rw [if_neg (tokIs_type h1).1, if_neg (tokIs_type h1).2.1, tokenOf_spec h1]
      obtain ⟨p', e1, g1, -, -, s1, l1⟩ := tokNext_spec h
      have hl := l1 t h1
      have hp' : p'.tok.type ≠ tPATH := tokLoop_noPath e1
      rw [e1]
      simp only [Res.ofOption, bind_ok]
      have ht : ∀ b, t ≠ .path b := by
        rintro b rfl; exact hp h1.1
      have hrem : ∀ ts', NoPath ts' → (Rem p ts' ↔ ∃ r, ts' = t :: r ∧ Rem p' r) := by
        intro ts' hnp
        constructor
        · intro hr
          cases ts' with
          | nil => exact absurd hr (rem_ne_nil h1)
          | cons t' r =>
            cases rem_head h1 hr (by rintro b rfl; exact hnp b (by simp))
            rcases hr with ⟨-, h2⟩ | ⟨b, rfl, -⟩
            · exact ⟨r, rfl, (s1 (tokIs_type h1).2.1 r).mpr h2⟩
            · exact absurd (List.mem_cons_self) (hnp b)
        · rintro ⟨r, rfl, hr⟩
          exact Or.inl ⟨h1, (s1 (tokIs_type h1).2.1 r).mp hr⟩
      have htail : ∀ {t : Token} {r}, NoPath (t :: r) → NoPath r := fun h b hb => h b (List.mem_cons_of_mem _ hb)
      rcases ih p' g1 hp' (by omega) with ⟨ts, e2, n2, s2⟩ | ⟨e2, s2⟩
      · left
        refine ⟨t :: ts, by rw [e2, bind_ok], ?_, ?_⟩
        · intro b hb
          rcases List.mem_cons.mp hb with h3 | h3
          · exact ht b h3.symm
          · exact n2 b h3
        · intro ts' hnp
          rw [hrem ts' hnp]
          constructor
          · rintro ⟨r, rfl, hr⟩
            rw [(s2 r (htail hnp)).mp hr]
          · rintro rfl
            exact ⟨ts, rfl, (s2 ts n2).mpr rfl⟩
      · right
        refine ⟨by rw [e2, bind_fail], ?_⟩
        intro ts' hnp hr
        obtain ⟨r, rfl, hr'⟩ := (hrem ts' hnp).mp hr
        exact s2 r (htail hnp) hr'

theorem lexFile_spec (content : Text) :
    (∃ ts, lexFile (content.length + 1) content = .ok ts ∧ NoPath ts ∧
      ∀ ts', NoPath ts' → (Lexes false content ts' ↔ ts' = ts)) ∨
    (lexFile (content.length + 1) content = .fail ∧ ∀ ts', NoPath ts' → ¬ Lexes false content ts') := by
  obtain ⟨p, e1, g1, s1, l1⟩ := beginFile_left content
  have hp : p.tok.type ≠ tPATH := by
    unfold beginFile at e1
    obtain ⟨c, -, e1⟩ := Option.bind_eq_some_iff.mp e1
    exact tokLoop_noPath e1
  unfold lexFile
  rw [e1]
  simp only [Res.ofOption, bind_ok]
  rcases lexAll_spec (content.length + 1) p g1 hp (by omega) with ⟨ts, e2, n2, s2⟩ | ⟨e2, s2⟩
  · exact Or.inl ⟨ts, e2, n2, fun ts' h => by rw [← s1, s2 ts' h]⟩
  · exact Or.inr ⟨e2, fun ts' h => by rw [← s1]; exact s2 ts' h⟩

/-- A state of the parser, before or after the sieve. -/
theorem steps_later {p q : P} (h : Good p) (hs : Steps p q) :
    Later p.lex q.lex ∧ ∃ q', Good q' ∧ q.lex = q'.lex ∧ (q = q' ∨ sieve q' = some q) := by
  induction hs with
  | refl => exact ⟨Later.refl _, p, h, rfl, Or.inl rfl⟩
  | @next q r hs e ih =>
    obtain ⟨l, q', g, hq, h1⟩ := ih
    have key : ∃ r', tokNext q' = some r' ∧ tokNext q = some r' := by
      obtain ⟨p', e1, -⟩ := tokNext_spec g
      refine ⟨p', e1, ?_⟩
      rcases h1 with rfl | h1
      · exact e1
      · obtain ⟨q2, e2, -, -, ⟨rfl, -⟩ | ⟨s, h2, h3, rfl, h4, -⟩⟩ := sieve_spec g
        · rw [h1] at e2; cases e2; exact e1
        · rw [h1] at e2; cases e2
          have h5 : 513 ≤ sieveId s := h4
          exact (tokNext_sieved (p := q') (q := { q' with tok := { q'.tok with type := sieveId s } }) rfl
            (by rw [h2.1]; decide) (by show sieveId s ≠ 257; omega)).trans e1
    obtain ⟨r', e1, e2⟩ := key
    rw [e] at e2; cases e2
    obtain ⟨p', e3, g3, l3, -⟩ := tokNext_spec g
    rw [e1] at e3; cases e3
    refine ⟨l.trans (by rw [hq]; exact l3), r, g3, rfl, Or.inl rfl⟩
  | @path q r hs e ih =>
    obtain ⟨l, q', g, hq, h1⟩ := ih
    rcases h1 with rfl | h1
    · obtain ⟨p', e3, g3, l3, -⟩ := tokPath_spec g
      rw [e] at e3; cases e3
      exact ⟨l.trans l3, r, g3, rfl, Or.inl rfl⟩
    · obtain ⟨q2, e2, -, -, ⟨rfl, -⟩ | ⟨s, h2, h3, rfl, h4, -⟩⟩ := sieve_spec g
      · rw [h1] at e2; cases e2
        obtain ⟨p', e3, g3, l3, -⟩ := tokPath_spec g
        rw [e] at e3; cases e3
        exact ⟨l.trans l3, r, g3, rfl, Or.inl rfl⟩
      · rw [h1] at e2; cases e2
        unfold tokPath at e
        rw [if_pos (by show sieveId s ≠ 60; dsimp only at h4; omega)] at e
        cases e
        exact ⟨l, q', g, rfl, Or.inr h1⟩
  | @sieve q r hs e ih =>
    obtain ⟨l, q', g, hq, h1⟩ := ih
    rcases h1 with rfl | h1
    · obtain ⟨q2, e2, -, h2, -⟩ := sieve_spec g
      rw [e] at e2; cases e2
      refine ⟨by rw [h2]; exact l, q, g, h2, Or.inr e⟩
    · obtain ⟨q2, e2, e3, h2, -⟩ := sieve_spec g
      rw [h1] at e2; cases e2
      rw [e] at e3; cases e3
      exact ⟨l, q', g, hq, Or.inr h1⟩

theorem steps_string {p q : P} (h : Good p) {t : Token} (ht : TokIs p t) (hn : ∀ c s, t ≠ .sym c s) (hs : Steps p q) :
    cstr q.lex.buf p.tok.string = cstr p.lex.buf p.tok.string := by
  have hl := (steps_later h hs).1
  have key : ∀ s, cstr p.lex.buf p.tok.string = some s → p.tok.string + s.length ≤ p.lex.pos →
      cstr q.lex.buf p.tok.string = cstr p.lex.buf p.tok.string := by
    intro s h1 h2
    rw [cstr_later hl h1 h2, h1]
  cases t with
  | sym c s => exact absurd rfl (hn c s)
  | int s => exact key s ht.2.1 ht.2.2.1
  | float s => exact key s ht.2.1 ht.2.2
  | id s => exact key s ht.2.1 ht.2.2
  | str s => exact key s ht.2.1 ht.2.2
  | path s => exact key s ht.2.1 ht.2.2

/-- A file system with one file. -/
def oneFile (name content : Text) : FS := fun f => if f = name then some content else none

/-- The states of the parser in a file that includes itself. -/
def cyc0 : P := (beginFile (txt "include<a>")).getD ⟨⟨[], 0, 0, 0⟩, ⟨0, 0, 0⟩⟩
def cyc1 : P := (sieve cyc0).getD cyc0
def cyc2 : P := (tokNext cyc1).getD cyc0
def cyc3 : P := (tokPath cyc2).getD cyc0
def cyc4 : P := (tokNext cyc3).getD cyc0

theorem items_cycle (n : Nat) :
    parseItems (oneFile (txt "a") (txt "include<a>")) n (txt "a") cyc0 = .stuck := by
  induction n using Nat.strongRecOn with
  | ind n ih =>
    have e1 : sieve cyc0 = some cyc1 := by decide +kernel
    have h2 : lookingAtItem cyc1 = true := by decide +kernel
    match n, ih with
    | 0, _ => rw [parseItems]
    | 1, _ =>
      rw [parseItems, e1]
      simp only [Res.ofOption, bind_ok]
      rw [if_pos h2, pushItem, bind_stuck]
    | n + 2, ih =>
      have e3 : expect cyc1 (ch ';') = .ok (false, cyc1) := by decide +kernel
      have e4 : sieve cyc1 = some cyc1 := by decide +kernel
      have e5 : expect cyc1 kINCLUDE = .ok (true, cyc2) := by decide +kernel
      have e6 : tokPath cyc2 = some cyc3 := by decide +kernel
      have e7 : tokText cyc3 = .ok (txt "a") := by decide +kernel
      have e8 : oneFile (txt "a") (txt "include<a>") (resolve (txt "a") (txt "a")) = some (txt "include<a>") := by
        decide +kernel
      have e9 : expect cyc3 tPATH = .ok (true, cyc4) := by decide +kernel
      have e10 : beginFile (txt "include<a>") = some cyc0 := by decide +kernel
      have e11 : resolve (txt "a") (txt "a") = txt "a" := by decide +kernel
      rw [parseItems, e1]
      simp only [Res.ofOption, bind_ok]
      rw [if_pos h2, pushItem, e3]
      simp only [bind_ok, e4, Res.ofOption, e5, e6, e7, e8, e9, e10]
      rw [e11, ih n (by omega)]
      rfl

/-- The same, from the including file on. -/
def main0 : P := (beginFile (txt "{include<a>}")).getD cyc0
def main1 : P := (tokNext main0).getD cyc0
def main2 : P := (sieve main1).getD cyc0
def main3 : P := (tokNext main2).getD cyc0
def main4 : P := (tokPath main3).getD cyc0
def main5 : P := (tokNext main4).getD cyc0

theorem parse_cycle (n : Nat) : parse (oneFile (txt "a") (txt "include<a>")) n [] (txt "{include<a>}") = .stuck := by
  have e0 : beginFile (txt "{include<a>}") = some main0 := by decide +kernel
  have e1 : sieve main0 = some main0 := by decide +kernel
  have h1 : lookingAtItem main0 = true := by decide +kernel
  have h2 : ¬ main0.tok.type = kUSE := by decide +kernel
  have h3 : ¬ isKey main0.tok.type = true := by decide +kernel
  have e2 : expect main0 (ch ';') = .ok (false, main0) := by decide +kernel
  have e3 : expect main0 kINCLUDE = .ok (false, main0) := by decide +kernel
  have h4 : main0.tok.type = ch '{' := by decide +kernel
  have e4 : expectErr main0 (ch '{') = .ok main1 := by decide +kernel
  have e5 : sieve main1 = some main2 := by decide +kernel
  have h5 : lookingAtItem main2 = true := by decide +kernel
  have e6 : expect main2 (ch ';') = .ok (false, main2) := by decide +kernel
  have e7 : sieve main2 = some main2 := by decide +kernel
  have e8 : expect main2 kINCLUDE = .ok (true, main3) := by decide +kernel
  have e9 : tokPath main3 = some main4 := by decide +kernel
  have e10 : tokText main4 = .ok (txt "a") := by decide +kernel
  have e11 : resolve [] (txt "a") = txt "a" := by decide +kernel
  have e12 : oneFile (txt "a") (txt "include<a>") (txt "a") = some (txt "include<a>") := by decide +kernel
  have e13 : expect main4 tPATH = .ok (true, main5) := by decide +kernel
  have e14 : beginFile (txt "include<a>") = some cyc0 := by decide +kernel
  unfold parse
  rw [e0]
  simp only [Res.ofOption, bind_ok]
  match n with
  | 0 => rw [parseStmts]; rfl
  | n + 1 =>
    rw [parseStmts, e1]
    simp only [Res.ofOption, bind_ok]
    rw [if_pos (Or.inl h1), if_neg h2, if_neg h3]
    match n with
    | 0 => rw [pushItem]; rfl
    | n + 1 =>
      rw [pushItem, e2]
      simp only [bind_ok, e1, Res.ofOption, e3]
      match n with
      | 0 => rw [parseItem]; rfl
      | n + 1 =>
        rw [parseItem, if_pos h4, e4, bind_ok]
        match n with
        | 0 => rw [parseItems]; rfl
        | n + 1 =>
          rw [parseItems, e5]
          simp only [Res.ofOption, bind_ok]
          rw [if_pos h5]
          match n with
          | 0 => rw [pushItem]; rfl
          | n + 1 =>
            rw [pushItem, e6]
            simp only [bind_ok, e7, Res.ofOption, e8, e9, e10, e11, e12, e13, e14]
            rw [items_cycle]
            rfl

end Hob3l.Syn
