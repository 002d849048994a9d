import Verif.Syn.LemmasNext
import Mathlib.Data.Nat.Digits.Defs
/-! # Parser: values and arguments -/
namespace Hob3l.Syn

theorem bind_ok {α β : Type} (a : α) (f : α → Res β) : (Res.ok a >>= f) = f a := rfl
theorem bind_fail {α β : Type} (f : α → Res β) : (Res.fail >>= f) = Res.fail := rfl
theorem bind_stuck {α β : Type} (f : α → Res β) : (Res.stuck >>= f) = Res.stuck := rfl

/-- What a step means: it yields the only tree that matches the tokens, or fails if there is none.  Only
the continuations `L` are considered; and the fuel may run out if `N`. -/
def Spec {α : Type} (N : Prop) (L : List Token → Prop) (R : List Token → α → List Token → Prop) (p : P) (r : Res (α × P)) : Prop :=
  (∃ a p', r = .ok (a, p') ∧ Good p' ∧ left p' ≤ left p ∧
    ∀ a' ts, L ts → ((∃ ts0, Rem p ts0 ∧ R ts0 a' ts) ↔ (a' = a ∧ Rem p' ts))) ∨
  (r = .fail ∧ ∀ a' ts ts0, L ts → Rem p ts0 → ¬ R ts0 a' ts) ∨ (r = .stuck ∧ N)

/-- No restriction. -/
def Any : List Token → Prop := fun _ => True

theorem rem_nonpath {p : P} {t : Token} {ts : List Token} (h : Rem p (t :: ts)) (ht : ∀ b, t ≠ .path b) : TokIs p t := by
  rcases h with ⟨h, -⟩ | ⟨b, h, -⟩
  · exact h
  · exact absurd h (ht b)

theorem rem_head {p : P} {t t' : Token} {ts : List Token} (h : TokIs p t) (h' : Rem p (t' :: ts))
    (ht : ∀ b, t' ≠ .path b) : t' = t := tokIs_unique (rem_nonpath h' ht) h

theorem rem_ne_nil {p : P} {t : Token} (h : TokIs p t) : ¬ Rem p [] := fun h' => (tokIs_type h).1 h'.1

theorem next_spec {p : P} {t : Token} (h : Good p) (ht : TokIs p t) :
    ∃ p', next p = .ok p' ∧ Good p' ∧ left p' < left p ∧ ∀ ts, Rem p (t :: ts) ↔ Rem p' ts := by
  obtain ⟨p', e1, e2, e3, e4, e5, e6⟩ := tokNext_spec h
  refine ⟨p', by rw [next, e1]; rfl, e2, e6 t ht, ?_⟩
  intro ts
  rw [e5 (tokIs_type ht).2.1]
  constructor
  · rintro (⟨-, h1⟩ | ⟨b, rfl, h1, -⟩)
    · exact h1
    · exact absurd (h1.symm.trans ht.1) (by decide)
  · intro h1
    exact Or.inl ⟨ht, h1⟩

/-- The token of a given type. -/
theorem good_tok {p : P} (h : Good p) (h0 : p.tok.type ≠ tEOF) (he : p.tok.type ≠ tERROR) : ∃ t, TokIs p t := by
  rcases h.kind with h1 | h1 | h1
  · exact absurd h1 he
  · exact absurd h1.1 h0
  · exact h1

theorem good_sym {p : P} {c : Nat} (h : Good p) (hc : p.tok.type = c) (h0 : c ≠ 0) (h1 : c < 128) :
    ∃ x, TokIs p (.sym c x) := by
  subst hc
  obtain ⟨t, ht⟩ := good_tok h h0 (by simp only [tERROR]; omega)
  cases t with
  | sym c x => obtain rfl := ht.1; exact ⟨x, ht⟩
  | _ => have h2 := ht.1; rw [h2] at h1; exact absurd h1 (by decide)

theorem good_int {p : P} (h : Good p) (hc : p.tok.type = tINT) : ∃ x, TokIs p (.int x) := by
  obtain ⟨t, ht⟩ := good_tok h (by rw [hc]; decide) (by rw [hc]; decide)
  cases t with
  | int x => exact ⟨x, ht⟩
  | sym c x => have h1 := ht.2.2.1; rw [← ht.1, hc] at h1; exact absurd h1 (by decide)
  | _ => exact absurd (hc.symm.trans ht.1) (by decide)

theorem good_float {p : P} (h : Good p) (hc : p.tok.type = tFLOAT) : ∃ x, TokIs p (.float x) := by
  obtain ⟨t, ht⟩ := good_tok h (by rw [hc]; decide) (by rw [hc]; decide)
  cases t with
  | float x => exact ⟨x, ht⟩
  | sym c x => have h1 := ht.2.2.1; rw [← ht.1, hc] at h1; exact absurd h1 (by decide)
  | _ => exact absurd (hc.symm.trans ht.1) (by decide)

theorem good_id {p : P} (h : Good p) (hc : p.tok.type = tID) : ∃ x, TokIs p (.id x) := by
  obtain ⟨t, ht⟩ := good_tok h (by rw [hc]; decide) (by rw [hc]; decide)
  cases t with
  | id x => exact ⟨x, ht⟩
  | sym c x => have h1 := ht.2.2.1; rw [← ht.1, hc] at h1; exact absurd h1 (by decide)
  | _ => exact absurd (hc.symm.trans ht.1) (by decide)

theorem good_str {p : P} (h : Good p) (hc : p.tok.type = tSTRING) : ∃ x, TokIs p (.str x) := by
  obtain ⟨t, ht⟩ := good_tok h (by rw [hc]; decide) (by rw [hc]; decide)
  cases t with
  | str x => exact ⟨x, ht⟩
  | sym c x => have h1 := ht.2.2.1; rw [← ht.1, hc] at h1; exact absurd h1 (by decide)
  | _ => exact absurd (hc.symm.trans ht.1) (by decide)

theorem good_path {p : P} (h : Good p) (hc : p.tok.type = tPATH) : ∃ x, TokIs p (.path x) := by
  obtain ⟨t, ht⟩ := good_tok h (by rw [hc]; decide) (by rw [hc]; decide)
  cases t with
  | path x => exact ⟨x, ht⟩
  | sym c x => have h1 := ht.2.2.1; rw [← ht.1, hc] at h1; exact absurd h1 (by decide)
  | _ => exact absurd (hc.symm.trans ht.1) (by decide)

theorem text_spec {p : P} {t : Token} (h : TokIs p t) : tokText p = .ok (bareName [t]) := by
  unfold tokText
  cases t with
  | sym c x => rw [h.2.2.2]; rfl
  | _ => rw [h.2.1]; rfl

/-- `expect_err` for a symbol. -/
theorem expectErr_spec {p : P} (h : Good p) {c : Nat} (h0 : c ≠ 0) (h1 : c < 128) :
    (∃ p' x, expectErr p c = .ok p' ∧ TokIs p (.sym c x) ∧ Good p' ∧ left p' < left p ∧
      ∀ ts, Rem p (.sym c x :: ts) ↔ Rem p' ts) ∨
    (expectErr p c = .fail ∧ ∀ x ts, ¬ Rem p (.sym c x :: ts)) := by
  by_cases hc : p.tok.type = c
  · obtain ⟨x, hx⟩ := good_sym h hc h0 h1
    obtain ⟨p', e1, e2, e3, e4⟩ := next_spec h hx
    exact Or.inl ⟨p', x, by rw [expectErr, if_pos hc, e1], hx, e2, e3, e4⟩
  · right
    refine ⟨by rw [expectErr, if_neg hc], ?_⟩
    intro x ts hr
    exact hc (rem_nonpath hr (by simp)).1

/-- `expect` for a symbol. -/
theorem expect_spec {p : P} (h : Good p) {c : Nat} (h0 : c ≠ 0) (h1 : c < 128) :
    (∃ p' x, expect p c = .ok (true, p') ∧ TokIs p (.sym c x) ∧ Good p' ∧ left p' < left p ∧
      ∀ ts, Rem p (.sym c x :: ts) ↔ Rem p' ts) ∨
    (expect p c = .ok (false, p) ∧ ∀ x, ¬ TokIs p (.sym c x)) := by
  by_cases hc : p.tok.type = c
  · obtain ⟨x, hx⟩ := good_sym h hc h0 h1
    obtain ⟨p', e1, e2, e3, e4⟩ := next_spec h hx
    exact Or.inl ⟨p', x, by rw [expect, if_pos hc, e1]; rfl, hx, e2, e3, e4⟩
  · right
    refine ⟨by rw [expect, if_neg hc], ?_⟩
    intro x ht
    exact hc ht.1

theorem foldl_digits (s : Text) (a : Nat) (hs : ∀ c ∈ s, 48 ≤ c) :
    s.foldl (fun a c => 10 * a + (c - ch '0')) a = Nat.ofDigits 10 (s.reverse.map (· - 48)) + 10 ^ s.length * a := by
  induction s generalizing a with
  | nil => simp [Nat.ofDigits_nil]
  | cons c s ih =>
    rw [List.foldl_cons, ih _ (fun c hc => hs c (by simp [hc])), List.reverse_cons, List.map_append,
      Nat.ofDigits_append]
    simp only [List.map_cons, List.map_nil, Nat.ofDigits_singleton, List.length_map, List.length_reverse, List.length_cons]
    show _ + 10 ^ s.length * (10 * a + (c - 48)) = _
    ring

theorem strtoll_eq {s : Text} (h : IntText s) : strtoll s = intValue s := by
  have key : ∀ d, Digits d → digitsVal (d.takeWhile isDigit) = decimal d := by
    intro d hd
    have e : d.takeWhile isDigit = d := by
      clear h
      induction d with
      | nil => rfl
      | cons c d ih =>
        rw [List.takeWhile_cons, if_pos ((isDigit_iff c).mpr (hd c (by simp))), ih (fun c hc => hd c (by simp [hc]))]
    rw [e, digitsVal, foldl_digits d 0 (fun c hc => (hd c hc).1), decimal]
    simp
  obtain ⟨d, hd, rfl | rfl⟩ := h
  · have h45 : s.head? ≠ some 45 := by
      intro h1
      cases s with
      | nil => simp at h1
      | cons c s => simp at h1; subst h1; exact absurd (hd 45 (by simp)) (by simp [Digit])
    unfold strtoll intValue
    rw [if_neg h45]
    split
    · exact absurd rfl h45
    · rw [key s hd]
  · show max _ (min _ _) = _
    unfold intValue
    rw [if_pos (show (45 :: d).head? = some 45 from rfl), List.tail_cons, ← key d hd]
    rfl

theorem spec_fail {α : Type} {N : Prop} {L : List Token → Prop} {R : List Token → α → List Token → Prop} {p : P}
    {r : Res (α × P)} (h : r = .fail) (h' : ∀ a' ts ts0, L ts → Rem p ts0 → ¬ R ts0 a' ts) : Spec N L R p r :=
  Or.inr (Or.inl ⟨h, h'⟩)

theorem isValue_cons {ts0 : List Token} {v : Value} {ts : List Token} (h : IsValue ts0 v ts) :
    (∃ s, ts0 = .int s :: ts ∧ v = .int (intValue s)) ∨ (∃ s, ts0 = .float s :: ts ∧ v = .float s) ∨
    (∃ s, ts0 = .str s :: ts ∧ v = .str s) ∨ (∃ s, ts0 = .id s :: ts ∧ v = .id s) ∨
    (∃ x y, ts0 = .sym 91 x :: .sym 93 y :: ts ∧ v = .arr []) ∨
    (∃ x y z a b t1 t2, ts0 = .sym 91 x :: t1 ∧ v = .range a b ∧ IsValue t1 a (.sym 58 y :: t2) ∧
      IsValue t2 b (.sym 93 z :: ts)) ∨
    (∃ w x y z a b c t1 t2 t3, ts0 = .sym 91 w :: t1 ∧ v = .range3 a b c ∧ IsValue t1 a (.sym 58 x :: t2) ∧
      IsValue t2 b (.sym 58 y :: t3) ∧ IsValue t3 c (.sym 93 z :: ts)) ∨
    (∃ x y a l t1 t2, ts0 = .sym 91 x :: t1 ∧ v = .arr (a :: l) ∧ IsValue t1 a t2 ∧ IsElems t2 l (.sym 93 y :: ts)) := by
  cases h with
  | int => exact Or.inl ⟨_, rfl, rfl⟩
  | float => exact Or.inr (Or.inl ⟨_, rfl, rfl⟩)
  | str => exact Or.inr (Or.inr (Or.inl ⟨_, rfl, rfl⟩))
  | id => exact Or.inr (Or.inr (Or.inr (Or.inl ⟨_, rfl, rfl⟩)))
  | empty => exact Or.inr (Or.inr (Or.inr (Or.inr (Or.inl ⟨_, _, rfl, rfl⟩))))
  | range h1 h2 => exact Or.inr (Or.inr (Or.inr (Or.inr (Or.inr (Or.inl ⟨_, _, _, _, _, _, _, rfl, rfl, h1, h2⟩)))))
  | range3 h1 h2 h3 =>
    exact Or.inr (Or.inr (Or.inr (Or.inr (Or.inr (Or.inr (Or.inl ⟨_, _, _, _, _, _, _, _, _, _, rfl, rfl, h1, h2, h3⟩))))))
  | arr h1 h2 =>
    exact Or.inr (Or.inr (Or.inr (Or.inr (Or.inr (Or.inr (Or.inr ⟨_, _, _, _, _, _, rfl, rfl, h1, h2⟩))))))

/-- The head of a value. -/
theorem isValue_head {ts0 : List Token} {v : Value} {ts : List Token} (h : IsValue ts0 v ts) :
    ∃ t r, ts0 = t :: r ∧ (∀ b, t ≠ .path b) ∧
      ((∃ s, t = .int s) ∨ (∃ s, t = .float s) ∨ (∃ s, t = .str s) ∨ (∃ s, t = .id s) ∨ (∃ x, t = .sym 91 x)) := by
  cases h <;> exact ⟨_, _, rfl, by simp, by simp⟩

/-- The continuation begins with a given symbol. -/
def Sym (c : Nat) : List Token → Prop := fun ts => ∃ x r, ts = .sym c x :: r

/-- A single token as a value. -/
theorem value_tok {N : Prop} {p : P} {t : Token} (h : Good p) (ht : TokIs p t) {v : Value}
    (hv : ∀ ts v' ts', IsValue (t :: ts) v' ts' ↔ v' = v ∧ ts' = ts) {r : Res (Value × P)}
    (hr : r = (do .ok (v, ← next p))) :
    Spec N Any IsValue p r := by
  obtain ⟨p', e1, e2, e3, e4⟩ := next_spec h ht
  left
  refine ⟨v, p', by rw [hr, e1]; rfl, e2, Nat.le_of_lt e3, ?_⟩
  intro a' ts _
  constructor
  · rintro ⟨ts0, h1, h2⟩
    obtain ⟨t', r, rfl, hnp, -⟩ := isValue_head h2
    obtain rfl := rem_head ht h1 hnp
    obtain ⟨rfl, rfl⟩ := (hv _ _ _).mp h2
    exact ⟨rfl, (e4 _).mp h1⟩
  · rintro ⟨rfl, h1⟩
    exact ⟨t :: ts, (e4 ts).mpr h1, (hv _ _ _).mpr ⟨rfl, rfl⟩⟩

theorem path_value (b : Text) (ts : List Token) (v : Value) (ts' : List Token) : ¬ IsValue (.path b :: ts) v ts' := by
  intro h; cases h

/-- The first symbol is consumed. -/
theorem rem_sym {p p' : P} {c : Nat} {x : Text} (ht : TokIs p (.sym c x))
    (e : ∀ ts, Rem p (.sym c x :: ts) ↔ Rem p' ts) {y : Text} {ts : List Token} (h : Rem p (.sym c y :: ts)) : Rem p' ts := by
  obtain h1 := rem_head ht h (by simp)
  rw [h1] at h
  exact (e ts).mp h

theorem elems_cases {t2 : List Token} {l : List Value} {y : Text} {ts : List Token} (h : IsElems t2 l (.sym 93 y :: ts)) :
    (l = [] ∧ t2 = .sym 93 y :: ts) ∨ (∃ x r, t2 = .sym 44 x :: r) := by
  cases h with
  | nil => exact Or.inl ⟨rfl, rfl⟩
  | comma => exact Or.inr ⟨_, _, rfl⟩
  | cons => exact Or.inr ⟨_, _, rfl⟩

/-- The parts of an array. -/
inductive ArrTail (a : Value) : List Token → Value → List Token → Prop
  | range {y z b t2 ts} : IsValue t2 b (.sym 93 z :: ts) → ArrTail a (.sym 58 y :: t2) (.range a b) ts
  | range3 {x y z b c t2 t3 ts} : IsValue t2 b (.sym 58 y :: t3) → IsValue t3 c (.sym 93 z :: ts) →
      ArrTail a (.sym 58 x :: t2) (.range3 a b c) ts
  | arr {y l t2 ts} : IsElems t2 l (.sym 93 y :: ts) → ArrTail a t2 (.arr (a :: l)) ts

theorem isValue_array {x : Text} {t1 : List Token} {v : Value} {ts : List Token} :
    IsValue (.sym 91 x :: t1) v ts ↔
      (∃ y, t1 = .sym 93 y :: ts ∧ v = .arr []) ∨ (∃ a t2, IsValue t1 a t2 ∧ ArrTail a t2 v ts) := by
  constructor
  · intro h
    cases h with
    | empty => exact Or.inl ⟨_, rfl, rfl⟩
    | range h1 h2 => exact Or.inr ⟨_, _, h1, .range h2⟩
    | range3 h1 h2 h3 => exact Or.inr ⟨_, _, h1, .range3 h2 h3⟩
    | arr h1 h2 => exact Or.inr ⟨_, _, h1, .arr h2⟩
  · rintro (⟨y, rfl, rfl⟩ | ⟨a, t2, h1, h2⟩)
    · exact .empty
    · cases h2 with
      | range h2 => exact .range h1 h2
      | range3 h2 h3 => exact .range3 h1 h2 h3
      | arr h2 => exact .arr h1 h2

/-- Closing of a part by a symbol. -/
theorem spec_close {α β : Type} {N : Prop} {R : List Token → α → List Token → Prop} {f : α → β} {c : Nat} {p : P}
    {r : Res (α × P)} (h0 : c ≠ 0) (h1 : c < 128) (h : Spec N (Sym c) R p r) :
    Spec N Any (fun ts0 b ts => ∃ a y, b = f a ∧ R ts0 a (.sym c y :: ts)) p
      (r >>= fun x => expectErr x.2 c >>= fun q => .ok (f x.1, q)) := by
  rcases h with ⟨a, p1, rfl, g1, l1, s1⟩ | ⟨rfl, s1⟩ | ⟨rfl, hN⟩
  · rcases expectErr_spec g1 h0 h1 with ⟨p2, x, e2, t2, g2, l2, s2⟩ | ⟨e2, s2⟩
    · left
      refine ⟨f a, p2, by simp only [bind_ok, e2], g2, by omega, ?_⟩
      intro b ts _
      constructor
      · rintro ⟨ts0, h1, a', y, rfl, h2⟩
        obtain ⟨rfl, h3⟩ := (s1 a' (.sym c y :: ts) ⟨_, _, rfl⟩).mp ⟨ts0, h1, h2⟩
        exact ⟨rfl, rem_sym t2 s2 h3⟩
      · rintro ⟨rfl, h1⟩
        obtain ⟨ts0, h2, h3⟩ := (s1 a (.sym c x :: ts) ⟨_, _, rfl⟩).mpr ⟨rfl, (s2 ts).mpr h1⟩
        exact ⟨ts0, h2, a, x, rfl, h3⟩
    · refine spec_fail (by simp only [bind_ok, e2, bind_fail]) ?_
      rintro b ts ts0 - h1 ⟨a', y, rfl, h2⟩
      exact s2 _ _ ((s1 a' (.sym c y :: ts) ⟨_, _, rfl⟩).mp ⟨ts0, h1, h2⟩).2
  · refine spec_fail rfl ?_
    rintro b ts ts0 - h1 ⟨a', y, rfl, h2⟩
    exact s1 a' (.sym c y :: ts) ts0 ⟨_, _, rfl⟩ h1 h2
  · exact Or.inr (Or.inr ⟨rfl, hN⟩)

theorem Spec.weaken {α : Type} {N N' : Prop} {L L' : List Token → Prop} {R : List Token → α → List Token → Prop} {p : P}
    {r : Res (α × P)} (h : Spec N L R p r) (hn : N → N') (hl : ∀ ts, L' ts → L ts) : Spec N' L' R p r := by
  rcases h with ⟨a, p1, e, g1, l1, s1⟩ | ⟨e, s1⟩ | ⟨e, hN⟩
  · exact Or.inl ⟨a, p1, e, g1, l1, fun a' ts h => s1 a' ts (hl ts h)⟩
  · exact Or.inr (Or.inl ⟨e, fun a' ts ts0 h => s1 a' ts ts0 (hl ts h)⟩)
  · exact Or.inr (Or.inr ⟨e, hn hN⟩)

theorem Spec.congr {α : Type} {N : Prop} {L : List Token → Prop} {R R' : List Token → α → List Token → Prop} {p : P}
    {r : Res (α × P)} (h : Spec N L R p r) (hl : ∀ ts0 a ts, L ts → Rem p ts0 → (R ts0 a ts ↔ R' ts0 a ts)) :
    Spec N L R' p r := by
  rcases h with ⟨a, p1, e, g1, l1, s1⟩ | ⟨e, s1⟩ | ⟨e, hN⟩
  · refine Or.inl ⟨a, p1, e, g1, l1, fun a' ts h => ?_⟩
    rw [← s1 a' ts h]
    exact exists_congr fun ts0 => and_congr_right fun h1 => (hl ts0 a' ts h h1).symm
  · exact Or.inr (Or.inl ⟨e, fun a' ts ts0 h h1 h2 => s1 a' ts ts0 h h1 ((hl ts0 a' ts h h1).mpr h2)⟩)
  · exact Or.inr (Or.inr ⟨e, hN⟩)

/-- A token in front is consumed. -/
theorem Spec.shift {α : Type} {N : Prop} {L : List Token → Prop} {R R' : List Token → α → List Token → Prop} {p p' : P}
    {t : Token} {r : Res (α × P)} (hl : left p' ≤ left p) (e : ∀ ts, Rem p (t :: ts) ↔ Rem p' ts)
    (hR : ∀ ts0 a ts, L ts → Rem p ts0 → R ts0 a ts → ∃ t', ts0 = t :: t' ∧ R' t' a ts)
    (hR' : ∀ t' a ts, L ts → Rem p' t' → R' t' a ts → R (t :: t') a ts)
    (h : Spec N L R' p' r) : Spec N L R p r := by
  rcases h with ⟨a, p1, e1, g1, l1, s1⟩ | ⟨e1, s1⟩ | ⟨e1, hN⟩
  · refine Or.inl ⟨a, p1, e1, g1, by omega, fun a' ts h => ?_⟩
    rw [← s1 a' ts h]
    constructor
    · rintro ⟨ts0, h1, h2⟩
      obtain ⟨t', rfl, h3⟩ := hR ts0 a' ts h h1 h2
      exact ⟨t', (e _).mp h1, h3⟩
    · rintro ⟨t', h1, h2⟩
      exact ⟨t :: t', (e _).mpr h1, hR' t' a' ts h h1 h2⟩
  · refine Or.inr (Or.inl ⟨e1, fun a' ts ts0 h h1 h2 => ?_⟩)
    obtain ⟨t', rfl, h3⟩ := hR ts0 a' ts h h1 h2
    exact s1 a' ts t' h ((e _).mp h1) h3
  · exact Or.inr (Or.inr ⟨e1, hN⟩)

/-- A part is followed by another one. -/
theorem Spec.seq {α β : Type} {N : Prop} {L : List Token → Prop} {R1 : List Token → α → List Token → Prop}
    {R2 : α → List Token → β → List Token → Prop} {p : P} {r : Res (α × P)} {f : α × P → Res (β × P)}
    (h : Spec N Any R1 p r) (h2 : ∀ a p', Good p' → left p' ≤ left p → Spec N L (R2 a) p' (f (a, p'))) :
    Spec N L (fun ts0 b ts => ∃ a t, R1 ts0 a t ∧ R2 a t b ts) p (r >>= f) := by
  rcases h with ⟨a, p1, rfl, g1, l1, s1⟩ | ⟨rfl, s1⟩ | ⟨rfl, hN⟩
  · rcases h2 a p1 g1 l1 with ⟨b, p2, e2, g2, l2, s2⟩ | ⟨e2, s2⟩ | ⟨e2, hN⟩
    · refine Or.inl ⟨b, p2, by simp only [bind_ok, e2], g2, by omega, fun b' ts h => ?_⟩
      rw [← s2 b' ts h]
      constructor
      · rintro ⟨ts0, h1, a', t, h3, h4⟩
        obtain ⟨rfl, h5⟩ := (s1 a' t trivial).mp ⟨ts0, h1, h3⟩
        exact ⟨t, h5, h4⟩
      · rintro ⟨t, h5, h4⟩
        obtain ⟨ts0, h1, h3⟩ := (s1 a t trivial).mpr ⟨rfl, h5⟩
        exact ⟨ts0, h1, a, t, h3, h4⟩
    · refine Or.inr (Or.inl ⟨by simp only [bind_ok, e2], ?_⟩)
      rintro b' ts ts0 h h1 ⟨a', t, h3, h4⟩
      obtain ⟨rfl, h5⟩ := (s1 a' t trivial).mp ⟨ts0, h1, h3⟩
      exact s2 b' ts t h h5 h4
    · exact Or.inr (Or.inr ⟨by simp only [bind_ok, e2], hN⟩)
  · refine Or.inr (Or.inl ⟨rfl, ?_⟩)
    rintro b' ts ts0 h h1 ⟨a', t, h3, h4⟩
    exact s1 a' t ts0 trivial h1 h3
  · exact Or.inr (Or.inr ⟨rfl, hN⟩)

/-- A result that is computed from the tree. -/
theorem Spec.map {α β : Type} {N : Prop} {L : List Token → Prop} {R : List Token → α → List Token → Prop} {p : P}
    {r : Res (α × P)} {f : α → β} (h : Spec N L R p r) :
    Spec N L (fun ts0 b ts => ∃ a, b = f a ∧ R ts0 a ts) p (r >>= fun x => .ok (f x.1, x.2)) := by
  rcases h with ⟨a, p1, rfl, g1, l1, s1⟩ | ⟨rfl, s1⟩ | ⟨rfl, hN⟩
  · refine Or.inl ⟨f a, p1, rfl, g1, l1, fun b ts h => ?_⟩
    constructor
    · rintro ⟨ts0, h1, a', rfl, h2⟩
      obtain ⟨rfl, h3⟩ := (s1 a' ts h).mp ⟨ts0, h1, h2⟩
      exact ⟨rfl, h3⟩
    · rintro ⟨rfl, h1⟩
      obtain ⟨ts0, h2, h3⟩ := (s1 a ts h).mpr ⟨rfl, h1⟩
      exact ⟨ts0, h2, a, rfl, h3⟩
  · refine spec_fail rfl ?_
    rintro b ts ts0 h h1 ⟨a', rfl, h2⟩
    exact s1 a' ts ts0 h h1 h2
  · exact Or.inr (Or.inr ⟨rfl, hN⟩)

/-- Nothing is read. -/
theorem spec_nothing {α : Type} {N : Prop} {L : List Token → Prop} {R : List Token → α → List Token → Prop} {p : P} {a : α}
    (h : Good p) (h1 : ∀ ts0 a' ts, L ts → Rem p ts0 → (R ts0 a' ts ↔ a' = a ∧ ts0 = ts)) :
    Spec N L R p (.ok (a, p)) := by
  refine Or.inl ⟨a, p, rfl, h, Nat.le_refl _, fun a' ts hl => ?_⟩
  constructor
  · rintro ⟨ts0, h2, h3⟩
    obtain ⟨rfl, rfl⟩ := (h1 ts0 a' ts hl h2).mp h3
    exact ⟨rfl, h2⟩
  · rintro ⟨rfl, h2⟩
    exact ⟨ts, h2, (h1 ts a' ts hl h2).mpr ⟨rfl, rfl⟩⟩

theorem looking_iff {p : P} (h : Good p) : lookingAtValue p = true ↔
    ∃ t, TokIs p t ∧ ((∃ s, t = .int s) ∨ (∃ s, t = .float s) ∨ (∃ s, t = .str s) ∨ (∃ s, t = .id s) ∨ (∃ x, t = .sym 91 x)) := by
  unfold lookingAtValue
  simp only [Bool.or_eq_true, beq_iff_eq]
  constructor
  · rintro ((((h1 | h1) | h1) | h1) | h1)
    · obtain ⟨x, hx⟩ := good_int h h1; exact ⟨_, hx, Or.inl ⟨_, rfl⟩⟩
    · obtain ⟨x, hx⟩ := good_float h h1; exact ⟨_, hx, Or.inr (Or.inl ⟨_, rfl⟩)⟩
    · obtain ⟨x, hx⟩ := good_str h h1; exact ⟨_, hx, Or.inr (Or.inr (Or.inl ⟨_, rfl⟩))⟩
    · obtain ⟨x, hx⟩ := good_id h h1; exact ⟨_, hx, Or.inr (Or.inr (Or.inr (Or.inl ⟨_, rfl⟩)))⟩
    · obtain ⟨x, hx⟩ := good_sym h h1 (by decide) (by decide); exact ⟨_, hx, Or.inr (Or.inr (Or.inr (Or.inr ⟨_, rfl⟩)))⟩
  · rintro ⟨t, ht, ⟨s, rfl⟩ | ⟨s, rfl⟩ | ⟨s, rfl⟩ | ⟨s, rfl⟩ | ⟨s, rfl⟩⟩
    · exact Or.inl (Or.inl (Or.inl (Or.inl ht.1)))
    · exact Or.inl (Or.inl (Or.inl (Or.inr ht.1)))
    · exact Or.inl (Or.inl (Or.inr ht.1))
    · exact Or.inl (Or.inr ht.1)
    · exact Or.inr ht.1

theorem rem_value {p : P} (h : Good p) {ts0 : List Token} {v : Value} {ts : List Token} (hr : Rem p ts0)
    (hv : IsValue ts0 v ts) : lookingAtValue p = true := by
  obtain ⟨t, r, rfl, hnp, ht⟩ := isValue_head hv
  exact (looking_iff h).mpr ⟨t, rem_nonpath hr hnp, ht⟩

theorem values_spec (n : Nat) :
    (∀ p, Good p → Spec (n < 2 * left p + 2) Any IsValue p (parseValue n p)) ∧
    (∀ p x, Good p → TokIs p (.sym 91 x) → Spec (n < 2 * left p + 1) Any IsValue p (parseArray n p)) ∧
    (∀ p, Good p → Spec (n < 2 * left p + 1) (Sym 93) IsElems p (parseElems n p)) := by
  induction n with
  | zero =>
    refine ⟨fun p _ => ?_, fun p x _ _ => ?_, fun p _ => ?_⟩
    · exact Or.inr (Or.inr ⟨by rw [parseValue], by omega⟩)
    · exact Or.inr (Or.inr ⟨by rw [parseArray], by omega⟩)
    · exact Or.inr (Or.inr ⟨by rw [parseElems], by omega⟩)
  | succ n ih =>
    obtain ⟨ihv, iha, ihe⟩ := ih
    refine ⟨fun p h => ?_, fun p x h ht => ?_, fun p h => ?_⟩
    · -- values
      rw [parseValue]
      by_cases h1 : p.tok.type = tINT
      · rw [if_pos h1]
        obtain ⟨x, hx⟩ := good_int h h1
        refine value_tok h hx (v := .int (strtoll x)) ?_ (by rw [text_spec hx]; rfl)
        intro ts v' ts'
        rw [strtoll_eq hx.2.2.2]
        constructor
        · intro h2; cases h2; exact ⟨rfl, rfl⟩
        · rintro ⟨rfl, rfl⟩; exact .int
      rw [if_neg h1]
      by_cases h2 : p.tok.type = tFLOAT
      · rw [if_pos h2]
        obtain ⟨x, hx⟩ := good_float h h2
        refine value_tok h hx (v := .float x) ?_ (by rw [text_spec hx]; rfl)
        intro ts v' ts'
        constructor
        · intro h2; cases h2; exact ⟨rfl, rfl⟩
        · rintro ⟨rfl, rfl⟩; exact .float
      rw [if_neg h2]
      by_cases h3 : p.tok.type = tSTRING
      · rw [if_pos h3]
        obtain ⟨x, hx⟩ := good_str h h3
        refine value_tok h hx (v := .str x) ?_ (by rw [text_spec hx]; rfl)
        intro ts v' ts'
        constructor
        · intro h2; cases h2; exact ⟨rfl, rfl⟩
        · rintro ⟨rfl, rfl⟩; exact .str
      rw [if_neg h3]
      by_cases h4 : p.tok.type = tID
      · rw [if_pos h4]
        obtain ⟨x, hx⟩ := good_id h h4
        refine value_tok h hx (v := .id x) ?_ (by rw [text_spec hx]; rfl)
        intro ts v' ts'
        constructor
        · intro h2; cases h2; exact ⟨rfl, rfl⟩
        · rintro ⟨rfl, rfl⟩; exact .id
      rw [if_neg h4]
      by_cases h5 : p.tok.type = ch '['
      · rw [if_pos h5]
        obtain ⟨x, hx⟩ := good_sym h h5 (by decide) (by decide)
        exact (iha p x h hx).weaken (by omega) (fun _ h => h)
      rw [if_neg h5]
      refine spec_fail rfl ?_
      intro v ts ts0 _ hr hv
      have := rem_value h hr hv
      simp only [lookingAtValue, Bool.or_eq_true, beq_iff_eq] at this
      omega
    · -- arrays and ranges
      rw [parseArray]
      rcases expectErr_spec h (c := 91) (by decide) (by decide) with ⟨p1, x', e1, t1, g1, l1, s1⟩ | ⟨e1, -⟩
      swap
      · rw [expectErr, if_pos ht.1] at e1
        obtain ⟨p', e2, -⟩ := next_spec h ht
        rw [e2] at e1; cases e1
      obtain ⟨rfl⟩ : Token.sym 91 x = .sym 91 x' := tokIs_unique ht t1
      have e1' : expectErr p (ch '[') = .ok p1 := e1
      rw [e1', bind_ok]
      refine Spec.shift (t := .sym 91 x) (p' := p1) (R' := fun t1 v ts =>
        (∃ y, t1 = .sym 93 y :: ts ∧ v = .arr []) ∨ (∃ a t2, IsValue t1 a t2 ∧ ArrTail a t2 v ts)) (Nat.le_of_lt l1) s1 ?_ ?_ ?_
      · intro ts0 a ts _ hr hv
        obtain ⟨t, r, rfl, hnp, -⟩ := isValue_head hv
        obtain rfl := rem_head ht hr hnp
        exact ⟨r, rfl, isValue_array.mp hv⟩
      · intro t' a ts _ _ hv
        exact isValue_array.mpr hv
      rcases expect_spec g1 (c := 93) (by decide) (by decide) with ⟨p2, y, e2, t2, g2, l2, s2⟩ | ⟨e2, s2⟩
      · have e2' : expect p1 (ch ']') = .ok (true, p2) := e2
        rw [e2', bind_ok]
        refine Or.inl ⟨_, p2, rfl, g2, by omega, ?_⟩
        intro v ts _
        constructor
        · rintro ⟨ts0, h1, ⟨y', rfl, rfl⟩ | ⟨a, t3, hv, -⟩⟩
          · exact ⟨rfl, rem_sym t2 s2 h1⟩
          · exfalso
            obtain ⟨t, r, rfl, hnp, hk⟩ := isValue_head hv
            have := rem_head t2 h1 hnp
            subst this
            simp at hk
        · rintro ⟨rfl, h1⟩
          exact ⟨.sym 93 y :: ts, (s2 ts).mpr h1, Or.inl ⟨y, rfl, rfl⟩⟩
      have e2' : expect p1 (ch ']') = .ok (false, p1) := e2
      rw [e2', bind_ok]
      dsimp only
      refine Spec.congr (R := fun t1 v ts => ∃ a t2, IsValue t1 a t2 ∧ ArrTail a t2 v ts) ?_ ?_
      swap
      · intro ts0 v ts _ hr
        constructor
        · exact Or.inr
        · rintro (⟨y, rfl, rfl⟩ | h2)
          · exact absurd (rem_nonpath hr (by simp)) (s2 y)
          · exact h2
      refine Spec.seq (N := n + 1 < 2 * left p + 1) ((ihv p1 g1).weaken (fun h => by omega) (fun _ h => h)) ?_
      intro a p3 g3 l3
      rcases expect_spec g3 (c := 58) (by decide) (by decide) with ⟨p4, y, e4, t4, g4, l4, s4⟩ | ⟨e4, s4⟩
      · have e4' : expect p3 (ch ':') = .ok (true, p4) := e4
        rw [e4', bind_ok]
        dsimp only
        refine Spec.shift (t := .sym 58 y) (p' := p4) (R' := fun t2 v ts => ∃ b t3, IsValue t2 b t3 ∧
          ((∃ z, t3 = .sym 93 z :: ts ∧ v = .range a b) ∨
           (∃ x c z t4, t3 = .sym 58 x :: t4 ∧ v = .range3 a b c ∧ IsValue t4 c (.sym 93 z :: ts)))) (Nat.le_of_lt l4) s4 ?_ ?_ ?_
        · intro ts0 v ts _ hr hv
          cases hv with
          | @range y' z b t2 _ h1 =>
            cases rem_head t4 hr (by simp)
            exact ⟨_, rfl, b, _, h1, Or.inl ⟨z, rfl, rfl⟩⟩
          | @range3 x' y' z b c t2 t3 _ h1 h2 =>
            cases rem_head t4 hr (by simp)
            exact ⟨_, rfl, b, _, h1, Or.inr ⟨y', c, z, t3, rfl, rfl, h2⟩⟩
          | @arr y' l t2 _ h1 =>
            exfalso
            rcases elems_cases h1 with ⟨rfl, rfl⟩ | ⟨x', r, rfl⟩
            · cases rem_head t4 hr (by simp)
            · cases rem_head t4 hr (by simp)
        · rintro t' v ts _ _ ⟨b, t3, h1, ⟨z, rfl, rfl⟩ | ⟨x', c, z, t4, rfl, rfl, h2⟩⟩
          · exact .range h1
          · exact .range3 h1 h2
        refine Spec.seq ((ihv p4 g4).weaken (by omega) (fun _ h => h)) ?_
        intro b p5 g5 l5
        rcases expect_spec g5 (c := 58) (by decide) (by decide) with ⟨p6, x6, e6, t6, g6, l6, s6⟩ | ⟨e6, s6⟩
        · have e6' : expect p5 (ch ':') = .ok (true, p6) := e6
          rw [e6', bind_ok]
          dsimp only
          refine Spec.shift (t := .sym 58 x6) (p' := p6) (R' := fun t4 v ts =>
            ∃ c z, v = .range3 a b c ∧ IsValue t4 c (.sym 93 z :: ts)) (Nat.le_of_lt l6) s6 ?_ ?_ ?_
          · rintro ts0 v ts _ hr (⟨z, rfl, rfl⟩ | ⟨x', c, z, t4, rfl, rfl, h2⟩)
            · cases rem_head t6 hr (by simp)
            · cases rem_head t6 hr (by simp)
              exact ⟨_, rfl, c, z, rfl, h2⟩
          · rintro t' v ts _ _ ⟨c, z, rfl, h2⟩
            exact Or.inr ⟨x6, c, z, t', rfl, rfl, h2⟩
          · exact spec_close (f := fun c => Value.range3 a b c) (by decide) (by decide)
              ((ihv p6 g6).weaken (by omega) (fun _ _ => trivial))
        · have e6' : expect p5 (ch ':') = .ok (false, p5) := e6
          rw [e6', bind_ok]
          dsimp only
          have hc := spec_close (N := n + 1 < 2 * left p + 1) (p := p5) (r := .ok ((), p5)) (c := 93)
            (R := fun ts0 _ ts => ts0 = ts) (f := fun _ => Value.range a b) (by decide) (by decide)
            (spec_nothing g5 (by intro ts0 a' ts _ _; simp))
          refine Spec.congr hc ?_
          intro ts0 v ts _ hr
          constructor
          · rintro ⟨_, z, rfl, rfl⟩
            exact Or.inl ⟨z, rfl, rfl⟩
          · rintro (⟨z, rfl, rfl⟩ | ⟨x', c, z, t4, rfl, rfl, h2⟩)
            · exact ⟨(), z, rfl, rfl⟩
            · exact absurd (rem_nonpath hr (by simp)) (s6 x')
      · have e4' : expect p3 (ch ':') = .ok (false, p3) := e4
        rw [e4', bind_ok]
        dsimp only
        have hc := spec_close (N := n + 1 < 2 * left p + 1) (c := 93) (f := fun l => Value.arr (a :: l)) (by decide) (by decide)
          ((ihe p3 g3).weaken (by omega) (fun _ h => h))
        refine Spec.congr hc ?_
        intro ts0 v ts _ hr
        constructor
        · rintro ⟨l, z, rfl, h1⟩
          exact .arr h1
        · intro h1
          cases h1 with
          | range h1 => exact absurd (rem_nonpath hr (by simp)) (s4 _)
          | range3 h1 h2 => exact absurd (rem_nonpath hr (by simp)) (s4 _)
          | arr h1 => exact ⟨_, _, rfl, h1⟩
    · -- elements
      rw [parseElems]
      rcases expect_spec h (c := 44) (by decide) (by decide) with ⟨p1, x, e1, t1, g1, l1, s1⟩ | ⟨e1, s1⟩
      · have e1' : expect p (ch ',') = .ok (true, p1) := e1
        rw [e1', bind_ok]
        dsimp only
        refine Spec.shift (t := .sym 44 x) (p' := p1) (R' := fun t l ts =>
          (t = ts ∧ l = []) ∨ ∃ v t2, IsValue t v t2 ∧ ∃ l', l = v :: l' ∧ IsElems t2 l' ts) (Nat.le_of_lt l1) s1 ?_ ?_ ?_
        · rintro ts0 l ts ⟨y, r, rfl⟩ hr hv
          cases hv with
          | nil => cases rem_head t1 hr (by simp)
          | comma => cases rem_head t1 hr (by simp); exact ⟨_, rfl, Or.inl ⟨rfl, rfl⟩⟩
          | cons h1 h2 => cases rem_head t1 hr (by simp); exact ⟨_, rfl, Or.inr ⟨_, _, h1, _, rfl, h2⟩⟩
        · rintro t' l ts _ _ (⟨rfl, rfl⟩ | ⟨v, t2, h1, l', rfl, h2⟩)
          · exact .comma
          · exact .cons h1 h2
        by_cases hl : lookingAtValue p1 = true
        · rw [if_pos hl]
          refine Spec.congr (R := fun t l ts => ∃ v t2, IsValue t v t2 ∧ ∃ l', l = v :: l' ∧ IsElems t2 l' ts) ?_ ?_
          swap
          · rintro ts0 l ts ⟨y, r, rfl⟩ hr
            constructor
            · exact Or.inr
            · rintro (⟨rfl, rfl⟩ | h1)
              · exfalso
                obtain ⟨t, ht, hk⟩ := (looking_iff g1).mp hl
                cases rem_head ht hr (by simp)
                simp at hk
              · exact h1
          refine Spec.seq (N := n + 1 < 2 * left p + 1) ((ihv p1 g1).weaken (fun h => by omega) (fun _ h => h)) ?_
          intro v p2 g2 l2
          exact Spec.map (f := fun l => v :: l) ((ihe p2 g2).weaken (by omega) (fun _ h => h))
        · rw [if_neg hl]
          refine spec_nothing g1 ?_
          intro ts0 l ts _ hr
          constructor
          · rintro (⟨rfl, rfl⟩ | ⟨v, t2, h1, -⟩)
            · exact ⟨rfl, rfl⟩
            · exact absurd (rem_value g1 hr h1) hl
          · rintro ⟨rfl, rfl⟩
            exact Or.inl ⟨rfl, rfl⟩
      · have e1' : expect p (ch ',') = .ok (false, p) := e1
        rw [e1', bind_ok]
        dsimp only
        refine spec_nothing h ?_
        rintro ts0 l ts ⟨y, r, rfl⟩ hr
        constructor
        · intro h1
          rcases elems_cases h1 with ⟨rfl, rfl⟩ | ⟨x', r, rfl⟩
          · exact ⟨rfl, rfl⟩
          · exact absurd (rem_nonpath hr (by simp)) (s1 x')
        · rintro ⟨rfl, rfl⟩
          exact .nil

/-- A part is followed by another one. -/
theorem Spec.seqL {α β : Type} {N : Prop} {L1 L : List Token → Prop} {R1 : List Token → α → List Token → Prop}
    {R2 : α → List Token → β → List Token → Prop} {p : P} {r : Res (α × P)} {f : α × P → Res (β × P)}
    (h : Spec N L1 R1 p r) (hL : ∀ a t b ts, L ts → R2 a t b ts → L1 t)
    (h2 : ∀ a p', Good p' → left p' ≤ left p → Spec N L (R2 a) p' (f (a, p'))) :
    Spec N L (fun ts0 b ts => ∃ a t, R1 ts0 a t ∧ R2 a t b ts) p (r >>= f) := by
  rcases h with ⟨a, p1, rfl, g1, l1, s1⟩ | ⟨rfl, s1⟩ | ⟨rfl, hN⟩
  · rcases h2 a p1 g1 l1 with ⟨b, p2, e2, g2, l2, s2⟩ | ⟨e2, s2⟩ | ⟨e2, hN⟩
    · refine Or.inl ⟨b, p2, by simp only [bind_ok, e2], g2, by omega, fun b' ts h => ?_⟩
      rw [← s2 b' ts h]
      constructor
      · rintro ⟨ts0, h1, a', t, h3, h4⟩
        obtain ⟨rfl, h5⟩ := (s1 a' t (hL _ _ _ _ h h4)).mp ⟨ts0, h1, h3⟩
        exact ⟨t, h5, h4⟩
      · rintro ⟨t, h5, h4⟩
        obtain ⟨ts0, h1, h3⟩ := (s1 a t (hL _ _ _ _ h h4)).mpr ⟨rfl, h5⟩
        exact ⟨ts0, h1, a, t, h3, h4⟩
    · refine Or.inr (Or.inl ⟨by simp only [bind_ok, e2], ?_⟩)
      rintro b' ts ts0 h h1 ⟨a', t, h3, h4⟩
      obtain ⟨rfl, h5⟩ := (s1 a' t (hL _ _ _ _ h h4)).mp ⟨ts0, h1, h3⟩
      exact s2 b' ts t h h5 h4
    · exact Or.inr (Or.inr ⟨by simp only [bind_ok, e2], hN⟩)
  · refine Or.inr (Or.inl ⟨rfl, ?_⟩)
    rintro b' ts ts0 h h1 ⟨a', t, h3, h4⟩
    exact s1 a' t ts0 (hL _ _ _ _ h h4) h1 h3
  · exact Or.inr (Or.inr ⟨rfl, hN⟩)

/-- What follows an argument. -/
def ArgEnd : List Token → Prop := fun ts => Sym 41 ts ∨ Sym 44 ts

theorem arg_spec (n : Nat) (p : P) (h : Good p) : Spec (n < 2 * left p + 2) ArgEnd IsArg p (parseArg n p) := by
  unfold parseArg
  by_cases h1 : p.tok.type = tID
  · rw [if_pos h1]
    obtain ⟨k, hk⟩ := good_id h h1
    obtain ⟨p1, e1, g1, l1, s1⟩ := next_spec h hk
    rw [text_spec hk, bind_ok, expectErr, if_pos h1, e1, bind_ok]
    dsimp only [bareName]
    refine Spec.shift (t := .id k) (p' := p1) (R' := fun t a ts =>
      (∃ x t1 v, t = .sym 61 x :: t1 ∧ a = ⟨some k, v⟩ ∧ IsValue t1 v ts) ∨ (a = ⟨none, .id k⟩ ∧ t = ts))
      (Nat.le_of_lt l1) s1 ?_ ?_ ?_
    · intro ts0 a ts _ hr ha
      cases ha with
      | key h2 => cases rem_head hk hr (by simp); exact ⟨_, rfl, Or.inl ⟨_, _, _, rfl, rfl, h2⟩⟩
      | pos h2 =>
        obtain ⟨t, r, rfl, hnp, -⟩ := isValue_head h2
        cases rem_head hk hr hnp
        cases h2
        exact ⟨_, rfl, Or.inr ⟨rfl, rfl⟩⟩
    · rintro t' a ts _ _ (⟨x, t1, v, rfl, rfl, h2⟩ | ⟨rfl, rfl⟩)
      · exact .key h2
      · exact .pos .id
    rcases expect_spec g1 (c := 61) (by decide) (by decide) with ⟨p2, x, e2, t2, g2, l2, s2⟩ | ⟨e2, s2⟩
    · have e2' : expect p1 (ch '=') = .ok (true, p2) := e2
      rw [e2', bind_ok]
      dsimp only
      refine Spec.shift (t := .sym 61 x) (p' := p2) (R' := fun t a ts => ∃ v, a = ⟨some k, v⟩ ∧ IsValue t v ts)
        (Nat.le_of_lt l2) s2 ?_ ?_ ?_
      · rintro ts0 a ts hl hr (⟨x', t1, v, rfl, rfl, h2⟩ | ⟨rfl, rfl⟩)
        · cases rem_head t2 hr (by simp)
          exact ⟨_, rfl, _, rfl, h2⟩
        · exfalso
          rcases hl with ⟨y, r, rfl⟩ | ⟨y, r, rfl⟩ <;> cases rem_head t2 hr (by simp)
      · rintro t' a ts _ _ ⟨v, rfl, h2⟩
        exact Or.inl ⟨_, _, _, rfl, rfl, h2⟩
      · exact Spec.map (f := fun v => Arg.mk (some k) v)
          (((values_spec n).1 p2 g2).weaken (fun h => by omega) (fun _ _ => trivial))
    · have e2' : expect p1 (ch '=') = .ok (false, p1) := e2
      rw [e2', bind_ok]
      dsimp only
      refine spec_nothing g1 ?_
      intro ts0 a ts _ hr
      constructor
      · rintro (⟨x', t1, v, rfl, rfl, h2⟩ | ⟨rfl, rfl⟩)
        · exact absurd (rem_nonpath hr (by simp)) (s2 x')
        · exact ⟨rfl, rfl⟩
      · rintro ⟨rfl, rfl⟩
        exact Or.inr ⟨rfl, rfl⟩
  · rw [if_neg h1]
    refine Spec.congr (Spec.map (f := fun v => Arg.mk none v)
      (((values_spec n).1 p h).weaken (fun h => h) (fun _ _ => trivial))) ?_
    intro ts0 a ts _ hr
    constructor
    · rintro ⟨v, rfl, h2⟩
      exact .pos h2
    · intro h2
      cases h2 with
      | key h2 => exact absurd (rem_nonpath hr (by simp)).1 h1
      | pos h2 => exact ⟨_, rfl, h2⟩

theorem arg_head {ts0 : List Token} {a : Arg} {ts : List Token} (h : IsArg ts0 a ts) :
    ∃ t r, ts0 = t :: r ∧ (∀ b, t ≠ .path b) ∧
      ((∃ s, t = .int s) ∨ (∃ s, t = .float s) ∨ (∃ s, t = .str s) ∨ (∃ s, t = .id s) ∨ (∃ x, t = .sym 91 x)) := by
  cases h with
  | key h => exact ⟨_, _, rfl, by simp, by simp⟩
  | pos h => exact isValue_head h

theorem args_head {ts0 : List Token} {l : List Arg} {ts : List Token} (h : IsArgs ts0 l ts) :
    (l = [] ∧ ts0 = ts) ∨ ∃ a t, IsArg ts0 a t ∧
      ((l = [a] ∧ t = ts) ∨ (∃ x t1 l', t = .sym 44 x :: t1 ∧ l = a :: l' ∧ IsArgs t1 l' ts)) := by
  cases h with
  | nil => exact Or.inl ⟨rfl, rfl⟩
  | one h1 => exact Or.inr ⟨_, _, h1, Or.inl ⟨rfl, rfl⟩⟩
  | cons h1 h2 => exact Or.inr ⟨_, _, h1, Or.inr ⟨_, _, _, rfl, rfl, h2⟩⟩

theorem args_spec (n : Nat) (p : P) (h : Good p) : Spec (n < 2 * left p + 3) (Sym 41) IsArgs p (parseArgs n p) := by
  induction n generalizing p with
  | zero => exact Or.inr (Or.inr ⟨by rw [parseArgs], by omega⟩)
  | succ n ih =>
    rw [parseArgs]
    have hc : (p.tok.type ≠ tID ∧ ¬ lookingAtValue p = true) ↔ ¬ lookingAtValue p = true := by
      simp only [lookingAtValue, Bool.or_eq_true, beq_iff_eq]
      tauto
    by_cases hl : lookingAtValue p = true
    · rw [if_neg (by rw [hc]; exact fun h => h hl)]
      refine Spec.congr (R := fun ts0 l ts => ∃ a t, IsArg ts0 a t ∧
        ((l = [a] ∧ t = ts) ∨ (∃ x t1 l', t = .sym 44 x :: t1 ∧ l = a :: l' ∧ IsArgs t1 l' ts))) ?_ ?_
      swap
      · rintro ts0 l ts ⟨y, r, rfl⟩ hr
        constructor
        · rintro ⟨a, t, h1, ⟨rfl, rfl⟩ | ⟨x, t1, l', rfl, rfl, h2⟩⟩
          · exact .one h1
          · exact .cons h1 h2
        · intro h1
          rcases args_head h1 with ⟨rfl, rfl⟩ | h2
          · exfalso
            obtain ⟨t, ht, hk⟩ := (looking_iff h).mp hl
            cases rem_head ht hr (by simp)
            simp at hk
          · exact h2
      refine Spec.seqL (N := n + 1 < 2 * left p + 3) ((arg_spec n p h).weaken (fun h => by omega) (fun _ h => h)) ?_ ?_
      · rintro a t l ts hl (⟨rfl, rfl⟩ | ⟨x, t1, l', rfl, rfl, h2⟩)
        · exact Or.inl hl
        · exact Or.inr ⟨_, _, rfl⟩
      · intro a p1 g1 l1
        dsimp only
        by_cases h41 : p1.tok.type = ch ')'
        · rw [if_pos h41]
          refine spec_nothing g1 ?_
          intro ts0 l ts _ hr
          constructor
          · rintro (⟨rfl, rfl⟩ | ⟨x, t1, l', rfl, rfl, h2⟩)
            · exact ⟨rfl, rfl⟩
            · exact absurd (h41.symm.trans (rem_nonpath hr (by simp)).1) (by decide)
          · rintro ⟨rfl, rfl⟩
            exact Or.inl ⟨rfl, rfl⟩
        · rw [if_neg h41]
          rcases expectErr_spec g1 (c := 44) (by decide) (by decide) with ⟨p2, x, e2, t2, g2, l2, s2⟩ | ⟨e2, s2⟩
          · have e2' : expectErr p1 (ch ',') = .ok p2 := e2
            rw [e2', bind_ok]
            refine Spec.shift (t := .sym 44 x) (p' := p2) (R' := fun t l ts => ∃ l', l = a :: l' ∧ IsArgs t l' ts)
              (Nat.le_of_lt l2) s2 ?_ ?_ ?_
            · rintro ts0 l ts ⟨y, r, rfl⟩ hr (⟨rfl, rfl⟩ | ⟨x', t1, l', rfl, rfl, h2⟩)
              · cases rem_head t2 hr (by simp)
              · cases rem_head t2 hr (by simp)
                exact ⟨_, rfl, _, rfl, h2⟩
            · rintro t' l ts _ _ ⟨l', rfl, h2⟩
              exact Or.inr ⟨_, _, _, rfl, rfl, h2⟩
            · exact Spec.map (f := fun l => a :: l) ((ih p2 g2).weaken (fun h => by omega) (fun _ h => h))
          · have e2' : expectErr p1 (ch ',') = .fail := e2
            rw [e2', bind_fail]
            refine spec_fail rfl ?_
            rintro l ts ts0 ⟨y, r, rfl⟩ hr (⟨rfl, rfl⟩ | ⟨x', t1, l', rfl, rfl, h2⟩)
            · exact h41 (rem_nonpath hr (by simp)).1
            · exact s2 _ _ hr
    · rw [if_pos (hc.mpr hl)]
      refine spec_nothing h ?_
      intro ts0 l ts _ hr
      constructor
      · intro h1
        rcases args_head h1 with h2 | ⟨a, t, h2, -⟩
        · exact h2
        · exfalso
          obtain ⟨t', r, rfl, hnp, hk⟩ := arg_head h2
          exact hl ((looking_iff h).mpr ⟨t', rem_nonpath hr hnp, hk⟩)
      · rintro ⟨rfl, rfl⟩
        exact .nil

end Hob3l.Syn
