import Verif.Syn.LemmasValue
/-! # Parser: items -/
namespace Hob3l.Syn

/-- As `Spec`, and at least one token is consumed. -/
def SpecLt {α : Type} (N : Prop) (L : List Token → Prop) (R : List Token → α → List Token → Prop) (p : P)
    (r : Res (α × P)) : Prop :=
  Spec N L R p r ∧ ∀ a p', r = .ok (a, p') → left p' < left p

theorem Spec.left_le {α : Type} {N : Prop} {L : List Token → Prop} {R : List Token → α → List Token → Prop} {p p' : P}
    {r : Res (α × P)} {a : α} (h : Spec N L R p r) (e : r = .ok (a, p')) : left p' ≤ left p := by
  rcases h with ⟨a, p1, rfl, g1, l1, s1⟩ | ⟨rfl, s1⟩ | ⟨rfl, hN⟩
  · cases e; exact l1
  · cases e
  · cases e

theorem SpecLt.congr {α : Type} {N : Prop} {L : List Token → Prop} {R R' : List Token → α → List Token → Prop} {p : P}
    {r : Res (α × P)} (h : SpecLt N L R p r) (hl : ∀ ts0 a ts, L ts → Rem p ts0 → (R ts0 a ts ↔ R' ts0 a ts)) :
    SpecLt N L R' p r := ⟨h.1.congr hl, h.2⟩

theorem SpecLt.weaken {α : Type} {N N' : Prop} {L L' : List Token → Prop} {R : List Token → α → List Token → Prop} {p : P}
    {r : Res (α × P)} (h : SpecLt N L R p r) (hn : N → N') (hl : ∀ ts, L' ts → L ts) : SpecLt N' L' R p r :=
  ⟨h.1.weaken hn hl, h.2⟩

theorem Spec.shiftLt {α : Type} {N : Prop} {L : List Token → Prop} {R R' : List Token → α → List Token → Prop} {p p' : P}
    {t : Token} {r : Res (α × P)} (hl : left p' < left p) (e : ∀ ts, Rem p (t :: ts) ↔ Rem p' ts)
    (hR : ∀ ts0 a ts, L ts → Rem p ts0 → R ts0 a ts → ∃ t', ts0 = t :: t' ∧ R' t' a ts)
    (hR' : ∀ t' a ts, L ts → Rem p' t' → R' t' a ts → R (t :: t') a ts)
    (h : Spec N L R' p' r) : SpecLt N L R p r :=
  ⟨h.shift (Nat.le_of_lt hl) e hR hR', fun _ _ e1 => Nat.lt_of_le_of_lt (h.left_le e1) hl⟩

theorem Spec.seqLt {α β : Type} {N : Prop} {L1 L : List Token → Prop} {R1 : List Token → α → List Token → Prop}
    {R2 : α → List Token → β → List Token → Prop} {p : P} {r : Res (α × P)} {f : α × P → Res (β × P)}
    (h : Spec N L1 R1 p r) (hL : ∀ a t b ts, L ts → R2 a t b ts → L1 t)
    (h2 : ∀ a p', Good p' → left p' ≤ left p → SpecLt N L (R2 a) p' (f (a, p'))) :
    SpecLt N L (fun ts0 b ts => ∃ a t, R1 ts0 a t ∧ R2 a t b ts) p (r >>= f) := by
  refine ⟨h.seqL hL (fun a p' h3 h4 => (h2 a p' h3 h4).1), ?_⟩
  intro b p2 e
  rcases h with ⟨a, p1, rfl, g1, l1, s1⟩ | ⟨rfl, s1⟩ | ⟨rfl, hN⟩
  · exact Nat.lt_of_lt_of_le ((h2 a p1 g1 l1).2 b p2 e) l1
  · cases e
  · cases e

theorem SpecLt.fail {α : Type} {N : Prop} {L : List Token → Prop} {R : List Token → α → List Token → Prop} {p : P}
    {r : Res (α × P)} (h : r = .fail) (h' : ∀ a' ts ts0, L ts → Rem p ts0 → ¬ R ts0 a' ts) : SpecLt N L R p r :=
  ⟨spec_fail h h', fun _ _ e => by rw [h] at e; cases e⟩

/-! ## Keywords -/

theorem keyword_sieveId {s : Text} : Keyword s ↔ isKey (sieveId s) = true := by
  unfold sieveId Keyword
  split_ifs with h1 h2 h3 h4
  · exact ⟨fun _ => by decide, fun _ => Or.inl h1⟩
  · exact ⟨fun _ => by decide, fun _ => Or.inr (Or.inl h2)⟩
  · exact ⟨fun _ => by decide, fun _ => Or.inr (Or.inr (Or.inl h3))⟩
  · exact ⟨fun _ => by decide, fun _ => Or.inr (Or.inr (Or.inr h4))⟩
  · exact ⟨fun h => by tauto, fun h => absurd h (by decide)⟩

theorem sieveId_id {s : Text} (h : ¬ Keyword s) : sieveId s = tID := by
  unfold Keyword at h
  unfold sieveId
  rw [if_neg (by tauto), if_neg (by tauto), if_neg (by tauto), if_neg (by tauto)]

theorem sieveId_ge (s : Text) : 258 ≤ sieveId s ∧ sieveId s ≠ tERROR ∧ (sieveId s = tID ∨ 513 ≤ sieveId s) := by
  unfold sieveId
  split_ifs <;> decide

/-- What `sieve` does. -/
theorem sieve_spec {p : P} (h : Good p) :
    ∃ q, sieve p = some q ∧ sieve q = some q ∧ q.lex = p.lex ∧
      ((q = p ∧ ∀ s, TokIs p (.id s) → ¬ Keyword s) ∨
       (∃ s, TokIs p (.id s) ∧ Keyword s ∧ q = { p with tok := { p.tok with type := sieveId s } } ∧
         513 ≤ q.tok.type ∧ isKey q.tok.type = true)) := by
  by_cases ht : p.tok.type = tID
  · obtain ⟨s, hs⟩ := good_id h ht
    have e : sieve p = some { p with tok := { p.tok with type := sieveId s } } := by
      unfold sieve
      rw [if_neg (fun h => h ht), hs.2.1]; rfl
    by_cases hk : Keyword s
    · have h5 : 513 ≤ sieveId s := by
        have h6 := sieveId_ge s
        rcases h6.2.2 with h7 | h7
        · rw [keyword_sieveId, h7] at hk; exact absurd hk (by decide)
        · exact h7
      refine ⟨_, e, ?_, rfl, Or.inr ⟨s, hs, hk, rfl, h5, keyword_sieveId.mp hk⟩⟩
      unfold sieve
      rw [if_pos (by dsimp only [tID]; omega)]
    · have e2 : ({ p with tok := { p.tok with type := sieveId s } } : P) = p := by
        rw [sieveId_id hk, ← ht]
      rw [e2] at e
      refine ⟨p, e, e, rfl, Or.inl ⟨rfl, ?_⟩⟩
      intro s' hs'
      cases tokIs_unique hs hs'
      exact hk
  · have e : sieve p = some p := by unfold sieve; rw [if_pos ht]
    exact ⟨p, e, e, rfl, Or.inl ⟨rfl, fun s hs => absurd hs.1 ht⟩⟩

theorem tokNext_sieved {p q : P} (hl : q.lex = p.lex) (h1 : p.tok.type ≠ tERROR) (h2 : q.tok.type ≠ tERROR) :
    tokNext q = tokNext p := by
  unfold tokNext Lex.fuel
  rw [tokLoop, tokLoop, tokAux, tokAux, if_neg h1, if_neg h2, hl]

/-- The text of a token that is not an error. -/
theorem text_total {p : P} (h : Good p) : ∃ s, tokText p = .ok s ∧ ∀ ts, Rem p ts → (∀ b r, ts ≠ .path b :: r) → s = bareName ts := by
  have hc : ∃ s, cstr p.lex.buf p.tok.string = some s := by
    obtain ⟨s, g, hi⟩ := h.inv
    have h1 : 0 ∈ p.lex.buf.drop p.tok.string := by
      have h2 : 0 ∈ p.lex.buf.drop p.lex.pos := by
        rw [hi.buf]
        cases g
        · simp [mark]
        · simp [mark]
      rw [show p.lex.pos = p.tok.string + (p.lex.pos - p.tok.string) from by have := h.str; omega, ← List.drop_drop] at h2
      exact List.mem_of_mem_drop h2
    refine ⟨_, if_pos ⟨?_, h1⟩⟩
    have := hi.len; have := hi.pos; have := h.str
    omega
  obtain ⟨s, hs⟩ := hc
  refine ⟨s, by rw [tokText, hs]; rfl, ?_⟩
  intro ts hr hnp
  cases ts with
  | nil =>
    have := hr.2
    rw [hs] at this
    exact Option.some.inj this
  | cons t ts =>
    have ht : TokIs p t := rem_nonpath hr (fun b e => hnp b ts (by rw [e]))
    have := text_spec ht
    rw [tokText, hs] at this
    cases this
    cases t <;> rfl

/-! ## Modifiers -/

theorem lookingMod_iff {p : P} (h : Good p) : lookingAtModifier p = true ↔
    ∃ c x b, TokIs p (.sym c x) ∧ modifier c = some b ∧ modBit c = b := by
  unfold lookingAtModifier
  simp only [Bool.or_eq_true, beq_iff_eq]
  constructor
  · rintro (((h1 | h1) | h1) | h1)
    · obtain ⟨x, hx⟩ := good_sym h h1 (by decide) (by decide); exact ⟨_, x, _, hx, rfl, by decide⟩
    · obtain ⟨x, hx⟩ := good_sym h h1 (by decide) (by decide); exact ⟨_, x, _, hx, rfl, by decide⟩
    · obtain ⟨x, hx⟩ := good_sym h h1 (by decide) (by decide); exact ⟨_, x, _, hx, rfl, by decide⟩
    · obtain ⟨x, hx⟩ := good_sym h h1 (by decide) (by decide); exact ⟨_, x, _, hx, rfl, by decide⟩
  · rintro ⟨c, x, b, ht, hb, -⟩
    have hc : c = 33 ∨ c = 42 ∨ c = 37 ∨ c = 35 := by
      unfold modifier at hb
      split at hb
      · exact Or.inl rfl
      · exact Or.inr (Or.inl rfl)
      · exact Or.inr (Or.inr (Or.inl rfl))
      · exact Or.inr (Or.inr (Or.inr rfl))
      · cases hb
    rw [ht.1]
    rcases hc with rfl | rfl | rfl | rfl <;> decide

/-- An identifier follows. -/
def Ident : List Token → Prop := fun ts => ∃ f r, ts = .id f :: r

theorem mods_spec (n m : Nat) (p : P) (h : Good p) :
    Spec (n < left p + 1) Ident (fun ts0 x ts => ∃ m', x = m ||| m' ∧ IsMods ts0 m' ts) p (parseModifier n m p) := by
  induction n generalizing m p with
  | zero => exact Or.inr (Or.inr ⟨by rw [parseModifier], by omega⟩)
  | succ n ih =>
    rw [parseModifier]
    by_cases hl : lookingAtModifier p = true
    · rw [if_pos hl]
      obtain ⟨c, x, b, ht, hb, hb'⟩ := (lookingMod_iff h).mp hl
      obtain ⟨p1, e1, g1, l1, s1⟩ := next_spec h ht
      rw [e1, bind_ok, ht.1, hb']
      refine Spec.shift (t := .sym c x) (p' := p1) (Nat.le_of_lt l1) s1 ?_ ?_ ((ih (m ||| b) p1 g1).weaken (fun h => by omega) (fun _ h => h))
      · rintro ts0 a ts ⟨f, r, rfl⟩ hr ⟨m', rfl, h1⟩
        cases h1 with
        | nil => cases rem_head ht hr (by simp)
        | cons h2 h3 =>
          cases rem_head ht hr (by simp)
          rw [hb] at h2; cases h2
          exact ⟨_, rfl, _, (Nat.or_assoc _ _ _).symm, h3⟩
      · rintro t' a ts _ _ ⟨m', rfl, h1⟩
        exact ⟨b ||| m', Nat.or_assoc _ _ _, .cons hb h1⟩
    · rw [if_neg hl]
      refine spec_nothing h ?_
      rintro ts0 a ts ⟨f, r, rfl⟩ hr
      constructor
      · rintro ⟨m', rfl, h1⟩
        cases h1 with
        | nil => exact ⟨by simp, rfl⟩
        | @cons c x b m t _ h2 h3 =>
          exfalso
          have ht := rem_nonpath hr (by simp)
          refine hl ((lookingMod_iff h).mpr ⟨c, x, b, ht, h2, ?_⟩)
          unfold modifier at h2
          split at h2 <;> cases h2 <;> decide
      · rintro ⟨rfl, rfl⟩
        exact ⟨0, by simp, .nil⟩

/-! ## File names -/

theorem dropWhile_nil {α : Type} {f : α → Bool} {l : List α} (h : ∀ x ∈ l, f x = true) : l.dropWhile f = [] := by
  induction l with
  | nil => rfl
  | cons a l ih => rw [List.dropWhile_cons, if_pos (h a (by simp)), ih (fun x hx => h x (by simp [hx]))]

theorem resolve_iff (file name target : Text) : Includes file name target ↔ target = resolve file name := by
  unfold Includes resolve
  by_cases hn : name.head? = some 47
  · rw [if_pos (show name.head? = some (ch '/') from hn)]
    constructor
    · rintro (⟨r, -, h⟩ | ⟨h, -⟩)
      · exact h
      · exact absurd hn h
    · intro h
      left
      cases name with
      | nil => cases hn
      | cons c r => simp at hn; subst hn; exact ⟨r, rfl, h⟩
  · rw [if_neg (show ¬ name.head? = some (ch '/') from hn)]
    have key : ∀ dir base : Text, 47 ∉ base → (dir = [] ∨ dir.getLast? = some 47) →
        ((dir ++ base).reverse.dropWhile (· ≠ ch '/')).reverse = dir := by
      intro dir base hb hd
      rw [List.reverse_append, List.dropWhile_append]
      have h1 : base.reverse.dropWhile (· ≠ ch '/') = [] := by
        refine dropWhile_nil ?_
        intro x hx
        rw [List.mem_reverse] at hx
        simp only [decide_eq_true_eq]
        intro h; subst h; exact hb hx
      rw [h1]
      rcases hd with rfl | hd
      · rfl
      · rw [← List.head?_reverse] at hd
        cases hr : dir.reverse with
        | nil => rw [hr] at hd; cases hd
        | cons c r =>
          rw [hr] at hd; simp at hd; subst hd
          have : dir = (47 :: r).reverse := by rw [← hr, List.reverse_reverse]
          rw [this]
          rfl
    constructor
    · rintro (⟨r, rfl, -⟩ | ⟨-, dir, base, rfl, hb, hd, rfl⟩)
      · exact absurd rfl hn
      · rw [key dir base hb hd]
    · rintro rfl
      right
      refine ⟨hn, (file.reverse.dropWhile (· ≠ ch '/')).reverse, (file.reverse.takeWhile (· ≠ ch '/')).reverse, ?_, ?_, ?_, rfl⟩
      · rw [← List.reverse_append, List.takeWhile_append_dropWhile, List.reverse_reverse]
      · intro h
        rw [List.mem_reverse] at h
        have := of_mem_takeWhile h
        exact absurd this (by decide)
      · cases hd : file.reverse.dropWhile (· ≠ ch '/') with
        | nil => exact Or.inl rfl
        | cons c r =>
          right
          have := List.head_dropWhile_not (p := (· ≠ ch '/')) (l := file.reverse) (by rw [hd]; simp)
          simp only [hd, List.head_cons, decide_eq_false_iff_not, not_not] at this
          rw [List.getLast?_reverse, this]
          rfl

/-! ## Items -/

/-- What follows the items of a block or file. -/
def Ends : List Token → Prop := fun ts => ts = [] ∨ Sym 125 ts

/-- As `Spec`, for `parseItems`, which leaves a keyword marked. -/
def SpecS {α : Type} (N : Prop) (R : List Token → α → List Token → Prop) (p : P) (r : Res (α × P)) : Prop :=
  (∃ a p' q', r = .ok (a, q') ∧ sieve p' = some q' ∧ Good p' ∧ left p' ≤ left p ∧
    ∀ a' ts, Ends ts → ((∃ ts0, Rem p ts0 ∧ R ts0 a' ts) ↔ (a' = a ∧ Rem p' ts))) ∨
  (r = .fail ∧ ∀ a' ts ts0, Ends ts → Rem p ts0 → ¬ R ts0 a' ts) ∨ (r = .stuck ∧ N)

theorem SpecS.weaken {α : Type} {N N' : Prop} {R : List Token → α → List Token → Prop} {p : P} {r : Res (α × P)}
    (h : SpecS N R p r) (hn : N → N') : SpecS N' R p r := by
  rcases h with h | h | ⟨h, h'⟩
  · exact Or.inl h
  · exact Or.inr (Or.inl h)
  · exact Or.inr (Or.inr ⟨h, hn h'⟩)

theorem sieve_type {p q : P} (h : Good p) (hs : sieve p = some q) {c : Nat} (hc : c < 258) (hq : q.tok.type = c) : q = p := by
  obtain ⟨q', e, -, -, h1 | ⟨s, -, -, -, h5, -⟩⟩ := sieve_spec h
  · rw [hs] at e; cases e; exact h1.1
  · rw [hs] at e; cases e; omega

theorem sieve_tok {p q : P} (hs : sieve p = some q) {t : Token} (ht : TokIs p t) (hn : ∀ s, t ≠ .id s) : q = p := by
  have : p.tok.type ≠ tID := by
    intro h
    cases t with
    | id s => exact hn s rfl
    | sym c x => have h1 := ht.2.2.1; rw [← ht.1, h] at h1; exact absurd h1 (by decide)
    | _ => exact absurd (h.symm.trans ht.1) (by decide)
  unfold sieve at hs
  rw [if_pos this] at hs
  exact (Option.some.inj hs).symm

/-- Closing of a block. -/
theorem specS_close {α β : Type} {N : Prop} {R : List Token → α → List Token → Prop} {f : α → β} {p : P}
    {r : Res (α × P)} (h : SpecS N R p r) :
    Spec N Any (fun ts0 b ts => ∃ a y, b = f a ∧ R ts0 a (.sym 125 y :: ts)) p
      (r >>= fun x => expectErr x.2 125 >>= fun q => .ok (f x.1, q)) := by
  rcases h with ⟨a, p1, q1, rfl, sv, g1, l1, s1⟩ | ⟨rfl, s1⟩ | ⟨rfl, hN⟩
  · by_cases hq : q1 = p1
    · subst hq
      exact spec_close (by decide) (by decide) (Or.inl ⟨a, q1, rfl, g1, l1, fun a' ts hl => s1 a' ts (Or.inr hl)⟩)
    · refine spec_fail ?_ ?_
      · have : q1.tok.type ≠ 125 := fun h => hq (sieve_type g1 sv (by decide) h)
        simp only [bind_ok, expectErr, if_neg this, bind_fail]
      · rintro b ts ts0 - h1 ⟨a', y, rfl, h2⟩
        have := ((s1 a' (.sym 125 y :: ts) (Or.inr ⟨_, _, rfl⟩)).mp ⟨ts0, h1, h2⟩).2
        exact hq (sieve_tok sv (rem_nonpath this (by simp)) (by simp))
  · refine spec_fail rfl ?_
    rintro b ts ts0 - h1 ⟨a', y, rfl, h2⟩
    exact s1 a' (.sym 125 y :: ts) ts0 (Or.inr ⟨_, _, rfl⟩) h1 h2
  · exact Or.inr (Or.inr ⟨rfl, hN⟩)

theorem push_sieved (fs : FS) (n : Nat) (file : Text) {p q : P} (h : Good p) (hs : sieve p = some q) :
    pushItem fs n file q = pushItem fs n file p := by
  obtain ⟨q', e, e', -, h1 | ⟨s, h1, -, -, h5, -⟩⟩ := sieve_spec h
  · rw [hs] at e; cases e; rw [h1.1]
  · rw [hs] at e; cases e
    cases n with
    | zero => rw [pushItem, pushItem]
    | succ n =>
      have hp : p.tok.type = tID := h1.1
      have e1 : expect q (ch ';') = .ok (false, q) := by
        unfold expect
        rw [if_neg (by show q.tok.type ≠ 59; omega)]
      have e2 : expect p (ch ';') = .ok (false, p) := by
        unfold expect
        rw [if_neg (by rw [hp]; decide)]
      rw [pushItem, pushItem, e1, e2, bind_ok, bind_ok]
      dsimp only
      rw [hs, e']

theorem items_sieved (fs : FS) (n : Nat) (file : Text) {p q : P} (h : Good p) (hs : sieve p = some q) :
    parseItems fs n file q = parseItems fs n file p := by
  obtain ⟨q', e, e', -⟩ := sieve_spec h
  rw [hs] at e; cases e
  cases n with
  | zero => rw [parseItems, parseItems]
  | succ n => rw [parseItems, parseItems, hs, e']

/-- The first token of an item. -/
theorem item_head {fs : FS} {file : Text} {t : List Token} {i : Item} {ts : List Token} (h : IsItem fs file t i ts) :
    (∃ x r, t = .sym 123 x :: r) ∨ (∃ c x b r, t = .sym c x :: r ∧ modifier c = some b) ∨ (∃ f r, t = .id f :: r ∧ ¬ Keyword f) := by
  cases h with
  | block h => exact Or.inl ⟨_, _, rfl⟩
  | call h1 h2 h3 h4 h5 =>
    cases h1 with
    | nil => exact Or.inr (Or.inr ⟨_, _, rfl, fun hk => h2 hk rfl⟩)
    | cons h6 h7 => exact Or.inr (Or.inl ⟨_, _, _, _, rfl, h6⟩)

theorem push_head {fs : FS} {file : Text} {t : List Token} {l : List Item} {ts : List Token} (h : IsPush fs file t l ts) :
    (∃ x r, t = .sym 59 x :: r) ∨ (∃ r, t = .id (txt "include") :: r) ∨
    (∃ x r, t = .sym 123 x :: r) ∨ (∃ c x b r, t = .sym c x :: r ∧ modifier c = some b) ∨ (∃ f r, t = .id f :: r ∧ ¬ Keyword f) := by
  cases h with
  | semicolon => exact Or.inl ⟨_, _, rfl⟩
  | item h => exact Or.inr (Or.inr (item_head h))
  | incl => exact Or.inr (Or.inl ⟨_, rfl⟩)
  | inclBare => exact Or.inr (Or.inl ⟨_, rfl⟩)

theorem modBit_of_modifier {c b : Nat} (h : modifier c = some b) : modBit c = b := by
  unfold modifier at h
  split at h <;> cases h <;> decide

theorem modifier_cases {c b : Nat} (h : modifier c = some b) : c = 33 ∨ c = 42 ∨ c = 37 ∨ c = 35 := by
  unfold modifier at h
  split at h
  · exact Or.inl rfl
  · exact Or.inr (Or.inl rfl)
  · exact Or.inr (Or.inr (Or.inl rfl))
  · exact Or.inr (Or.inr (Or.inr rfl))
  · cases h

/-- `looking_at_stmt_item` accepts the first token of an item. -/
theorem looking_push {fs : FS} {file : Text} {p q : P} (h : Good p) (hs : sieve p = some q) {t : List Token} {l : List Item}
    {ts : List Token} (hr : Rem p t) (hp : IsPush fs file t l ts) : lookingAtItem q = true := by
  have hsym : ∀ c x r, t = .sym c x :: r → q = p ∧ p.tok.type = c := by
    rintro c x r rfl
    have := rem_nonpath hr (by simp)
    exact ⟨sieve_tok hs this (by simp), this.1⟩
  have hid : ∀ s r, t = .id s :: r → q.tok.type = sieveId s := by
    rintro s r rfl
    have ht := rem_nonpath hr (by simp)
    unfold sieve at hs
    rw [if_neg (fun h => h ht.1), ht.2.1] at hs
    cases hs; rfl
  unfold lookingAtItem lookingAtModifier
  simp only [Bool.or_eq_true, beq_iff_eq]
  rcases push_head hp with ⟨x, r, h1⟩ | ⟨r, h1⟩ | ⟨x, r, h1⟩ | ⟨c, x, b, r, h1, h2⟩ | ⟨f, r, h1, h2⟩
  · obtain ⟨h3, h4⟩ := hsym _ _ _ h1
    rw [h3, h4]; decide
  · rw [hid _ _ h1]; decide
  · obtain ⟨h3, h4⟩ := hsym _ _ _ h1
    rw [h3, h4]; decide
  · obtain ⟨h3, h4⟩ := hsym _ _ _ h1
    rw [h3, h4]
    rcases modifier_cases h2 with rfl | rfl | rfl | rfl <;> decide
  · rw [hid _ _ h1, sieveId_id h2]; decide

theorem not_looking_end {p q : P} (hs : sieve p = some q) {ts : List Token} (hr : Rem p ts) (he : Ends ts) :
    lookingAtItem q = false := by
  have ht : p.tok.type = 0 ∨ p.tok.type = 125 := by
    rcases he with rfl | ⟨x, r, rfl⟩
    · exact Or.inl hr.1
    · exact Or.inr (rem_nonpath hr (by simp)).1
  have hq : q = p := by
    unfold sieve at hs
    rw [if_pos (by rcases ht with h | h <;> rw [h] <;> decide)] at hs
    exact (Option.some.inj hs).symm
  rw [hq]
  unfold lookingAtItem lookingAtModifier
  rcases ht with h | h <;> rw [h] <;> decide

/-- The items of an included file. -/
theorem include_file {fs : FS} {n : Nat} (target content : Text) (p : P)
    (ih : ∀ p, Good p → SpecS True (IsItems fs target) p (parseItems fs n target p)) :
    let r : Res (List Item × P) := Res.ofOption (beginFile content) >>= fun q => parseItems fs n target q >>= fun x =>
      if x.2.tok.type = tEOF then .ok (x.1, p) else .fail
    (∃ l, r = .ok (l, p) ∧ ∀ l', (∃ us, Lexes false content us ∧ IsItems fs target us l' []) ↔ l' = l) ∨
    (r = .fail ∧ ∀ l' us, Lexes false content us → ¬ IsItems fs target us l' []) ∨ r = .stuck := by
  intro r
  obtain ⟨q, e1, g1, s1⟩ := beginFile_spec content
  have hr : r = (parseItems fs n target q >>= fun x => if x.2.tok.type = tEOF then .ok (x.1, p) else .fail) := by
    show (Res.ofOption (beginFile content) >>= _) = _
    rw [e1]; rfl
  rw [hr]
  rcases ih q g1 with ⟨l, p', q', e2, sv, g2, l2, s2⟩ | ⟨e2, s2⟩ | ⟨e2, -⟩
  · rw [e2, bind_ok]
    dsimp only
    have s2' : ∀ l', (∃ us, Lexes false content us ∧ IsItems fs target us l' []) ↔ l' = l ∧ Rem p' [] := by
      intro l'
      rw [← s2 l' [] (Or.inl rfl)]
      exact exists_congr fun us => by rw [s1 us]
    by_cases hq : q'.tok.type = tEOF
    · rw [if_pos hq]
      obtain rfl := sieve_type g2 sv (by decide) hq
      left
      refine ⟨l, rfl, fun l' => ?_⟩
      rw [s2' l']
      have : Rem q' [] := by
        rcases g2.kind with h | h | ⟨t, h⟩
        · exact absurd (hq.symm.trans h) (by decide)
        · exact h
        · exact absurd hq (tokIs_type h).1
      exact ⟨fun h => h.1, fun h => ⟨h, this⟩⟩
    · rw [if_neg hq]
      right; left
      refine ⟨rfl, fun l' us h1 h2 => ?_⟩
      have := ((s2' l').mp ⟨us, h1, h2⟩).2
      have hq' : q' = p' := by
        unfold sieve at sv
        rw [if_pos (by rw [this.1]; decide)] at sv
        exact (Option.some.inj sv).symm
      rw [hq'] at hq
      exact hq this.1
  · right; left
    rw [e2, bind_fail]
    exact ⟨rfl, fun l' us h1 h2 => s2 l' [] us (Or.inl rfl) ((s1 us).mpr h1) h2⟩
  · right; right
    rw [e2, bind_stuck]

end Hob3l.Syn
