import Verif.Syn.LemmasItems
/-! # Parser: more fuel does not change the result -/
namespace Hob3l.Syn

/-- The second result is the same, if there is one. -/
def Le {α : Type} (r r' : Res α) : Prop := r = .stuck ∨ r' = r

theorem Le.refl {α : Type} (r : Res α) : Le r r := Or.inr rfl

theorem Le.trans {α : Type} {r r' r'' : Res α} (h : Le r r') (h' : Le r' r'') : Le r r'' := by
  rcases h with h | h
  · exact Or.inl h
  · rcases h' with h' | h'
    · left; rw [← h, h']
    · right; rw [h', h]

theorem Le.bind {α β : Type} {r r' : Res α} {f f' : α → Res β} (h : Le r r') (hf : ∀ a, Le (f a) (f' a)) :
    Le (r >>= f) (r' >>= f') := by
  rcases h with rfl | rfl
  · exact Or.inl rfl
  · cases r' with
    | ok a => exact hf a
    | fail => exact Or.inr rfl
    | stuck => exact Or.inl rfl

theorem Le.ite {α : Type} {c : Prop} [Decidable c] {a b a' b' : Res α} (h : Le a a') (h' : Le b b') :
    Le (if c then a else b) (if c then a' else b') := by
  split_ifs
  · exact h
  · exact h'

theorem mono_values (n : Nat) :
    (∀ p, Le (parseValue n p) (parseValue (n + 1) p)) ∧ (∀ p, Le (parseArray n p) (parseArray (n + 1) p)) ∧
    (∀ p, Le (parseElems n p) (parseElems (n + 1) p)) := by
  induction n with
  | zero =>
    refine ⟨fun p => ?_, fun p => ?_, fun p => ?_⟩
    · left; rw [parseValue]
    · left; rw [parseArray]
    · left; rw [parseElems]
  | succ n ih =>
    obtain ⟨ihv, iha, ihe⟩ := ih
    refine ⟨fun p => ?_, fun p => ?_, fun p => ?_⟩
    · rw [parseValue, parseValue]
      exact Le.ite (Le.refl _) (Le.ite (Le.refl _) (Le.ite (Le.refl _) (Le.ite (Le.refl _) (Le.ite (iha p) (Le.refl _)))))
    · rw [parseArray, parseArray]
      refine Le.bind (Le.refl _) fun p => Le.bind (Le.refl _) ?_
      rintro ⟨_ | _, p⟩
      · refine Le.bind (ihv p) ?_
        rintro ⟨v, p⟩
        refine Le.bind (Le.refl _) ?_
        rintro ⟨_ | _, p⟩
        · refine Le.bind (ihe p) ?_
          rintro ⟨l, p⟩
          exact Le.refl _
        · refine Le.bind (ihv p) ?_
          rintro ⟨v, p⟩
          refine Le.bind (Le.refl _) ?_
          rintro ⟨_ | _, p⟩
          · exact Le.refl _
          · exact Le.bind (ihv p) fun x => Le.refl _
      · exact Le.refl _
    · rw [parseElems, parseElems]
      refine Le.bind (Le.refl _) ?_
      rintro ⟨_ | _, p⟩
      · exact Le.refl _
      · refine Le.ite ?_ (Le.refl _)
        refine Le.bind (ihv p) ?_
        rintro ⟨v, p⟩
        exact Le.bind (ihe p) fun x => Le.refl _

theorem mono_arg (n : Nat) (p : P) : Le (parseArg n p) (parseArg (n + 1) p) := by
  unfold parseArg
  refine Le.ite ?_ ?_
  · refine Le.bind (Le.refl _) fun t => Le.bind (Le.refl _) fun p => Le.bind (Le.refl _) ?_
    rintro ⟨_ | _, p⟩
    · exact Le.refl _
    · exact Le.bind ((mono_values n).1 p) fun x => Le.refl _
  · exact Le.bind ((mono_values n).1 p) fun x => Le.refl _

theorem mono_args (n : Nat) (p : P) : Le (parseArgs n p) (parseArgs (n + 1) p) := by
  induction n generalizing p with
  | zero => left; rw [parseArgs]
  | succ n ih =>
    rw [parseArgs, parseArgs]
    refine Le.ite (Le.refl _) (Le.bind (mono_arg n p) ?_)
    rintro ⟨a, p⟩
    exact Le.ite (Le.refl _) (Le.bind (Le.refl _) fun p => Le.bind (ih p) fun x => Le.refl _)

theorem mono_mods (n m : Nat) (p : P) : Le (parseModifier n m p) (parseModifier (n + 1) m p) := by
  induction n generalizing m p with
  | zero => left; rw [parseModifier]
  | succ n ih =>
    rw [parseModifier, parseModifier]
    exact Le.ite (Le.bind (Le.refl _) fun p => ih _ p) (Le.refl _)

theorem mono_items (fs : FS) (n : Nat) :
    (∀ file p, Le (parseItem fs n file p) (parseItem fs (n + 1) file p)) ∧
    (∀ file p, Le (pushItem fs n file p) (pushItem fs (n + 1) file p)) ∧
    (∀ file p, Le (parseItems fs n file p) (parseItems fs (n + 1) file p)) := by
  induction n with
  | zero =>
    refine ⟨fun f p => ?_, fun f p => ?_, fun f p => ?_⟩
    · left; rw [parseItem]
    · left; rw [pushItem]
    · left; rw [parseItems]
  | succ n ih =>
    obtain ⟨ihi, ihp, ihs⟩ := ih
    refine ⟨fun f p => ?_, fun f p => ?_, fun f p => ?_⟩
    · rw [parseItem, parseItem]
      refine Le.ite (Le.bind (Le.refl _) fun p => Le.bind (ihs f p) fun x => Le.refl _) ?_
      refine Le.bind (mono_mods (n + 1) 0 p) ?_
      rintro ⟨m, p⟩
      refine Le.bind (Le.refl _) fun t => Le.bind (Le.refl _) fun p => Le.bind (Le.refl _) fun p =>
        Le.bind (mono_args (n + 1) p) ?_
      rintro ⟨a, p⟩
      refine Le.bind (Le.refl _) fun p => Le.ite ?_ ?_
      · exact Le.bind (Le.refl _) fun p => Le.bind (ihs f p) fun x => Le.refl _
      · exact Le.bind (ihp f p) fun x => Le.refl _
    · rw [pushItem, pushItem]
      refine Le.bind (Le.refl _) ?_
      rintro ⟨_ | _, p⟩
      · refine Le.bind (Le.refl _) fun p => Le.bind (Le.refl _) ?_
        rintro ⟨_ | _, p⟩
        · exact Le.bind (ihi f p) fun x => Le.refl _
        · refine Le.bind (Le.refl _) fun p => Le.bind (Le.refl _) fun fn => ?_
          dsimp only
          cases fs (resolve f fn) with
          | none => exact Le.refl _
          | some content =>
            refine Le.bind (Le.refl _) ?_
            rintro ⟨b, p⟩
            exact Le.bind (Le.refl _) fun q => Le.bind (ihs _ q) fun x => Le.refl _
      · exact Le.refl _
    · rw [parseItems, parseItems]
      refine Le.bind (Le.refl _) fun p => Le.ite ?_ (Le.refl _)
      refine Le.bind (ihp f p) ?_
      rintro ⟨l, p⟩
      exact Le.bind (ihs f p) fun x => Le.refl _

theorem mono_stmts (fs : FS) (n : Nat) (file : Text) (p : P) :
    Le (parseStmts fs n file p) (parseStmts fs (n + 1) file p) := by
  induction n generalizing p with
  | zero => left; rw [parseStmts]
  | succ n ih =>
    rw [parseStmts, parseStmts]
    refine Le.bind (Le.refl _) fun p => Le.ite (Le.ite ?_ (Le.ite (Le.refl _) ?_)) (Le.refl _)
    · refine Le.bind (Le.refl _) fun p => Le.bind (Le.refl _) fun p => Le.bind (Le.refl _) fun s =>
        Le.bind (Le.refl _) fun p => Le.bind (ih p) fun x => Le.refl _
    · refine Le.bind ((mono_items fs n).2.1 file p) ?_
      rintro ⟨i, p⟩
      exact Le.bind (ih p) fun x => Le.refl _

/-- Steps of one to steps of any size. -/
theorem Le.of_step {α : Type} {f : Nat → Res α} (h : ∀ n, Le (f n) (f (n + 1))) {n m : Nat} (hnm : n ≤ m) :
    Le (f n) (f m) := by
  induction hnm with
  | refl => exact Le.refl _
  | step _ ih => exact ih.trans (h _)

theorem eq_of_step {α : Type} {f : Nat → Res α} (h : ∀ n, Le (f n) (f (n + 1))) {n m : Nat} (hnm : n ≤ m)
    (hs : f n ≠ .stuck) : f m = f n := by
  rcases Le.of_step h hnm with h1 | h1
  · exact absurd h1 hs
  · exact h1

/-! ## Statements -/

/-- What the parser yields for a whole file. -/
def StmtSpec (N : Prop) (R : List Token → List Stmt → Prop) (p : P) (r : Res (List Stmt × P)) : Prop :=
  (∃ l p' q', r = .ok (l, q') ∧ sieve p' = some q' ∧ Good p' ∧
    ∀ l', ((∃ ts0, Rem p ts0 ∧ R ts0 l') ↔ (l' = l ∧ Rem p' []))) ∨
  (r = .fail ∧ ∀ l' ts0, Rem p ts0 → ¬ R ts0 l') ∨ (r = .stuck ∧ N)

theorem good_not_key {p : P} (h : Good p) : isKey p.tok.type = false := by
  rcases h.kind with h1 | h1 | ⟨t, h1⟩
  · rw [h1]; decide
  · rw [h1.1]; decide
  · cases t with
    | sym c x =>
      have h2 := h1.2.2.1
      rw [h1.1]
      unfold isKey
      exact Nat.testBit_lt_two_pow (by omega)
    | _ => have h2 := h1.1; rw [h2]; decide

theorem stmts_head {fs : FS} {file : Text} {t : List Token} {l : List Stmt} (h : IsStmts fs file t l) :
    (t = [] ∧ l = []) ∨ (∃ b ts l', t = .id (txt "use") :: .path b :: ts ∧ l = .use b :: l' ∧ IsStmts fs file ts l') ∨
    (∃ k l' ts, IsPush fs file t k ts ∧ t.head? ≠ some (.id (txt "include")) ∧ IsStmts fs file ts l' ∧ l = k.map .item ++ l') := by
  cases h with
  | nil => exact Or.inl ⟨rfl, rfl⟩
  | use h => exact Or.inr (Or.inl ⟨_, _, _, rfl, rfl, h⟩)
  | push h1 h2 h3 => exact Or.inr (Or.inr ⟨_, _, _, h1, h2, h3, rfl⟩)

theorem sieveId_use {s : Text} (h : sieveId s = kUSE) : s = txt "use" := by
  unfold sieveId at h
  split_ifs at h with h1 h2 h3 h4
  · exact absurd h (by decide)
  · exact h2
  all_goals exact absurd h (by decide)

theorem stmts_spec (fs : FS) (n : Nat) (file : Text) (p : P) (h : Good p) :
    StmtSpec (Few fs n 5 p) (IsStmts fs file) p (parseStmts fs n file p) := by
  induction n generalizing p with
  | zero => exact Or.inr (Or.inr ⟨by rw [parseStmts], Or.inl (by omega)⟩)
  | succ n ih =>
    rw [parseStmts]
    obtain ⟨q, sv, sv', hlex, hq⟩ := sieve_spec h
    rw [sv]
    simp only [Res.ofOption, bind_ok]
    -- the tokens of a sequence of pushed items
    have hpush : ∀ {ts0 k ts}, Rem p ts0 → IsPush fs file ts0 k ts → lookingAtItem q = true :=
      fun hr hp => looking_push h sv hr hp
    by_cases hk : isKey q.tok.type = true
    · rw [if_pos (Or.inr hk)]
      obtain ⟨s, ht, hks, hqe⟩ : ∃ s, TokIs p (.id s) ∧ Keyword s ∧ q.tok.type = sieveId s := by
        rcases hq with ⟨rfl, -⟩ | ⟨s, h1, h2, rfl, -⟩
        · rw [good_not_key h] at hk; cases hk
        · exact ⟨s, h1, h2, rfl⟩
      by_cases hu : q.tok.type = kUSE
      · rw [if_pos hu]
        have hs : s = txt "use" := sieveId_use (hqe.symm.trans hu)
        subst hs
        obtain ⟨p1, e1, g1, l1, s1⟩ := next_spec h ht
        have e1' : next q = .ok p1 := by
          unfold next at e1 ⊢
          rw [tokNext_sieved hlex (by rw [ht.1]; decide) (by rw [hu]; decide), e1]
        rw [e1', bind_ok]
        obtain ⟨p2, e2, g2, t2, l2, s2, n2, y2⟩ := tokPath_spec g1
        rw [e2]
        simp only [bind_ok]
        obtain ⟨fn, e3, -⟩ := text_total g2
        -- only `use` remains
        have huse : ∀ ts0 l, Rem p ts0 → IsStmts fs file ts0 l →
            ∃ b ts l', ts0 = .id (txt "use") :: .path b :: ts ∧ l = .use b :: l' ∧ IsStmts fs file ts l' := by
          intro ts0 l hr hi
          rcases stmts_head hi with ⟨rfl, -⟩ | h1 | ⟨k, l', ts, h1, -, -, -⟩
          · exact absurd hr (rem_ne_nil ht)
          · exact h1
          · exfalso
            rcases push_head h1 with ⟨_, _, rfl⟩ | ⟨_, rfl⟩ | ⟨_, _, rfl⟩ | ⟨_, _, _, _, rfl, -⟩ | ⟨_, _, rfl, h2⟩
            · cases rem_head ht hr (by simp)
            · have := rem_head ht hr (by simp)
              exact absurd this (by decide)
            · cases rem_head ht hr (by simp)
            · cases rem_head ht hr (by simp)
            · cases rem_head ht hr (by simp)
              exact h2 hks
        by_cases hp : p2.tok.type = tPATH
        · obtain ⟨b, hb⟩ := good_path g2 hp
          obtain ⟨p3, e4, g3, l3, s3⟩ := next_spec g2 hb
          rw [text_spec hb, bind_ok, show bareName [Token.path b] = b from rfl, expectErr, if_pos hp, e4, bind_ok]
          have hiff : ∀ l, (∃ ts0, Rem p ts0 ∧ IsStmts fs file ts0 l) ↔
              ∃ ts l', Rem p3 ts ∧ IsStmts fs file ts l' ∧ l = .use b :: l' := by
            intro l
            constructor
            · rintro ⟨ts0, hr, hi⟩
              obtain ⟨b', ts, l', rfl, rfl, h1⟩ := huse ts0 l hr hi
              have hr2 := (s2 _ _).mpr ((s1 _).mp hr)
              rcases hr2 with ⟨h2, h3⟩ | ⟨b'', h2, h3, -⟩
              · cases tokIs_unique hb h2
                exact ⟨ts, l', (s3 ts).mp (Or.inl ⟨h2, h3⟩), h1, rfl⟩
              · exact absurd (hp.symm.trans h3) (by decide)
            · rintro ⟨ts, l', hr, h1, rfl⟩
              exact ⟨_, (s1 _).mpr ((s2 _ _).mp ((s3 ts).mpr hr)), .use h1⟩
          rcases ih p3 g3 with ⟨l, p4, q4, e5, sv4, g4, s4⟩ | ⟨e5, s4⟩ | ⟨e5, hN⟩
          · left
            refine ⟨.use b :: l, p4, q4, by rw [e5]; rfl, sv4, g4, ?_⟩
            intro l'
            rw [hiff]
            constructor
            · rintro ⟨ts, l'', h1, h2, rfl⟩
              obtain ⟨rfl, h3⟩ := (s4 l'').mp ⟨ts, h1, h2⟩
              exact ⟨rfl, h3⟩
            · rintro ⟨rfl, h3⟩
              obtain ⟨ts, h1, h2⟩ := (s4 l).mpr ⟨rfl, h3⟩
              exact ⟨ts, l, h1, h2, rfl⟩
          · right; left
            refine ⟨by rw [e5]; rfl, ?_⟩
            intro l' ts0 hr hi
            obtain ⟨ts, l'', h1, h2, -⟩ := (hiff l').mp ⟨ts0, hr, hi⟩
            exact s4 l'' ts h1 h2
          · right; right
            refine ⟨by rw [e5]; rfl, hN.imp (fun h => by omega) (fun h => h)⟩
        · right; left
          refine ⟨by rw [e3, bind_ok, expectErr, if_neg hp, bind_fail], ?_⟩
          intro l' ts0 hr hi
          obtain ⟨b', ts, l', rfl, rfl, h1⟩ := huse ts0 l' hr hi
          have hr2 := (s2 _ _).mpr ((s1 _).mp hr)
          rcases hr2 with ⟨h2, h3⟩ | ⟨b'', h2, h3, -⟩
          · exact hp h2.1
          · by_cases h60 : p1.tok.type = 60
            · rcases y2 h60 with h4 | h4
              · exact hp h4
              · exact absurd (h4.symm.trans h3) (by decide)
            · have := n2 h60
              subst this
              exact h60 h3
      · rw [if_neg hu, if_pos hk]
        left
        refine ⟨[], p, q, rfl, sv, h, ?_⟩
        intro l'
        constructor
        · rintro ⟨ts0, hr, hi⟩
          exfalso
          rcases stmts_head hi with ⟨rfl, -⟩ | ⟨b, ts, l'', rfl, -⟩ | ⟨k, l', ts, h1, h2, -, -⟩
          · exact rem_ne_nil ht hr
          · cases rem_head ht hr (by simp)
            exact hu hqe
          · rcases push_head h1 with ⟨_, _, rfl⟩ | ⟨_, rfl⟩ | ⟨_, _, rfl⟩ | ⟨_, _, _, _, rfl, -⟩ | ⟨_, _, rfl, h3⟩
            · cases rem_head ht hr (by simp)
            · exact h2 rfl
            · cases rem_head ht hr (by simp)
            · cases rem_head ht hr (by simp)
            · cases rem_head ht hr (by simp)
              exact h3 hks
        · rintro ⟨-, hr⟩
          exact absurd hr (rem_ne_nil ht)
    · have hqp : q = p ∧ ∀ s, TokIs p (.id s) → ¬ Keyword s := by
        rcases hq with h1 | ⟨s, h1, h2, rfl, h3, h4⟩
        · exact h1
        · exact absurd h4 hk
      obtain ⟨rfl, hnk⟩ := hqp
      have hu : q.tok.type ≠ kUSE := by
        intro h1; rw [h1] at hk; exact hk (by decide)
      have hiff : ∀ l, (∃ ts0, Rem q ts0 ∧ IsStmts fs file ts0 l) ↔ (Rem q [] ∧ l = []) ∨
          ∃ ts0 k ts l', Rem q ts0 ∧ IsPush fs file ts0 k ts ∧ IsStmts fs file ts l' ∧ l = k.map .item ++ l' := by
        intro l
        constructor
        · rintro ⟨ts0, hr, hi⟩
          rcases stmts_head hi with ⟨rfl, rfl⟩ | ⟨b, ts, l'', rfl, -⟩ | ⟨k, l', ts, h1, h2, h3, rfl⟩
          · exact Or.inl ⟨hr, rfl⟩
          · exact absurd (Or.inr (Or.inl rfl)) (hnk _ (rem_nonpath hr (by simp)))
          · exact Or.inr ⟨_, _, _, _, hr, h1, h3, rfl⟩
        · rintro (⟨h1, rfl⟩ | ⟨ts0, k, ts, l', hr, h1, h2, rfl⟩)
          · exact ⟨[], h1, .nil⟩
          · refine ⟨ts0, hr, .push h1 ?_ h2⟩
            cases ts0 with
            | nil => simp
            | cons t r =>
              simp only [List.head?_cons, ne_eq, Option.some.injEq]
              rintro rfl
              exact hnk _ (rem_nonpath hr (by simp)) (Or.inl rfl)
      by_cases hl : lookingAtItem q = true
      · rw [if_pos (Or.inl hl), if_neg hu, if_neg hk]
        have hne : ¬ Rem q [] := by
          intro hr
          rw [not_looking_end sv hr (Or.inl rfl)] at hl
          cases hl
        obtain ⟨hsp, hlt⟩ := (items_spec fs n).2.1 file q h
        rcases hsp with ⟨l1, p1, e1, g1, -, s1⟩ | ⟨e1, s1⟩ | ⟨e1, hN⟩
        · have hl1 := hlt l1 p1 e1
          rw [e1, bind_ok]
          dsimp only
          have hiff' : ∀ l, (∃ ts0, Rem q ts0 ∧ IsStmts fs file ts0 l) ↔
              ∃ ts l', Rem p1 ts ∧ IsStmts fs file ts l' ∧ l = l1.map .item ++ l' := by
            intro l
            rw [hiff]
            constructor
            · rintro (⟨h1, -⟩ | ⟨ts0, k, ts, l', hr, h1, h2, rfl⟩)
              · exact absurd h1 hne
              · obtain ⟨rfl, h3⟩ := (s1 k ts trivial).mp ⟨ts0, hr, h1⟩
                exact ⟨ts, l', h3, h2, rfl⟩
            · rintro ⟨ts, l', h3, h2, rfl⟩
              obtain ⟨ts0, hr, h1⟩ := (s1 l1 ts trivial).mpr ⟨rfl, h3⟩
              exact Or.inr ⟨ts0, l1, ts, l', hr, h1, h2, rfl⟩
          rcases ih p1 g1 with ⟨l, p4, q4, e5, sv4, g4, s4⟩ | ⟨e5, s4⟩ | ⟨e5, hN⟩
          · left
            refine ⟨l1.map .item ++ l, p4, q4, by rw [e5]; rfl, sv4, g4, ?_⟩
            intro l'
            rw [hiff']
            constructor
            · rintro ⟨ts, l'', h1, h2, rfl⟩
              obtain ⟨rfl, h3⟩ := (s4 l'').mp ⟨ts, h1, h2⟩
              exact ⟨rfl, h3⟩
            · rintro ⟨rfl, h3⟩
              obtain ⟨ts, h1, h2⟩ := (s4 l).mpr ⟨rfl, h3⟩
              exact ⟨ts, l, h1, h2, rfl⟩
          · right; left
            refine ⟨by rw [e5]; rfl, ?_⟩
            intro l' ts0 hr hi
            obtain ⟨ts, l'', h1, h2, -⟩ := (hiff' l').mp ⟨ts0, hr, hi⟩
            exact s4 l'' ts h1 h2
          · right; right
            exact ⟨by rw [e5]; rfl, hN.imp (fun h => by omega) (fun h => h)⟩
        · right; left
          refine ⟨by rw [e1]; rfl, ?_⟩
          intro l' ts0 hr hi
          rcases (hiff l').mp ⟨ts0, hr, hi⟩ with ⟨h1, -⟩ | ⟨ts1, k, ts, l'', hr, h1, -, -⟩
          · exact hne h1
          · exact s1 k ts ts1 trivial hr h1
        · right; right
          exact ⟨by rw [e1]; rfl, hN.imp (fun h => by omega) (fun h => h)⟩
      · rw [if_neg (by simp [hl, hk])]
        left
        refine ⟨[], q, q, rfl, sv, h, ?_⟩
        intro l'
        rw [hiff]
        constructor
        · rintro (⟨h1, rfl⟩ | ⟨ts0, k, ts, l', hr, h1, -, -⟩)
          · exact ⟨rfl, h1⟩
          · exact absurd (hpush hr h1) hl
        · rintro ⟨rfl, h1⟩
          exact Or.inl ⟨h1, rfl⟩

/-- Whole files. -/
theorem parse_spec (fs : FS) (n : Nat) (file content : Text) :
    (∃ l, parse fs n file content = .ok l ∧ ∀ l', Program fs file content l' ↔ l' = l) ∨
    (parse fs n file content = .fail ∧ ∀ l, ¬ Program fs file content l) ∨
    (parse fs n file content = .stuck ∧ (n < 3 * content.length + 5 ∨ HasFiles fs)) := by
  obtain ⟨p, e1, g1, s1, hlen⟩ := beginFile_left content
  unfold parse
  rw [e1]
  simp only [Res.ofOption, bind_ok]
  have hiff : ∀ l, Program fs file content l ↔ ∃ ts0, Rem p ts0 ∧ IsStmts fs file ts0 l := by
    intro l
    exact exists_congr fun ts => by rw [s1 ts]
  rcases stmts_spec fs n file p g1 with ⟨l, p4, q4, e5, sv4, g4, s4⟩ | ⟨e5, s4⟩ | ⟨e5, hN⟩
  · rw [e5, bind_ok]
    dsimp only
    by_cases hq : q4.tok.type = tEOF
    · obtain rfl := sieve_type g4 sv4 (by decide) hq
      left
      refine ⟨l, by rw [if_pos hq], fun l' => ?_⟩
      have : Rem q4 [] := by
        rcases g4.kind with h | h | ⟨t, h⟩
        · exact absurd (hq.symm.trans h) (by decide)
        · exact h
        · exact absurd hq (tokIs_type h).1
      rw [hiff, s4 l']
      exact ⟨fun h => h.1, fun h => ⟨h, this⟩⟩
    · right; left
      refine ⟨by rw [if_neg hq], fun l' hp => ?_⟩
      rw [hiff, s4 l'] at hp
      have hq' : q4 = p4 := by
        unfold sieve at sv4
        rw [if_pos (by rw [hp.2.1]; decide)] at sv4
        exact (Option.some.inj sv4).symm
      rw [hq'] at hq
      exact hq hp.2.1
  · right; left
    refine ⟨by rw [e5, bind_fail], fun l' hp => ?_⟩
    obtain ⟨ts0, hr, hi⟩ := (hiff l').mp hp
    exact s4 l' ts0 hr hi
  · right; right
    refine ⟨by rw [e5, bind_stuck], hN.imp (fun h => by omega) (fun h => h)⟩

end Hob3l.Syn
