import Verif.Syn.LemmasMono
/-! # Parser: every program is parsed -/
namespace Hob3l.Syn

theorem ns_bind {α β : Type} {r : Res α} {f : α → Res β} {a : α} (h : r = .ok a) (hf : f a ≠ .stuck) :
    (r >>= f) ≠ .stuck := by
  rw [h, bind_ok]; exact hf

theorem run_items {fs : FS} {n : Nat} {file : Text} {p : P} {t : List Token} {l : List Item} {ts : List Token} (h : Good p)
    (hr : Rem p t) (hi : IsItems fs file t l ts) (he : Ends ts) (hs : parseItems fs n file p ≠ .stuck) :
    ∃ p', parseItems fs n file p = .ok (l, p') ∧ Good p' ∧ Rem p' ts := by
  rcases (items_spec fs n).2.2 file p h with ⟨a, p', q', e, sv, g, -, s⟩ | ⟨e, s⟩ | ⟨e, -⟩
  · obtain ⟨rfl, h1⟩ := (s l ts he).mp ⟨t, hr, hi⟩
    have : q' = p' := by
      rcases he with rfl | ⟨x, r, rfl⟩
      · unfold sieve at sv
        rw [if_pos (by rw [h1.1]; decide)] at sv
        exact (Option.some.inj sv).symm
      · exact sieve_tok sv (rem_nonpath h1 (by simp)) (by simp)
    subst this
    exact ⟨q', e, g, h1⟩
  · exact absurd hi (s l ts t he hr)
  · exact absurd e hs

theorem run_push {fs : FS} {n : Nat} {file : Text} {p : P} {t : List Token} {l : List Item} {ts : List Token} (h : Good p)
    (hr : Rem p t) (hi : IsPush fs file t l ts) (hs : pushItem fs n file p ≠ .stuck) :
    ∃ p', pushItem fs n file p = .ok (l, p') ∧ Good p' ∧ Rem p' ts := by
  rcases ((items_spec fs n).2.1 file p h).1 with ⟨a, p', e, g, -, s⟩ | ⟨e, s⟩ | ⟨e, -⟩
  · obtain ⟨rfl, h1⟩ := (s l ts trivial).mp ⟨t, hr, hi⟩
    exact ⟨p', e, g, h1⟩
  · exact absurd hi (s l ts t trivial hr)
  · exact absurd e hs

theorem run_args {n : Nat} {p : P} {t : List Token} {l : List Arg} {x : Text} {ts : List Token} (h : Good p)
    (hr : Rem p t) (hi : IsArgs t l (.sym 41 x :: ts)) (hn : 2 * left p + 3 ≤ n) :
    ∃ p', parseArgs n p = .ok (l, p') ∧ Good p' ∧ Rem p' (.sym 41 x :: ts) := by
  rcases args_spec n p h with ⟨a, p', e, g, -, s⟩ | ⟨e, s⟩ | ⟨e, h1⟩
  · obtain ⟨rfl, h1⟩ := (s l (.sym 41 x :: ts) ⟨_, _, rfl⟩).mp ⟨t, hr, hi⟩
    exact ⟨p', e, g, h1⟩
  · exact absurd hi (s l _ t ⟨_, _, rfl⟩ hr)
  · omega

theorem run_mods {n : Nat} {p : P} {t : List Token} {m : Nat} {f : Text} {ts : List Token} (h : Good p)
    (hr : Rem p t) (hi : IsMods t m (.id f :: ts)) (hn : left p + 1 ≤ n) :
    ∃ p', parseModifier n 0 p = .ok (m, p') ∧ Good p' ∧ Rem p' (.id f :: ts) := by
  rcases mods_spec n 0 p h with ⟨a, p', e, g, -, s⟩ | ⟨e, s⟩ | ⟨e, h1⟩
  · obtain ⟨rfl, h1⟩ := (s m (.id f :: ts) ⟨_, _, rfl⟩).mp ⟨t, hr, m, by simp, hi⟩
    exact ⟨p', e, g, h1⟩
  · exact absurd ⟨m, by simp, hi⟩ (s m _ t ⟨_, _, rfl⟩ hr)
  · omega

theorem run_next {p : P} {t : Token} {ts : List Token} (h : Good p) (hr : Rem p (t :: ts)) (ht : ∀ b, t ≠ .path b) :
    ∃ p', next p = .ok p' ∧ Good p' ∧ Rem p' ts := by
  obtain ⟨p', e, g, -, s⟩ := next_spec h (rem_nonpath hr ht)
  exact ⟨p', e, g, (s ts).mp hr⟩

theorem run_sym {p : P} {c : Nat} {x : Text} {ts : List Token} (h : Good p) (hr : Rem p (.sym c x :: ts)) :
    ∃ p', expectErr p c = .ok p' ∧ Good p' ∧ Rem p' ts := by
  obtain ⟨p', e, g, r⟩ := run_next h hr (by simp)
  exact ⟨p', by rw [expectErr, if_pos (rem_nonpath hr (by simp)).1, e], g, r⟩

theorem step_items {fs : FS} {n m : Nat} {file : Text} {p : P} (hnm : n ≤ m) (hs : parseItems fs n file p ≠ .stuck) :
    parseItems fs m file p = parseItems fs n file p :=
  eq_of_step (f := fun n => parseItems fs n file p) (fun n => (mono_items fs n).2.2 file p) hnm hs

theorem step_push {fs : FS} {n m : Nat} {file : Text} {p : P} (hnm : n ≤ m) (hs : pushItem fs n file p ≠ .stuck) :
    pushItem fs m file p = pushItem fs n file p :=
  eq_of_step (f := fun n => pushItem fs n file p) (fun n => (mono_items fs n).2.1 file p) hnm hs

theorem step_item {fs : FS} {n m : Nat} {file : Text} {p : P} (hnm : n ≤ m) (hs : parseItem fs n file p ≠ .stuck) :
    parseItem fs m file p = parseItem fs n file p :=
  eq_of_step (f := fun n => parseItem fs n file p) (fun n => (mono_items fs n).1 file p) hnm hs

theorem step_args {n m : Nat} {p : P} (hnm : n ≤ m) (hs : parseArgs n p ≠ .stuck) :
    parseArgs m p = parseArgs n p :=
  eq_of_step (f := fun n => parseArgs n p) (fun n => mono_args n p) hnm hs

theorem step_mods {n m k : Nat} {p : P} (hnm : n ≤ m) (hs : parseModifier n k p ≠ .stuck) :
    parseModifier m k p = parseModifier n k p :=
  eq_of_step (f := fun n => parseModifier n k p) (fun n => mono_mods n k p) hnm hs

theorem step_stmts {fs : FS} {n m : Nat} {file : Text} {p : P} (hnm : n ≤ m) (hs : parseStmts fs n file p ≠ .stuck) :
    parseStmts fs m file p = parseStmts fs n file p :=
  eq_of_step (f := fun n => parseStmts fs n file p) (fun n => mono_stmts fs n file p) hnm hs

/-- Items in braces. -/
theorem run_braces {fs : FS} {file : Text} {p : P} {x y : Text} {t : List Token} {l : List Item} {ts : List Token} {α : Type}
    (f : List Item → α) (h : Good p) (hr : Rem p (.sym 123 x :: t)) (hi : IsItems fs file t l (.sym 125 y :: ts))
    (ih : ∀ p, Good p → Rem p t → ∃ n, parseItems fs n file p ≠ .stuck) :
    ∃ n, ∀ m, n ≤ m → (expectErr p (ch '{') >>= fun p => parseItems fs m file p >>= fun x =>
      expectErr x.2 (ch '}') >>= fun q => Res.ok (f x.1, q)) ≠ Res.stuck := by
  obtain ⟨p1, e1, g1, r1⟩ := run_sym h hr
  obtain ⟨n, hn⟩ := ih p1 g1 r1
  obtain ⟨p2, e2, g2, r2⟩ := run_items g1 r1 hi (Or.inr ⟨_, _, rfl⟩) hn
  obtain ⟨p3, e3, g3, r3⟩ := run_sym g2 r2
  refine ⟨n, fun m hm => ns_bind e1 (ns_bind ((step_items hm hn).trans e2) (ns_bind e3 ?_))⟩
  exact fun h => nomatch h

theorem run_include (fs : FS) (n : Nat) (file : Text) {p : P} {ts : List Token} (h : Good p)
    (hr : Rem p (.id (txt "include") :: ts)) :
    ∃ p1, pushItem fs (n + 1) file p = incTail fs n file p1 ∧ next p = .ok p1 ∧ Good p1 ∧ Rem p1 ts := by
  have ht := rem_nonpath hr (by simp)
  obtain ⟨p1, e1, g1, r1⟩ := run_next h hr (by simp)
  obtain ⟨q, sv, -, hlex, hq⟩ := sieve_spec h
  have hinc : q.tok.type = kINCLUDE := by
    rcases hq with ⟨-, h1⟩ | ⟨s, h1, -, rfl, -⟩
    · exact absurd (Or.inl rfl) (h1 _ ht)
    · cases tokIs_unique ht h1
      rfl
  refine ⟨p1, ?_, e1, g1, r1⟩
  have e3 : expect q kINCLUDE = .ok (true, p1) := by
    unfold expect next
    rw [if_pos hinc, tokNext_sieved hlex (by rw [ht.1]; decide) (by rw [hinc]; decide)]
    unfold next at e1
    rw [e1]; rfl
  have e4 : expect p (ch ';') = .ok (false, p) := by
    rw [expect, if_neg (by rw [ht.1]; decide)]
  rw [pushItem, e4, bind_ok]
  dsimp only
  rw [sv]
  simp only [Res.ofOption, bind_ok, e3]
  rfl

/-- The items of an included file. -/
theorem run_file {fs : FS} {file target fn content : Text} {p p1 p2 : P} {b : Bool} {us : List Token} {l : List Item}
    (e1 : tokPath p = some p1) (e2 : tokText p1 = .ok fn) (e3 : expect p1 tPATH = .ok (b, p2))
    (h1 : Includes file fn target) (h2 : fs target = some content) (h3 : Lexes false content us)
    (h4 : IsItems fs target us l []) (ih : ∀ p, Good p → Rem p us → ∃ n, parseItems fs n target p ≠ .stuck) :
    ∃ n, incTail fs n file p ≠ .stuck := by
  rw [resolve_iff] at h1
  subst h1
  obtain ⟨q, e4, g4, s4⟩ := beginFile_spec content
  obtain ⟨n, hn⟩ := ih q g4 ((s4 us).mpr h3)
  obtain ⟨q1, e5, g5, r5⟩ := run_items g4 ((s4 us).mpr h3) h4 (Or.inl rfl) hn
  refine ⟨n, ?_⟩
  unfold incTail
  rw [e1]
  simp only [Res.ofOption, bind_ok, e2, h2, e3, e4, e5]
  rw [if_pos r5.1]
  exact fun h => nomatch h

theorem parsed_all (fs : FS) :
    (∀ file t l ts, IsItems fs file t l ts → Ends ts → ∀ p, Good p → Rem p t → ∃ n, parseItems fs n file p ≠ .stuck) ∧
    (∀ file t l ts, IsPush fs file t l ts → ∀ p, Good p → Rem p t → ∃ n, pushItem fs n file p ≠ .stuck) := by
  refine ⟨@IsItems.rec (fs := fs)
    (motive_1 := fun file t _ _ _ => ∀ p q, Good p → sieve p = some q → Rem p t → ∃ n, parseItem fs n file q ≠ .stuck)
    (motive_2 := fun file t _ _ _ => ∀ (f : List Item → Item) p, Good p → Rem p t → ∃ n, ∀ m, n ≤ m →
      (if p.tok.type = ch '{' then (expectErr p (ch '{') >>= fun p => parseItems fs m file p >>= fun x =>
        expectErr x.2 (ch '}') >>= fun q => Res.ok (f x.1, q))
       else (pushItem fs m file p >>= fun x => Res.ok (f x.1, x.2))) ≠ Res.stuck)
    (motive_3 := fun file t _ _ _ => ∀ p, Good p → Rem p t → ∃ n, pushItem fs n file p ≠ .stuck)
    (motive_4 := fun file t _ ts _ => Ends ts → ∀ p, Good p → Rem p t → ∃ n, parseItems fs n file p ≠ .stuck)
    ?a1 ?a2 ?a3 ?a4 ?a5 ?a6 ?a7 ?a8 ?a9 ?a10, @IsPush.rec (fs := fs)
    (motive_1 := fun file t _ _ _ => ∀ p q, Good p → sieve p = some q → Rem p t → ∃ n, parseItem fs n file q ≠ .stuck)
    (motive_2 := fun file t _ _ _ => ∀ (f : List Item → Item) p, Good p → Rem p t → ∃ n, ∀ m, n ≤ m →
      (if p.tok.type = ch '{' then (expectErr p (ch '{') >>= fun p => parseItems fs m file p >>= fun x =>
        expectErr x.2 (ch '}') >>= fun q => Res.ok (f x.1, q))
       else (pushItem fs m file p >>= fun x => Res.ok (f x.1, x.2))) ≠ Res.stuck)
    (motive_3 := fun file t _ _ _ => ∀ p, Good p → Rem p t → ∃ n, pushItem fs n file p ≠ .stuck)
    (motive_4 := fun file t _ ts _ => Ends ts → ∀ p, Good p → Rem p t → ∃ n, parseItems fs n file p ≠ .stuck)
    ?a1 ?a2 ?a3 ?a4 ?a5 ?a6 ?a7 ?a8 ?a9 ?a10⟩
  · -- block
    intro file x y l t ts hi ih p q h sv hr
    have ht := rem_nonpath hr (by simp)
    obtain rfl := sieve_tok sv ht (by simp)
    obtain ⟨n, hn⟩ := run_braces (fun b => Item.mk (txt "{") [] b 0) h hr hi (ih (Or.inr ⟨_, _, rfl⟩))
    refine ⟨n + 1, ?_⟩
    rw [parseItem, if_pos (show q.tok.type = ch '{' from ht.1)]
    exact hn n (Nat.le_refl _)
  · -- call
    intro file m f x y args body t t1 t2 t3 ts h1 h2 h3 h4 h5 ih p q h sv hr
    subst h4
    have hq : q = p ∧ q.tok.type ≠ ch '{' := by
      obtain ⟨q', e, -, -, ⟨h6, -⟩ | ⟨s, h6, h7, -⟩⟩ := sieve_spec h
      · rw [sv] at e; cases e
        refine ⟨h6, ?_⟩
        rw [h6]
        cases h1 with
        | nil => rw [(rem_nonpath hr (by simp)).1]; decide
        | cons h7 h8 =>
          rw [(rem_nonpath hr (by simp)).1]
          rcases modifier_cases h7 with h | h | h | h <;> rw [h] <;> decide
      · exfalso
        cases h1 with
        | nil => cases rem_head h6 hr (by simp); exact h2 h7 rfl
        | cons h8 h9 => cases rem_head h6 hr (by simp)
    obtain ⟨rfl, hb⟩ := hq
    obtain ⟨p1, e1, g1, r1⟩ := run_mods h hr h1 (Nat.le_refl _)
    obtain ⟨p2, e2, g2, r2⟩ := run_next g1 r1 (by simp)
    obtain ⟨p3, e3, g3, r3⟩ := run_sym g2 r2
    obtain ⟨p4, e4, g4, r4⟩ := run_args g3 r3 h3 (Nat.le_refl _)
    obtain ⟨p5, e5, g5, r5⟩ := run_sym g4 r4
    obtain ⟨n, hn⟩ := ih (fun b => Item.mk f args b m) p5 g5 r5
    have ht := rem_nonpath r1 (by simp)
    let k := max n (max (left q + 1) (2 * left p3 + 3))
    refine ⟨k + 1, ?_⟩
    rw [parseItem, if_neg hb]
    refine ns_bind ((step_mods (by omega) (by rw [e1]; exact fun h => nomatch h)).trans e1)
      (ns_bind (text_spec ht) (ns_bind (a := p2) ?_ (ns_bind (a := p3) e3 (ns_bind
        ((step_args (by omega) (by rw [e4]; exact fun h => nomatch h)).trans e4) (ns_bind (a := p5) e5 ?_)))))
    · rw [expectErr, if_pos ht.1, e2]
    · exact hn k (by omega)
  · -- braces
    intro file x y l t ts hi ih f p h hr
    obtain ⟨n, hn⟩ := run_braces f h hr hi (ih (Or.inr ⟨_, _, rfl⟩))
    refine ⟨n, fun m hm => ?_⟩
    rw [if_pos (show p.tok.type = ch '{' from (rem_nonpath hr (by simp)).1)]
    exact hn m hm
  · -- one
    intro file l t ts hp hb ih f p h hr
    obtain ⟨n, hn⟩ := ih p h hr
    refine ⟨n, fun m hm => ?_⟩
    have hnb : p.tok.type ≠ ch '{' := by
      intro h1
      obtain ⟨x, hx⟩ := good_sym h h1 (by decide) (by decide)
      cases t with
      | nil => exact rem_ne_nil hx hr
      | cons t r =>
        have hnp : ∀ b, t ≠ .path b := by
          rintro b rfl
          rcases push_head hp with ⟨_, _, h⟩ | ⟨_, h⟩ | ⟨_, _, h⟩ | ⟨_, _, _, _, h, -⟩ | ⟨_, _, h, -⟩ <;> cases h
        cases rem_head hx hr hnp
        exact hb _ _ rfl
    rw [if_neg hnb]
    obtain ⟨p1, e1, g1, r1⟩ := run_push h hr hp hn
    exact ns_bind ((step_push hm hn).trans e1) (fun h => nomatch h)
  · -- semicolon
    intro file x ts p h hr
    obtain ⟨p1, e1, g1, r1⟩ := run_next h hr (by simp)
    refine ⟨1, ?_⟩
    rw [pushItem]
    refine ns_bind (a := (true, p1)) ?_ (fun h => nomatch h)
    rw [expect, if_pos (show p.tok.type = ch ';' from (rem_nonpath hr (by simp)).1), e1]
    rfl
  · -- item
    intro file i t ts hi ih p h hr
    obtain ⟨q, sv, -, hlex, hq⟩ := sieve_spec h
    obtain ⟨n, hn⟩ := ih p q h sv hr
    have hns : p.tok.type ≠ ch ';' := by
      rcases item_head hi with ⟨x, r, rfl⟩ | ⟨c, x, b, r, rfl, h7⟩ | ⟨f, r, rfl, -⟩
      · rw [(rem_nonpath hr (by simp)).1]; decide
      · rw [(rem_nonpath hr (by simp)).1]
        rcases modifier_cases h7 with h | h | h | h <;> rw [h] <;> decide
      · rw [(rem_nonpath hr (by simp)).1]; decide
    have hni : q.tok.type ≠ kINCLUDE := by
      rcases hq with ⟨rfl, -⟩ | ⟨s, h6, h7, -⟩
      · intro h1
        have := good_not_key h
        rw [h1] at this
        exact absurd this (by decide)
      · exfalso
        rcases item_head hi with ⟨x, r, rfl⟩ | ⟨c, x, b, r, rfl, -⟩ | ⟨f, r, rfl, h8⟩
        · cases rem_head h6 hr (by simp)
        · cases rem_head h6 hr (by simp)
        · cases rem_head h6 hr (by simp); exact h8 h7
    refine ⟨n + 1, ?_⟩
    rw [pushItem]
    refine ns_bind (a := (false, p)) (by rw [expect, if_neg hns]) (ns_bind (a := q) (by rw [sv]; rfl)
      (ns_bind (a := (false, q)) (by rw [expect, if_neg hni]) ?_))
    intro h1
    cases e : parseItem fs n file q with
    | ok x => dsimp only at h1; rw [e] at h1; cases h1
    | fail => dsimp only at h1; rw [e] at h1; cases h1
    | stuck => exact hn e
  · -- include
    intro file target name content l us ts h1 h2 h3 h4 ih p h hr
    have hpath : ∀ n, ∃ p1, pushItem fs (n + 1) file p = incTail fs n file p1 ∧ next p = .ok p1 ∧ Good p1 ∧
      Rem p1 (.path name :: ts) := fun n => run_include fs n file h hr
    obtain ⟨p1, -, e0, g1, r1⟩ := hpath 0
    obtain ⟨p2, e2, g2, -, -, s2, n2, y2⟩ := tokPath_spec g1
    have hb : TokIs p2 (.path name) := by
      rcases (s2 _ _).mpr r1 with ⟨h5, -⟩ | ⟨b, -, h5, -⟩
      · exact h5
      · exfalso
        by_cases h60 : p1.tok.type = 60
        · rcases y2 h60 with h6 | h6 <;> exact absurd (h6.symm.trans h5) (by decide)
        · have := n2 h60
          subst this
          exact h60 h5
    obtain ⟨p3, e3, -⟩ := next_spec g2 hb
    obtain ⟨n, hn⟩ := run_file (b := true) e2 (text_spec hb) (p2 := p3)
      (by rw [expect, if_pos hb.1, e3]; rfl) h1 h2 h3 h4 (ih (Or.inl rfl))
    refine ⟨n + 1, ?_⟩
    obtain ⟨p1', e1', e0', -⟩ := hpath n
    rw [e0] at e0'; cases e0'
    rw [e1']
    exact hn
  · -- include without path
    intro file target content l us ts h0 h0' h1 h2 h3 h4 ih p h hr
    have hpath : ∀ n, ∃ p1, pushItem fs (n + 1) file p = incTail fs n file p1 ∧ next p = .ok p1 ∧ Good p1 ∧
      Rem p1 ts := fun n => run_include fs n file h hr
    obtain ⟨p1, -, e0, g1, r1⟩ := hpath 0
    obtain ⟨p2, e2, g2, -, -, s2, n2, y2⟩ := tokPath_spec g1
    have h60 : p1.tok.type ≠ 60 := by
      intro h60
      obtain ⟨x, hx⟩ := good_sym g1 h60 (by decide) (by decide)
      cases ts with
      | nil => exact rem_ne_nil hx r1
      | cons t r =>
        have hnp : ∀ b, t ≠ .path b := fun b e => h0 b r (by rw [e])
        cases rem_head hx r1 hnp
        exact h0' x r rfl
    have := n2 h60
    subst this
    obtain ⟨fn, e3, hfn⟩ := text_total g2
    have hp : p2.tok.type ≠ tPATH := by
      intro h5
      obtain ⟨b, hb⟩ := good_path g2 h5
      cases ts with
      | nil => exact rem_ne_nil hb r1
      | cons t r =>
        have hnp : ∀ b, t ≠ .path b := fun b e => h0 b r (by rw [e])
        exact hnp b (rem_head hb r1 hnp)
    rw [← hfn ts r1 h0] at h1
    obtain ⟨n, hn⟩ := run_file (b := false) e2 e3 (p2 := p2) (by rw [expect, if_neg hp]) h1 h2 h3 h4 (ih (Or.inl rfl))
    refine ⟨n + 1, ?_⟩
    obtain ⟨p1', e1', e0', -⟩ := hpath n
    rw [e0] at e0'; cases e0'
    rw [e1']
    exact hn
  · -- nothing
    intro file ts he p h hr
    obtain ⟨q, sv, -⟩ := sieve_spec h
    refine ⟨1, ?_⟩
    rw [parseItems]
    refine ns_bind (a := q) (by rw [sv]; rfl) ?_
    rw [if_neg (by rw [not_looking_end sv hr he]; simp)]
    exact fun h => nomatch h
  · -- items
    intro file l l' t t1 ts hp hi' ihp ihs he p h hr
    obtain ⟨q, sv, -⟩ := sieve_spec h
    obtain ⟨n1, hn1⟩ := ihp p h hr
    obtain ⟨p1, e1, g1, r1⟩ := run_push h hr hp hn1
    obtain ⟨n2, hn2⟩ := ihs he p1 g1 r1
    obtain ⟨p2, e2, g2, r2⟩ := run_items g1 r1 hi' he hn2
    refine ⟨max n1 n2 + 1, ?_⟩
    rw [parseItems]
    refine ns_bind (a := q) (by rw [sv]; rfl) ?_
    rw [if_pos (looking_push h sv hr hp)]
    refine ns_bind (a := (l, p1)) ?_ (ns_bind (a := (l', p2)) ?_ (fun h => nomatch h))
    · rw [push_sieved fs _ file h sv, step_push (by omega) hn1, e1]
    · exact (step_items (by omega) hn2).trans e2

/-- Every statement list is parsed. -/
theorem parsed_stmts {fs : FS} {file : Text} {t : List Token} {l : List Stmt} (hi : IsStmts fs file t l) :
    ∀ p, Good p → Rem p t → ∃ n, parseStmts fs n file p ≠ .stuck := by
  induction hi with
  | nil =>
    intro p h hr
    refine ⟨1, ?_⟩
    rw [parseStmts]
    have sv : sieve p = some p := by
      unfold sieve
      rw [if_pos (by rw [hr.1]; decide)]
    refine ns_bind (a := p) (by rw [sv]; rfl) ?_
    rw [if_neg]
    · exact fun h => nomatch h
    · rw [not_looking_end sv hr (Or.inl rfl), good_not_key h]
      simp
  | @use b l ts hi ih =>
    intro p h hr
    have ht := rem_nonpath hr (by simp)
    obtain ⟨p1, e1, g1, r1⟩ := run_next h hr (by simp)
    obtain ⟨p2, e2, g2, -, -, s2, n2, y2⟩ := tokPath_spec g1
    have r2 := (s2 _ _).mpr r1
    have hb : TokIs p2 (.path b) := by
      rcases r2 with ⟨h5, -⟩ | ⟨b, -, h5, -⟩
      · exact h5
      · exfalso
        by_cases h60 : p1.tok.type = 60
        · rcases y2 h60 with h6 | h6 <;> exact absurd (h6.symm.trans h5) (by decide)
        · have := n2 h60
          subst this
          exact h60 h5
    obtain ⟨p3, e3, g3, -, s3⟩ := next_spec g2 hb
    obtain ⟨n, hn⟩ := ih p3 g3 ((s3 _).mp r2)
    obtain ⟨q, sv, -, hlex, hq⟩ := sieve_spec h
    have hu : q.tok.type = kUSE := by
      rcases hq with ⟨-, h1⟩ | ⟨s, h1, -, rfl, -⟩
      · exact absurd (Or.inr (Or.inl rfl)) (h1 _ ht)
      · cases tokIs_unique ht h1
        rfl
    have e1' : next q = .ok p1 := by
      unfold next at e1 ⊢
      rw [tokNext_sieved hlex (by rw [ht.1]; decide) (by rw [hu]; decide), e1]
    refine ⟨n + 1, ?_⟩
    rw [parseStmts]
    refine ns_bind (a := q) (by rw [sv]; rfl) ?_
    rw [if_pos (Or.inr (by rw [hu]; decide)), if_pos hu]
    refine ns_bind e1' (ns_bind (a := p2) (by rw [e2]; rfl) (ns_bind (text_spec hb) (ns_bind (a := p3)
      (by rw [expectErr, if_pos hb.1, e3]) ?_)))
    intro h1
    cases e : parseStmts fs n file p3 with
    | ok x => dsimp only at h1; rw [e] at h1; cases h1
    | fail => dsimp only at h1; rw [e] at h1; cases h1
    | stuck => exact hn e
  | @push l l' t ts hp hne hi ih =>
    intro p h hr
    obtain ⟨n1, hn1⟩ := (parsed_all fs).2 _ _ _ _ hp p h hr
    obtain ⟨p1, e1, g1, r1⟩ := run_push h hr hp hn1
    obtain ⟨n2, hn2⟩ := ih p1 g1 r1
    obtain ⟨q, sv, -, hlex, hq⟩ := sieve_spec h
    have hl := looking_push h sv hr hp
    have hqp : q = p := by
      rcases hq with ⟨h1, -⟩ | ⟨s, h1, h2, -⟩
      · exact h1
      · exfalso
        rcases push_head hp with ⟨_, _, rfl⟩ | ⟨_, rfl⟩ | ⟨_, _, rfl⟩ | ⟨_, _, _, _, rfl, -⟩ | ⟨_, _, rfl, h3⟩
        · cases rem_head h1 hr (by simp)
        · exact hne rfl
        · cases rem_head h1 hr (by simp)
        · cases rem_head h1 hr (by simp)
        · cases rem_head h1 hr (by simp)
          exact h3 h2
    subst hqp
    have hk := good_not_key h
    have hu : q.tok.type ≠ kUSE := by
      intro h1; rw [h1] at hk; exact absurd hk (by decide)
    refine ⟨max n1 n2 + 1, ?_⟩
    rw [parseStmts]
    refine ns_bind (a := q) (by rw [sv]; rfl) ?_
    rw [if_pos (Or.inl hl), if_neg hu, if_neg (by rw [hk]; simp)]
    refine ns_bind ((step_push (by omega) hn1).trans e1) ?_
    dsimp only
    rw [step_stmts (Nat.le_max_right n1 n2) hn2]
    intro h1
    cases e : parseStmts fs n2 file p1 with
    | ok x => rw [e] at h1; cases h1
    | fail => rw [e] at h1; cases h1
    | stuck => exact hn2 e

/-- Every program is parsed. -/
theorem parse_complete {fs : FS} {file content : Text} {l : List Stmt} (h : Program fs file content l) :
    ∃ n, ∀ m, n ≤ m → parse fs m file content = .ok l := by
  obtain ⟨ts, h1, h2⟩ := h
  obtain ⟨p, e1, g1, s1⟩ := beginFile_spec content
  obtain ⟨n, hn⟩ := parsed_stmts h2 p g1 ((s1 ts).mpr h1)
  refine ⟨n, fun m hm => ?_⟩
  have hns : parse fs m file content ≠ .stuck := by
    unfold parse
    refine ns_bind (a := p) (by rw [e1]; rfl) ?_
    rw [step_stmts hm hn]
    intro h1
    cases e : parseStmts fs n file p with
    | ok x =>
      rw [e, bind_ok] at h1
      dsimp only at h1
      split_ifs at h1
    | fail => rw [e] at h1; cases h1
    | stuck => exact hn e
  rcases parse_spec fs m file content with ⟨l', e, h'⟩ | ⟨e, h'⟩ | ⟨e, -⟩
  · rw [e, (h' l).mp ⟨ts, h1, h2⟩]
  · exact absurd ⟨ts, h1, h2⟩ (h' l)
  · exact absurd e hns

end Hob3l.Syn
