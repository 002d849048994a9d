import Verif.Syn.LemmasItem
/-! # Parser: items, statements, files -/
namespace Hob3l.Syn

/-- There are files that may be included. -/
def HasFiles (fs : FS) : Prop := ∃ f c, fs f = some c

/-- The tokens behind `include`. -/
inductive IncTail (fs : FS) (file : Text) : List Token → List Item → List Token → Prop
  | path {target name content l us ts} : Includes file name target → fs target = some content →
      Lexes false content us → IsItems fs target us l [] → IncTail fs file (.path name :: ts) l ts
  | bare {target content l us ts} : (∀ p r, ts ≠ .path p :: r) → (∀ x r, ts ≠ .sym 60 x :: r) →
      Includes file (bareName ts) target → fs target = some content →
      Lexes false content us → IsItems fs target us l [] → IncTail fs file ts l ts

theorem push_include {fs : FS} {file : Text} {t : List Token} {l : List Item} {ts : List Token} :
    IsPush fs file (.id (txt "include") :: t) l ts ↔ IncTail fs file t l ts := by
  constructor
  · intro h
    cases h with
    | item h =>
      exfalso
      rcases item_head h with ⟨_, _, h1⟩ | ⟨_, _, _, _, h1, -⟩ | ⟨f, r, h1, h2⟩
      · cases h1
      · cases h1
      · cases h1; exact h2 (Or.inl rfl)
    | incl h1 h2 h3 h4 => exact .path h1 h2 h3 h4
    | inclBare h1 h2 h3 h4 h5 h6 => exact .bare h1 h2 h3 h4 h5 h6
  · intro h
    cases h with
    | path h1 h2 h3 h4 => exact .incl h1 h2 h3 h4
    | bare h1 h2 h3 h4 h5 h6 => exact .inclBare h1 h2 h3 h4 h5 h6

/-- syn.c:837-863, behind `include`. -/
def incTail (fs : FS) (n : Nat) (file : Text) (p : P) : Res (List Item × P) := do
  let p ← Res.ofOption (tokPath p)
  let fn ← tokText p
  match fs (resolve file fn) with
  | none => .fail
  | some content =>
    let (_, p) ← expect p tPATH
    let q ← Res.ofOption (beginFile content)
    let (l, q) ← parseItems fs n (resolve file fn) q
    if q.tok.type = tEOF then .ok (l, p) else .fail

theorem incTail_spec {fs : FS} {n : Nat} {N : Prop} (hN : HasFiles fs → N) (file : Text) (p : P) (h : Good p)
    (ih : ∀ file p, Good p → SpecS True (IsItems fs file) p (parseItems fs n file p)) :
    Spec N Any (IncTail fs file) p (incTail fs n file p) := by
  unfold incTail
  obtain ⟨p1, e1, g1, t1, l1, s1, n1, y1⟩ := tokPath_spec h
  rw [e1]
  simp only [Res.ofOption, bind_ok]
  by_cases hp : p1.tok.type = tPATH
  · -- a path
    obtain ⟨b, hb⟩ := good_path g1 hp
    rw [text_spec hb, bind_ok]
    obtain ⟨p2, e2, g2, l2, s2⟩ := next_spec g1 hb
    have ex : expect p1 tPATH = .ok (true, p2) := by unfold expect; rw [if_pos hp, e2]; rfl
    -- only the path remains
    have hshift : ∀ ts0 l ts, Rem p ts0 → IncTail fs file ts0 l ts → ts0 = .path b :: ts ∧ Rem p2 ts := by
      intro ts0 l ts hr ht
      cases ht with
      | @path target name content _ us _ h1 h2 h3 h4 =>
        have hr1 := (s1 _ _).mpr hr
        rcases hr1 with ⟨h5, h6⟩ | ⟨b', h5, h6, -⟩
        · cases tokIs_unique hb h5
          exact ⟨rfl, (s2 _).mp (Or.inl ⟨h5, h6⟩)⟩
        · exact absurd (hp.symm.trans h6) (by decide)
      | bare h1 h2 h3 h4 h5 h6 =>
        exfalso
        by_cases h60 : p.tok.type = 60
        · obtain ⟨x, hx⟩ := good_sym h h60 (by decide) (by decide)
          cases ts0 with
          | nil => exact rem_ne_nil hx hr
          | cons t r =>
            have hnp : ∀ b, t ≠ .path b := fun b e => h1 b r (by rw [e])
            cases rem_head hx hr hnp
            exact h2 x r rfl
        · have := n1 h60
          subst this
          cases ts0 with
          | nil => exact rem_ne_nil hb hr
          | cons t r =>
            have hnp : ∀ b, t ≠ .path b := fun b e => h1 b r (by rw [e])
            exact hnp b (rem_head hb hr hnp)
    cases hf : fs (resolve file (bareName [.path b])) with
    | none =>
      refine spec_fail rfl ?_
      intro l ts ts0 _ hr ht
      obtain ⟨rfl, -⟩ := hshift _ _ _ hr ht
      cases ht with
      | path h1 h2 h3 h4 =>
        rw [resolve_iff] at h1
        subst h1
        rw [show bareName [Token.path b] = b from rfl] at hf
        rw [hf] at h2; cases h2
    | some content =>
      simp only [ex, bind_ok]
      have hN := hN ⟨_, _, hf⟩
      rw [show bareName [Token.path b] = b from rfl] at hf
      have key := include_file (resolve file b) content p2 (ih (resolve file b))
      have hiff : ∀ l ts, (∃ ts0, Rem p ts0 ∧ IncTail fs file ts0 l ts) ↔
          (∃ us, Lexes false content us ∧ IsItems fs (resolve file b) us l []) ∧ Rem p2 ts := by
        intro l ts
        constructor
        · rintro ⟨ts0, hr, ht⟩
          obtain ⟨rfl, h2⟩ := hshift _ _ _ hr ht
          refine ⟨?_, h2⟩
          cases ht with
          | path h1 h2 h3 h4 =>
            rw [resolve_iff] at h1
            subst h1
            rw [hf] at h2; cases h2
            exact ⟨_, h3, h4⟩
        · rintro ⟨⟨us, h1, h2⟩, h3⟩
          exact ⟨.path b :: ts, (s1 _ _).mp ((s2 _).mpr h3), .path ((resolve_iff _ _ _).mpr rfl) hf h1 h2⟩
      rcases key with ⟨l, e, hl⟩ | ⟨e, hl⟩ | e
      · refine Or.inl ⟨l, p2, e, g2, by omega, fun l' ts _ => ?_⟩
        rw [hiff, hl l']
      · refine spec_fail e ?_
        intro l ts ts0 _ hr ht
        obtain ⟨⟨us, h1, h2⟩, -⟩ := (hiff l ts).mp ⟨ts0, hr, ht⟩
        exact hl l us h1 h2
      · exact Or.inr (Or.inr ⟨e, hN⟩)
  · -- no path
    have ex : expect p1 tPATH = .ok (false, p1) := by unfold expect; rw [if_neg hp]
    obtain ⟨fn, e2, hfn⟩ := text_total g1
    rw [e2, bind_ok]
    -- the tokens are the same
    have hno : ∀ b ts, ¬ Rem p1 (.path b :: ts) := by
      rintro b ts (⟨h1, -⟩ | ⟨b', h1, h2, -⟩)
      · exact hp h1.1
      · by_cases h60 : p.tok.type = 60
        · rcases y1 h60 with h3 | h3
          · exact hp h3
          · exact absurd (h3.symm.trans h2) (by decide)
        · have := n1 h60
          subst this
          exact h60 h2
    have hiff : ∀ l ts, (∃ ts0, Rem p ts0 ∧ IncTail fs file ts0 l ts) ↔
        Rem p1 ts ∧ ∃ us content, fs (resolve file fn) = some content ∧ Lexes false content us ∧
          IsItems fs (resolve file fn) us l [] := by
      intro l ts
      constructor
      · rintro ⟨ts0, hr, ht⟩
        cases ht with
        | path h1 h2 h3 h4 => exact absurd ((s1 _ _).mpr hr) (hno _ _)
        | bare h1 h2 h3 h4 h5 h6 =>
          have h60 : p.tok.type ≠ 60 := by
            intro h60
            obtain ⟨x, hx⟩ := good_sym h h60 (by decide) (by decide)
            cases ts with
            | nil => exact rem_ne_nil hx hr
            | cons t r =>
              have hnp : ∀ b, t ≠ .path b := fun b e => h1 b r (by rw [e])
              cases rem_head hx hr hnp
              exact h2 x r rfl
          have := n1 h60
          subst this
          rw [resolve_iff, ← hfn ts hr h1] at h3
          subst h3
          exact ⟨hr, _, _, h4, h5, h6⟩
      · rintro ⟨hr, us, content, h4, h5, h6⟩
        have hnp : ∀ b r, ts ≠ .path b :: r := by
          rintro b r rfl; exact hno b r hr
        have h60 : p.tok.type ≠ 60 := by
          intro h60
          rcases y1 h60 with h3 | h3
          · exact hp h3
          · exact rem_error h3 _ hr
        have := n1 h60
        subst this
        refine ⟨ts, hr, .bare hnp ?_ ?_ h4 h5 h6⟩
        · rintro x r rfl
          exact h60 (rem_nonpath hr (by simp)).1
        · rw [resolve_iff, hfn ts hr hnp]
    cases hf : fs (resolve file fn) with
    | none =>
      refine spec_fail rfl ?_
      intro l ts ts0 _ hr ht
      obtain ⟨-, us, content, h1, -⟩ := (hiff l ts).mp ⟨ts0, hr, ht⟩
      rw [hf] at h1; cases h1
    | some content =>
      simp only [ex, bind_ok]
      have hN := hN ⟨_, _, hf⟩
      have hiff' : ∀ l ts, (∃ ts0, Rem p ts0 ∧ IncTail fs file ts0 l ts) ↔
          (∃ us, Lexes false content us ∧ IsItems fs (resolve file fn) us l []) ∧ Rem p1 ts := by
        intro l ts
        rw [hiff]
        constructor
        · rintro ⟨h1, us, c, h2, h3, h4⟩
          rw [hf] at h2; cases h2
          exact ⟨⟨us, h3, h4⟩, h1⟩
        · rintro ⟨⟨us, h3, h4⟩, h1⟩
          exact ⟨h1, us, content, hf, h3, h4⟩
      rcases include_file (resolve file fn) content p1 (ih (resolve file fn)) with ⟨l, e, hl⟩ | ⟨e, hl⟩ | e
      · refine Or.inl ⟨l, p1, e, g1, l1, fun l' ts _ => ?_⟩
        rw [hiff', hl l']
      · refine spec_fail e ?_
        intro l ts ts0 _ hr ht
        obtain ⟨⟨us, h1, h2⟩, -⟩ := (hiff' l ts).mp ⟨ts0, hr, ht⟩
        exact hl l us h1 h2
      · exact Or.inr (Or.inr ⟨e, hN⟩)

/-- The tokens behind the modifiers of an item. -/
inductive CallTail (fs : FS) (file : Text) (m : Nat) : List Token → Item → List Token → Prop
  | mk {f x y args body t1 t3 ts} : IsArgs t1 args (.sym 41 y :: t3) → IsBody fs file t3 body ts →
      CallTail fs file m (.id f :: .sym 40 x :: t1) (.mk f args body m) ts

/-- syn.c:800-818, behind the modifiers. -/
def callTail (fs : FS) (n : Nat) (file : Text) (m : Nat) (p : P) : Res (Item × P) := do
  let f ← tokText p
  let p ← expectErr p tID
  let p ← expectErr p (ch '(')
  let (a, p) ← parseArgs (n + 1) p
  let p ← expectErr p (ch ')')
  if p.tok.type = ch '{' then do
    let p ← expectErr p (ch '{')
    let (b, p) ← parseItems fs n file p
    .ok (.mk f a b m, ← expectErr p (ch '}'))
  else do
    let (b, p) ← pushItem fs n file p
    .ok (.mk f a b m, p)

theorem body_cases {fs : FS} {file : Text} {t : List Token} {l : List Item} {ts : List Token} :
    IsBody fs file t l ts ↔ (∃ x y r, t = .sym 123 x :: r ∧ IsItems fs file r l (.sym 125 y :: ts)) ∨
      (IsPush fs file t l ts ∧ ∀ x r, t ≠ .sym 123 x :: r) := by
  constructor
  · intro h
    cases h with
    | braces h => exact Or.inl ⟨_, _, _, rfl, h⟩
    | one h h' => exact Or.inr ⟨h, h'⟩
  · rintro (⟨x, y, r, rfl, h⟩ | ⟨h, h'⟩)
    · exact .braces h
    · exact .one h h'

/-- Fuel that suffices if no files are included. -/
def Few (fs : FS) (n k : Nat) (p : P) : Prop := n < 3 * left p + k ∨ HasFiles fs

theorem callTail_spec {fs : FS} {n : Nat} (file : Text) (m : Nat) (p : P) (h : Good p)
    (ihp : ∀ file p, Good p → SpecLt (Few fs n 4 p) Any (IsPush fs file) p (pushItem fs n file p))
    (ihs : ∀ file p, Good p → SpecS (Few fs n 5 p) (IsItems fs file) p (parseItems fs n file p)) :
    SpecLt (Few fs (n + 1) 3 p) Any (CallTail fs file m) p (callTail fs n file m p) := by
  unfold callTail
  by_cases hid : p.tok.type = tID
  swap
  · obtain ⟨s, e1, -⟩ := text_total h
    refine SpecLt.fail ?_ ?_
    · rw [e1, bind_ok, expectErr, if_neg hid, bind_fail]
    · intro i ts ts0 _ hr hi
      cases hi
      exact hid (rem_nonpath hr (by simp)).1
  obtain ⟨f, hf⟩ := good_id h hid
  obtain ⟨p1, e1, g1, l1, s1⟩ := next_spec h hf
  rw [text_spec hf, bind_ok, expectErr, if_pos hid, e1, bind_ok, show bareName [Token.id f] = f from rfl]
  refine Spec.shiftLt (t := .id f) (p' := p1) (R' := fun t i ts => ∃ x t1 y args body t3,
    t = .sym 40 x :: t1 ∧ IsArgs t1 args (.sym 41 y :: t3) ∧ IsBody fs file t3 body ts ∧ i = .mk f args body m)
    l1 s1 ?_ ?_ ?_
  · intro ts0 i ts _ hr hi
    cases hi with
    | mk h1 h2 =>
      cases rem_head hf hr (by simp)
      exact ⟨_, rfl, _, _, _, _, _, _, rfl, h1, h2, rfl⟩
  · rintro t' i ts _ _ ⟨x, t1, y, args, body, t3, rfl, h1, h2, rfl⟩
    exact .mk h1 h2
  rcases expectErr_spec g1 (c := 40) (by decide) (by decide) with ⟨p2, x, e2, t2, g2, l2, s2⟩ | ⟨e2, s2⟩
  swap
  · have e2' : expectErr p1 (ch '(') = .fail := e2
    refine spec_fail (by rw [e2', bind_fail]) ?_
    rintro i ts ts0 _ hr ⟨x, t1, y, args, body, t3, rfl, -⟩
    exact s2 _ _ hr
  have e2' : expectErr p1 (ch '(') = .ok p2 := e2
  rw [e2', bind_ok]
  refine Spec.shift (t := .sym 40 x) (p' := p2) (R' := fun t1 i ts => ∃ args t2, IsArgs t1 args t2 ∧ ∃ y t3 body,
    t2 = .sym 41 y :: t3 ∧ IsBody fs file t3 body ts ∧ i = .mk f args body m) (Nat.le_of_lt l2) s2 ?_ ?_ ?_
  · rintro ts0 i ts _ hr ⟨x', t1, y, args, body, t3, rfl, h1, h2, rfl⟩
    cases rem_head t2 hr (by simp)
    exact ⟨_, rfl, _, _, h1, _, _, _, rfl, h2, rfl⟩
  · rintro t' i ts _ _ ⟨args, t2, h1, y, t3, body, rfl, h2, rfl⟩
    exact ⟨_, _, _, _, _, _, rfl, h1, h2, rfl⟩
  refine Spec.seqL (N := Few fs (n + 1) 3 p) ((args_spec (n + 1) p2 g2).weaken (fun h => Or.inl (by omega)) (fun _ h => h)) ?_ ?_
  · rintro a t b ts _ ⟨y, t3, body, rfl, -⟩
    exact ⟨_, _, rfl⟩
  intro args p3 g3 l3
  dsimp only
  rcases expectErr_spec g3 (c := 41) (by decide) (by decide) with ⟨p4, y, e4, t4, g4, l4, s4⟩ | ⟨e4, s4⟩
  swap
  · have e4' : expectErr p3 (ch ')') = .fail := e4
    refine spec_fail (by rw [e4', bind_fail]) ?_
    rintro i ts ts0 _ hr ⟨y, t3, body, rfl, -⟩
    exact s4 _ _ hr
  have e4' : expectErr p3 (ch ')') = .ok p4 := e4
  rw [e4', bind_ok]
  refine Spec.shift (t := .sym 41 y) (p' := p4) (R' := fun t3 i ts => ∃ body, i = .mk f args body m ∧
    IsBody fs file t3 body ts) (Nat.le_of_lt l4) s4 ?_ ?_ ?_
  · rintro ts0 i ts _ hr ⟨y', t3, body, rfl, h2, rfl⟩
    cases rem_head t4 hr (by simp)
    exact ⟨_, rfl, _, rfl, h2⟩
  · rintro t' i ts _ _ ⟨body, rfl, h2⟩
    exact ⟨_, _, _, rfl, h2, rfl⟩
  by_cases hb : p4.tok.type = ch '{'
  · rw [if_pos hb]
    rcases expectErr_spec g4 (c := 123) (by decide) (by decide) with ⟨p5, x5, e5, t5, g5, l5, s5⟩ | ⟨e5, s5⟩
    swap
    · exfalso
      obtain ⟨x, hx⟩ := good_sym g4 hb (by decide) (by decide)
      obtain ⟨p', e6, -⟩ := next_spec g4 hx
      have hb' : p4.tok.type = 123 := hb
      rw [expectErr, if_pos hb', e6] at e5
      cases e5
    have e5' : expectErr p4 (ch '{') = .ok p5 := e5
    rw [e5', bind_ok]
    refine Spec.shift (t := .sym 123 x5) (p' := p5) (R' := fun t i ts => ∃ body y, i = Item.mk f args body m ∧
      IsItems fs file t body (.sym 125 y :: ts)) (Nat.le_of_lt l5) s5 ?_ ?_ ?_
    · rintro ts0 i ts _ hr ⟨body, rfl, h2⟩
      rcases body_cases.mp h2 with ⟨x, y, r, rfl, h3⟩ | ⟨h3, h4⟩
      · cases rem_head t5 hr (by simp)
        exact ⟨_, rfl, _, _, rfl, h3⟩
      · exfalso
        cases ts0 with
        | nil => exact rem_ne_nil t5 hr
        | cons t r =>
          have hnp : ∀ b, t ≠ .path b := by
            rintro b rfl
            rcases push_head h3 with ⟨_, _, h⟩ | ⟨_, h⟩ | ⟨_, _, h⟩ | ⟨_, _, _, _, h, -⟩ | ⟨_, _, h, -⟩ <;> cases h
          cases rem_head t5 hr hnp
          exact h4 _ _ rfl
    · rintro t' i ts _ _ ⟨body, y, rfl, h2⟩
      exact ⟨body, rfl, body_cases.mpr (Or.inl ⟨_, y, _, rfl, h2⟩)⟩
    · refine specS_close (f := fun b => Item.mk f args b m) ?_
      rcases ihs file p5 g5 with h1 | h1 | ⟨h1, h2 | h2⟩
      · exact Or.inl h1
      · exact Or.inr (Or.inl h1)
      · exact Or.inr (Or.inr ⟨h1, Or.inl (by omega)⟩)
      · exact Or.inr (Or.inr ⟨h1, Or.inr h2⟩)
  · rw [if_neg hb]
    refine Spec.congr (Spec.map (f := fun b => Item.mk f args b m) ((ihp file p4 g4).1.weaken
      (fun h => h.imp (fun h => by omega) (fun h => h)) (fun _ h => h))) ?_
    intro ts0 i ts _ hr
    refine exists_congr fun body => and_congr_right fun _ => ?_
    rw [body_cases]
    constructor
    · intro h2
      refine Or.inr ⟨h2, ?_⟩
      rintro x r rfl
      exact hb (rem_nonpath hr (by simp)).1
    · rintro (⟨x, y, r, rfl, h3⟩ | ⟨h3, -⟩)
      · exact absurd (rem_nonpath hr (by simp)).1 hb
      · exact h3

theorem call_iff {fs : FS} {file : Text} {t : List Token} {i : Item} {ts : List Token}
    (hb : ∀ x r, t ≠ .sym 123 x :: r) (hk : ∀ f r, t = .id f :: r → ¬ Keyword f) :
    IsItem fs file t i ts ↔ ∃ m t1, (∃ m', m = 0 ||| m' ∧ IsMods t m' t1) ∧ CallTail fs file m t1 i ts := by
  constructor
  · intro h
    cases h with
    | block h => exact absurd rfl (hb _ _)
    | call h1 h2 h3 h4 h5 =>
      subst h4
      exact ⟨_, _, ⟨_, by simp, h1⟩, .mk h3 h5⟩
  · rintro ⟨m, t1, ⟨m', rfl, h1⟩, h2⟩
    cases h2 with
    | mk h3 h5 =>
      rw [Nat.zero_or]
      exact .call h1 (fun hk' e => hk _ _ e hk') h3 rfl h5

theorem block_iff {fs : FS} {file : Text} {x : Text} {t : List Token} {i : Item} {ts : List Token} :
    IsItem fs file (.sym 123 x :: t) i ts ↔
      ∃ l y, i = .mk (txt "{") [] l 0 ∧ IsItems fs file t l (.sym 125 y :: ts) := by
  constructor
  · intro h
    cases h with
    | block h => exact ⟨_, _, rfl, h⟩
    | call h1 h2 h3 h4 h5 =>
      exfalso
      cases h1 with
      | cons h6 h7 => rcases modifier_cases h6 with h | h | h | h <;> cases h
  · rintro ⟨l, y, rfl, h⟩
    exact .block h

theorem items_spec (fs : FS) (n : Nat) :
    (∀ file p q, Good p → sieve p = some q → SpecLt (Few fs n 3 p) Any (IsItem fs file) p (parseItem fs n file q)) ∧
    (∀ file p, Good p → SpecLt (Few fs n 4 p) Any (IsPush fs file) p (pushItem fs n file p)) ∧
    (∀ file p, Good p → SpecS (Few fs n 5 p) (IsItems fs file) p (parseItems fs n file p)) := by
  induction n with
  | zero =>
    refine ⟨fun file p q h _ => ?_, fun file p h => ?_, fun file p h => ?_⟩
    · exact ⟨Or.inr (Or.inr ⟨by rw [parseItem], Or.inl (by omega)⟩), fun a p' e => by rw [parseItem] at e; cases e⟩
    · exact ⟨Or.inr (Or.inr ⟨by rw [pushItem], Or.inl (by omega)⟩), fun a p' e => by rw [pushItem] at e; cases e⟩
    · exact Or.inr (Or.inr ⟨by rw [parseItems], Or.inl (by omega)⟩)
  | succ n ih =>
    obtain ⟨ihi, ihp, ihs⟩ := ih
    refine ⟨fun file p q h hs => ?_, fun file p h => ?_, fun file p h => ?_⟩
    · -- item
      rw [parseItem]
      by_cases hb : q.tok.type = ch '{'
      · obtain rfl := sieve_type h hs (by decide) hb
        rw [if_pos hb]
        rcases expectErr_spec h (c := 123) (by decide) (by decide) with ⟨p5, x5, e5, t5, g5, l5, s5⟩ | ⟨e5, s5⟩
        swap
        · exfalso
          obtain ⟨x, hx⟩ := good_sym h hb (by decide) (by decide)
          obtain ⟨p', e6, -⟩ := next_spec h hx
          have hb' : q.tok.type = 123 := hb
          rw [expectErr, if_pos hb', e6] at e5
          cases e5
        have e5' : expectErr q (ch '{') = .ok p5 := e5
        rw [e5', bind_ok]
        refine Spec.shiftLt (t := .sym 123 x5) (p' := p5) (R' := fun t i ts => ∃ body y, i = Item.mk (txt "{") [] body 0 ∧
          IsItems fs file t body (.sym 125 y :: ts)) l5 s5 ?_ ?_ ?_
        · intro ts0 i ts _ hr hi
          rcases item_head hi with ⟨x, r, rfl⟩ | ⟨c, x, b, r, rfl, h1⟩ | ⟨f, r, rfl, -⟩
          · cases rem_head t5 hr (by simp)
            exact ⟨_, rfl, block_iff.mp hi⟩
          · exfalso
            cases rem_head t5 hr (by simp)
            rcases modifier_cases h1 with h | h | h | h <;> cases h
          · cases rem_head t5 hr (by simp)
        · intro t' i ts _ _ hi
          exact block_iff.mpr hi
        · refine specS_close (f := fun b => Item.mk (txt "{") [] b 0) ?_
          rcases ihs file p5 g5 with h1 | h1 | ⟨h1, h2 | h2⟩
          · exact Or.inl h1
          · exact Or.inr (Or.inl h1)
          · exact Or.inr (Or.inr ⟨h1, Or.inl (by omega)⟩)
          · exact Or.inr (Or.inr ⟨h1, Or.inr h2⟩)
      rw [if_neg hb]
      obtain ⟨q', e, -, hlex, ⟨rfl, hk⟩ | ⟨s, ht, hk, rfl, h5, -⟩⟩ := sieve_spec h
      · rw [hs] at e; cases e
        refine SpecLt.congr (Spec.seqLt (N := Few fs (n + 1) 3 q) ((mods_spec (n + 1) 0 q h).weaken
          (fun h => Or.inl (by omega)) (fun _ h => h)) (R2 := fun m => CallTail fs file m) ?_
          (fun m p1 g1 l1 => (callTail_spec file m p1 g1 ihp ihs).weaken
            (fun h => h.imp (fun h => by omega) (fun h => h)) (fun _ h => h))) ?_
        · rintro m t i ts _ ⟨h1, h2⟩
          exact ⟨_, _, rfl⟩
        · intro ts0 i ts _ hr
          refine (call_iff ?_ ?_).symm
          · rintro x r rfl
            exact hb (rem_nonpath hr (by simp)).1
          · rintro f r rfl
            exact hk f (rem_nonpath hr (by simp))
      · rw [hs] at e; cases e
        -- a keyword
        have hm : lookingAtModifier { p with tok := { p.tok with type := sieveId s } } = false := by
          unfold lookingAtModifier
          dsimp only at h5 ⊢
          simp only [Bool.or_eq_false_iff, beq_eq_false_iff_ne]
          refine ⟨⟨⟨?_, ?_⟩, ?_⟩, ?_⟩
          · show sieveId s ≠ 42; omega
          · show sieveId s ≠ 37; omega
          · show sieveId s ≠ 33; omega
          · show sieveId s ≠ 35; omega
        refine SpecLt.fail ?_ ?_
        · rw [parseModifier, if_neg (by rw [hm]; simp), bind_ok]
          dsimp only
          have htx : tokText { p with tok := { p.tok with type := sieveId s } } = tokText p := rfl
          rw [htx, text_spec ht, bind_ok, expectErr, if_neg (by dsimp only [tID] at h5 ⊢; omega), bind_fail]
        · intro i ts ts0 _ hr hi
          rcases item_head hi with ⟨x, r, rfl⟩ | ⟨c, x, b, r, rfl, h1⟩ | ⟨f, r, rfl, h1⟩
          · cases rem_head ht hr (by simp)
          · cases rem_head ht hr (by simp)
          · cases rem_head ht hr (by simp)
            exact h1 hk
    · -- pushed items
      rw [pushItem]
      rcases expect_spec h (c := 59) (by decide) (by decide) with ⟨p1, x, e1, t1, g1, l1, s1⟩ | ⟨e1, s1⟩
      · have e1' : expect p (ch ';') = .ok (true, p1) := e1
        rw [e1', bind_ok]
        dsimp only
        refine Spec.shiftLt (t := .sym 59 x) (p' := p1) (R' := fun t l ts => l = [] ∧ t = ts) l1 s1 ?_ ?_
          (spec_nothing g1 (fun _ _ _ _ _ => Iff.rfl))
        · intro ts0 l ts _ hr hp
          cases hp with
          | semicolon => cases rem_head t1 hr (by simp); exact ⟨_, rfl, rfl, rfl⟩
          | item hi =>
            exfalso
            rcases item_head hi with ⟨x, r, rfl⟩ | ⟨c, x, b, r, rfl, h1⟩ | ⟨f, r, rfl, -⟩
            · cases rem_head t1 hr (by simp)
            · cases rem_head t1 hr (by simp)
              rcases modifier_cases h1 with h | h | h | h <;> cases h
            · cases rem_head t1 hr (by simp)
          | incl => cases rem_head t1 hr (by simp)
          | inclBare => cases rem_head t1 hr (by simp)
        · rintro t' l ts _ _ ⟨rfl, rfl⟩
          exact .semicolon
      have e1' : expect p (ch ';') = .ok (false, p) := e1
      rw [e1', bind_ok]
      dsimp only
      obtain ⟨q, sv, -, hlex, hq⟩ := sieve_spec h
      rw [sv]
      simp only [Res.ofOption, bind_ok]
      by_cases hinc : q.tok.type = kINCLUDE
      · -- include
        have ht : TokIs p (.id (txt "include")) := by
          rcases hq with ⟨rfl, -⟩ | ⟨s, ht, hk, rfl, -⟩
          · exfalso
            obtain ⟨t, ht⟩ := good_tok h (by rw [hinc]; decide) (by rw [hinc]; decide)
            cases t with
            | sym c x => have h1 := ht.2.2.1; rw [← ht.1, hinc] at h1; exact absurd h1 (by decide)
            | _ => exact absurd (hinc.symm.trans ht.1) (by decide)
          · have : s = txt "include" := by
              dsimp only at hinc
              unfold sieveId at hinc
              split_ifs at hinc with h1 h2 h3 h4
              · exact h1
              all_goals exact absurd hinc (by decide)
            rw [← this]; exact ht
        obtain ⟨p1, e2, g1, l1, s2⟩ := next_spec h ht
        have e3 : expect q kINCLUDE = .ok (true, p1) := by
          unfold expect next
          rw [if_pos hinc, tokNext_sieved hlex (by rw [ht.1]; decide) (by rw [hinc]; decide)]
          unfold next at e2
          rw [e2]; rfl
        rw [e3, bind_ok]
        dsimp only
        refine Spec.shiftLt (t := .id (txt "include")) (p' := p1) (R' := IncTail fs file) l1 s2 ?_ ?_
          (incTail_spec (N := Few fs (n + 1) 4 p) (fun h => Or.inr h) file p1 g1
            (fun file p h => (ihs file p h).weaken (fun _ => trivial)))
        · intro ts0 l ts _ hr hp
          cases ts0 with
          | nil => exact absurd hr (rem_ne_nil ht)
          | cons t r =>
            have hnp : ∀ b, t ≠ .path b := by
              rintro b rfl
              rcases push_head hp with ⟨_, _, h⟩ | ⟨_, h⟩ | ⟨_, _, h⟩ | ⟨_, _, _, _, h, -⟩ | ⟨_, _, h, -⟩ <;> cases h
            cases rem_head ht hr hnp
            exact ⟨_, rfl, push_include.mp hp⟩
        · intro t' l ts _ _ hp
          exact push_include.mpr hp
      · have e3 : expect q kINCLUDE = .ok (false, q) := by unfold expect; rw [if_neg hinc]
        rw [e3, bind_ok]
        dsimp only
        have hm := Spec.map (f := fun i => [i]) (ihi file p q h sv).1
        refine ⟨Spec.congr (hm.weaken (fun h => h.imp (fun h => by omega) (fun h => h)) (fun _ h => h)) ?_, ?_⟩
        · intro ts0 l ts _ hr
          constructor
          · rintro ⟨i, rfl, hi⟩
            exact .item hi
          · intro hp
            cases hp with
            | semicolon => exact absurd (rem_nonpath hr (by simp)) (s1 _)
            | item hi => exact ⟨_, rfl, hi⟩
            | incl =>
              exfalso
              have ht := rem_nonpath hr (by simp)
              rcases hq with ⟨rfl, hk⟩ | ⟨s, ht', hk, rfl, -⟩
              · exact hk _ ht (Or.inl rfl)
              · cases tokIs_unique ht ht'
                exact hinc rfl
            | inclBare =>
              exfalso
              have ht := rem_nonpath hr (by simp)
              rcases hq with ⟨rfl, hk⟩ | ⟨s, ht', hk, rfl, -⟩
              · exact hk _ ht (Or.inl rfl)
              · cases tokIs_unique ht ht'
                exact hinc rfl
        · intro l p' e
          have hlt := (ihi file p q h sv).2
          cases hr : parseItem fs n file q with
          | ok x =>
            rw [hr, bind_ok] at e
            cases e
            exact hlt x.1 x.2 hr
          | fail => rw [hr, bind_fail] at e; cases e
          | stuck => rw [hr, bind_stuck] at e; cases e
    · -- lists of items
      rw [parseItems]
      obtain ⟨q, sv, sv', hlex, hq⟩ := sieve_spec h
      rw [sv]
      simp only [Res.ofOption, bind_ok]
      by_cases hl : lookingAtItem q = true
      · rw [if_pos hl, push_sieved fs n file h sv]
        have hiff : ∀ l ts, Ends ts → ((∃ ts0, Rem p ts0 ∧ IsItems fs file ts0 l ts) ↔
            ∃ l1 l2 t1 ts0, Rem p ts0 ∧ IsPush fs file ts0 l1 t1 ∧ IsItems fs file t1 l2 ts ∧ l = l1 ++ l2) := by
          intro l ts he
          constructor
          · rintro ⟨ts0, hr, hi⟩
            cases hi with
            | nil => rw [not_looking_end sv hr he] at hl; cases hl
            | cons h1 h2 => exact ⟨_, _, _, _, hr, h1, h2, rfl⟩
          · rintro ⟨l1, l2, t1, ts0, hr, h1, h2, rfl⟩
            exact ⟨ts0, hr, .cons h1 h2⟩
        obtain ⟨hsp, hlt⟩ := ihp file p h
        rcases hsp with ⟨l1, p1, e1, g1, -, s1⟩ | ⟨e1, s1⟩ | ⟨e1, hN⟩
        · have hl1 := hlt l1 p1 e1
          rw [e1, bind_ok]
          dsimp only
          rcases ihs file p1 g1 with ⟨l2, p2, q2, e2, sv2, g2, ll2, s2⟩ | ⟨e2, s2⟩ | ⟨e2, hN⟩
          · left
            refine ⟨l1 ++ l2, p2, q2, by rw [e2]; rfl, sv2, g2, by omega, ?_⟩
            intro l ts he
            rw [hiff l ts he]
            constructor
            · rintro ⟨k1, k2, t1, ts0, hr, h1, h2, rfl⟩
              obtain ⟨rfl, h3⟩ := (s1 k1 t1 trivial).mp ⟨ts0, hr, h1⟩
              obtain ⟨rfl, h4⟩ := (s2 k2 ts he).mp ⟨t1, h3, h2⟩
              exact ⟨rfl, h4⟩
            · rintro ⟨rfl, h4⟩
              obtain ⟨t1, h3, h2⟩ := (s2 l2 ts he).mpr ⟨rfl, h4⟩
              obtain ⟨ts0, hr, h1⟩ := (s1 l1 t1 trivial).mpr ⟨rfl, h3⟩
              exact ⟨l1, l2, t1, ts0, hr, h1, h2, rfl⟩
          · right; left
            refine ⟨by rw [e2]; rfl, ?_⟩
            intro l ts ts0 he hr hi
            obtain ⟨k1, k2, t1, ts1, hr1, h1, h2, rfl⟩ := (hiff l ts he).mp ⟨ts0, hr, hi⟩
            obtain ⟨rfl, h3⟩ := (s1 k1 t1 trivial).mp ⟨ts1, hr1, h1⟩
            exact s2 k2 ts t1 he h3 h2
          · right; right
            refine ⟨by rw [e2]; rfl, ?_⟩
            rcases hN with hN | hN
            · exact Or.inl (by omega)
            · exact Or.inr hN
        · right; left
          refine ⟨by rw [e1]; rfl, ?_⟩
          intro l ts ts0 he hr hi
          obtain ⟨k1, k2, t1, ts1, hr1, h1, h2, rfl⟩ := (hiff l ts he).mp ⟨ts0, hr, hi⟩
          exact s1 k1 t1 ts1 trivial hr1 h1
        · right; right
          refine ⟨by rw [e1]; rfl, ?_⟩
          rcases hN with hN | hN
          · exact Or.inl (by omega)
          · exact Or.inr hN
      · rw [if_neg hl]
        left
        refine ⟨[], p, q, rfl, sv, h, Nat.le_refl _, ?_⟩
        intro l ts he
        constructor
        · rintro ⟨ts0, hr, hi⟩
          cases hi with
          | nil => exact ⟨rfl, hr⟩
          | cons h1 h2 => exact absurd (looking_push h sv hr h1) hl
        · rintro ⟨rfl, hr⟩
          exact ⟨ts, hr, .nil⟩

end Hob3l.Syn
