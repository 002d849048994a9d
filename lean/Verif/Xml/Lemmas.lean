import Verif.Xml.Spec
import Verif.Utf8.Props
import Mathlib.Tactic.SplitIfs
import Mathlib.Tactic.IntervalCases
import Mathlib.Data.List.Basic

/-!
Lexical parts: names, blanks, texts, comments.
-/

namespace Hob3l.Xml

/-- ASCII characters -/
def asc (s : Str) : List Ch := s.map fun b => ⟨b, [b]⟩

@[simp] theorem asc_nil : asc [] = [] := rfl
@[simp] theorem asc_cons (c : Nat) (s : Str) : asc (c :: s) = ⟨c, [c]⟩ :: asc s := rfl
@[simp] theorem asc_append (s t : Str) : asc (s ++ t) = asc s ++ asc t := List.map_append ..
@[simp] theorem asc_length (s : Str) : (asc s).length = s.length := List.length_map ..
@[simp] theorem asc_bytes (s : Str) : bytesOf (asc s) = s.length := by
  induction s with
  | nil => rfl
  | cons c s ih => simp only [bytesOf, asc_cons, List.map_cons, List.sum_cons, List.length_cons, List.length_nil] at *; omega

theorem asc_flat (s : Str) : (asc s).flatMap (·.bs) = s := by
  induction s with
  | nil => rfl
  | cons c s ih => simp [ih]

@[simp] theorem cur_cons (c : Ch) (l : List Ch) : cur (c :: l) = c.cp := rfl
@[simp] theorem cur_nil : cur [] = 0 := rfl
@[simp] theorem peek_cons (c d : Ch) (l : List Ch) : peek (c :: d :: l) = d.bs.headD 0 := rfl

@[simp] theorem bind_ok {α β : Type} (a : α) (f : α → Res β) : (Res.ok a).bind f = f a := rfl
@[simp] theorem bind_fail {α β : Type} (f : α → Res β) : (Res.fail : Res α).bind f = .fail := rfl

theorem bind_assoc {α β γ : Type} (x : Res α) (f : α → Res β) (g : β → Res γ) :
    (x.bind f).bind g = x.bind fun a => (f a).bind g := by cases x <;> rfl

/-- result or error message -/
def lift {α : Type} : Option α → Res α
  | some a => .ok a
  | none => .fail

@[simp] theorem lift_some {α : Type} (a : α) : lift (some a) = .ok a := rfl
@[simp] theorem lift_none {α : Type} : lift (none : Option α) = .fail := rfl

theorem lift_bind {α β : Type} (x : Option α) (f : α → Option β) : lift (x >>= f) = (lift x).bind fun a => lift (f a) := by
  cases x <;> rfl

/-! ## Decoding -/

theorem chars_ascii (s : Str) (h : ∀ c ∈ s, 0 < c ∧ c < 0x80) : ∀ n, s.length ≤ n → chars n s = (asc s, false) := by
  induction s with
  | nil =>
    intro n _
    cases n <;> simp [chars, Utf8.decode, Utf8.iterGet]
  | cons c s ih =>
    intro n hn
    cases n with
    | zero => simp at hn
    | succ n =>
      have hc := h c (by simp)
      have := Utf8.C42_ascii c (c :: s).length s hc.1 hc.2 (by simp)
      have hi := ih (fun x hx => h x (by simp [hx])) n (by simp at hn; omega)
      simp only [chars, this, hi, Option.isSome_none, Bool.false_eq_true, if_false]
      rw [if_neg (by omega)]
      simp

theorem charsOf_ascii (s : Str) (h : ∀ c ∈ s, 0 < c ∧ c < 0x80) : charsOf s = (asc s, false) :=
  chars_ascii s h _ (Nat.le_refl _)

/-! ## Names and blanks -/

theorem blank_isSpace {c : Nat} (h : IsBlank c) : isSpace c = true := by
  rcases h with h | h | h | h <;> subst h <;> rfl

theorem nameStart_lt {c : Nat} (h : IsNameStart c) : 0x41 ≤ c ∧ c < 0x7b := by
  unfold IsNameStart at h; omega

theorem nameChar_lt {c : Nat} (h : IsNameChar c) : 0x2d ≤ c ∧ c < 0x7b := by
  unfold IsNameChar IsNameStart at h; omega

theorem nameChar_tag {c : Nat} (h : IsNameChar c) : isTagChar c = true ∧ isSpace c = false := by
  have hl := nameChar_lt h
  unfold IsNameChar IsNameStart at h
  obtain ⟨h1, h2⟩ := hl
  have hs : isSpace c = false := by
    simp [isSpace]
    omega
  refine ⟨?_, hs⟩
  unfold isTagChar
  rw [hs]
  simp only [Bool.false_eq_true, if_false]
  rw [if_neg (by omega)]
  simp [notTag]
  omega

theorem nameStart_begin {c : Nat} (h : IsNameStart c) : maybeTagBegin c = true := by
  have := nameStart_lt h
  simp [maybeTagBegin]
  omega

/-- `rest` does not continue a name -/
def Stops (rest : Str) : Prop := ∃ c s, rest = c :: s ∧ isTagChar c = false

theorem tagRun_name (s rest : Str) (h : ∀ c ∈ s, IsNameChar c) (hr : Stops rest) :
    tagRun (asc (s ++ rest)) = .ok (s, asc rest) := by
  induction s with
  | nil =>
    obtain ⟨c, t, rfl, hc⟩ := hr
    simp [tagRun, hc]
  | cons c s ih =>
    have hi := ih fun x hx => h x (by simp [hx])
    simp only [List.cons_append, asc_cons, tagRun, (nameChar_tag (h c (by simp))).1, if_true, hi, bind_ok,
      List.nil_append]

theorem parseTag_name (s rest : Str) (h : IsName s) (hr : Stops rest) :
    parseTag (asc (s ++ rest)) = .ok (s, asc rest) := by
  obtain ⟨⟨c, t, rfl, hc⟩, ha⟩ := h
  unfold parseTag
  rw [if_pos (by simpa using nameStart_begin hc)]
  exact tagRun_name _ _ ha hr

theorem stops_cons {c : Nat} {s : Str} (h : isTagChar c = false) : Stops (c :: s) := ⟨c, s, rfl, h⟩

theorem scopedName_ok (p : Option Str) (s rest : Str) (h : NameOk p s) (hr : Stops rest) (hc : rest.head? ≠ some 0x3a) :
    scopedName (asc (fullName p s ++ rest)) = .ok (p, s, asc rest) := by
  obtain ⟨c, t, rfl, hct⟩ := hr
  have hc' : c ≠ 0x3a := by simpa using hc
  cases p with
  | none =>
    unfold scopedName fullName
    dsimp only
    rw [parseTag_name s _ h.1 (stops_cons hct)]
    simp [hc']
  | some p =>
    unfold scopedName fullName
    dsimp only
    rw [show p ++ 0x3a :: s ++ c :: t = p ++ (0x3a :: (s ++ c :: t)) by simp,
      parseTag_name p _ (h.2 p rfl) (stops_cons (by decide))]
    simp only [bind_ok, asc_cons, cur_cons, if_true, List.tail_cons, parseTag_name s _ h.1 (stops_cons hct)]

theorem skipSpace_blanks (ws rest : Str) (h : ∀ c ∈ ws, IsBlank c) (hr : ∀ c, rest.head? = some c → isSpace c = false) :
    skipSpace (asc (ws ++ rest)) = asc rest := by
  induction ws with
  | nil =>
    cases rest with
    | nil => rfl
    | cons c s => simp [skipSpace, hr c rfl]
  | cons c ws ih =>
    have hi := ih fun x hx => h x (by simp [hx])
    unfold skipSpace at *
    simp only [List.cons_append, asc_cons, List.dropWhile_cons, blank_isSpace (h c (by simp)), if_true, hi]

theorem expect_ok (s rest : Str) : expect s (asc (s ++ rest)) = .ok (asc rest) := by
  induction s with
  | nil => rfl
  | cons c s ih => simp [expect] ; simpa using ih

/-! ## Texts -/

theorem ofDigits_mono (b : Nat) (hb : 1 ≤ b) (ds : List Nat) (n : Nat) : n ≤ ds.foldl (fun n d => n * b + d) n := by
  induction ds generalizing n with
  | nil => exact Nat.le_refl _
  | cons d ds ih =>
    refine Nat.le_trans ?_ (ih (n * b + d))
    have := Nat.mul_le_mul_left n hb
    omega

theorem readNum_ok (b : Nat) (hb : 1 ≤ b) (f : Nat → Nat) (ds : List Nat) (rest : Str)
    (hd : ∀ d ∈ ds, d < b ∧ digitVal (f d) = d) (hr : ∀ c s, rest = c :: s → digitVal c ≥ b) (n : Nat)
    (hv : ds.foldl (fun n d => n * b + d) n < 2 ^ 32) :
    readNum b (asc (ds.map f ++ rest)) n = (ds.foldl (fun n d => n * b + d) n, asc rest) := by
  induction ds generalizing n with
  | nil =>
    cases rest with
    | nil => rfl
    | cons c s => simp [readNum, hr c s rfl]
  | cons d ds ih =>
    obtain ⟨h1, h2⟩ := hd d (by simp)
    simp only [List.foldl_cons] at hv ⊢
    have hm := ofDigits_mono b hb ds (n * b + d)
    simp only [List.map_cons, List.cons_append, asc_cons, readNum, h2]
    rw [if_neg (by omega), Nat.mod_eq_of_lt (by omega)]
    exact ih (fun x hx => hd x (by simp [hx])) _ hv

theorem digitVal_dec (d : Nat) (h : d < 10) : digitVal (0x30 + d) = d := by
  interval_cases d <;> decide

theorem digitVal_hex (d : Nat × Bool) (h : d.1 < 16) : digitVal (hexDigit d) = d.1 := by
  obtain ⟨d, b⟩ := d
  dsimp only at h ⊢
  cases b <;> interval_cases d <;> decide

theorem entity_dec (ds : List Nat) (rest : Str) (hd : ∀ d ∈ ds, d < 10) (hv : ofDigits 10 ds < 2 ^ 32) (hne : ds ≠ []) :
    entity (asc (0x23 :: (ds.map (0x30 + ·) ++ 0x3b :: rest))) = .ok (ofDigits 10 ds, asc (0x3b :: rest)) := by
  obtain ⟨d, ds', rfl⟩ := List.exists_cons_of_ne_nil hne
  have hd0 := hd d (by simp)
  have := readNum_ok 10 (by omega) (0x30 + ·) (d :: ds') (0x3b :: rest) (fun x hx => ⟨hd x hx, digitVal_dec x (hd x hx)⟩)
    (by intro c s e; cases e; decide) 0 hv
  unfold entity
  rw [if_neg (by simp), if_neg (by simp), if_neg (by simp), if_neg (by simp), if_pos (by simp)]
  rw [if_neg (by simp; omega)]
  simp only [asc_cons, List.tail_cons] at this ⊢
  rw [this]
  rfl

/-- a digit and its character -/
theorem map_hex (ds : List (Nat × Bool)) (rest : Str) (hd : ∀ d ∈ ds, d.1 < 16) (hr : ∀ c s, rest = c :: s → digitVal c ≥ 16)
    (n : Nat) (hv : (ds.map (·.1)).foldl (fun n d => n * 16 + d) n < 2 ^ 32) :
    readNum 16 (asc (ds.map hexDigit ++ rest)) n = ((ds.map (·.1)).foldl (fun n d => n * 16 + d) n, asc rest) := by
  induction ds generalizing n with
  | nil =>
    cases rest with
    | nil => rfl
    | cons c s => simp [readNum, hr c s rfl]
  | cons d ds ih =>
    have h1 := hd d (by simp)
    have h2 := digitVal_hex d h1
    simp only [List.map_cons, List.foldl_cons] at hv ⊢
    have hm := ofDigits_mono 16 (by omega) (ds.map (·.1)) (n * 16 + d.1)
    simp only [List.cons_append, asc_cons, readNum, h2]
    rw [if_neg (by omega), Nat.mod_eq_of_lt (by omega)]
    exact ih (fun x hx => hd x (by simp [hx])) _ hv

theorem entity_hex (ds : List (Nat × Bool)) (rest : Str) (hd : ∀ d ∈ ds, d.1 < 16) (hv : ofDigits 16 (ds.map (·.1)) < 2 ^ 32) :
    entity (asc (0x23 :: 0x78 :: (ds.map hexDigit ++ 0x3b :: rest))) = .ok (ofDigits 16 (ds.map (·.1)), asc (0x3b :: rest)) := by
  have := map_hex ds (0x3b :: rest) hd (by intro c s e; cases e; decide) 0 hv
  unfold entity
  rw [if_neg (by simp), if_neg (by simp), if_neg (by simp), if_neg (by simp), if_pos (by simp)]
  rw [if_pos (by simp)]
  simp only [asc_cons, List.tail_cons] at this ⊢
  rw [this]
  rfl

theorem utf8_encodes (c : Nat) (h : Utf8.CodePoint c) : Utf8.Encodes (utf8 c) c := by
  refine ⟨?_, h, ?_⟩
  · obtain ⟨h0, h1, h2⟩ := h
    unfold utf8
    by_cases c1 : c < 0x80
    · rw [if_pos c1]; exact .one c h0 c1
    rw [if_neg c1]
    by_cases c2 : c < 0x800
    · rw [if_pos c2]
      have := Utf8.Shape.two (c / 64) (c % 64) (by omega) (by omega)
      rwa [show c / 64 * 64 + c % 64 = c by omega] at this
    rw [if_neg c2]
    by_cases c3 : c < 0x10000
    · rw [if_pos c3]
      have := Utf8.Shape.three (c / 4096) (c / 64 % 64) (c % 64) (by omega) (by omega) (by omega)
      rwa [show c / 4096 * 4096 + c / 64 % 64 * 64 + c % 64 = c by omega] at this
    rw [if_neg c3]
    have := Utf8.Shape.four (c / 262144) (c / 4096 % 64) (c / 64 % 64) (c % 64) (by omega) (by omega) (by omega) (by omega)
    rwa [show c / 262144 * 262144 + c / 4096 % 64 * 4096 + c / 64 % 64 * 64 + c % 64 = c by omega] at this
  · unfold utf8
    split_ifs <;> simp [Utf8.minimum] <;> omega

theorem utf8_len (c : Nat) : 1 ≤ (utf8 c).length ∧ (utf8 c).length ≤ 4 ∧ (c < 0x80 → (utf8 c).length = 1) := by
  unfold utf8
  split_ifs <;> simp <;> omega

theorem encode_utf8 (c n : Nat) (h : Utf8.CodePoint c) (hn : (utf8 c).length ≤ n) : Utf8.encode n c = some (utf8 c) := by
  obtain ⟨bs, hb, he⟩ := Utf8.C42_encode n c h
  have := Utf8.C42_unique _ _ c hb (utf8_encodes c h)
  subst this
  rw [he, if_pos hn]

theorem piece_code {delim : Nat} {p : Piece} (h : p.Fits delim) : Utf8.CodePoint p.code := by
  unfold Utf8.CodePoint
  cases p with
  | raw c => obtain ⟨a, b, _⟩ := h; simp only [Piece.code]; omega
  | dec ds => exact h.2.2
  | hex ds => exact h.2.2
  | _ => simp [Piece.code]

/-- how a character is read -/
theorem piece_read {delim : Nat} {p : Piece} (h : p.Fits delim) (hd : delim = 0x3c ∨ delim = 0x22 ∨ delim = 0x27) (rest : Str) :
    ∃ l c s, p.text = c :: s ∧ c ≠ delim ∧ c ≠ 0x3c ∧ c ≠ 0
      ∧ (if cur (asc (p.text ++ rest)) = 0x26 then entity (asc (p.text ++ rest)).tail
          else .ok (cur (asc (p.text ++ rest)), asc (p.text ++ rest))) = .ok (p.code, l)
      ∧ l.tail = asc rest ∧ (utf8 p.code).length ≤ p.text.length := by
  have hcp := piece_code h
  have hu := utf8_len p.code
  cases p with
  | raw c =>
    obtain ⟨h0, h1, h2, h3, h4⟩ := h
    refine ⟨asc ([c] ++ rest), c, [], rfl, h4, h2, by omega, ?_, rfl, ?_⟩
    · simp [Piece.text, Piece.code, h3]
    · simp only [Piece.code, Piece.text, List.length_singleton] at *; omega
  | dec ds =>
    obtain ⟨h0, h1, h2⟩ := h
    refine ⟨asc (0x3b :: rest), 0x26, _, rfl, by omega, by omega, by omega, ?_, rfl, ?_⟩
    · simp only [Piece.text, List.cons_append, List.nil_append, asc_cons, cur_cons, if_true, List.tail_cons, Piece.code,
        List.append_assoc]
      have := entity_dec ds rest h1 (by have := h2.2.1; omega) h0
      simpa only [asc_cons] using this
    · have : 0 < ds.length := List.length_pos_of_ne_nil h0
      simp only [Piece.text, List.length_append, List.length_cons, List.length_nil, List.length_map]
      omega
  | hex ds =>
    obtain ⟨h0, h1, h2⟩ := h
    refine ⟨asc (0x3b :: rest), 0x26, _, rfl, by omega, by omega, by omega, ?_, rfl, ?_⟩
    · simp only [Piece.text, List.cons_append, List.nil_append, asc_cons, cur_cons, if_true, List.tail_cons, Piece.code,
        List.append_assoc]
      have := entity_hex ds rest h1 (by have := h2.2.1; omega)
      simpa only [asc_cons] using this
    · have : 0 < ds.length := List.length_pos_of_ne_nil h0
      simp only [Piece.text, List.length_append, List.length_cons, List.length_nil, List.length_map]
      omega
  | lt => exact ⟨asc (0x3b :: rest), 0x26, _, rfl, by omega, by omega, by omega, rfl, rfl, by decide⟩
  | gt => exact ⟨asc (0x3b :: rest), 0x26, _, rfl, by omega, by omega, by omega, rfl, rfl, by decide⟩
  | amp => exact ⟨asc (0x3b :: rest), 0x26, _, rfl, by omega, by omega, by omega, rfl, rfl, by decide⟩
  | quot => exact ⟨asc (0x3b :: rest), 0x26, _, rfl, by omega, by omega, by omega, rfl, rfl, by decide⟩
  | apos => exact ⟨asc (0x3b :: rest), 0x26, _, rfl, by omega, by omega, by omega, rfl, rfl, by decide⟩

theorem textLoop_ok (delim : Nat) (hd : delim = 0x3c ∨ delim = 0x22 ∨ delim = 0x27) (l : List Piece) (rest : Str)
    (h : ∀ p ∈ l, p.Fits delim) (hr : cur (asc rest) = delim ∨ cur (asc rest) = 0x3c ∨ cur (asc rest) = 0) :
    ∀ n gap, l.length < n →
      textLoop delim n gap (asc (textOf l ++ rest)) = .ok ((codesOf l).flatMap utf8, asc rest) := by
  induction l with
  | nil =>
    intro n gap hn
    obtain ⟨n, rfl⟩ : ∃ m, n = m + 1 := ⟨n - 1, by simp at hn; omega⟩
    simp only [textOf, List.flatMap_nil, List.nil_append, textLoop, codesOf, List.map_nil]
    rw [if_pos hr]
  | cons p l ih =>
    intro n gap hn
    obtain ⟨n, rfl⟩ : ∃ m, n = m + 1 := ⟨n - 1, by simp at hn; omega⟩
    have hp := h p (by simp)
    obtain ⟨q, c, s, hc, hc1, hc2, hc3, hq, hqt, hlen⟩ := piece_read hp hd (textOf l ++ rest)
    have hcp := piece_code hp
    have ha : asc (textOf (p :: l) ++ rest) = asc (p.text ++ (textOf l ++ rest)) := by simp [textOf]
    rw [ha]
    have hcur : cur (asc (p.text ++ (textOf l ++ rest))) = c := by rw [hc]; rfl
    simp only [textLoop, hq, bind_ok, hqt]
    rw [hcur, if_neg (by omega), if_neg (by rw [(Utf8.ok_iff _).2 hcp]; simp)]
    have hg : gap + (bytesOf (asc (p.text ++ (textOf l ++ rest))) - bytesOf (asc (textOf l ++ rest)))
        = gap + p.text.length := by
      simp only [asc_bytes, List.length_append]; omega
    rw [hg, encode_utf8 p.code _ hcp (by omega)]
    have hu := utf8_len p.code
    cases hb : utf8 p.code with
    | nil => rw [hb] at hu; simp at hu
    | cons b bs =>
      dsimp only
      rw [ih (fun x hx => h x (by simp [hx])) n _ (by simp at hn; omega)]
      simp [codesOf, hb]

theorem piece_len (p : Piece) : 1 ≤ p.text.length := by
  cases p <;> simp [Piece.text]

theorem textOf_len (l : List Piece) : l.length ≤ (textOf l).length := by
  induction l with
  | nil => simp
  | cons p l ih =>
    have := piece_len p
    simp only [textOf, List.flatMap_cons, List.length_append, List.length_cons] at *
    omega

theorem parseText_ok (delim : Nat) (hd : delim = 0x3c ∨ delim = 0x22 ∨ delim = 0x27) (l : List Piece) (rest : Str)
    (h : ∀ p ∈ l, p.Fits delim) (hr : cur (asc rest) = delim ∨ cur (asc rest) = 0x3c ∨ cur (asc rest) = 0) :
    parseText delim (asc (textOf l ++ rest)) = .ok ((codesOf l).flatMap utf8, asc rest) := by
  have := textOf_len l
  refine textLoop_ok delim hd l rest h hr _ _ ?_
  simp
  omega

/-! ## Comments -/

theorem skipComment_ok (s rest : Str) (h : CommentOk s) :
    skipComment (asc (s ++ ([0x2d, 0x2d, 0x3e] ++ rest))) = .ok (asc rest) := by
  induction s with
  | nil =>
    rw [List.nil_append]
    simp only [List.cons_append, List.nil_append, asc_cons, skipComment, peek_cons]
    rw [if_pos (by simp)]
    exact expect_ok [0x2d, 0x2d, 0x3e] rest
  | cons c s ih =>
    obtain ⟨h1, h2, h3⟩ := h
    have hi := ih ⟨fun x hx => h1 x (by simp [hx]), fun hx => h2 (hx.trans (List.suffix_cons c s).isInfix), by
      cases s with
      | nil => simp
      | cons d s => simpa using h3⟩
    rw [List.cons_append, asc_cons, skipComment]
    rw [if_neg, hi]
    rintro ⟨hc, hp⟩
    dsimp only at hc
    subst hc
    cases s with
    | nil => simp at h3
    | cons d s =>
      have hd : d = 0x2d := by simpa using hp
      subst hd
      exact h2 ⟨[], s, rfl⟩

/-! ## Attributes -/

/-- the attribute that is read -/
def CAttr.read (a : CAttr) : Attr := ⟨a.pfx, a.name, some a.value⟩

theorem quote_cases (b : Bool) : quoteOf b = 0x22 ∨ quoteOf b = 0x27 := by cases b <;> simp [quoteOf]

theorem fullName_start {p : Option Str} {n : Str} (h : NameOk p n) : ∃ c s, fullName p n = c :: s ∧ IsNameStart c := by
  cases p with
  | none =>
    obtain ⟨⟨⟨c, s, rfl, hc⟩, _⟩, _⟩ := h
    exact ⟨c, s, rfl, hc⟩
  | some p =>
    obtain ⟨⟨c, s, rfl, hc⟩, _⟩ := h.2 p rfl
    exact ⟨c, s ++ 0x3a :: n, rfl, hc⟩

theorem nameStart_char {c : Nat} (h : IsNameStart c) : IsNameChar c := Or.inl h

theorem parseAttr_ok (a : CAttr) (h : AttrOk a) (rest : Str) :
    parseAttr (asc (a.text ++ rest)) = .ok (some a.read, asc rest) := by
  obtain ⟨h1, h2, h3, h4⟩ := h
  obtain ⟨c, s, hcs, hc⟩ := fullName_start h3
  have hcl := nameStart_lt hc
  have hsp := (nameChar_tag (nameStart_char hc)).2
  have hq := quote_cases a.double
  have e : a.text ++ rest
      = a.ws ++ (fullName a.pfx a.name ++ (0x3d :: quoteOf a.double :: (textOf a.val ++ (quoteOf a.double :: rest)))) := by
    simp [CAttr.text]
  rw [e]
  unfold parseAttr
  dsimp only
  rw [skipSpace_blanks _ _ h2 (by rw [hcs]; simpa using hsp)]
  rw [if_neg (by rw [hcs]; simp; omega)]
  rw [scopedName_ok _ _ _ h3 (stops_cons (by decide)) (by simp)]
  rw [bind_ok, if_neg (by simp), if_neg (by simp; omega)]
  have ht := parseText_ok (quoteOf a.double) (Or.inr hq) a.val (quoteOf a.double :: rest) h4 (Or.inl rfl)
  refine Eq.trans (congrArg (fun x => Res.bind x _) ht) ?_
  simp [CAttr.read, CAttr.value]

theorem parseAttr_end (ws rest : Str) (c : Nat) (h : ∀ x ∈ ws, IsBlank x) (hc : c = 0x2f ∨ c = 0x3e ∨ c = 0x3f) :
    parseAttr (asc (ws ++ c :: rest)) = .ok (none, asc (c :: rest)) := by
  unfold parseAttr
  dsimp only
  have : isSpace c = false := by rcases hc with h | h | h <;> subst h <;> rfl
  rw [skipSpace_blanks _ _ h (by simpa using this), if_pos (by simp; omega)]

/-- the environment of a scope -/
def Scope.env (s : Scope) : Env := ⟨s.pfxs.map fun x => (x.1, some x.2), s.dflt⟩

theorem attr_len (a : CAttr) (h : AttrOk a) : 1 ≤ a.text.length := by
  have := List.length_pos_of_ne_nil h.1
  simp only [CAttr.text, List.length_append]
  omega

theorem attrList_ok (as : List CAttr) (h : ∀ a ∈ as, AttrOk a) (ws rest : Str) (c : Nat) (hw : ∀ x ∈ ws, IsBlank x)
    (hc : c = 0x2f ∨ c = 0x3e ∨ c = 0x3f) : ∀ n s, as.length < n →
      attrList n (Scope.env s) (asc (as.flatMap CAttr.text ++ (ws ++ c :: rest)))
        = .ok ((s.extend as).env, (as.filter fun a => !a.isDecl).map CAttr.read, asc (c :: rest)) := by
  induction as with
  | nil =>
    intro n s hn
    obtain ⟨n, rfl⟩ : ∃ m, n = m + 1 := ⟨n - 1, by simp at hn; omega⟩
    simp only [attrList, List.flatMap_nil, List.nil_append, parseAttr_end ws rest c hw hc, bind_ok]
    simp [Scope.extend]
  | cons a as ih =>
    intro n s hn
    obtain ⟨n, rfl⟩ : ∃ m, n = m + 1 := ⟨n - 1, by simp at hn; omega⟩
    have ha := h a (by simp)
    have hl := attr_len a ha
    have hi := ih (fun x hx => h x (by simp [hx])) n
    have e : (a :: as).flatMap CAttr.text ++ (ws ++ c :: rest) = a.text ++ (as.flatMap CAttr.text ++ (ws ++ c :: rest)) := by simp
    rw [e]
    unfold attrList
    rw [parseAttr_ok a ha]
    rw [bind_ok]
    dsimp only
    rw [if_neg (by simp only [asc_length, List.length_append]; omega)]
    by_cases c1 : a.pfx = some xmlns
    · rw [if_pos (show a.read.pfx = _ from c1)]
      have : (⟨(a.read.name, a.read.val) :: s.env.map, s.env.dflt⟩ : Env) = Scope.env ⟨(a.name, a.value) :: s.pfxs, s.dflt⟩ := rfl
      rw [this, hi _ (by simp at hn; omega)]
      have hd : a.isDecl = true := by simp [CAttr.isDecl, c1]
      simp [Scope.extend, c1, List.filter_cons, hd]
    · rw [if_neg (show ¬ a.read.pfx = _ from c1)]
      by_cases c2 : a.pfx = none ∧ a.name = xmlns
      · rw [if_pos (show a.read.pfx = _ ∧ a.read.name = _ from c2)]
        show attrList n (Scope.env ⟨s.pfxs, some a.value⟩) _ = _
        rw [hi _ (by simp at hn; omega)]
        have hd : a.isDecl = true := by simp [CAttr.isDecl, c2]
        simp [Scope.extend, c2, List.filter_cons, hd]
      · rw [if_neg (show ¬ (a.read.pfx = _ ∧ a.read.name = _) from c2)]
        rw [hi _ (by simp at hn; omega)]
        have hd : a.isDecl = false := by
          simp only [CAttr.isDecl, Bool.or_eq_false_iff, beq_eq_false_iff_ne, Bool.and_eq_false_imp, beq_iff_eq]
          exact ⟨c1, fun e1 e2 => c2 ⟨e1, e2⟩⟩
        simp only [bind_ok, Scope.extend, if_neg c1, if_neg c2, List.filter_cons, hd, Bool.not_false, if_true, List.map_cons]

/-! ## Namespaces -/

theorem find_map (l : List (Str × Str)) (p : Str) :
    (l.map fun x => (x.1, some x.2)).find? (fun x : Str × Option Str => x.1 == p) = (l.lookup p).map fun v => (p, some v) := by
  induction l with
  | nil => rfl
  | cons x l ih =>
    obtain ⟨k, v⟩ := x
    simp only [List.map_cons, List.find?_cons, List.lookup_cons]
    by_cases h : k = p
    · simp [h]
    · have h' : ¬ p = k := fun e => h e.symm
      simp only [beq_eq_false_iff_ne.2 h, beq_eq_false_iff_ne.2 h', ih]

theorem findNs_elem (s : Scope) (p : Option Str) : findNs s.env p true = lift (elemNs s p) := by
  cases p with
  | none => rfl
  | some p =>
    simp only [findNs, Scope.env, find_map, elemNs, Scope.find]
    cases s.pfxs.lookup p <;> rfl

theorem findNs_attr (s : Scope) (p : Option Str) : findNs s.env p false = lift (attrNs s p) := by
  cases p with
  | none => rfl
  | some p =>
    simp only [findNs, Scope.env, find_map, attrNs, Scope.find]
    cases s.pfxs.lookup p <;> rfl

theorem resolveAttrs_ok (s : Scope) (l : List CAttr) : resolveAttrs s.env (l.map CAttr.read) = lift (meanAttrs s l) := by
  induction l with
  | nil => rfl
  | cons a l ih =>
    simp only [List.map_cons, resolveAttrs, meanAttrs, lift_bind, CAttr.read, findNs_attr, lift_some] at *
    rw [ih]

/-! ## Trimming -/

/-- the code point that the decoder gives -/
def dec (c : Nat) : Nat := c ||| Utf8.tagBits (utf8 c).length

theorem or_lt {a b n : Nat} (ha : a < 2 ^ n) (hb : b < 2 ^ n) : a ||| b < 2 ^ n := Nat.or_lt_two_pow ha hb

theorem dec_le (c : Nat) (h : c < 0x100000) : dec c ≤ 0x10ffff := by
  have : Utf8.tagBits (utf8 c).length < 2 ^ 20 := by
    unfold Utf8.tagBits; split <;> decide
  have := or_lt (n := 20) (a := c) (by omega) this
  unfold dec
  omega

theorem decode_utf8 (c : Nat) (rest : Str) (h : Utf8.CodePoint c) (hc : c < 0x100000) :
    Utf8.decode ⟨utf8 c ++ rest, (utf8 c ++ rest).length, none⟩ = some (dec c, ⟨rest, rest.length, none⟩) := by
  have := Utf8.C42_decode_encoded_partial (utf8 c) rest c (utf8 c ++ rest).length (utf8_encodes c h) (by simp)
  rw [this, if_neg (by have := dec_le c hc; unfold dec at this; omega)]
  simp [dec]

theorem isSpace_dec (c : Nat) (h0 : 0 < c) : isSpace (dec c) = trims c := by
  by_cases c1 : c < 0x80
  · have : dec c = c := by
      have := (utf8_len c).2.2 c1
      simp [dec, this, Utf8.tagBits]
    rw [this]
    rw [Bool.eq_iff_iff]
    simp [isSpace, trims]
    omega
  · have hbit : (dec c).testBit 7 = true ∧ c ≤ dec c ∧ (0x800 ≤ c → 0x2080 ≤ dec c) := by
      refine ⟨?_, Nat.left_le_or, ?_⟩
      · unfold dec utf8 Utf8.tagBits
        rw [if_neg c1]
        split_ifs <;> simp <;> right <;> decide
      · intro h
        unfold dec utf8 Utf8.tagBits
        rw [if_neg c1, if_neg (by omega)]
        split_ifs
        · exact Nat.right_le_or
        · exact Nat.le_trans (show 0x2080 ≤ 0x82080 by decide) Nat.right_le_or
    obtain ⟨hb, hle, h3⟩ := hbit
    rw [Bool.eq_iff_iff]
    constructor
    · intro hs
      have h85 : dec c = 0x85 := by
        simp only [isSpace, List.contains_cons, List.contains_nil, Bool.or_false, Bool.or_eq_true, beq_iff_eq] at hs
        rcases hs with h | h | h | h | h | h | h | h <;> first | exact h | (rw [h] at hb; exact absurd hb (by decide))
      have : 0x80 ≤ c ∧ c ≤ 0x85 := by omega
      obtain ⟨l, u⟩ := this
      interval_cases c <;> first | rfl | exact absurd h85 (by decide)
    · intro ht
      have : c = 0x85 := by simp [trims] at ht; omega
      subst this
      decide

theorem chars_utf8 (l : List Nat) (h : ∀ c ∈ l, Utf8.CodePoint c ∧ c < 0x100000) : ∀ n, (l.flatMap utf8).length ≤ n →
    chars n (l.flatMap utf8) = (l.map fun c => ⟨dec c, utf8 c⟩, false) := by
  induction l with
  | nil =>
    intro n _
    cases n <;> simp [chars, Utf8.decode, Utf8.iterGet]
  | cons c l ih =>
    intro n hn
    obtain ⟨hc, hc2⟩ := h c (by simp)
    have hu := utf8_len c
    simp only [List.flatMap_cons, List.length_append] at hn
    obtain ⟨n, rfl⟩ : ∃ m, n = m + 1 := ⟨n - 1, by omega⟩
    have hi := ih (fun x hx => h x (by simp [hx])) n (by omega)
    simp only [List.flatMap_cons, chars, decode_utf8 c _ hc hc2, hi, Option.isSome_none, Bool.false_eq_true, if_false]
    have : dec c ≠ 0 := by
      have : c ≤ dec c := Nat.left_le_or
      have := hc.1
      omega
    rw [if_neg this]
    simp

theorem dropWhile_map_dec (l : List Nat) (h : ∀ c ∈ l, 0 < c) :
    (l.map fun c => (⟨dec c, utf8 c⟩ : Ch)).dropWhile (fun c => isSpace c.cp) = (l.dropWhile trims).map fun c => ⟨dec c, utf8 c⟩ := by
  induction l with
  | nil => rfl
  | cons c l ih =>
    simp only [List.map_cons, List.dropWhile_cons, isSpace_dec c (h c (by simp))]
    split
    · exact ih fun x hx => h x (by simp [hx])
    · rfl

theorem chompStr_ok (l : List Nat) (h : ∀ c ∈ l, Utf8.CodePoint c ∧ c < 0x100000) :
    chompStr (l.flatMap utf8) = .ok ((trim l).flatMap utf8) := by
  have hc := chars_utf8 l h _ (Nat.le_refl _)
  unfold chompStr charsOf
  rw [hc]
  simp only [Bool.false_eq_true, if_false, skipSpace]
  rw [dropWhile_map_dec l (fun c hx => (h c hx).1.1), ← List.map_reverse, dropWhile_map_dec]
  · rw [← List.map_reverse, List.flatMap_map]
    rfl
  · intro c hx
    exact (h c (List.dropWhile_sublist _ |>.subset (List.mem_reverse.1 hx))).1.1

theorem flat_nil (l : List Nat) : l.flatMap utf8 = [] ↔ l = [] := by
  cases l with
  | nil => simp
  | cons c l =>
    have := utf8_len c
    simp only [List.flatMap_cons, List.append_eq_nil_iff, reduceCtorEq, iff_false]
    rintro ⟨e, _⟩
    rw [e] at this
    simp at this

end Hob3l.Xml
