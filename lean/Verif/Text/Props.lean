import Verif.Text.Spec
import Mathlib.Tactic.Ring
import Mathlib.Tactic.NormNum
import Mathlib.Tactic.Linarith
import Mathlib.Data.List.Infix

/-!
C136: style and position of `text`; `surface`.
-/

namespace Hob3l.Text

/-! ### `strstr` -/

theorem strstr_some {n : Str} : ∀ {s t : Str}, strstr n s = some t →
    t <:+ s ∧ n <+: t ∧ ∀ t', t' <:+ s → n <+: t' → t' <:+ t
  | [], t, h => by
    simp only [strstr] at h
    by_cases hp : n.isPrefixOf [] = true
    · rw [if_pos hp, Option.some.injEq] at h
      subst h
      exact ⟨List.suffix_refl _, List.isPrefixOf_iff_prefix.1 hp, fun t' ht _ => ht⟩
    · rw [if_neg hp] at h; cases h
  | c :: s, t, h => by
    simp only [strstr] at h
    by_cases hp : n.isPrefixOf (c :: s) = true
    · rw [if_pos hp, Option.some.injEq] at h
      subst h
      exact ⟨List.suffix_refl _, List.isPrefixOf_iff_prefix.1 hp, fun t' ht _ => ht⟩
    · rw [if_neg hp] at h
      obtain ⟨h1, h2, h3⟩ := strstr_some h
      refine ⟨h1.trans (List.suffix_cons c s), h2, fun t' ht hn => ?_⟩
      rcases List.suffix_cons_iff.1 ht with e | e
      · subst e; exact absurd (List.isPrefixOf_iff_prefix.2 hn) hp
      · exact h3 t' e hn

theorem strstr_none {n : Str} : ∀ {s : Str}, strstr n s = none → ∀ t, t <:+ s → ¬ n <+: t
  | [], h, t, ht, hn => by
    simp only [strstr] at h
    rw [List.suffix_nil] at ht
    subst ht
    rw [if_pos (List.isPrefixOf_iff_prefix.2 hn)] at h; cases h
  | c :: s, h, t, ht, hn => by
    simp only [strstr] at h
    by_cases hp : n.isPrefixOf (c :: s) = true
    · rw [if_pos hp] at h; cases h
    · rw [if_neg hp] at h
      rcases List.suffix_cons_iff.1 ht with e | e
      · subst e; exact hp (List.isPrefixOf_iff_prefix.2 hn)
      · exact strstr_none h t e hn

theorem infix_split {n s : Str} : n <:+: s ↔ ∃ t, n <+: t ∧ t <:+ s := List.infix_iff_prefix_suffix

theorem strstr_isSome {n s : Str} : (strstr n s).isSome = true ↔ n <:+: s := by
  rw [infix_split]
  cases h : strstr n s with
  | none =>
    simp only [Option.isSome_none, Bool.false_eq_true, false_iff]
    rintro ⟨t, h1, h2⟩
    exact strstr_none h t h2 h1
  | some t =>
    obtain ⟨h1, h2, _⟩ := strstr_some h
    simp only [Option.isSome_some, true_iff]
    exact ⟨t, h2, h1⟩

/-! ### style -/

theorem weightOf_spec (s : Str) : (weightOf s = .regular ∧ ∀ w, ¬ Asks s w) ∨ Asks s (weightOf s) := by
  simp only [weightOf, strstr_isSome]
  by_cases h1 : sBold <:+: s
  · rw [if_pos h1]; exact .inr ⟨_, rfl, h1⟩
  by_cases h2 : sMedium <:+: s
  · rw [if_neg h1, if_pos h2]; exact .inr ⟨_, rfl, h2⟩
  by_cases h3 : sBlack <:+: s
  · rw [if_neg h1, if_neg h2, if_pos h3]; exact .inr ⟨_, rfl, h3⟩
  by_cases h4 : sLight <:+: s
  · rw [if_neg h1, if_neg h2, if_neg h3, if_pos h4]; exact .inr ⟨_, rfl, h4⟩
  rw [if_neg h1, if_neg h2, if_neg h3, if_neg h4]
  refine .inl ⟨rfl, fun w => ?_⟩
  rintro ⟨k, hk, hi⟩
  cases w <;> simp only [keyword, Option.some.injEq, reduceCtorEq] at hk <;> subst hk <;> contradiction

/-- **C136** (full claim: `StyleOk font (fontOf font)` for all names; missing: keywords that are not after `:style=`, see
`C136_style_wrong`).  Whatever the name of the font, the keywords after `:style=` select the style. -/
theorem C136_style_partial (font : Str) (h : AfterStyle font) : StyleOk font (fontOf font) := by
  cases hs : strstr sStyle font with
  | none =>
    have no : ∀ k, (k = ['O', 'b', 'l', 'i', 'q', 'u', 'e'] ∨ k = ['I', 't', 'a', 'l', 'i', 'c'] ∨ ∃ w, keyword w = some k) →
        ¬ k <:+: font := by
      intro k hk hi
      obtain ⟨a, b, e, _⟩ := h k hk hi
      refine strstr_none hs (sStyle ++ b) ⟨a, ?_⟩ (List.prefix_append _ _)
      rw [e, List.append_assoc]; rfl
    simp only [fontOf, hs]
    refine ⟨?_, .inl ⟨rfl, ?_⟩⟩
    · simp only [Bool.false_eq_true, false_iff, not_or]
      exact ⟨no _ (.inl rfl), no _ (.inr (.inl rfl))⟩
    · rintro w ⟨k, hk, hi⟩
      exact no k (.inr (.inr ⟨w, hk⟩)) hi
  | some t =>
    obtain ⟨h1, _, h3⟩ := strstr_some hs
    have same : ∀ k, (k = ['O', 'b', 'l', 'i', 'q', 'u', 'e'] ∨ k = ['I', 't', 'a', 'l', 'i', 'c'] ∨ ∃ w, keyword w = some k) →
        (k <:+: t ↔ k <:+: font) := by
      intro k hk
      refine ⟨fun hi => hi.trans h1.isInfix, fun hi => ?_⟩
      obtain ⟨a, b, e, hb⟩ := h k hk hi
      have hsuf : sStyle ++ b <:+ t := by
        refine h3 _ ⟨a, ?_⟩ (List.prefix_append _ _)
        rw [e, List.append_assoc]; rfl
      exact (hb.trans (List.suffix_append _ _).isInfix).trans hsuf.isInfix
    have hw : (weightOf t = .regular ∧ ∀ w, ¬ Asks font w) ∨ Asks font (weightOf t) := by
      have asks : ∀ w, Asks t w ↔ Asks font w := fun w =>
        ⟨fun ⟨k, hk, hi⟩ => ⟨k, hk, (same k (.inr (.inr ⟨w, hk⟩))).1 hi⟩,
          fun ⟨k, hk, hi⟩ => ⟨k, hk, (same k (.inr (.inr ⟨w, hk⟩))).2 hi⟩⟩
      have := weightOf_spec t
      simpa only [asks] using this
    have ho : (strstr sOblique t).isSome = true ∨ (strstr sItalic t).isSome = true ↔
        ['O', 'b', 'l', 'i', 'q', 'u', 'e'] <:+: font ∨ ['I', 't', 'a', 'l', 'i', 'c'] <:+: font := by
      rw [strstr_isSome, strstr_isSome, ← same _ (.inl rfl), ← same _ (.inr (.inl rfl))]
      exact Iff.rfl
    simp only [fontOf, hs]
    by_cases hc : ((strstr sOblique t).isSome || (strstr sItalic t).isSome) = true
    · rw [if_pos hc]
      exact ⟨by rw [← ho, ← Bool.or_eq_true]; simp only [hc], hw⟩
    · rw [if_neg hc]
      exact ⟨by rw [← ho, ← Bool.or_eq_true]; simp only [hc, Bool.false_eq_true], hw⟩

/-- the keywords of `Sans:style=Bold Italic` are all after `:style=`, and the font is bold and oblique -/
example : fontOf (['S', 'a', 'n', 's'] ++ sStyle ++ sBold ++ [' '] ++ sItalic) = ⟨true, .bold⟩ := by decide

instance (a b : Str) : Decidable (a <:+: b) := decidable_of_iff _ (strstr_isSome (n := a) (s := b))

example : AfterStyle (['S', 'a', 'n', 's'] ++ sStyle ++ sBold ++ [' '] ++ sItalic) := by
  intro k hk hi
  refine ⟨['S', 'a', 'n', 's'], sBold ++ [' '] ++ sItalic, by decide, ?_⟩
  rcases hk with rfl | rfl | ⟨w, hw⟩
  · exact absurd hi (by decide)
  · decide
  · cases w <;> simp only [keyword, Option.some.injEq, reduceCtorEq] at hw <;> subst hw <;> revert hi <;> decide

/-- **C136** is wrong for keywords without `:style=`: `Sans Bold` is not bold, although the manual says that the keyword selects
the weight wherever it is found -/
theorem C136_style_wrong : ∃ font, ¬ StyleOk font (fontOf font) := by
  refine ⟨['S', 'a', 'n', 's', ' '] ++ sBold, fun h => ?_⟩
  have e : fontOf (['S', 'a', 'n', 's', ' '] ++ sBold) = ⟨false, .regular⟩ := by decide
  rcases h.weight with ⟨_, h2⟩ | ⟨k, hk, _⟩
  · exact h2 .bold ⟨sBold, rfl, ⟨['S', 'a', 'n', 's', ' '], [], by decide⟩⟩
  · rw [e] at hk; cases hk

/-! ### position -/

theorem bbox_none : ∀ {l : List V2}, bbox l = none → l = []
  | [], _ => rfl
  | p :: l, h => by
    simp only [bbox] at h
    split at h <;> cases h

theorem bbox_some : ∀ {l : List V2} {lo hi : ℚ}, bbox l = some (lo, hi) →
    IsLeast {y | ∃ v ∈ l, v.y = y} lo ∧ IsGreatest {y | ∃ v ∈ l, v.y = y} hi
  | [], _, _, h => by cases h
  | p :: l, lo, hi, h => by
    simp only [bbox] at h
    split at h
    · rename_i hn
      rw [bbox_none hn]
      simp only [Option.some.injEq, Prod.mk.injEq] at h
      obtain ⟨rfl, rfl⟩ := h
      refine ⟨⟨⟨p, List.mem_singleton.2 rfl, rfl⟩, ?_⟩, ⟨p, List.mem_singleton.2 rfl, rfl⟩, ?_⟩
      · rintro y ⟨v, hv, rfl⟩; rw [List.mem_singleton.1 hv]
      · rintro y ⟨v, hv, rfl⟩; rw [List.mem_singleton.1 hv]
    · rename_i l0 h0 hs
      obtain ⟨⟨⟨a, ha, ea⟩, h1⟩, ⟨b, hb, eb⟩, h2⟩ := bbox_some hs
      simp only [Option.some.injEq, Prod.mk.injEq] at h
      obtain ⟨rfl, rfl⟩ := h
      refine ⟨⟨?_, ?_⟩, ?_, ?_⟩
      · rcases min_choice p.y l0 with e | e
        · exact ⟨p, List.mem_cons_self, e.symm⟩
        · exact ⟨a, List.mem_cons_of_mem _ ha, by rw [e, ea]⟩
      · rintro y ⟨v, hv, rfl⟩
        rcases List.mem_cons.1 hv with rfl | hv
        · exact min_le_left _ _
        · exact (min_le_right _ _).trans (h1 ⟨v, hv, rfl⟩)
      · rcases max_choice p.y h0 with e | e
        · exact ⟨p, List.mem_cons_self, e.symm⟩
        · exact ⟨b, List.mem_cons_of_mem _ hb, by rw [e, eb]⟩
      · rintro y ⟨v, hv, rfl⟩
        rcases List.mem_cons.1 hv with rfl | hv
        · exact le_max_left _ _
        · exact (h2 ⟨v, hv, rfl⟩).trans (le_max_right _ _)

theorem ysOf_flatten (rc : List (List V2)) : ysOf rc = {y | ∃ v ∈ rc.flatten, v.y = y} := by
  ext y
  simp only [ysOf, Set.mem_setOf_eq, List.mem_flatten]
  constructor
  · rintro ⟨p, hp, v, hv, e⟩; exact ⟨v, ⟨p, hp, hv⟩, e⟩
  · rintro ⟨v, ⟨p, hp, hv⟩, e⟩; exact ⟨p, hp, v, hv, e⟩

theorem xform_mul (mo : M) (wx wy : ℚ) (v : V2) :
    (mo.mul { M.unit with wx := wx, wy := wy }).xform v = mo.xform ⟨v.x + wx, v.y + wy⟩ := by
  simp only [M.mul, M.xform, M.unit, V2.mk.injEq]
  constructor <;> ring

/-- the shift that the code makes -/
theorem place_eq (ha va : Str) (cur : ℚ) (rc : List (List V2)) (mo : M) {lo hi : ℚ} (hb : bbox rc.flatten = some (lo, hi)) :
    place ha va cur rc mo = rc.map fun p => p.map fun v => mo.xform
      ⟨v.x - (if ha = sRight then cur else if ha = sCenter then cur / 2 else 0),
        v.y - (if ha = sTop then hi else if ha = sBottom then lo else 0)⟩ := by
  have e : ∀ (wx wy dx dy : ℚ), wx = -dx → wy = -dy →
      (rc.map fun p => p.map (mo.mul { M.unit with wx := wx, wy := wy }).xform) =
      rc.map fun p => p.map fun v => mo.xform ⟨v.x - dx, v.y - dy⟩ := by
    intro wx wy dx dy h1 h2
    subst h1 h2
    refine List.map_congr_left fun p _ => List.map_congr_left fun v _ => ?_
    rw [xform_mul, sub_eq_add_neg, sub_eq_add_neg]
  simp only [place, hb]
  by_cases h1 : ha = sRight
  · subst h1
    simp only [if_pos, show ¬ sRight = sCenter by decide, show ¬ sRight = sTop by decide, show ¬ sRight = sBottom by decide, if_false]
    exact e _ _ _ _ (by simp only [M.unit]; ring) (by simp only [M.unit]; ring)
  by_cases h2 : ha = sCenter
  · subst h2
    simp only [if_pos, show ¬ sCenter = sRight by decide, show ¬ sCenter = sTop by decide, show ¬ sCenter = sBottom by decide, if_false]
    exact e _ _ _ _ (by simp only [M.unit]; ring) (by simp only [M.unit]; ring)
  by_cases h3 : ha = sTop
  · subst h3
    simp only [if_pos, show ¬ sTop = sRight by decide, show ¬ sTop = sCenter by decide, show ¬ sTop = sBottom by decide, if_false]
    exact e _ _ _ _ (by simp only [M.unit]; ring) (by simp only [M.unit]; ring)
  by_cases h4 : ha = sBottom
  · subst h4
    simp only [if_pos, show ¬ sBottom = sRight by decide, show ¬ sBottom = sCenter by decide, show ¬ sBottom = sTop by decide, if_false]
    exact e _ _ _ _ (by simp only [M.unit]; ring) (by simp only [M.unit]; ring)
  simp only [if_neg h1, if_neg h2, if_neg h3, if_neg h4]
  exact e 0 0 0 0 neg_zero.symm neg_zero.symm

/-- **C136** (full claim: for all `valign`; missing: all but the default, see `C136_valign_wrong`).  A text with at least one point,
for which the program has fonts, and that is in a 2D context, is moved to the left, to the right or to the center as `halign` says,
and then transformed by what is around it. -/
theorem C136_place_partial (err : Bool) (print : Printer) (mo : M) (s : TextArg) {rc : List (List V2)} {cur : ℚ}
    (hp : print (fontOf s.font) s.text = some (rc, cur)) (hne : ∃ p ∈ rc, p ≠ [])
    (hh : s.halign = ['l', 'e', 'f', 't'] ∨ s.halign = ['c', 'e', 'n', 't', 'e', 'r'] ∨ s.halign = ['r', 'i', 'g', 'h', 't'])
    (hv : s.valign = ['b', 'a', 's', 'e', 'l', 'i', 'n', 'e']) :
    ∃ out, fromText true err true print mo s = .ok out ∧ Placed s.halign s.valign cur rc mo.xform out := by
  refine ⟨_, by simp only [fromText, hp, Bool.not_true, Bool.false_eq_true, if_false, if_true]; rfl, ?_⟩
  rw [hv]
  cases hb : bbox rc.flatten with
  | none =>
    obtain ⟨p, hp, hn⟩ := hne
    exact absurd (List.flatten_eq_nil_iff.1 (bbox_none hb) p hp) hn
  | some b =>
    obtain ⟨lo, hi⟩ := b
    rw [place_eq _ _ _ _ _ hb]
    rcases hh with h | h | h <;> rw [h]
    · exact ⟨_, _, .left, .baseline, rfl⟩
    · exact ⟨_, _, .center, .baseline, rfl⟩
    · exact ⟨_, _, .right, .baseline, rfl⟩

/-- **C136**: what `valign` should do is done by `halign` -/
theorem C136_swapped (va : Str) (cur : ℚ) (rc : List (List V2)) (mo : M) (hne : ∃ p ∈ rc, p ≠ []) (ha : Str)
    (hh : ha = ['t', 'o', 'p'] ∨ ha = ['b', 'o', 't', 't', 'o', 'm']) :
    Placed ['l', 'e', 'f', 't'] ha cur rc mo.xform (place ha va cur rc mo) := by
  cases hb : bbox rc.flatten with
  | none =>
    obtain ⟨p, hp, hn⟩ := hne
    exact absurd (List.flatten_eq_nil_iff.1 (bbox_none hb) p hp) hn
  | some b =>
    obtain ⟨lo, hi⟩ := b
    obtain ⟨h1, h2⟩ := bbox_some hb
    rw [← ysOf_flatten] at h1 h2
    rw [place_eq _ _ _ _ _ hb]
    rcases hh with rfl | rfl
    · exact ⟨_, _, .left, .top h2, rfl⟩
    · exact ⟨_, _, .left, .bottom h1, rfl⟩

/-- `halign="top"`: the triangle moves down by 3 -/
example : place sTop sBaseline 2 [[⟨0, 1⟩, ⟨1, 1⟩, ⟨1, 3⟩]] M.unit = [[⟨0, -2⟩, ⟨1, -2⟩, ⟨1, 0⟩]] := by
  rw [place_eq (lo := 1) (hi := 3) _ _ _ _ _ (by norm_num [bbox])]
  simp only [show ¬ sTop = sRight by decide, show ¬ sTop = sCenter by decide, if_false, if_true]
  norm_num [M.xform, M.unit]

/-- a triangle -/
def tri : List (List V2) := [[⟨0, 1⟩, ⟨1, 1⟩, ⟨1, 3⟩]]

theorem tri_bbox : bbox tri.flatten = some (1, 3) := by
  norm_num [tri, bbox]

/-- the hypotheses are met: the triangle, 2 units wide, centered, and then turned by 90 degrees and moved -/
example : fromText true true true (fun _ _ => some (tri, 2)) ⟨0, -1, 0, 1, 0, 0, 10, 0⟩ ⟨['A'], ['S'], sCenter, sBaseline⟩ =
    .ok [[⟨9, -1⟩, ⟨9, 0⟩, ⟨7, 0⟩]] := by
  simp only [fromText, Bool.not_true, Bool.false_eq_true, if_false, if_true]
  rw [place_eq _ _ _ _ _ tri_bbox]
  simp only [show ¬ sCenter = sRight by decide, show ¬ sCenter = sTop by decide, show ¬ sCenter = sBottom by decide, if_false, if_true]
  norm_num [tri, M.xform]

/-- **C136** is wrong for `valign`: it is ignored -/
theorem C136_valign_wrong : ∃ rc : List (List V2), (∃ p ∈ rc, p ≠ []) ∧
    ∀ va, va = ['t', 'o', 'p'] ∨ va = ['b', 'o', 't', 't', 'o', 'm'] → ∀ cur, ∀ mo : M, mo.m00 * mo.m11 - mo.m01 * mo.m10 ≠ 0 →
      ¬ Placed ['l', 'e', 'f', 't'] va cur rc mo.xform (place ['l', 'e', 'f', 't'] va cur rc mo) := by
  refine ⟨tri, ⟨_, List.mem_singleton.2 rfl, by simp⟩, fun va hva cur mo hd => ?_⟩
  rintro ⟨dx, dy, hx, hy, e⟩
  cases hx
  have hb := tri_bbox
  rw [place_eq _ _ _ _ _ hb] at e
  have hd0 : dy ≠ 0 := by
    rintro rfl
    obtain ⟨⟨_, l1⟩, _, _⟩ := bbox_some hb
    rcases hva with rfl | rfl
    · cases hy with
      | top h =>
        rw [ysOf_flatten] at h
        have := l1 h.1
        norm_num at this
    · cases hy with
      | bottom h =>
        rw [ysOf_flatten] at h
        have := l1 h.1
        norm_num at this
  simp only [tri, List.map_cons, List.map_nil, List.cons.injEq, and_true, M.xform, V2.mk.injEq,
    show ¬ ['l', 'e', 'f', 't'] = sTop by decide, show ¬ ['l', 'e', 'f', 't'] = sBottom by decide,
    show ¬ ['l', 'e', 'f', 't'] = sRight by decide, show ¬ ['l', 'e', 'f', 't'] = sCenter by decide, if_false] at e
  obtain ⟨⟨e1, e2⟩, _⟩ := e
  have f1 : mo.m01 * dy = 0 := by linarith
  have f2 : mo.m11 * dy = 0 := by linarith
  have g1 := (mul_eq_zero.1 f1).resolve_right hd0
  have g2 := (mul_eq_zero.1 f2).resolve_right hd0
  apply hd
  rw [g1, g2]; ring

/-! ### errors -/

/-- **C136**: errors in the encoding are reported, and so is a `text` or `surface` in the wrong place and a file that cannot be read:
the result has an object only if there was no error -/
theorem C136_errors (two err wf : Bool) (print : Printer) (mo : M) (s : TextArg) (readable : Bool) :
    (∀ out, fromText two err wf print mo s = .ok out → out ≠ [] → two = true ∧ wf = true ∧
      ∃ rc cur, print (fontOf s.font) s.text = some (rc, cur) ∧ out.length = rc.length) ∧
    (∀ out, fromSurface two err readable ≠ .ok out) ∧
    (readable = false → fromSurface two err readable = .fail ∨ two = false ∧ err = false ∧ fromSurface two err readable = .warn) := by
  refine ⟨fun out h hne => ?_, fun out => ?_, fun hr => ?_⟩
  · cases two with
    | false => cases err <;> simp [fromText] at h
    | true =>
      cases wf with
      | false => simp [fromText] at h; exact absurd h hne
      | true =>
        refine ⟨rfl, rfl, ?_⟩
        simp only [fromText, Bool.not_true, Bool.false_eq_true, if_false, if_true] at h
        split at h
        · cases h
        · rename_i rc cur hp
          simp only [Res.ok.injEq] at h
          refine ⟨rc, cur, hp, ?_⟩
          rw [← h] at hne ⊢
          cases hb : bbox rc.flatten with
          | none => simp only [place, hb] at hne; exact absurd rfl hne
          | some b => rw [place_eq _ _ _ _ _ hb, List.length_map]
  · cases two <;> cases err <;> cases readable <;> exact Res.noConfusion
  · subst hr
    cases two <;> cases err <;> decide

/-- **C136** is wrong for programs built without fonts (the default): the text is dropped without any message -/
theorem C136_silent_wrong (err : Bool) (mo : M) (s : TextArg) : ∃ print : Printer,
    (∃ rc cur, print (fontOf s.font) s.text = some (rc, cur) ∧ ysOf rc ≠ ∅) ∧ fromText true err false print mo s = .ok [] := by
  refine ⟨fun _ _ => some (tri, 2), ⟨tri, 2, rfl, ?_⟩, rfl⟩
  intro h
  have : (1 : ℚ) ∈ ysOf tri := ⟨_, List.mem_singleton.2 rfl, ⟨0, 1⟩, List.mem_cons_self, rfl⟩
  rw [h] at this
  exact this

/-- **C136** is wrong for `surface`: with a file that can be read, the program ends by `cp_panic`, instead of reporting an error with
the place in the file (panic.c:20-23 says that this should not be used for user input) -/
theorem C136_surface_wrong (err : Bool) : fromSurface true err true = .abort := rfl

end Hob3l.Text
