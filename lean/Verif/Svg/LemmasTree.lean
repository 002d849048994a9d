import Verif.Svg.LemmasXform
import Mathlib.Data.List.Forall2

/-!
Lemmas about the recursion through the elements.
-/

namespace Hob3l.Svg

variable {K : Type} [Field K]

/-- the element is found if it is the layer -/
def Found (layer : Option (List Char)) (e : Elem) : Prop :=
  ∀ l, layer = some l → e.attrs.get "id" = some l → e.attrs.get "transform" ≠ none

theorem stdAttr_ok (t : Trig K) (c : Local K) (e : Elem) (h : ElemOk e) (hf : Found c.layer e) :
    ∃ g m, ElemMap t e g ∧ (∀ p, Mat.app m p = c.mat.app (g p))
      ∧ stdAttr t c e.attrs = { c with mat := m, layer := (if Shown c.layer [e] then none else c.layer) } := by
  rcases h with h | ⟨lead, fs, h, hfs⟩
  · refine ⟨id, c.mat, .inl ⟨h, rfl⟩, fun p => rfl, ?_⟩
    unfold stdAttr
    rw [h]
    simp only
    cases hl : c.layer with
    | none => simp only [ite_self]; rw [← hl]
    | some l =>
      have : ¬ e.attrs.get "id" = some l := fun h1 => hf l hl h1 h
      simp only [Shown, List.any_cons, List.any_nil, Bool.or_false, decide_eq_true_eq, if_neg this]
      rw [← hl]
  · obtain ⟨m, h1, h2⟩ := xformAttr_ok t c.mat lead fs hfs
    refine ⟨mapFns t fs, m, .inr ⟨lead, fs, h, hfs, rfl⟩, h2, ?_⟩
    unfold stdAttr
    rw [h]
    simp only [h1, Bool.not_true, Bool.false_eq_true, if_false]
    cases hl : c.layer with
    | none => simp only [ite_self]
    | some l =>
      by_cases hi : e.attrs.get "id" = some l
      · simp only [Shown, List.any_cons, List.any_nil, Bool.or_false, decide_eq_true_eq, if_pos hi]
      · simp only [Shown, List.any_cons, List.any_nil, Bool.or_false, decide_eq_true_eq, if_neg hi]

theorem shown_cons (layer : Option (List Char)) (e : Elem) (l : List Elem) :
    Shown layer (e :: l) = Shown (if Shown layer [e] then none else layer) l := by
  cases layer with
  | none => simp [Shown]
  | some x =>
    by_cases h : e.attrs.get "id" = some x <;> simp [Shown, h]

/-- the call is right for the shape -/
def CallOk (t : Trig K) (c : Local K) (chain : List Elem) (k : Call K) : Prop :=
  ∃ e g, chain.getLast? = some e ∧ k.name = e.name ∧ k.attrs = e.attrs ∧ ChainMap t chain g
    ∧ (∀ p, k.ctx.mat.app p = c.mat.app (g p))
    ∧ k.ctx.width = c.width ∧ k.ctx.height = c.height ∧ k.ctx.dim = c.dim

theorem elemKind_eq (name : String) (h : name ≠ "svg") :
    elemKind name = if name ∈ hiddenNames then .noRec else if name ∈ shapeNames then .obj else .g := by
  unfold elemKind
  rw [if_neg h]
  by_cases hg : name = "g"
  · subst hg; decide
  · rw [if_neg hg]
    by_cases h1 : name ∈ shapeNames
    · have h2 : name ∉ hiddenNames := by
        intro h2
        simp only [shapeNames, List.mem_cons, List.not_mem_nil, or_false] at h1
        rcases h1 with rfl | rfl | rfl | rfl | rfl | rfl | rfl <;> revert h2 <;> decide
      rw [if_neg h2, if_pos h1]
      exact if_pos h1
    · rw [if_neg h1]
      exact if_neg h1

mutual

theorem walkNode_ok (t : Trig K) (svg : Local K → Attrs → Local K) (c : Local K) (n : Node) (hn : noSvg n)
    (ho : ∀ ch ∈ shapesIn n, ∀ e ∈ ch, ElemOk e ∧ Found c.layer e) :
    List.Forall₂ (CallOk t c) ((shapesIn n).filter (Shown c.layer)) (walkNode t svg c n) := by
  match n, hn, ho with
  | .mk ns name attrs sub, hn, ho =>
    rw [noSvg] at hn
    rw [shapesIn] at ho ⊢
    rw [walkNode, elemKind_eq name hn.1]
    cases ns with
    | false => simp
    | true =>
      simp only [Bool.true_eq_false, false_or, Bool.not_true, Bool.false_eq_true, if_false] at ho ⊢
      by_cases hh : name ∈ hiddenNames
      · simp [hh]
      · rw [if_neg hh] at ho
        simp only [if_neg hh]
        by_cases hs : name ∈ shapeNames
        · rw [if_pos hs] at ho
          simp only [if_pos hs]
          obtain ⟨h1, h2⟩ := ho _ (List.mem_singleton.2 rfl) ⟨name, attrs⟩ (List.mem_singleton.2 rfl)
          obtain ⟨g, m, hg, hm, he⟩ := stdAttr_ok t c ⟨name, attrs⟩ h1 h2
          simp only at he
          rw [he]
          simp only
          by_cases hsh : Shown c.layer [⟨name, attrs⟩] = true
          · rw [List.filter_cons_of_pos hsh]
            simp only [if_pos hsh, Option.isSome_none, Bool.false_eq_true, if_false, List.filter_nil]
            refine .cons ⟨⟨name, attrs⟩, g, rfl, rfl, rfl, ⟨g, id, hg, rfl, rfl⟩, hm, rfl, rfl, rfl⟩ .nil
          · rw [List.filter_cons_of_neg hsh]
            have hl : c.layer.isSome = true := by
              cases hl : c.layer with
              | none => rw [hl] at hsh; exact absurd rfl hsh
              | some l => rfl
            simp only [if_neg hsh, hl, if_true, List.filter_nil]
            exact .nil
        · rw [if_neg hs] at ho
          simp only [if_neg hs]
          have ho' : ∀ ch ∈ shapesOf sub, (ElemOk ⟨name, attrs⟩ ∧ Found c.layer ⟨name, attrs⟩) ∧ ∀ e ∈ ch, ElemOk e ∧ Found c.layer e := by
            intro ch hch
            have := ho _ (List.mem_map_of_mem hch)
            exact ⟨this _ (List.mem_cons_self ..), fun e he => this e (List.mem_cons_of_mem _ he)⟩
          cases hsub : shapesOf sub with
          | nil =>
            have := walk_ok t svg (stdAttr t c attrs) sub hn.2 (by rw [hsub]; intro ch hch; cases hch)
            rw [hsub] at this
            simpa using this
          | cons ch0 rest =>
            obtain ⟨h1, h2⟩ := (ho' ch0 (by rw [hsub]; exact List.mem_cons_self ..)).1
            obtain ⟨g, m, hg, hm, he⟩ := stdAttr_ok t c ⟨name, attrs⟩ h1 h2
            simp only at he
            have hrec := walk_ok t svg (stdAttr t c attrs) sub hn.2 (by
              intro ch hch e hmem
              obtain ⟨h3, h4⟩ := (ho' ch hch).2 e hmem
              refine ⟨h3, ?_⟩
              rw [he]
              intro l hl
              simp only at hl
              split at hl
              · cases hl
              · exact h4 l hl)
            rw [← hsub]
            rw [List.filter_map, List.forall₂_map_left_iff]
            have hfun : (Shown c.layer ∘ fun x => (⟨name, attrs⟩ : Elem) :: x) = Shown (stdAttr t c attrs).layer := by
              funext l
              rw [he]
              exact shown_cons c.layer ⟨name, attrs⟩ l
            rw [hfun]
            refine hrec.imp ?_
            rintro ch k ⟨e, g', h5, h6, h7, h8, h9, h10, h11, h12⟩
            rw [he] at h9 h10 h11 h12
            refine ⟨e, g ∘ g', ?_, h6, h7, ⟨g, g', hg, h8, rfl⟩, ?_, h10, h11, h12⟩
            · rw [List.getLast?_cons, h5]; rfl
            · intro p
              rw [h9 p]
              exact hm (g' p)

theorem walk_ok (t : Trig K) (svg : Local K → Attrs → Local K) (c : Local K) (l : List Node) (hn : noSvgs l)
    (ho : ∀ ch ∈ shapesOf l, ∀ e ∈ ch, ElemOk e ∧ Found c.layer e) :
    List.Forall₂ (CallOk t c) ((shapesOf l).filter (Shown c.layer)) (walk t svg c l) := by
  match l, hn, ho with
  | [], _, _ => rw [shapesOf, walk]; exact .nil
  | n :: l, hn, ho =>
    rw [noSvgs] at hn
    rw [shapesOf] at ho ⊢
    rw [walk, List.filter_append]
    exact List.rel_append
      (walkNode_ok t svg c n hn.1 fun ch h => ho ch (List.mem_append_left _ h))
      (walk_ok t svg c l hn.2 fun ch h => ho ch (List.mem_append_right _ h))

end

end Hob3l.Svg
