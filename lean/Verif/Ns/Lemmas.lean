import Verif.Ns.Spec

/-!
The trees of the XML parser have the attributes first.
-/

namespace Hob3l.Ns

open Hob3l.Xml

theorem bind_eq_ok {α β : Type} {x : Res α} {f : α → Res β} {b : β} (h : x.bind f = .ok b) : ∃ a, x = .ok a ∧ f a = .ok b := by
  cases x with
  | ok a => exact ⟨a, rfl, h⟩
  | fail | crash | hang | stuck => exact Res.noConfusion rfl (heq_of_eq h)

/-- tidy, and not an attribute -/
def Good : Nd → Prop
  | .attr .. => False
  | x => Tidy x

def IsAttr : Nd → Prop
  | .attr .. => True
  | _ => False

theorem tidyL_of : ∀ l : List Nd, (∀ x ∈ l, IsAttr x ∨ Good x) → TidyL l
  | [], _ => trivial
  | x :: l, h => by
    refine ⟨?_, tidyL_of l fun y hy => h y (List.mem_cons_of_mem _ hy)⟩
    rcases h x List.mem_cons_self with hx | hx
    · cases x with
      | attr => simp only [Tidy]
      | elem => exact hx.elim
      | cdata => exact hx.elim
    · cases x with
      | attr => exact hx.elim
      | elem => exact hx
      | cdata => simp only [Tidy]

theorem first_of : ∀ (as q : List Nd), (∀ x ∈ as, IsAttr x) → (∀ x ∈ q, Good x) → first (as ++ q)
  | [], [], _, _ => trivial
  | [], x :: q, _, h => by
    have hq : ∀ y ∈ q, match y with | .attr .. => False | _ => True := by
      intro y hy
      have := h y (List.mem_cons_of_mem _ hy)
      cases y with
      | attr => exact this.elim
      | elem => trivial
      | cdata => trivial
    cases x with
    | attr => exact (h _ List.mem_cons_self).elim
    | elem => exact hq
    | cdata => exact hq
  | x :: as, q, ha, h => by
    cases x with
    | attr => exact first_of as q (fun y hy => ha y (List.mem_cons_of_mem _ hy)) h
    | elem => exact (ha _ List.mem_cons_self).elim
    | cdata => exact (ha _ List.mem_cons_self).elim

theorem tidy_elem (p : Option Str) (n : Str) (ns : Option Str) (as q : List Nd) (ha : ∀ x ∈ as, IsAttr x) (hq : ∀ x ∈ q, Good x) :
    Good (.elem p n ns (as ++ q)) := by
  refine ⟨first_of as q ha hq, tidyL_of _ fun x hx => ?_⟩
  rcases List.mem_append.1 hx with h | h
  · exact .inl (ha x h)
  · exact .inr (hq x h)

theorem chomp_good : ∀ (q b : List Nd), (∀ x ∈ q, Good x) → chomp q = .ok b → ∀ x ∈ b, Good x
  | [], b, _, h => by
    simp only [chomp, Res.ok.injEq] at h
    subst h
    intro x hx; cases hx
  | .cdata t :: q, b, hq, h => by
    simp only [chomp] at h
    obtain ⟨t', _, h⟩ := bind_eq_ok h
    obtain ⟨c, hc, h⟩ := bind_eq_ok h
    have ih := chomp_good q c (fun y hy => hq y (List.mem_cons_of_mem _ hy)) hc
    simp only [Res.ok.injEq] at h
    subst h
    intro x hx
    by_cases ht : t' = []
    · rw [if_pos ht] at hx; exact ih x hx
    · rw [if_neg ht] at hx
      rcases List.mem_cons.1 hx with rfl | hx
      · simp only [Good, Tidy]
      · exact ih x hx
  | .attr p n ns v :: q, b, hq, h => (hq _ List.mem_cons_self).elim
  | .elem p n ns cc :: q, b, hq, h => by
    simp only [chomp] at h
    obtain ⟨c, hc, h⟩ := bind_eq_ok h
    have ih := chomp_good q c (fun y hy => hq y (List.mem_cons_of_mem _ hy)) hc
    simp only [Res.ok.injEq] at h
    subst h
    intro x hx
    rcases List.mem_cons.1 hx with rfl | hx
    · exact hq _ List.mem_cons_self
    · exact ih x hx

theorem chomp_attrs_good : ∀ (as q b : List Nd), (∀ x ∈ as, IsAttr x) → (∀ x ∈ q, Good x) → chomp (as ++ q) = .ok b →
    ∃ r, b = as ++ r ∧ ∀ x ∈ r, Good x
  | [], q, b, _, hq, h => ⟨b, rfl, chomp_good q b hq h⟩
  | .attr p n ns v :: as, q, b, ha, hq, h => by
    simp only [List.cons_append, chomp] at h
    obtain ⟨c, hc, h⟩ := bind_eq_ok h
    obtain ⟨r, rfl, hr⟩ := chomp_attrs_good as q c (fun y hy => ha y (List.mem_cons_of_mem _ hy)) hq hc
    simp only [Res.ok.injEq] at h
    exact ⟨r, h.symm, hr⟩
  | .elem .. :: as, q, b, ha, hq, h => (ha _ List.mem_cons_self).elim
  | .cdata _ :: as, q, b, ha, hq, h => (ha _ List.mem_cons_self).elim

theorem resolveAttrs_attr (env : Env) : ∀ (l : List Attr) (q : List Nd), resolveAttrs env l = .ok q → ∀ x ∈ q, IsAttr x
  | [], q, h => by
    simp only [resolveAttrs, Res.ok.injEq] at h
    subst h
    intro x hx; cases hx
  | a :: l, q, h => by
    simp only [resolveAttrs] at h
    obtain ⟨ns, _, h⟩ := bind_eq_ok h
    obtain ⟨r, hr, h⟩ := bind_eq_ok h
    simp only [Res.ok.injEq] at h
    subst h
    intro x hx
    rcases List.mem_cons.1 hx with rfl | hx
    · trivial
    · exact resolveAttrs_attr env l r hr x hx

theorem parse_good (opt : Bool) : ∀ n,
    (∀ env l r, elem opt n env l = .ok r → Good r.1) ∧
    (∀ env l r x, content opt n env l = .ok r → r.1 = some x → Good x) ∧
    (∀ env tag l q, contentList opt n env tag l = .ok q → ∀ x ∈ q.1, Good x)
  | 0 => by
    refine ⟨fun env l r h => ?_, fun env l r x h => ?_, fun env tag l q h => ?_⟩
    · simp only [elem, reduceCtorEq] at h
    · simp only [content, reduceCtorEq] at h
    · simp only [contentList, reduceCtorEq] at h
  | n + 1 => by
    obtain ⟨i1, i2, i3⟩ := parse_good opt n
    refine ⟨fun env l r h => ?_, fun env l r x h hx => ?_, fun env tag l q h => ?_⟩
    · simp only [elem] at h
      obtain ⟨s, _, h⟩ := bind_eq_ok h
      obtain ⟨a, _, h⟩ := bind_eq_ok h
      obtain ⟨ns, _, h⟩ := bind_eq_ok h
      obtain ⟨as, has, h⟩ := bind_eq_ok h
      have ha := resolveAttrs_attr _ _ _ has
      by_cases hc : cur a.2.2 = 0x2f
      · rw [if_pos hc] at h
        obtain ⟨l', _, h⟩ := bind_eq_ok h
        simp only [Res.ok.injEq] at h
        subst h
        have := tidy_elem s.1 s.2.1 ns as [] ha (fun x hx => by cases hx)
        rwa [List.append_nil] at this
      · rw [if_neg hc] at h
        obtain ⟨l', _, h⟩ := bind_eq_ok h
        obtain ⟨q, hq, h⟩ := bind_eq_ok h
        obtain ⟨c, hcc, h⟩ := bind_eq_ok h
        have hg := i3 _ _ _ _ hq
        simp only [Res.ok.injEq] at h
        subst h
        cases opt with
        | true =>
          obtain ⟨r, rfl, hr⟩ := chomp_attrs_good as q.1 c ha hg hcc
          exact tidy_elem _ _ _ as r ha hr
        | false =>
          simp only [Bool.false_eq_true, if_false, Res.ok.injEq] at hcc
          subst hcc
          exact tidy_elem _ _ _ as q.1 ha hg
    · simp only [content] at h
      by_cases h0 : cur l = 0
      · rw [if_pos h0, Res.ok.injEq] at h
        subst h; cases hx
      rw [if_neg h0] at h
      by_cases h1 : cur l = 0x3c
      · rw [if_pos h1] at h
        by_cases h2 : cur l.tail = 0x21
        · rw [if_pos h2] at h
          obtain ⟨l', _, h⟩ := bind_eq_ok h
          exact i2 _ _ _ _ h hx
        · rw [if_neg h2] at h
          obtain ⟨r', hr, h⟩ := bind_eq_ok h
          simp only [Res.ok.injEq] at h
          subst h
          simp only [Option.some.injEq] at hx
          subst hx
          exact i1 _ _ _ hr
      · rw [if_neg h1] at h
        obtain ⟨r', hr, h⟩ := bind_eq_ok h
        simp only [Res.ok.injEq] at h
        subst h
        simp only [Option.some.injEq] at hx
        subst hx
        simp only [Good, Tidy]
    · simp only [contentList] at h
      split at h
      · obtain ⟨l', _, h⟩ := bind_eq_ok h
        simp only [Res.ok.injEq] at h
        subst h
        intro x hx; cases hx
      · obtain ⟨r, hr, h⟩ := bind_eq_ok h
        split at h
        · by_cases ht : tag.isSome = true
          · rw [if_pos ht] at h; cases h
          · rw [if_neg ht, Res.ok.injEq] at h
            subst h
            intro x hx; cases hx
        · rename_i x hx
          obtain ⟨q', hq, h⟩ := bind_eq_ok h
          simp only [Res.ok.injEq] at h
          subst h
          intro y hy
          rcases List.mem_cons.1 hy with rfl | hy
          · exact i2 _ _ _ _ hr hx
          · exact i3 _ _ _ _ hq y hy

theorem xmlParse_tidy (opt : Bool) (file : Str) (l : List Nd) (h : xmlParse opt file = .ok l) (p : Option Str) (n : Str)
    (ns : Option Str) (c : List Nd) (hx : .elem p n ns c ∈ l) : Tidy (.elem p n ns c) := by
  have key : ∀ s b, parseDoc opt s = .ok b → .elem p n ns c ∈ b → Tidy (.elem p n ns c) := by
    intro s b hb hm
    simp only [parseDoc] at hb
    obtain ⟨d, _, hb⟩ := bind_eq_ok hb
    obtain ⟨l', _, hb⟩ := bind_eq_ok hb
    obtain ⟨q, hq, hb⟩ := bind_eq_ok hb
    obtain ⟨b', hc, hb⟩ := bind_eq_ok hb
    have hg := chomp_good _ _ ((parse_good opt _).2.2 _ _ _ _ hq) hc
    split at hb
    · simp only [Res.ok.injEq] at hb
      subst hb
      rcases List.mem_append.1 hm with hm | hm
      · obtain ⟨a, _, e⟩ := List.mem_map.1 hm
        cases e
      · rw [List.mem_singleton] at hm
        rw [hm]
        exact hg _ List.mem_cons_self
    · cases hb
  simp only [xmlParse] at h
  by_cases hf : (charsOf file).2 = true
  · rw [if_pos hf] at h; cases h
  · rw [if_neg hf] at h
    exact key _ _ h hx

end Hob3l.Ns
