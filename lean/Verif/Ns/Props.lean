import Verif.Ns.Lemmas
import Verif.Xml.Props

/-!
C137: which elements of an SVG file are drawn.
-/

namespace Hob3l.Ns

open Hob3l.Xml (Nd)

theorem svgUri_eq : ("http://www.w3.org/2000/svg".toList.map Char.toNat) = svgUri := by decide

/-- what the code accepts: also elements without a namespace -/
def lax (ns : Option Str) : Bool := ns.isNone || isSvg ns

theorem setPtr_elem (ns : Option Str) : setPtr true (ptr ns) = .svg ↔ lax ns = true := by
  cases ns with
  | none => simp [ptr, setPtr, lax]
  | some s =>
    simp only [ptr, setPtr, lax, isSvg, svgUri_eq, Option.isNone_some, Bool.false_or, beq_iff_eq, Option.some.injEq]
    by_cases h : s = svgUri
    · simp [h]
    · simp [h]

theorem setPtr_attr (ns : Option Str) : setPtr false (ptr ns) = .null ↔ ns = none := by
  cases ns with
  | none => simp [ptr, setPtr]
  | some s =>
    simp only [ptr, setPtr, reduceCtorEq, iff_false]
    by_cases h : s = svgUri
    · simp only [if_pos h, reduceCtorEq, not_false_eq_true]
    · simp only [if_neg h, reduceCtorEq, not_false_eq_true]

theorem sAttr_eq (name : Str) : ∀ l : List Nd,
    sAttr name (setNsL (loadL l)) = ((plain l).find? fun a => a.1 == name).bind (·.2)
  | [] => rfl
  | .attr p n ns v :: l => by
    simp only [loadL, load, setNsL, setNs, sAttr]
    rw [sAttr_eq name l]
    cases ns with
    | none =>
      simp only [plain, List.find?_cons]
      by_cases h : n = name
      · rw [if_pos ⟨(setPtr_attr none).2 rfl, h⟩]
        simp [h]
      · rw [if_neg (fun hh => h hh.2)]
        have : (n == name) = false := by simpa using h
        simp only [this]
    | some s =>
      simp only [plain]
      rw [if_neg]
      rintro ⟨h, _⟩
      exact absurd ((setPtr_attr _).1 h) (by simp)
  | .elem p n ns c :: l => by
    simp only [loadL, load, setNsL, setNs, sAttr, plain]
    exact sAttr_eq name l
  | .cdata t :: l => by
    simp only [loadL, load, setNsL, setNs, sAttr, plain]
    exact sAttr_eq name l

/-- what can be seen of an element -/
def view (x : Str × List T) : Str × (Str → Option Str) := (x.1, fun n => sAttr n x.2)

theorem wanted_cons (ok : Option Str → Bool) (enter : Str → Bool) (e : E) (l : List E) (h : l ≠ []) :
    Wanted ok enter (e :: l) = (ok e.ns && enter e.name && Wanted ok enter l) := by
  cases l with
  | nil => exact absurd rfl h
  | cons a l => rfl

mutual
theorem chains_ne : ∀ (x : Nd), ∀ c ∈ chains x, c ≠ []
  | .elem p n ns c => by
    simp only [chains, List.mem_cons, List.mem_map]
    rintro q (rfl | ⟨_, _, rfl⟩) <;> exact List.cons_ne_nil _ _
  | .attr .. => by simp [chains]
  | .cdata _ => by simp [chains]
theorem chainsL_ne : ∀ (l : List Nd), ∀ c ∈ chainsL l, c ≠ []
  | [] => by simp [chainsL]
  | x :: l => by
    simp only [chainsL, List.mem_append]
    rintro c (h | h)
    · exact chains_ne x c h
    · exact chainsL_ne l c h
end

theorem filter_cons_map (ok : Option Str → Bool) (enter : Str → Bool) (e : E) (l : List (List E)) (hl : ∀ c ∈ l, c ≠ []) :
    (l.map (e :: ·)).filter (Wanted ok enter) =
      if ok e.ns = true ∧ enter e.name = true then (l.filter (Wanted ok enter)).map (e :: ·) else [] := by
  induction l with
  | nil => simp
  | cons c l ih =>
    have ih := ih fun d hd => hl d (List.mem_cons_of_mem _ hd)
    have hw := wanted_cons ok enter e c (hl c List.mem_cons_self)
    rw [List.map_cons, List.filter_cons, ih, hw, List.filter_cons]
    by_cases h : ok e.ns = true ∧ enter e.name = true
    · rw [if_pos h, if_pos h, h.1, h.2]
      cases Wanted ok enter c <;> simp
    · rw [if_neg h, if_neg h]
      have : (ok e.ns && enter e.name) = false := by
        rw [Bool.eq_false_iff]; intro hh; exact h (by simpa using hh)
      simp [this]

mutual
theorem visit_eq (enter : Str → Bool) : ∀ (x : Nd), Tidy x → (∀ p n ns v, x ≠ .attr p n ns v) →
    (visit enter (setNs (load x))).map (·.map view) = ((chains x).filter (Wanted lax enter)).map (·.map E.view)
  | .attr p n ns v, _, h => absurd rfl (h p n ns v)
  | .cdata t, _, _ => by simp [load, setNs, visit, chains]
  | .elem p n ns c, ht, _ => by
    have ih := fromElem_eq enter c ht.1 ht.2
    have hv : view (n, setNsL (loadL c)) = E.view ⟨n, ns, plain c⟩ := by
      simp only [view, E.view, sAttr_eq]
      rfl
    have hf := filter_cons_map lax enter ⟨n, ns, plain c⟩ (chainsL c) (chainsL_ne c)
    simp only [load, setNs, visit, chains]
    rw [List.filter_cons, hf]
    by_cases h : lax ns = true
    · rw [if_neg (fun hh => hh ((setPtr_elem ns).2 h)), if_pos (show Wanted lax enter [⟨n, ns, plain c⟩] = true from h)]
      by_cases he : enter n = true
      · rw [if_pos he, if_pos ⟨h, he⟩]
        simp only [List.map_cons, List.map_nil, List.map_map, hv, List.cons.injEq, true_and]
        have := congrArg (List.map (E.view ⟨n, ns, plain c⟩ :: ·)) ih
        simp only [List.map_map] at this
        simpa [Function.comp_def, hv] using this
      · rw [if_neg he, if_neg (fun hh => he hh.2)]
        simp only [List.map_cons, List.map_nil, hv]
    · rw [if_pos (fun hh => h ((setPtr_elem ns).1 hh)), if_neg (show ¬ Wanted lax enter [⟨n, ns, plain c⟩] = true from h),
        if_neg (fun hh => h hh.1)]
      rfl
theorem fromElem_eq (enter : Str → Bool) : ∀ (l : List Nd), first l → TidyL l →
    (fromElem enter (setNsL (loadL l))).map (·.map view) = ((chainsL l).filter (Wanted lax enter)).map (·.map E.view)
  | [], _, _ => rfl
  | .attr p n ns v :: l, h, ht => by
    simp only [loadL, load, setNsL, setNs, fromElem, chainsL, chains, List.nil_append]
    exact fromElem_eq enter l h ht.2
  | .elem p n ns c :: l, h, ht => by
    have h1 := visit_eq enter (.elem p n ns c) ht.1 (fun _ _ _ _ => Nd.noConfusion)
    have h2 := loop_eq enter l h ht.2
    simp only [load, setNs] at h1
    simp only [loadL, load, setNsL, setNs, fromElem, chainsL, List.map_append, List.filter_append]
    rw [h1, h2]
  | .cdata t :: l, h, ht => by
    simp only [loadL, load, setNsL, setNs, fromElem, chainsL, chains, List.nil_append]
    exact loop_eq enter l h ht.2
theorem loop_eq (enter : Str → Bool) : ∀ (l : List Nd), (∀ x ∈ l, match x with | .attr .. => False | _ => True) → TidyL l →
    (loop enter (setNsL (loadL l))).map (·.map view) = ((chainsL l).filter (Wanted lax enter)).map (·.map E.view)
  | [], _, _ => rfl
  | x :: l, h, ht => by
    have h1 := visit_eq enter x ht.1 (by
      rintro p n ns v rfl
      exact h _ List.mem_cons_self)
    have h2 := loop_eq enter l (fun y hy => h y (List.mem_cons_of_mem _ hy)) ht.2
    simp only [loadL, setNsL, loop, chainsL, List.map_append, List.filter_append]
    rw [h1, h2]
end

/-- **C137** What is drawn for a file whose first element is `top`: it is accepted iff that is an `svg` element in the namespace of SVG
or in none; the elements that are looked at, in the order of the document, are those that are in the namespace of SVG or in none, and
that have only such elements around them; attributes count if they have no namespace. -/
theorem C137_drawn (enter : Str → Bool) (p : Option Str) (n : Str) (ns : Option Str) (c : List Nd) (ht : Tidy (.elem p n ns c)) :
    (importTop enter (.elem p n ns c)).map (·.map (·.map view)) =
      if n = [0x73, 0x76, 0x67] ∧ lax ns = true then
        some (((chains (.elem p n ns c)).filter (Wanted lax enter)).map (·.map E.view))
      else none := by
  have h := visit_eq enter (.elem p n ns c) ht (fun _ _ _ _ => Nd.noConfusion)
  simp only [load, setNs] at h
  simp only [importTop, load, setNs]
  by_cases h1 : n = svgName
  · by_cases h2 : lax ns = true
    · rw [if_neg (fun hh => hh h1), if_neg (fun hh => hh ((setPtr_elem ns).2 h2)), if_pos ⟨h1, h2⟩]
      simp only [fromElem, loop, List.append_nil, Option.map_some]
      rw [h]
    · rw [if_neg (fun hh => hh h1), if_pos (fun hh => h2 ((setPtr_elem ns).1 hh)), if_neg (fun hh => h2 hh.2)]
      rfl
  · rw [if_pos h1, if_neg (fun hh => h1 hh.1)]
    rfl

/-- **C137** from the bytes of the file: the trees that the XML parser makes are tidy, so all this holds for the root of every file that
it accepts -/
theorem C137_parsed (enter : Str → Bool) (file : Str) (l : List Nd) (h : Xml.xmlParse true file = .ok l) (p : Option Str) (n : Str)
    (ns : Option Str) (c : List Nd) (hx : .elem p n ns c ∈ l) :
    (importTop enter (.elem p n ns c)).map (·.map (·.map view)) =
      if n = [0x73, 0x76, 0x67] ∧ lax ns = true then
        some (((chains (.elem p n ns c)).filter (Wanted lax enter)).map (·.map E.view))
      else none :=
  C137_drawn enter p n ns c (xmlParse_tidy true file l h p n ns c hx)

/-- such a file: `<svg a='1'><g/>x</svg>` -/
example : Xml.xmlParse true [0x3c, 0x73, 0x76, 0x67, 0x20, 0x61, 0x3d, 0x27, 0x31, 0x27, 0x3e, 0x3c, 0x67, 0x2f, 0x3e, 0x78, 0x3c, 0x2f,
    0x73, 0x76, 0x67, 0x3e] =
    .ok [.elem none svgName none [.attr none [0x61] none (some [0x31]), .elem none [0x67] none [], .cdata [0x78]]] := by decide +kernel

/-- all the elements have a namespace -/
def AllNs (x : Nd) : Prop := ∀ c ∈ chains x, ∀ e ∈ c, e.ns ≠ none

theorem wanted_lax (enter : Str → Bool) : ∀ c : List E, (∀ e ∈ c, e.ns ≠ none) → Wanted lax enter c = Wanted isSvg enter c
  | [], _ => rfl
  | [e], h => by
    have := h e List.mem_cons_self
    cases hn : e.ns with
    | none => exact absurd hn this
    | some s => simp [Wanted, lax, hn]
  | e :: f :: l, h => by
    have h0 := h e List.mem_cons_self
    have ih := wanted_lax enter (f :: l) fun x hx => h x (List.mem_cons_of_mem _ hx)
    simp only [Wanted]
    rw [ih]
    cases hn : e.ns with
    | none => exact absurd hn h0
    | some s => simp [lax]

/-- **C137** (full claim: for all documents; missing: elements without a namespace inside of an `svg` element that has one, see
`C137_none_wrong`).  If all the elements of a document have a namespace, exactly the elements of SVG are looked at. -/
theorem C137_svg_partial (enter : Str → Bool) (p : Option Str) (ns : Option Str) (c : List Nd)
    (ht : Tidy (.elem p [0x73, 0x76, 0x67] ns c)) (ha : AllNs (.elem p [0x73, 0x76, 0x67] ns c)) (hs : isSvg ns = true) :
    (importTop enter (.elem p [0x73, 0x76, 0x67] ns c)).map (·.map (·.map view)) =
      some (((chains (.elem p [0x73, 0x76, 0x67] ns c)).filter (Wanted isSvg enter)).map (·.map E.view)) := by
  rw [C137_drawn enter p _ ns c ht, if_pos ⟨rfl, by simp [lax, hs]⟩]
  congr 2
  exact List.filter_congr fun q hq => wanted_lax enter q (ha q hq)

/-- a document: `<svg xmlns="…svg" xmlns:i="i"><rect x="1" i:x="2"/><i:g><rect/></i:g></svg>` -/
def sample : Nd :=
  .elem none svgName (some svgUri)
    [.elem none [0x72] (some svgUri) [.attr (some [0x69]) [0x78] (some [0x69]) (some [0x32]), .attr none [0x78] none (some [0x31])],
      .elem (some [0x69]) [0x67] (some [0x69]) [.elem none [0x72] (some svgUri) []]]

/-- the hypotheses are met: two of the four elements are looked at, and the attribute is that without a prefix -/
example : Tidy sample ∧ AllNs sample
    ∧ (importTop (fun _ => true) sample).map (·.map (·.map fun x => (x.1, sAttr [0x78] x.2)))
      = some [[(svgName, none)], [(svgName, none), ([0x72], some [0x31])]] := by
  refine ⟨?_, ?_, by decide +kernel⟩
  · simp [sample, Tidy, TidyL, first]
  · simp [AllNs, sample, chains, chainsL]

/-- **C137** is wrong for elements that have no namespace, inside of an `svg` element with a prefix: they are not elements of SVG, but
they are drawn.  `<s:svg xmlns:s="…svg"><r/></s:svg>` -/
theorem C137_none_wrong : ∃ c : List Nd, Tidy (.elem (some [0x73]) [0x73, 0x76, 0x67] (some svgUri) c) ∧
    ((chains (.elem (some [0x73]) [0x73, 0x76, 0x67] (some svgUri) c)).filter (Wanted isSvg fun _ => true)).length = 1 ∧
    (importTop (fun _ => true) (.elem (some [0x73]) [0x73, 0x76, 0x67] (some svgUri) c)).map List.length = some 2 := by
  refine ⟨[.elem none [0x72] none []], by simp [Tidy, TidyL, first], ?_, by decide +kernel⟩
  simp only [chains, chainsL, List.map_cons, List.map_nil, List.append_nil, List.filter_cons, List.filter_nil, Wanted, isSvg, svgUri_eq]
  decide +kernel

end Hob3l.Ns
