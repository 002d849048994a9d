import Verif.Syn.LemmasPrintWf
import Verif.Syn.Props
/-!
# Property C113: a printed syntax tree is read back
-/
namespace Hob3l.Syn

/-- **C113, the part that holds**: for every program `l` in which no item is a bare block and no item is named by a
keyword (with modifiers the parser accepts this), and whose floating point numbers are printed as numbers: the printed
text is a program, whatever the file is called and whatever other files there are, and its syntax tree is `l` with
numbers as printed, but without modifiers.  Missing: modifiers (`C113_modifier_wrong`) and blocks
(`C113_block_wrong`). -/
theorem C113_print_partial (ff : Text → Text) (fs fs' : FS) (file file' content : Text) (l : List Stmt)
    (h : Program fs file content l) (hb : AllItems (fun f _ _ => f ≠ txt "{" ∧ ¬ Keyword f) l)
    (hf : AllValues (PrintsNumber ff) l) : Program fs' file' (putTree ff l) (l.map (Stmt.printed ff)) := by
  obtain ⟨ts, h1, h2⟩ := h
  have wf := stmts_ok h2 (lexes_ok h1)
  refine tree_reads ff fs' file' l ?_
  intro s hs
  have w := wf s hs
  cases s with
  | use p => exact w
  | item i =>
    refine item_all_imp ?_ i (item_all_and i w (item_all_and i (hb i hs) (hf i hs)))
    rintro f a m ⟨⟨w1, w2, -⟩, ⟨n1, n2⟩, n3⟩
    exact ⟨w1.resolve_right n1, n2, fun x hx => ⟨(w2 x hx).1, value_all_imp (fun _ => LeafOk.txt) _ (w2 x hx).2, n3 x hx⟩⟩

/-- **C113, the part that holds**: if moreover there are no modifiers and the floating point numbers are printed as they
were read, then reading the printed text gives the same syntax tree. -/
theorem C113_same_partial (ff : Text → Text) (fs fs' : FS) (file file' content : Text) (l : List Stmt)
    (h : Program fs file content l) (hb : AllItems (fun f _ m => f ≠ txt "{" ∧ ¬ Keyword f ∧ m = 0) l)
    (hf : AllValues (PrintsBack ff) l) (hp : AllValues (PrintsNumber ff) l) : Program fs' file' (putTree ff l) l := by
  have h1 := C113_print_partial ff fs fs' file file' content l h
    (fun i hi => item_all_imp (fun f a m hh => ⟨hh.1, hh.2.1⟩) i (hb i hi)) hp
  obtain ⟨ts, h2, h3⟩ := h
  have wf := stmts_ok h3 (lexes_ok h2)
  have e : l.map (Stmt.printed ff) = l := by
    conv_rhs => rw [← List.map_id l]
    apply List.map_congr_left
    intro s hs
    have w := wf s hs
    cases s with
    | use p => rfl
    | item i =>
      simp only [Stmt.printed, id]
      rw [item_printed_eq ff i]
      refine item_all_imp ?_ i (item_all_and i w (item_all_and i (hb i hs) (hf i hs)))
      rintro f a m ⟨⟨w1, w2, -⟩, ⟨n1, n2, n4⟩, n3⟩
      exact ⟨n4, fun x hx => ⟨(w2 x hx).2, n3 x hx⟩⟩
  rwa [e] at h1

/-- the tree of an example -/
def exTree : List Stmt :=
  [.use (txt "x"), .item (.mk (txt "translate") [⟨none, .arr [.int 1, .int (-20), .float (txt "0.5")]⟩]
    [.mk (txt "f") [⟨some (txt "a"), .range3 (.int 0) (.int 1) (.id (txt "$t"))⟩, ⟨none, .str (txt "q\\\"")⟩] [] 0] 0)]

/-- Non-vacuity: the program is parsed, and its tree is printed in this form. -/
example : parse (fun _ => none) 90 [] (txt "use <x>translate([1,-20,0.5],)f(a=[0:1:$t],\"q\\\"\");;") = .ok exTree :=
  eq_of_sameRes (by decide +kernel)

example : putTree id exTree =
    txt "use <x>\ntranslate([1,-20,0.5]) {\n  f(a=[0:1:$t],\"q\\\"\");\n}\n" := by decide +kernel

example : AllItems (fun f _ m => f ≠ txt "{" ∧ ¬ Keyword f ∧ m = 0) exTree := by
  intro i hi
  simp only [exTree, List.mem_cons, reduceCtorEq, Stmt.item.injEq, List.not_mem_nil, or_false, false_or] at hi
  subst hi
  simp only [Item.All, Item.AllList, Keyword, and_true]
  decide +kernel

example : AllValues (PrintsBack id) exTree := by
  intro i hi
  simp only [exTree, List.mem_cons, reduceCtorEq, Stmt.item.injEq, List.not_mem_nil, or_false, false_or] at hi
  subst hi
  simp only [Item.All, Item.AllList, and_true, List.mem_cons, List.not_mem_nil, or_false, forall_eq_or_imp, forall_eq,
    Value.All, Value.AllList, PrintsBack, true_and, id]
  refine ⟨[], [48], [46, 53], [], by decide +kernel, by simp, ?_, Or.inr ⟨[53], rfl, ?_⟩, by simp, by simp⟩ <;>
    (intro c hc; simp at hc; unfold Digit; omega)

/-- Modifiers are not printed: a part that is switched off by `*` becomes part of the model if the printed tree is
read. -/
theorem C113_modifier_wrong :
    parse (fun _ => none) 60 [] (txt "*cube();") = .ok [.item (.mk (txt "cube") [] [] 0x82)] ∧
    putTree id [.item (.mk (txt "cube") [] [] 0x82)] = txt "cube();\n" ∧
    parse (fun _ => none) 60 [] (txt "cube();\n") = .ok [.item (.mk (txt "cube") [] [] 0)] :=
  ⟨eq_of_sameRes (by decide +kernel), by decide +kernel, eq_of_sameRes (by decide +kernel)⟩

/-- A block is printed as a call of `{`, which is rejected. -/
theorem C113_block_wrong :
    parse (fun _ => none) 60 [] (txt "{cube();}") =
      .ok [.item (.mk (txt "{") [] [.mk (txt "cube") [] [] 0] 0)] ∧
    putTree id [.item (.mk (txt "{") [] [.mk (txt "cube") [] [] 0] 0)] = txt "{() {\n  cube();\n}\n" ∧
    parse (fun _ => none) 60 [] (txt "{() {\n  cube();\n}\n") = .fail :=
  ⟨eq_of_sameRes (by decide +kernel), by decide +kernel, eq_of_sameRes (by decide +kernel)⟩

/-- A floating point number without a fraction is printed without a point and is an integer if it is read again: with
`%.16g`, `2.0` is printed as `2`. -/
theorem C113_float_wrong :
    parse (fun _ => none) 60 [] (txt "f(2.0);") = .ok [.item (.mk (txt "f") [⟨none, .float (txt "2.0")⟩] [] 0)] ∧
    (∀ ff, ff (txt "2.0") = txt "2" →
      putTree ff [.item (.mk (txt "f") [⟨none, .float (txt "2.0")⟩] [] 0)] = txt "f(2);\n") ∧
    parse (fun _ => none) 60 [] (txt "f(2);\n") = .ok [.item (.mk (txt "f") [⟨none, .int 2⟩] [] 0)] := by
  refine ⟨eq_of_sameRes (by decide +kernel), ?_, eq_of_sameRes (by decide +kernel)⟩
  intro ff h
  simp only [putTree, putStmt, putItem, putArgs, putArg, putValue, h, List.isEmpty_nil, if_true]
  decide +kernel

end Hob3l.Syn
