import Verif.Syn.LemmasPrintLex
/-!
A printed syntax tree is a program.
-/
namespace Hob3l.Syn

/-- what the parser ensures for the leaves of values -/
def LeafOk : Value → Prop
  | .id s => IdText s
  | .int v => -2 ^ 63 ≤ v ∧ v < 2 ^ 63
  | .float s => IsFloat s
  | .str s => StrBody s
  | _ => True

/-- what is required for printing -/
def LeafTxt : Value → Prop
  | .id s => IdText s
  | .int v => -2 ^ 63 ≤ v ∧ v < 2 ^ 63
  | .str s => StrBody s
  | _ => True

theorem LeafOk.txt {v : Value} (h : LeafOk v) : LeafTxt v := by
  cases v <;> first | exact h | trivial

theorem txt_lb : txt "[" = [91] := by decide +kernel
theorem txt_rb : txt "]" = [93] := by decide +kernel
theorem txt_colon : txt ":" = [58] := by decide +kernel
theorem txt_comma : txt "," = [44] := by decide +kernel
theorem txt_quote : txt "\"" = [34] := by decide +kernel
theorem txt_lp : txt "(" = [40] := by decide +kernel
theorem txt_rp : txt ")" = [41] := by decide +kernel
theorem txt_eq : txt "=" = [61] := by decide +kernel
theorem txt_semi : txt ";\n" = [59, 10] := by decide +kernel
theorem txt_open : txt " {\n" = [32, 123, 10] := by decide +kernel
theorem txt_close : txt "}\n" = [125, 10] := by decide +kernel
theorem txt_use : txt "use <" = txt "use" ++ [32, 60] := by decide +kernel
theorem txt_useEnd : txt ">\n" = [62, 10] := by decide +kernel

theorem stop_cons {c : Nat} {s : Text} (h : StopChar c) : Stop (c :: s) := ⟨c, s, rfl, h⟩

mutual

theorem val_reads (ff : Text → Text) : (v : Value) → v.All LeafTxt → v.All (PrintsNumber ff) → (s : Text) →
    (P : List Token → Prop) → Stop s → ReadsAny s P →
    Reads (putValue ff v ++ s) (fun ts => ∃ ts', IsValue ts (v.printed ff) ts' ∧ P ts')
  | .id t, h1, _, s, P, hs, hr => by
    simp only [Value.All, LeafTxt] at h1
    simp only [putValue, Value.printed]
    refine (id_reads h1 hs hr).mono ?_
    rintro ts ⟨ts', rfl, hp⟩
    exact ⟨ts', .id, hp⟩
  | .int v, h1, _, s, P, hs, hr => by
    simp only [Value.All, LeafTxt] at h1
    simp only [putValue, Value.printed]
    obtain ⟨a, b, c⟩ := intText_number v
    refine (num_reads a b hs hr).mono ?_
    rintro ts ⟨ts', rfl, hp⟩
    rw [if_neg c]
    refine ⟨ts', ?_, hp⟩
    have := IsValue.int (s := intText v) (ts := ts')
    rwa [intValue_intText v h1.1 h1.2] at this
  | .float t, _, h2, s, P, hs, hr => by
    simp only [Value.All, PrintsNumber] at h2
    simp only [putValue, Value.printed]
    refine (num_reads h2.1 h2.2 hs hr).mono ?_
    rintro ts ⟨ts', rfl, hp⟩
    refine ⟨ts', ?_, hp⟩
    split_ifs
    · exact .float
    · exact .int
  | .str t, h1, _, s, P, hs, hr => by
    simp only [Value.All, LeafTxt] at h1
    simp only [putValue, Value.printed, txt_quote, List.cons_append, List.nil_append, List.append_assoc]
    refine (str_reads h1 hr.reads).mono ?_
    rintro ts ⟨ts', rfl, hp⟩
    exact ⟨ts', .str, hp⟩
  | .range a b, h1, h2, s, P, hs, hr => by
    simp only [Value.All] at h1 h2
    simp only [putValue, Value.printed, txt_lb, txt_rb, txt_colon, List.cons_append, List.nil_append, List.append_assoc]
    have hB := val_reads ff b h1.2 h2.2 (93 :: s) _ (stop_cons (by unfold StopChar; omega))
      (sym_any (by unfold SymChar; omega) hr.reads)
    have hA := val_reads ff a h1.1 h2.1 (58 :: (putValue ff b ++ 93 :: s)) _ (stop_cons (by unfold StopChar; omega))
      (sym_any (by unfold SymChar; omega) hB)
    refine (sym_any (c := 91) (by unfold SymChar; omega) hA).reads.mono ?_
    rintro ts ⟨x, t1, rfl, t2, ha, y, t3, rfl, t4, hb, z, t5, rfl, hp⟩
    exact ⟨t5, .range ha hb, hp⟩
  | .range3 a i b, h1, h2, s, P, hs, hr => by
    simp only [Value.All] at h1 h2
    simp only [putValue, Value.printed, txt_lb, txt_rb, txt_colon, List.cons_append, List.nil_append, List.append_assoc]
    have hB := val_reads ff b h1.2.2 h2.2.2 (93 :: s) _ (stop_cons (by unfold StopChar; omega))
      (sym_any (by unfold SymChar; omega) hr.reads)
    have hI := val_reads ff i h1.2.1 h2.2.1 (58 :: (putValue ff b ++ 93 :: s)) _ (stop_cons (by unfold StopChar; omega))
      (sym_any (by unfold SymChar; omega) hB)
    have hA := val_reads ff a h1.1 h2.1 (58 :: (putValue ff i ++ 58 :: (putValue ff b ++ 93 :: s))) _
      (stop_cons (by unfold StopChar; omega)) (sym_any (by unfold SymChar; omega) hI)
    refine (sym_any (c := 91) (by unfold SymChar; omega) hA).reads.mono ?_
    rintro ts ⟨x, t1, rfl, t2, ha, y, t3, rfl, t4, hi, y', t3', rfl, t4', hb, z, t5, rfl, hp⟩
    exact ⟨t5, .range3 ha hi hb, hp⟩
  | .arr [], h1, h2, s, P, hs, hr => by
    simp only [putValue, putElems, Value.printed, Value.printedList, txt_lb, txt_rb, List.cons_append, List.nil_append,
      List.append_assoc]
    have hB := sym_any (c := 93) (by unfold SymChar; omega) hr.reads
    refine (sym_any (c := 91) (by unfold SymChar; omega) hB.reads).reads.mono ?_
    rintro ts ⟨x, t1, rfl, y, t2, rfl, hp⟩
    exact ⟨t2, .empty, hp⟩
  | .arr (v :: l), h1, h2, s, P, hs, hr => by
    simp only [Value.All, Value.AllList] at h1 h2
    simp only [putValue, putElems, Value.printed, Value.printedList, txt_lb, txt_rb, List.cons_append, List.nil_append,
      List.append_assoc, if_true]
    have hE := elems_reads ff l h1.2 h2.2 (93 :: s) _ (stop_cons (by unfold StopChar; omega))
      (sym_any (by unfold SymChar; omega) hr.reads)
    have hV := val_reads ff v h1.1 h2.1 (putElems ff false l ++ 93 :: s) _ hE.2 hE.1
    refine (sym_any (c := 91) (by unfold SymChar; omega) hV).reads.mono ?_
    rintro ts ⟨x, t1, rfl, t2, hv, t3, he, y, t4, rfl, hp⟩
    exact ⟨t4, .arr hv he, hp⟩

theorem elems_reads (ff : Text → Text) : (l : List Value) → Value.AllList LeafTxt l → Value.AllList (PrintsNumber ff) l →
    (s : Text) → (P : List Token → Prop) → Stop s → ReadsAny s P →
    ReadsAny (putElems ff false l ++ s) (fun ts => ∃ ts', IsElems ts (Value.printedList ff l) ts' ∧ P ts') ∧
    Stop (putElems ff false l ++ s)
  | [], _, _, s, P, hs, hr => by
    simp only [putElems, List.nil_append, Value.printedList]
    exact ⟨hr.mono fun ts h => ⟨ts, .nil, h⟩, hs⟩
  | v :: l, h1, h2, s, P, hs, hr => by
    simp only [Value.AllList] at h1 h2
    simp only [putElems, Value.printedList, txt_comma, List.cons_append, List.nil_append, List.append_assoc,
      Bool.false_eq_true, if_false]
    have hE := elems_reads ff l h1.2 h2.2 s P hs hr
    have hV := val_reads ff v h1.1 h2.1 (putElems ff false l ++ s) _ hE.2 hE.1
    refine ⟨(sym_any (c := 44) (by unfold SymChar; omega) hV).mono ?_, stop_cons (by unfold StopChar; omega)⟩
    rintro ts ⟨x, t1, rfl, t2, hv, t3, he, hp⟩
    exact ⟨t3, .cons hv he, hp⟩

end

/-- what is required of an argument -/
def ArgOk (ff : Text → Text) (a : Arg) : Prop :=
  (∀ k, a.key = some k → IdText k) ∧ a.value.All LeafTxt ∧ a.value.All (PrintsNumber ff)

def Arg.printed (ff : Text → Text) (a : Arg) : Arg := ⟨a.key, a.value.printed ff⟩

theorem arg_reads (ff : Text → Text) (a : Arg) (h : ArgOk ff a) (s : Text) (P : List Token → Prop) (hs : Stop s)
    (hr : ReadsAny s P) : Reads (putArg ff a ++ s) (fun ts => ∃ ts', IsArg ts (a.printed ff) ts' ∧ P ts') := by
  obtain ⟨hk, h1, h2⟩ := h
  have hV := val_reads ff a.value h1 h2 s P hs hr
  obtain ⟨key, v⟩ := a
  unfold putArg Arg.printed
  cases key with
  | none =>
    refine hV.mono ?_
    rintro ts ⟨t, hv, hp⟩
    exact ⟨t, .pos hv, hp⟩
  | some k =>
    simp only [txt_eq, List.cons_append, List.nil_append, List.append_assoc]
    refine (id_reads (hk k rfl) (stop_cons (by unfold StopChar; omega)) (sym_any (by unfold SymChar; omega) hV)).mono ?_
    rintro ts ⟨t1, rfl, x, t2, rfl, t3, hv, hp⟩
    exact ⟨t3, .key hv, hp⟩

theorem args_reads (ff : Text → Text) (l : List Arg) (h : ∀ a ∈ l, ArgOk ff a) (s : Text) (P : List Token → Prop)
    (hs : Stop s) (hr : ReadsAny s P) :
    Reads (putArgs ff true l ++ s) (fun ts => ∃ ts', IsArgs ts (l.map (Arg.printed ff)) ts' ∧ P ts') := by
  induction l with
  | nil => exact hr.reads.mono fun ts h => ⟨ts, .nil, h⟩
  | cons a l ih =>
    cases l with
    | nil =>
      have : putArgs ff true [a] ++ s = putArg ff a ++ s := by simp [putArgs]
      rw [this]
      refine (arg_reads ff a (h a (by simp)) s P hs hr).mono ?_
      rintro ts ⟨t, hv, hp⟩
      exact ⟨t, .one hv, hp⟩
    | cons b l =>
      have : putArgs ff true (a :: b :: l) ++ s = putArg ff a ++ 44 :: (putArgs ff true (b :: l) ++ s) := by
        simp [putArgs, txt_comma]
      rw [this]
      have hL := ih fun x hx => h x (List.mem_cons_of_mem _ hx)
      refine (arg_reads ff a (h a (by simp)) _ _ (stop_cons (by unfold StopChar; omega))
        (sym_any (by unfold SymChar; omega) hL)).mono ?_
      rintro ts ⟨t, ha, x, t1, rfl, t2, hl, hp⟩
      exact ⟨t2, .cons ha hl, hp⟩

/-- what is required of an item -/
def ItemOk (ff : Text → Text) (f : Text) (args : List Arg) (_ : Nat) : Prop :=
  IdText f ∧ ¬ Keyword f ∧ ∀ a ∈ args, ArgOk ff a

mutual

theorem item_reads (ff : Text → Text) (fs : FS) (file : Text) : (i : Item) → i.All (ItemOk ff) → (d : Nat) → (s : Text) →
    (P : List Token → Prop) → Reads s P →
    Reads (putItem ff d i ++ s) (fun ts => (∃ f r, ts = .id f :: r ∧ ¬ Keyword f) ∧
      ∃ ts', IsItem fs file ts (i.printed ff) ts' ∧ P ts')
  | .mk f args [] m, h, d, s, P, hr => by
    simp only [Item.All, Item.AllList, ItemOk, and_true] at h
    obtain ⟨h1, h2, h3⟩ := h
    simp only [putItem, List.isEmpty_nil, if_true, Item.printed, Item.printedList, txt_lp, txt_rp, txt_semi,
      List.cons_append, List.nil_append, List.append_assoc]
    have hT := (sym_any (c := 59) (by unfold SymChar; omega)
      (space_any (c := 10) (by unfold Space; omega) hr).reads).reads
    have hA := args_reads ff args h3 _ _ (stop_cons (by unfold StopChar; omega))
      (sym_any (c := 41) (by unfold SymChar; omega) hT)
    refine (indent_reads (id_reads h1 (stop_cons (by unfold StopChar; omega))
      (sym_any (c := 40) (by unfold SymChar; omega) hA))).mono ?_
    rintro ts ⟨t1, rfl, x, t2, rfl, t3, ha, y, t4, rfl, z, t5, rfl, hp⟩
    refine ⟨⟨f, _, rfl, h2⟩, t5, ?_, hp⟩
    exact .call .nil (fun hk => absurd hk h2) ha rfl (.one .semicolon (by intro x r h; cases h))
  | .mk f args (b :: body) m, h, d, s, P, hr => by
    simp only [Item.All, ItemOk] at h
    obtain ⟨⟨h1, h2, h3⟩, h4⟩ := h
    simp only [putItem, List.isEmpty_cons, Bool.false_eq_true, if_false, Item.printed, txt_lp, txt_rp, txt_open, txt_close,
      List.cons_append, List.nil_append, List.append_assoc]
    have hE := indent_reads (d := d) (sym_any (c := 125) (by unfold SymChar; omega)
      (space_any (c := 10) (by unfold Space; omega) hr).reads).reads
    have hI := items_reads ff fs file (b :: body) h4 (d + 2) _ _ hE
    have hT := (space_any (c := 32) (by unfold Space; omega) (sym_any (c := 123) (by unfold SymChar; omega)
      (space_any (c := 10) (by unfold Space; omega) hI).reads).reads).reads
    have hA := args_reads ff args h3 _ _ (stop_cons (by unfold StopChar; omega))
      (sym_any (c := 41) (by unfold SymChar; omega) hT)
    refine (indent_reads (id_reads h1 (stop_cons (by unfold StopChar; omega))
      (sym_any (c := 40) (by unfold SymChar; omega) hA))).mono ?_
    rintro ts ⟨t1, rfl, x, t2, rfl, t3, ha, y, t4, rfl, w, t5, rfl, t6, hi, z, t7, rfl, hp⟩
    refine ⟨⟨f, _, rfl, h2⟩, t7, ?_, hp⟩
    exact .call .nil (fun hk => absurd hk h2) ha rfl (.braces hi)

theorem items_reads (ff : Text → Text) (fs : FS) (file : Text) : (l : List Item) → Item.AllList (ItemOk ff) l → (d : Nat) →
    (s : Text) → (P : List Token → Prop) → Reads s P →
    Reads (putItems ff d l ++ s) (fun ts => ∃ ts', IsItems fs file ts (Item.printedList ff l) ts' ∧ P ts')
  | [], _, d, s, P, hr => by
    simp only [putItems, Item.printedList, List.nil_append]
    exact hr.mono fun ts h => ⟨ts, .nil, h⟩
  | i :: l, h, d, s, P, hr => by
    simp only [Item.AllList] at h
    simp only [putItems, Item.printedList, List.append_assoc]
    have hL := items_reads ff fs file l h.2 d s P hr
    refine (item_reads ff fs file i h.1 d _ _ hL).mono ?_
    rintro ts ⟨-, t1, hi, t2, hl, hp⟩
    exact ⟨t2, .cons (l := [i.printed ff]) (.item hi) hl, hp⟩

end

/-- what is required of a statement -/
def StmtOk (ff : Text → Text) : Stmt → Prop
  | .item i => i.All (ItemOk ff)
  | .use p => 62 ∉ p ∧ 0 ∉ p

theorem use_id : IdText (txt "use") := by
  refine ⟨117, [115, 101], by decide +kernel, ?_, ?_⟩
  · unfold BeginsId Letter; omega
  · intro x hx
    simp at hx
    unfold Letter Digit; omega

theorem tree_reads (ff : Text → Text) (fs : FS) (file : Text) (l : List Stmt) (h : ∀ s ∈ l, StmtOk ff s) :
    Reads (putTree ff l) (fun ts => IsStmts fs file ts (l.map (Stmt.printed ff))) := by
  induction l with
  | nil => exact ⟨[], .eof, .nil⟩
  | cons s l ih =>
    have hL := ih fun x hx => h x (List.mem_cons_of_mem _ hx)
    have hs := h s (by simp)
    cases s with
    | item i =>
      simp only [putTree, putStmt, List.map_cons, Stmt.printed]
      refine (item_reads ff fs file i hs 0 _ _ hL).mono ?_
      rintro ts ⟨⟨f, r, rfl, hk⟩, t1, hi, hl⟩
      refine IsStmts.push (l := [i.printed ff]) (.item hi) ?_ hl
      simp only [List.head?_cons, ne_eq, Option.some.injEq, Token.id.injEq]
      intro hf
      exact hk (Or.inl hf)
    | use p =>
      simp only [putTree, putStmt, List.map_cons, Stmt.printed, txt_use, txt_useEnd, indent, List.replicate_zero,
        List.cons_append, List.nil_append, List.append_assoc]
      have hP := path_reads hs.1 hs.2 (space_any (c := 10) (by unfold Space; omega) hL).reads
      refine (id_reads use_id (stop_cons (by unfold StopChar; omega))
        (space_any (c := 32) (by unfold Space; omega) hP)).mono ?_
      rintro ts ⟨t1, rfl, t2, rfl, hl⟩
      exact .use hl

end Hob3l.Syn
