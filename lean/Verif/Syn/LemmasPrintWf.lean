import Verif.Syn.LemmasPrint
/-!
What the parser yields can be printed: names are names, strings are strings, integers have 64 bits.
-/
namespace Hob3l.Syn

def TokOk : Token → Prop
  | .int _ => True
  | .float s => IsFloat s
  | .id s => IdText s
  | .str s => StrBody s
  | .path s => 62 ∉ s ∧ 0 ∉ s
  | .sym _ _ => True

def ToksOk (ts : List Token) : Prop := ∀ t ∈ ts, TokOk t

theorem ToksOk.tail {t : Token} {ts : List Token} (h : ToksOk (t :: ts)) : ToksOk ts :=
  fun x hx => h x (List.mem_cons_of_mem _ hx)

theorem ToksOk.head {t : Token} {ts : List Token} (h : ToksOk (t :: ts)) : TokOk t := h t (by simp)

theorem ToksOk.cons {t : Token} {ts : List Token} (h : TokOk t) (h' : ToksOk ts) : ToksOk (t :: ts) := by
  intro x hx
  rcases List.mem_cons.mp hx with rfl | hx
  · exact h
  · exact h' x hx

theorem isFloat_numberText {s : Text} (h : IsFloat s) : IsFloat (numberText s) := by
  unfold numberText
  split_ifs with hh
  · cases s with
    | nil => simp at hh
    | cons c r =>
      simp only [List.head?_cons, Option.some.injEq] at hh
      subst hh
      unfold IsFloat at *
      simpa using h
  · exact h

theorem lexes_ok {g : Bool} {s : Text} {ts : List Token} (h : Lexes g s ts) : ToksOk ts := by
  induction h with
  | eof => intro t ht; simp at ht
  | nul => intro t ht; simp at ht
  | space _ _ ih => exact ih
  | lineComment _ _ _ ih => exact ih
  | blockComment _ _ _ ih => exact ih
  | number _ _ ih =>
    refine ToksOk.cons ?_ ih
    split_ifs with hf
    · exact isFloat_numberText hf
    · trivial
  | ident hl _ ih => exact ToksOk.cons hl.1 ih
  | str hb _ ih => exact ToksOk.cons hb ih
  | path h1 h2 _ ih => exact ToksOk.cons ⟨h1, h2⟩ ih
  | sym _ _ _ _ _ _ _ _ ih => exact ToksOk.cons trivial ih

theorem intValue_range (s : Text) : -2 ^ 63 ≤ intValue s ∧ intValue s < 2 ^ 63 := by
  unfold intValue
  omega

mutual

theorem value_ok : ∀ {ts : List Token} {v : Value} {ts' : List Token}, IsValue ts v ts' → ToksOk ts →
    v.All LeafOk ∧ ToksOk ts'
  | _, _, _, .int, h => ⟨by simp only [Value.All, LeafOk]; exact intValue_range _, h.tail⟩
  | _, _, _, .float, h => ⟨by simp only [Value.All, LeafOk]; exact h.head, h.tail⟩
  | _, _, _, .str, h => ⟨by simp only [Value.All, LeafOk]; exact h.head, h.tail⟩
  | _, _, _, .id, h => ⟨by simp only [Value.All, LeafOk]; exact h.head, h.tail⟩
  | _, _, _, .empty, h => ⟨by simp only [Value.All, Value.AllList], h.tail.tail⟩
  | _, _, _, .range ha hb, h => by
    have a := value_ok ha h.tail
    have b := value_ok hb a.2.tail
    exact ⟨by simp only [Value.All]; exact ⟨a.1, b.1⟩, b.2.tail⟩
  | _, _, _, .range3 ha hi hb, h => by
    have a := value_ok ha h.tail
    have i := value_ok hi a.2.tail
    have b := value_ok hb i.2.tail
    exact ⟨by simp only [Value.All]; exact ⟨a.1, i.1, b.1⟩, b.2.tail⟩
  | _, _, _, .arr ha hl, h => by
    have a := value_ok ha h.tail
    have b := elems_ok hl a.2
    exact ⟨by simp only [Value.All, Value.AllList]; exact ⟨a.1, b.1⟩, b.2.tail⟩

theorem elems_ok : ∀ {ts : List Token} {l : List Value} {ts' : List Token}, IsElems ts l ts' → ToksOk ts →
    Value.AllList LeafOk l ∧ ToksOk ts'
  | _, _, _, .nil, h => ⟨by simp only [Value.AllList], h⟩
  | _, _, _, .comma, h => ⟨by simp only [Value.AllList], h.tail⟩
  | _, _, _, .cons hv hl, h => by
    have a := value_ok hv h.tail
    have b := elems_ok hl a.2
    exact ⟨by simp only [Value.AllList]; exact ⟨a.1, b.1⟩, b.2⟩

end

def ArgWf (a : Arg) : Prop := (∀ k, a.key = some k → IdText k) ∧ a.value.All LeafOk

theorem arg_ok {ts : List Token} {a : Arg} {ts' : List Token} (h : IsArg ts a ts') (ht : ToksOk ts) :
    ArgWf a ∧ ToksOk ts' := by
  cases h with
  | key hv =>
    have := value_ok hv ht.tail.tail
    refine ⟨⟨?_, this.1⟩, this.2⟩
    intro k hk
    simp only [Option.some.injEq] at hk
    subst hk
    exact ht.head
  | pos hv =>
    have := value_ok hv ht
    exact ⟨⟨by intro k hk; simp at hk, this.1⟩, this.2⟩

theorem args_ok {ts : List Token} {l : List Arg} {ts' : List Token} (h : IsArgs ts l ts') (ht : ToksOk ts) :
    (∀ a ∈ l, ArgWf a) ∧ ToksOk ts' := by
  induction h with
  | nil => exact ⟨by simp, ht⟩
  | one ha =>
    have := arg_ok ha ht
    exact ⟨by simpa using this.1, this.2⟩
  | cons ha _ ih =>
    have a := arg_ok ha ht
    have b := ih a.2.tail
    refine ⟨?_, b.2⟩
    intro x hx
    rcases List.mem_cons.mp hx with rfl | hx
    · exact a.1
    · exact b.1 x hx

theorem mods_ok {ts : List Token} {m : Nat} {ts' : List Token} (h : IsMods ts m ts') (ht : ToksOk ts) : ToksOk ts' := by
  induction h with
  | nil => exact ht
  | cons _ _ ih => exact ih ht.tail

/-- the bits of a set of modifiers `#`, `%`, `*`, `!` -/
def modBits (h p a e : Bool) : Nat :=
  (if h then 0x11 else 0) ||| ((if p then 0x23 else 0) ||| ((if a then 0x82 else 0) ||| (if e then 0x44 else 0)))

def ModSet (m : Nat) : Prop := ∃ h p a e, m = modBits h p a e

theorem mods_set {ts : List Token} {m : Nat} {ts' : List Token} (h : IsMods ts m ts') : ModSet m := by
  induction h with
  | nil => exact ⟨false, false, false, false, by decide⟩
  | @cons c x b m t ts hb _ ih =>
    obtain ⟨h, p, a, e, rfl⟩ := ih
    have : (b = 0x44 ∨ b = 0x82) ∨ b = 0x23 ∨ b = 0x11 := by
      unfold modifier at hb
      split at hb <;> simp at hb <;> omega
    rcases this with (rfl | rfl) | rfl | rfl
    · exact ⟨h, p, a, true, by cases h <;> cases p <;> cases a <;> cases e <;> rfl⟩
    · exact ⟨h, p, true, e, by cases h <;> cases p <;> cases a <;> cases e <;> rfl⟩
    · exact ⟨h, true, a, e, by cases h <;> cases p <;> cases a <;> cases e <;> rfl⟩
    · exact ⟨true, p, a, e, by cases h <;> cases p <;> cases a <;> cases e <;> rfl⟩

def ItemWf (f : Text) (args : List Arg) (m : Nat) : Prop := (IdText f ∨ f = txt "{") ∧ (∀ a ∈ args, ArgWf a) ∧ ModSet m

theorem allList_append {p : Text → List Arg → Nat → Prop} {l l' : List Item} (h : Item.AllList p l)
    (h' : Item.AllList p l') : Item.AllList p (l ++ l') := by
  induction l with
  | nil => exact h'
  | cons i l ih =>
    simp only [Item.AllList] at h
    simp only [List.cons_append, Item.AllList]
    exact ⟨h.1, ih h.2⟩

mutual

theorem item_ok {fs : FS} : ∀ {file : Text} {ts : List Token} {i : Item} {ts' : List Token}, IsItem fs file ts i ts' →
    ToksOk ts → i.All ItemWf ∧ ToksOk ts'
  | _, _, _, _, .block hl, h => by
    have a := items_ok hl h.tail
    exact ⟨by simp only [Item.All]; exact ⟨⟨Or.inr rfl, by simp, mods_set (.nil (ts := []))⟩, a.1⟩, a.2.tail⟩
  | _, _, _, _, .call hm _ ha e hb, h => by
    have m := mods_ok hm h
    have a := args_ok ha m.tail.tail
    have a2 := a.2
    rw [e] at a2
    have b := body_ok hb a2.tail
    exact ⟨by simp only [Item.All]; exact ⟨⟨Or.inl m.head, a.1, mods_set hm⟩, b.1⟩, b.2⟩

theorem body_ok {fs : FS} : ∀ {file : Text} {ts : List Token} {l : List Item} {ts' : List Token}, IsBody fs file ts l ts' →
    ToksOk ts → Item.AllList ItemWf l ∧ ToksOk ts'
  | _, _, _, _, .braces hl, h => by
    have a := items_ok hl h.tail
    exact ⟨a.1, a.2.tail⟩
  | _, _, _, _, .one hp _, h => push_ok hp h

theorem push_ok {fs : FS} : ∀ {file : Text} {ts : List Token} {l : List Item} {ts' : List Token}, IsPush fs file ts l ts' →
    ToksOk ts → Item.AllList ItemWf l ∧ ToksOk ts'
  | _, _, _, _, .semicolon, h => ⟨by simp only [Item.AllList], h.tail⟩
  | _, _, _, _, .item hi, h => by
    have a := item_ok hi h
    exact ⟨by simp only [Item.AllList]; exact ⟨a.1, trivial⟩, a.2⟩
  | _, _, _, _, .incl _ _ hl hi, h => ⟨(items_ok hi (lexes_ok hl)).1, h.tail.tail⟩
  | _, _, _, _, .inclBare _ _ _ _ hl hi, h => ⟨(items_ok hi (lexes_ok hl)).1, h.tail⟩

theorem items_ok {fs : FS} : ∀ {file : Text} {ts : List Token} {l : List Item} {ts' : List Token}, IsItems fs file ts l ts' →
    ToksOk ts → Item.AllList ItemWf l ∧ ToksOk ts'
  | _, _, _, _, .nil, h => ⟨by simp only [Item.AllList], h⟩
  | _, _, _, _, .cons hp hi, h => by
    have a := push_ok hp h
    have b := items_ok hi a.2
    exact ⟨allList_append a.1 b.1, b.2⟩

end

theorem allList_mem {p : Text → List Arg → Nat → Prop} {l : List Item} (h : Item.AllList p l) {i : Item} (hi : i ∈ l) :
    i.All p := by
  induction l with
  | nil => simp at hi
  | cons j l ih =>
    simp only [Item.AllList] at h
    rcases List.mem_cons.mp hi with rfl | hi
    · exact h.1
    · exact ih h.2 hi

def StmtWf : Stmt → Prop
  | .item i => i.All ItemWf
  | .use p => 62 ∉ p ∧ 0 ∉ p

theorem stmts_ok {fs : FS} {file : Text} {ts : List Token} {l : List Stmt} (h : IsStmts fs file ts l) (ht : ToksOk ts) :
    ∀ s ∈ l, StmtWf s := by
  induction h with
  | nil => simp
  | use _ ih =>
    intro s hs
    rcases List.mem_cons.mp hs with rfl | hs
    · exact ht.tail.head
    · exact ih ht.tail.tail s hs
  | push hp _ _ ih =>
    have a := push_ok hp ht
    intro s hs
    rcases List.mem_append.mp hs with hs | hs
    · obtain ⟨i, hi, rfl⟩ := List.mem_map.mp hs
      exact allList_mem a.1 hi
    · exact ih a.2 s hs

/-! ## Combining conditions -/

mutual

theorem item_all_imp {p q : Text → List Arg → Nat → Prop} (h : ∀ f a m, p f a m → q f a m) : (i : Item) → i.All p → i.All q
  | .mk f a b m, hi => by
    simp only [Item.All] at hi ⊢
    exact ⟨h _ _ _ hi.1, item_allList_imp h b hi.2⟩

theorem item_allList_imp {p q : Text → List Arg → Nat → Prop} (h : ∀ f a m, p f a m → q f a m) : (l : List Item) →
    Item.AllList p l → Item.AllList q l
  | [], _ => by simp only [Item.AllList]
  | i :: l, hl => by
    simp only [Item.AllList] at hl ⊢
    exact ⟨item_all_imp h i hl.1, item_allList_imp h l hl.2⟩

end

mutual

theorem item_all_and {p q : Text → List Arg → Nat → Prop} : (i : Item) → i.All p → i.All q →
    i.All (fun f a m => p f a m ∧ q f a m)
  | .mk f a b m, h1, h2 => by
    simp only [Item.All] at h1 h2 ⊢
    exact ⟨⟨h1.1, h2.1⟩, item_allList_and b h1.2 h2.2⟩

theorem item_allList_and {p q : Text → List Arg → Nat → Prop} : (l : List Item) → Item.AllList p l → Item.AllList q l →
    Item.AllList (fun f a m => p f a m ∧ q f a m) l
  | [], _, _ => by simp only [Item.AllList]
  | i :: l, h1, h2 => by
    simp only [Item.AllList] at h1 h2 ⊢
    exact ⟨item_all_and i h1.1 h2.1, item_allList_and l h1.2 h2.2⟩

end

mutual

theorem value_all_imp {p q : Value → Prop} (h : ∀ v, p v → q v) : (v : Value) → v.All p → v.All q
  | .id _, hv => by simp only [Value.All] at hv ⊢; exact h _ hv
  | .int _, hv => by simp only [Value.All] at hv ⊢; exact h _ hv
  | .float _, hv => by simp only [Value.All] at hv ⊢; exact h _ hv
  | .str _, hv => by simp only [Value.All] at hv ⊢; exact h _ hv
  | .range a b, hv => by
    simp only [Value.All] at hv ⊢; exact ⟨value_all_imp h a hv.1, value_all_imp h b hv.2⟩
  | .range3 a i b, hv => by
    simp only [Value.All] at hv ⊢
    exact ⟨value_all_imp h a hv.1, value_all_imp h i hv.2.1, value_all_imp h b hv.2.2⟩
  | .arr l, hv => by simp only [Value.All] at hv ⊢; exact value_allList_imp h l hv

theorem value_allList_imp {p q : Value → Prop} (h : ∀ v, p v → q v) : (l : List Value) → Value.AllList p l → Value.AllList q l
  | [], _ => by simp only [Value.AllList]
  | v :: l, hl => by
    simp only [Value.AllList] at hl ⊢; exact ⟨value_all_imp h v hl.1, value_allList_imp h l hl.2⟩

end

/-! ## Trees that do not change -/

mutual

theorem value_printed_eq (ff : Text → Text) : (v : Value) → v.All LeafOk → v.All (PrintsBack ff) → v.printed ff = v
  | .id _, _, _ => by simp only [Value.printed]
  | .int _, _, _ => by simp only [Value.printed]
  | .float s, h1, h2 => by
    simp only [Value.All, LeafOk, PrintsBack] at h1 h2
    simp only [Value.printed]
    rw [h2.2, if_pos h1]
  | .str _, _, _ => by simp only [Value.printed]
  | .range a b, h1, h2 => by
    simp only [Value.All] at h1 h2
    simp only [Value.printed]
    rw [value_printed_eq ff a h1.1 h2.1, value_printed_eq ff b h1.2 h2.2]
  | .range3 a i b, h1, h2 => by
    simp only [Value.All] at h1 h2
    simp only [Value.printed]
    rw [value_printed_eq ff a h1.1 h2.1, value_printed_eq ff i h1.2.1 h2.2.1, value_printed_eq ff b h1.2.2 h2.2.2]
  | .arr l, h1, h2 => by
    simp only [Value.All] at h1 h2
    simp only [Value.printed]
    rw [value_printedList_eq ff l h1 h2]

theorem value_printedList_eq (ff : Text → Text) : (l : List Value) → Value.AllList LeafOk l →
    Value.AllList (PrintsBack ff) l → Value.printedList ff l = l
  | [], _, _ => by simp only [Value.printedList]
  | v :: l, h1, h2 => by
    simp only [Value.AllList] at h1 h2
    simp only [Value.printedList]
    rw [value_printed_eq ff v h1.1 h2.1, value_printedList_eq ff l h1.2 h2.2]

end

/-- conditions under which an item does not change -/
def ItemSame (ff : Text → Text) (_ : Text) (args : List Arg) (m : Nat) : Prop :=
  m = 0 ∧ ∀ a ∈ args, a.value.All LeafOk ∧ a.value.All (PrintsBack ff)

mutual

theorem item_printed_eq (ff : Text → Text) : (i : Item) → i.All (ItemSame ff) → i.printed ff = i
  | .mk f args body m, h => by
    simp only [Item.All, ItemSame] at h
    simp only [Item.printed]
    rw [item_printedList_eq ff body h.2, h.1.1]
    congr 1
    conv_rhs => rw [← List.map_id args]
    apply List.map_congr_left
    intro a ha
    rw [value_printed_eq ff a.value (h.1.2 a ha).1 (h.1.2 a ha).2]
    rfl

theorem item_printedList_eq (ff : Text → Text) : (l : List Item) → Item.AllList (ItemSame ff) l →
    Item.printedList ff l = l
  | [], _ => by simp only [Item.printedList]
  | i :: l, h => by
    simp only [Item.AllList] at h
    simp only [Item.printedList]
    rw [item_printed_eq ff i h.1, item_printedList_eq ff l h.2]

end

end Hob3l.Syn
