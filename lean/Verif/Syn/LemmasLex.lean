import Verif.Syn.Spec
import Mathlib.Tactic.SplitIfs
/-! # Lexer: walking through the buffer -/
namespace Hob3l.Syn

theorem of_mem_takeWhile {α : Type} {p : α → Bool} {x : α} {l : List α} (h : x ∈ l.takeWhile p) : p x = true := by
  have := List.all_takeWhile (p := p) (l := l)
  rw [List.all_eq_true] at this
  exact this x h

/-- The first character is overwritten if `g`. -/
def mark (g : Bool) (s : Text) : Text := if g then 0 :: s.tail else s

/-- The lexer stands in front of the text `s`, whose first character is overwritten in the buffer if `g`. -/
structure Inv (l : Lex) (s : Text) (g : Bool) : Prop where
  pos : l.pos + s.length = l.fin
  len : l.buf.length = l.fin + 1
  buf : l.buf.drop l.pos = mark g (s ++ [0])
  cur : l.cur = s.headD 0

/-- The lexer has moved `k` characters forward. -/
structure Adv (l l' : Lex) (k : Nat) : Prop where
  buf : l'.buf = l.buf
  fin : l'.fin = l.fin
  pos : l'.pos = l.pos + k

theorem Adv.refl (l : Lex) : Adv l l 0 := ⟨rfl, rfl, rfl⟩

theorem Adv.trans {l l' l'' : Lex} {k k' : Nat} (h : Adv l l' k) (h' : Adv l' l'' k') : Adv l l'' (k + k') :=
  ⟨h'.buf.trans h.buf, h'.fin.trans h.fin, by rw [h'.pos, h.pos]; omega⟩

theorem tail_mark (g : Bool) (s : Text) : (mark g s).tail = s.tail := by
  cases g <;> rfl

theorem drop_succ_tail {α : Type} (l : List α) (i : Nat) : l.drop (i + 1) = (l.drop i).tail := by
  rw [List.tail_drop]

theorem Inv.fuel {l : Lex} {s : Text} {g : Bool} (h : Inv l s g) : s.length < l.fuel := by
  have := h.pos; have := h.len
  simp only [Lex.fuel]; omega

theorem lexNext_nil {l : Lex} {g : Bool} (h : Inv l [] g) : lexNext l = some l := by
  have hp := h.pos
  have hc := h.cur
  simp only [List.length_nil, Nat.add_zero] at hp
  simp only [List.headD_nil] at hc
  unfold lexNext
  rw [if_pos (by omega), ← hc]

theorem lexNext_cons {l : Lex} {a : Nat} {s : Text} {g : Bool} (h : Inv l (a :: s) g) :
    ∃ l', lexNext l = some l' ∧ Inv l' s false ∧ Adv l l' 1 := by
  have hp := h.pos
  have hb := h.buf
  simp only [List.length_cons] at hp
  have hd : l.buf.drop (l.pos + 1) = s ++ [0] := by
    rw [drop_succ_tail, hb, tail_mark]; rfl
  have hg : l.buf[l.pos + 1]? = some (s.headD 0) := by
    have := congrArg (fun x => x[0]?) hd
    simp only [List.getElem?_drop, Nat.add_zero] at this
    rw [this]
    cases s <;> rfl
  refine ⟨{ l with pos := l.pos + 1, cur := s.headD 0 }, ?_, ⟨?_, h.len, ?_, rfl⟩, ⟨rfl, rfl, rfl⟩⟩
  · unfold lexNext
    rw [if_neg (by omega), hg]
    rfl
  · show l.pos + 1 + s.length = l.fin
    omega
  · exact hd

theorem here_eq {l : Lex} {s : Text} {g : Bool} (h : Inv l s g) :
    here l = some (if g then 0 else s.headD 0) := by
  have := congrArg (fun x => x[0]?) h.buf
  simp only [List.getElem?_drop, Nat.add_zero] at this
  rw [here, this]
  cases g <;> cases s <;> rfl

/-- A loop over characters. -/
theorem skipWhile_spec (f : Nat → Bool) (hf : f 0 = false) (n : Nat) {l : Lex} {s : Text} {g : Bool}
    (h : Inv l s g) (hn : s.length < n) :
    ∃ l', skipWhile f n l = some l' ∧
      Inv l' (s.dropWhile f) (if s.takeWhile f = [] then g else false) ∧ Adv l l' (s.takeWhile f).length := by
  induction n generalizing l s g with
  | zero => omega
  | succ n ih =>
    cases s with
    | nil =>
      refine ⟨l, ?_, ?_, Adv.refl l⟩
      · rw [skipWhile, h.cur, List.headD_nil, hf]; rfl
      · simpa using h
    | cons a s =>
      have hc : l.cur = a := h.cur
      cases hfa : f a with
      | false =>
        refine ⟨l, ?_, ?_, ?_⟩
        · rw [skipWhile, hc, hfa]; rfl
        · simpa [List.dropWhile_cons, List.takeWhile_cons, hfa] using h
        · simpa [List.takeWhile_cons, hfa] using Adv.refl l
      | true =>
        obtain ⟨l1, e1, i1, a1⟩ := lexNext_cons h
        simp only [List.length_cons] at hn
        obtain ⟨l2, e2, i2, a2⟩ := ih i1 (by omega)
        refine ⟨l2, ?_, ?_, ?_⟩
        · rw [skipWhile, hc, hfa, if_pos rfl, e1]; exact e2
        · rw [List.dropWhile_cons, hfa, if_pos rfl, List.takeWhile_cons, hfa, if_pos rfl,
            if_neg (List.cons_ne_nil _ _)]
          split_ifs at i2 <;> exact i2
        · rw [List.takeWhile_cons, hfa, if_pos rfl, List.length_cons, Nat.add_comm]
          exact a1.trans a2

/-- The buffer has changed only at the place where the lexer stood. -/
structure Later (l l' : Lex) : Prop where
  fin : l'.fin = l.fin
  len : l'.buf.length = l.buf.length
  pos : l.pos ≤ l'.pos
  old : ∀ i, i < l.pos → l'.buf[i]? = l.buf[i]?
  at' : l'.buf[l.pos]? = l.buf[l.pos]? ∨ l'.buf[l.pos]? = some 0

theorem Later.refl (l : Lex) : Later l l := ⟨rfl, rfl, Nat.le_refl _, fun _ _ => rfl, Or.inl rfl⟩

theorem Later.trans {l l' l'' : Lex} (h : Later l l') (h' : Later l' l'') : Later l l'' := by
  refine ⟨h'.fin.trans h.fin, h'.len.trans h.len, Nat.le_trans h.pos h'.pos, ?_, ?_⟩
  · intro i hi
    rw [h'.old i (Nat.lt_of_lt_of_le hi h.pos), h.old i hi]
  · rcases Nat.lt_or_ge l.pos l'.pos with hlt | hge
    · rw [h'.old _ hlt]; exact h.at'
    · have e : l'.pos = l.pos := Nat.le_antisymm hge h.pos
      rcases h'.at' with h1 | h1
      · rw [← e, h1, e]; exact h.at'
      · right; rw [← e]; exact h1

theorem Adv.later {l l' : Lex} {k : Nat} (h : Adv l l' k) : Later l l' :=
  ⟨h.fin, by rw [h.buf], by rw [h.pos]; omega, fun i _ => by rw [h.buf], Or.inl (by rw [h.buf])⟩

theorem terminate_spec {l : Lex} {s : Text} {g : Bool} (h : Inv l s g) :
    ∃ l', terminate l = some l' ∧ Inv l' s true ∧ l'.buf = l.buf.set l.pos 0 ∧ l'.pos = l.pos ∧ l'.fin = l.fin ∧
      Later l l' := by
  have hp := h.pos
  have hl := h.len
  refine ⟨{ l with buf := l.buf.set l.pos 0 }, ?_, ⟨hp, ?_, ?_, h.cur⟩, rfl, rfl, rfl, ⟨rfl, ?_, Nat.le_refl _, ?_, ?_⟩⟩
  · unfold terminate
    rw [if_pos (by omega)]
  · simpa using hl
  · show (l.buf.set l.pos 0).drop l.pos = _
    rw [List.drop_set, if_neg (by omega), Nat.sub_self, h.buf]
    cases g <;> cases s <;> rfl
  · simp
  · intro i hi
    show (l.buf.set l.pos 0)[i]? = _
    rw [List.getElem?_set_ne (by omega)]
  · right
    show (l.buf.set l.pos 0)[l.pos]? = _
    rw [List.getElem?_set_self (by omega)]

/-- The C string between an offset and a NUL. -/
theorem cstr_eq {buf a b : Text} {i : Nat} (h : buf.drop i = a ++ 0 :: b) (h0 : 0 ∉ a) : cstr buf i = some a := by
  have hi : i < buf.length := by
    rcases Nat.lt_or_ge i buf.length with h1 | h1
    · exact h1
    · rw [List.drop_eq_nil_of_le h1] at h
      cases a <;> cases h
  unfold cstr
  rw [if_pos ⟨hi, by rw [h]; simp⟩, h]
  congr 1
  rw [List.takeWhile_append_of_pos]
  · simp
  · intro x hx
    simp only [ne_eq, decide_not, Bool.not_eq_eq_eq_not, Bool.not_true, decide_eq_false_iff_not]
    rintro rfl
    exact h0 hx

/-- The C string of a lexeme that ends where the lexer stands. -/
theorem cstr_set {buf a : Text} {b : Text} {i : Nat} (h : buf.drop i = a ++ b) (hb : b ≠ []) (h0 : 0 ∉ a) :
    cstr (buf.set (i + a.length) 0) i = some a := by
  obtain ⟨x, b, rfl⟩ := List.exists_cons_of_ne_nil hb
  refine cstr_eq (b := b) ?_ h0
  rw [List.drop_set, if_neg (by omega), h, Nat.add_sub_cancel_left, List.set_append_right _ _ (Nat.le_refl _),
    Nat.sub_self]
  rfl

/-- A C string that ends in front of the lexer, or where it stands, is not changed later. -/
theorem cstr_later {l l' : Lex} {i : Nat} {a : Text} (h : Later l l') (hc : cstr l.buf i = some a)
    (hi : i + a.length ≤ l.pos) : cstr l'.buf i = some a := by
  unfold cstr at hc
  split_ifs at hc with h1
  have e : a = (l.buf.drop i).takeWhile (· ≠ 0) := (Option.some.inj hc).symm
  -- the text and the NUL in the old buffer
  obtain ⟨b, hb⟩ : ∃ b, l.buf.drop i = a ++ 0 :: b := by
    have hs := List.takeWhile_append_dropWhile (p := (· ≠ 0)) (l := l.buf.drop i)
    have hd : (l.buf.drop i).dropWhile (· ≠ 0) ≠ [] := by
      intro hd
      rw [hd, List.append_nil] at hs
      have := of_mem_takeWhile (hs ▸ h1.2)
      simp at this
    obtain ⟨x, b, hx⟩ := List.exists_cons_of_ne_nil hd
    refine ⟨b, ?_⟩
    have h0 : x = 0 := by
      have := List.head_dropWhile_not (p := (· ≠ 0)) (l := l.buf.drop i) hd
      simp only [hx, List.head_cons] at this
      simpa using this
    subst h0
    rw [e, ← hx]
    exact hs.symm
  have h0 : 0 ∉ a := by
    intro h0
    rw [e] at h0
    have := of_mem_takeWhile h0
    simp at this
  have get : ∀ j, j < a.length → l'.buf[i + j]? = a[j]? := by
    intro j hj
    rw [h.old _ (by omega), ← List.getElem?_drop, hb, List.getElem?_append_left hj]
  have getz : l'.buf[i + a.length]? = some 0 := by
    have hz : l.buf[i + a.length]? = some 0 := by
      rw [← List.getElem?_drop, hb, List.getElem?_append_right (Nat.le_refl _), Nat.sub_self]; rfl
    rcases Nat.lt_or_ge (i + a.length) l.pos with h2 | h2
    · rw [h.old _ h2]; exact hz
    · have e2 : i + a.length = l.pos := by omega
      rw [e2] at hz ⊢
      rcases h.at' with h3 | h3
      · rw [h3, hz]
      · exact h3
  refine cstr_eq (b := l'.buf.drop (i + a.length + 1)) ?_ h0
  apply List.ext_getElem?
  intro j
  rw [List.getElem?_drop]
  rcases Nat.lt_trichotomy j a.length with hj | hj | hj
  · rw [get j hj, List.getElem?_append_left hj]
  · subst hj
    rw [getz, List.getElem?_append_right (Nat.le_refl _), Nat.sub_self]; rfl
  · rw [List.getElem?_append_right (by omega)]
    obtain ⟨k, hk⟩ : ∃ k, j - a.length = k + 1 := ⟨j - a.length - 1, by omega⟩
    rw [hk, List.getElem?_cons_succ, List.getElem?_drop]
    congr 1
    omega

end Hob3l.Syn
