import Verif.Xml.Lemmas

/-!
The bounds on the number of steps suffice; texts fit.
-/

namespace Hob3l.Xml

/-- `P` holds for the result, and the bound on the number of steps was large enough -/
def Fine {α : Type} (P : α → Prop) : Res α → Prop
  | .ok a => P a
  | .stuck => False
  | _ => True

theorem fine_bind {α β : Type} {P : α → Prop} {Q : β → Prop} {x : Res α} {f : α → Res β} (h : Fine P x)
    (hf : ∀ a, P a → Fine Q (f a)) : Fine Q (x.bind f) := by
  cases x with
  | ok a => exact hf a h
  | stuck => exact h
  | _ => trivial

theorem fine_mono {α : Type} {P Q : α → Prop} {x : Res α} (h : Fine P x) (hf : ∀ a, P a → Q a) : Fine Q x := by
  cases x with
  | ok a => exact hf a h
  | stuck => exact h
  | _ => trivial

theorem cur_ne {l : List Ch} {c : Nat} (h : cur l = c) (hc : c ≠ 0) : 1 ≤ l.length := by
  cases l with
  | nil => exact absurd h.symm hc
  | cons => simp

theorem tagRun_fine (l : List Ch) : Fine (fun r => r.2.length ≤ l.length) (tagRun l) := by
  induction l with
  | nil => trivial
  | cons c l ih =>
    unfold tagRun
    split
    · exact fine_bind ih fun a ha => by simp only [Fine, List.length_cons]; omega
    · exact Nat.le_refl _

theorem parseTag_fine (l : List Ch) : Fine (fun r => r.2.length ≤ l.length) (parseTag l) := by
  unfold parseTag
  split
  · exact tagRun_fine l
  · exact Nat.le_refl _

theorem expect_fine (s : Str) (l : List Ch) : Fine (fun r => r.length ≤ l.length) (expect s l) := by
  induction s generalizing l with
  | nil => exact Nat.le_refl _
  | cons b s ih =>
    unfold expect
    split
    · trivial
    · exact fine_mono (ih l.tail) fun a ha => by simp at ha; omega

theorem expect_fine' (b : Nat) (s : Str) (l : List Ch) (hb : b ≠ 0) : Fine (fun r => r.length < l.length) (expect (b :: s) l) := by
  unfold expect
  by_cases h : cur l = b
  · rw [if_neg (by simp [h])]
    have := cur_ne h hb
    exact fine_mono (expect_fine s l.tail) fun a ha => by simp at ha; omega
  · rw [if_pos h]; trivial

theorem readNum_len (b : Nat) (l : List Ch) (n : Nat) : (readNum b l n).2.length ≤ l.length := by
  induction l generalizing n with
  | nil => exact Nat.le_refl _
  | cons c l ih =>
    unfold readNum
    split
    · exact Nat.le_refl _
    · have := ih ((n * b + digitVal c.cp) % 2 ^ 32)
      simp only [List.length_cons]
      omega

theorem entity_fine (l : List Ch) : Fine (fun r => r.2.length ≤ l.length) (entity l) := by
  unfold entity
  refine fine_bind (P := fun r => r.2.length ≤ l.length) ?_ fun a ha => by
    split
    · trivial
    · exact ha
  have ht : l.tail.length ≤ l.length := by simp
  have htt : l.tail.tail.length ≤ l.length := by simp; omega
  split
  · exact fine_bind (expect_fine _ l) fun a ha => ha
  split
  · exact fine_bind (expect_fine _ l) fun a ha => ha
  split
  · exact fine_bind (expect_fine _ l) fun a ha => ha
  split
  · split
    · exact fine_bind (expect_fine _ l.tail) fun a ha => by simp only [Fine]; omega
    · exact fine_bind (expect_fine _ l.tail) fun a ha => by simp only [Fine]; omega
  split
  · split
    · have := readNum_len 16 l.tail.tail 0
      simp only [Fine]; omega
    · have := readNum_len 10 l.tail 0
      simp only [Fine]; omega
  · trivial

theorem textLoop_fine (delim : Nat) (n : Nat) : ∀ gap l, l.length < n →
    Fine (fun r => r.2.length ≤ l.length ∧ (cur l ≠ delim → cur l ≠ 0x3c → cur l ≠ 0 → r.2.length < l.length)) (textLoop delim n gap l) := by
  induction n with
  | zero => intro _ l h; omega
  | succ n ih =>
    intro gap l h
    unfold textLoop
    by_cases h0 : cur l = delim ∨ cur l = 0x3c ∨ cur l = 0
    · rw [if_pos h0]
      exact ⟨Nat.le_refl _, fun a b c => by omega⟩
    rw [if_neg h0]
    have hl : 1 ≤ l.length := cur_ne rfl (by omega)
    refine fine_bind (P := fun r => r.2.tail.length < l.length) ?_ fun q hq => ?_
    · split
      · refine fine_mono (entity_fine l.tail) fun a ha => ?_
        simp at ha ⊢
        omega
      · simp only [Fine, List.length_tail]; omega
    split
    · trivial
    split
    · trivial
    · trivial
    · refine fine_bind (ih _ q.2.tail (by omega)) fun a ha => ?_
      exact ⟨by dsimp only; omega, fun _ _ _ => by dsimp only; omega⟩

theorem parseText_fine (delim : Nat) (l : List Ch) :
    Fine (fun r => r.2.length ≤ l.length ∧ (cur l ≠ delim → cur l ≠ 0x3c → cur l ≠ 0 → r.2.length < l.length)) (parseText delim l) :=
  textLoop_fine delim _ 0 l (by omega)

theorem scopedName_fine (l : List Ch) : Fine (fun r => r.2.2.length ≤ l.length) (scopedName l) := by
  unfold scopedName
  refine fine_bind (parseTag_fine l) fun a ha => ?_
  split
  · exact fine_bind (parseTag_fine a.2.tail) fun b hb => by simp at hb; simp only [Fine]; omega
  · exact ha

theorem dropWhile_len (f : Ch → Bool) (l : List Ch) : (l.dropWhile f).length ≤ l.length := (List.dropWhile_sublist f).length_le

theorem parseAttr_fine (l : List Ch) : Fine (fun r => r.2.length ≤ l.length) (parseAttr l) := by
  have h0 : (skipSpace l).length ≤ l.length := dropWhile_len _ l
  unfold parseAttr
  dsimp only
  split
  · exact h0
  refine fine_bind (scopedName_fine _) fun a ha => ?_
  split
  · simp only [Fine]; omega
  split
  · trivial
  refine fine_bind (parseText_fine _ _) fun b hb => ?_
  split
  · trivial
  · have := hb.1
    simp at this
    simp only [Fine, List.length_tail]
    omega

theorem attrList_fine (n : Nat) : ∀ env l, l.length < n → Fine (fun r => r.2.2.length ≤ l.length) (attrList n env l) := by
  induction n with
  | zero => intro _ l h; omega
  | succ n ih =>
    intro env l h
    unfold attrList
    refine fine_bind (parseAttr_fine l) fun a ha => ?_
    split
    · exact ha
    by_cases hl : a.2.length = l.length
    · rw [if_pos hl]; trivial
    rw [if_neg hl]
    split
    · exact fine_mono (ih _ a.2 (by omega)) fun b hb => by omega
    split
    · split
      · trivial
      · exact fine_mono (ih _ a.2 (by omega)) fun b hb => by omega
    · exact fine_bind (ih env a.2 (by omega)) fun b hb => by simp only [Fine]; omega

theorem skipComment_fine (l : List Ch) : Fine (fun r => r.length ≤ l.length) (skipComment l) := by
  induction l with
  | nil => trivial
  | cons c l ih =>
    unfold skipComment
    split
    · exact expect_fine _ _
    · exact fine_mono ih fun a ha => by simp only [List.length_cons]; omega

theorem findNs_fine (env : Env) (p : Option Str) (b : Bool) : Fine (fun _ => True) (findNs env p b) := by
  unfold findNs
  cases p with
  | none => trivial
  | some p => dsimp only; split <;> trivial

theorem resolveAttrs_fine (env : Env) (l : List Attr) : Fine (fun _ => True) (resolveAttrs env l) := by
  induction l with
  | nil => trivial
  | cons a l ih => exact fine_bind (findNs_fine _ _ _) fun _ _ => fine_bind ih fun _ _ => trivial

theorem chomp_fine (l : List Nd) : Fine (fun _ => True) (chomp l) := by
  induction l with
  | nil => trivial
  | cons x l ih =>
    cases x with
    | cdata t =>
      refine fine_bind (P := fun _ => True) ?_ fun _ _ => fine_bind ih fun _ _ => trivial
      unfold chompStr
      split <;> trivial
    | attr _ _ _ _ | elem _ _ _ _ => exact fine_bind ih fun _ _ => trivial

theorem endTag_fine (t : Option Str × Str) (l : List Ch) : Fine (fun r => r.length ≤ l.length) (endTag t l) := by
  unfold endTag
  refine fine_bind (P := fun r => r.length ≤ l.length) ?_ fun a ha => fine_bind (expect_fine _ a) fun b hb =>
    fine_mono (expect_fine _ (skipSpace b)) fun c hc => ?_
  · split
    · exact Nat.le_refl _
    · exact fine_bind (expect_fine _ l) fun a ha => fine_mono (expect_fine _ a) fun b hb => by omega
  · have : (skipSpace b).length ≤ b.length := dropWhile_len _ b
    omega

/-- the bounds of the three functions -/
theorem parse_fine (opt : Bool) (n : Nat) :
    (∀ env l, 2 * l.length + 1 ≤ n → Fine (fun r => r.2.length ≤ l.length ∧ (r.1.isSome → r.2.length < l.length)) (content opt n env l))
    ∧ (∀ env l, 2 * l.length + 2 ≤ n → Fine (fun r => r.2.length ≤ l.length) (elem opt n env l))
    ∧ (∀ env tag l, 2 * l.length + 2 ≤ n → Fine (fun r => r.2.length ≤ l.length) (contentList opt n env tag l)) := by
  induction n with
  | zero => exact ⟨fun _ _ h => by omega, fun _ _ h => by omega, fun _ _ _ h => by omega⟩
  | succ n ih =>
    obtain ⟨i1, i2, i3⟩ := ih
    refine ⟨fun env l h => ?_, fun env l h => ?_, fun env tag l h => ?_⟩
    · unfold content
      by_cases h0 : cur l = 0
      · rw [if_pos h0]; exact ⟨Nat.le_refl _, by simp⟩
      rw [if_neg h0]
      by_cases h1 : cur l = 0x3c
      · rw [if_pos h1]
        have hl := cur_ne h1 (by decide)
        have ht : l.tail.length + 1 = l.length := by simp; omega
        split
        · refine fine_bind (fine_bind (expect_fine _ l.tail) fun a ha => fine_mono (skipComment_fine a)
            (Q := fun r => r.length ≤ l.tail.length) fun b hb => by omega) fun a ha => ?_
          exact fine_mono (i1 env a (by omega)) fun b hb => ⟨by omega, fun hs => by have := hb.2 hs; omega⟩
        · exact fine_bind (i2 env l.tail (by omega)) fun a ha => ⟨by dsimp only; omega, fun _ => by dsimp only; omega⟩
      · rw [if_neg h1]
        exact fine_bind (parseText_fine 0x3c l) fun a ha => ⟨ha.1, fun _ => ha.2 h1 h1 h0⟩
    · unfold elem
      refine fine_bind (scopedName_fine l) fun r hr => fine_bind (attrList_fine _ env _ (Nat.lt_succ_self _)) fun a ha =>
        fine_bind (findNs_fine _ _ _) fun ns _ => fine_bind (resolveAttrs_fine _ _) fun as _ => ?_
      split
      · exact fine_bind (expect_fine _ _) fun b hb => by simp only [Fine]; omega
      · refine fine_bind (expect_fine' _ _ _ (by decide)) fun b hb => fine_bind (i3 _ _ b (by omega)) fun q hq =>
          fine_bind (P := fun _ => True) ?_ fun c _ => by simp only [Fine]; omega
        split
        · exact chomp_fine _
        · trivial
    · unfold contentList
      split
      · refine fine_bind (endTag_fine _ _) fun a ha => ?_
        simp at ha
        simp only [Fine]
        omega
      · refine fine_bind (i1 env l (by omega)) fun r hr => ?_
        split
        · split
          · trivial
          · exact hr.1
        · rename_i x hx
          have := hr.2 (by rw [hx]; rfl)
          exact fine_bind (i3 env tag r.2 (by omega)) fun q hq => by simp only [Fine]; omega

theorem declaration_fine (l : List Ch) : Fine (fun _ => True) (declaration l) := by
  unfold declaration
  split
  · refine fine_bind (parseTag_fine _) fun r hr => ?_
    split
    · trivial
    · exact fine_bind (attrList_fine _ _ _ (Nat.lt_succ_self _)) fun a ha => fine_bind (expect_fine _ _) fun _ _ => trivial
  · trivial

theorem skipDoctype_fine (l : List Ch) : Fine (fun _ => True) (skipDoctype l) := by
  unfold skipDoctype
  split
  · refine fine_bind (expect_fine _ _) fun r hr => ?_
    dsimp only
    split <;> trivial
  · trivial

theorem parseDoc_fine (opt : Bool) (l : List Ch) : Fine (fun _ => True) (parseDoc opt l) := by
  unfold parseDoc
  dsimp only
  refine fine_bind (declaration_fine _) fun d _ => fine_bind (skipDoctype_fine _) fun l _ =>
    fine_bind ((parse_fine opt _).2.2 _ _ l (Nat.le_refl _)) fun q _ => fine_bind (chomp_fine _) fun b _ => ?_
  split <;> trivial

/-! ## Texts fit -/

/-- the bytes of a character are at least as many as those of its encoding -/
def Roomy (l : List Ch) : Prop := ∀ c ∈ l, c.cp ≠ 0 ∧ (utf8 c.cp).length ≤ c.bs.length ∧ 1 ≤ c.bs.length

theorem roomy_tail {c : Ch} {l : List Ch} (h : Roomy (c :: l)) : Roomy l := fun x hx => h x (by simp [hx])

theorem chars_roomy (n : Nat) : ∀ bs, Roomy (chars n bs).1 := by
  induction n with
  | zero => intro bs c hc; cases hc
  | succ n ih =>
    intro bs
    unfold chars
    cases hd : Utf8.decode ⟨bs, bs.length, none⟩ with
    | none => intro c hc; cases hc
    | some x =>
      obtain ⟨c, it⟩ := x
      dsimp only
      by_cases he : it.err.isSome = true
      · rw [if_pos he]; intro c hc; cases hc
      rw [if_neg he]
      by_cases hc0 : c = 0
      · rw [if_pos hc0]; intro c hc; cases hc
      rw [if_neg hc0]
      intro y hy
      rcases List.mem_cons.1 hy with rfl | hy
      · obtain ⟨data, size, err⟩ := it
        have : err = none := by simpa using he
        subst this
        obtain ⟨b, v, h1, h2, h3, h4, h5, h6, h7, h8⟩ := (Utf8.C42_accepts_exactly_partial bs data bs.length size c).1 ⟨hd, hc0⟩
        subst h1
        have hlen : (b ++ data).length - data.length = b.length := by simp
        refine ⟨hc0, ?_, ?_⟩
        · dsimp only
          rw [hlen, List.take_left]
          have hcap : ∀ k, v < 2 ^ k → Utf8.tagBits b.length < 2 ^ k → c < 2 ^ k := fun k h1 h2 => by
            rw [h7]; exact or_lt h1 h2
          cases h2 with
          | one a p q =>
            have := (utf8_len c).2.2 (by have := hcap 7 (by omega) (by simp [Utf8.tagBits]); omega)
            simp [this]
          | two a b p q =>
            have := hcap 11 (by omega) (by simp [Utf8.tagBits])
            unfold utf8
            split_ifs <;> simp <;> omega
          | three a b d p q r =>
            have := hcap 16 (by omega) (by simp [Utf8.tagBits])
            unfold utf8
            split_ifs <;> simp <;> omega
          | four => exact (utf8_len c).2.1
        · dsimp only
          rw [hlen, List.take_left]
          cases h2 <;> simp
      · exact ih _ y hy

/-- no failed assertion -/
def Safe {α : Type} (P : α → Prop) : Res α → Prop
  | .ok a => P a
  | .crash => False
  | _ => True

theorem safe_bind {α β : Type} {P : α → Prop} {Q : β → Prop} {x : Res α} {f : α → Res β} (h : Safe P x)
    (hf : ∀ a, P a → Safe Q (f a)) : Safe Q (x.bind f) := by
  cases x with
  | ok a => exact hf a h
  | crash => exact h
  | _ => trivial

theorem bytes_cons (c : Ch) (l : List Ch) : bytesOf (c :: l) = c.bs.length + bytesOf l := by simp [bytesOf]

theorem roomy_suffix {s l : List Ch} (h : Roomy l) (hs : s <:+ l) : Roomy s := fun x hx => h x (hs.subset hx)

theorem bytes_suffix {s l : List Ch} (hs : s <:+ l) : bytesOf s ≤ bytesOf l := by
  obtain ⟨t, rfl⟩ := hs
  simp [bytesOf]

/-- what is left is a suffix with this number of bytes less -/
theorem expect_safe (s : Str) (l : List Ch) (h : Roomy l) (hs : ∀ b ∈ s, b ≠ 0) :
    Safe (fun r => r <:+ l ∧ bytesOf r + s.length ≤ bytesOf l) (expect s l) := by
  induction s generalizing l with
  | nil => exact ⟨List.suffix_refl _, by simp⟩
  | cons b s ih =>
    unfold expect
    by_cases hb : cur l = b
    · rw [if_neg (by simp [hb])]
      cases l with
      | nil => exact absurd hb.symm (hs b (by simp))
      | cons c l =>
        have hi := ih l (roomy_tail h) fun x hx => hs x (by simp [hx])
        have hc := (h c (by simp)).2.2
        rw [List.tail_cons]
        revert hi
        cases expect s l with
        | ok r =>
          rintro ⟨h1, h2⟩
          refine ⟨h1.trans (List.suffix_cons c l), ?_⟩
          rw [bytes_cons, List.length_cons]
          omega
        | _ => exact fun h => h
    · rw [if_pos hb]; trivial

theorem readNum_safe (b : Nat) (l : List Ch) (h : Roomy l) (n : Nat) :
    (readNum b l n).2 <:+ l ∧ ((readNum b l n).1 ≠ n → bytesOf (readNum b l n).2 + 1 ≤ bytesOf l) := by
  induction l generalizing n with
  | nil => exact ⟨List.suffix_refl _, fun h => absurd rfl h⟩
  | cons c l ih =>
    unfold readNum
    split
    · exact ⟨List.suffix_refl _, fun h => absurd rfl h⟩
    · obtain ⟨h1, h2⟩ := ih (roomy_tail h) ((n * b + digitVal c.cp) % 2 ^ 32)
      refine ⟨h1.trans (List.suffix_cons c l), fun _ => ?_⟩
      have := bytes_suffix h1
      have := (h c (by simp)).2.2
      rw [bytes_cons]
      omega

/-- the character takes at least two bytes, unless it is 0 -/
theorem entity_safe (l : List Ch) (h : Roomy l) :
    Safe (fun r => r.2 <:+ l ∧ 1 ≤ r.2.length ∧ (r.1 ≠ 0 → bytesOf r.2 + 2 ≤ bytesOf l)) (entity l) := by
  unfold entity
  refine safe_bind (P := fun r => r.2 <:+ l ∧ (r.1 ≠ 0 → bytesOf r.2 + 2 ≤ bytesOf l)) ?_ fun a ha => by
    split
    · trivial
    · rename_i hc
      exact ⟨ha.1, cur_ne (not_not.1 hc) (by decide), ha.2⟩
  have hexp : ∀ s v, 2 ≤ s.length → (∀ b ∈ s, b ≠ 0) → Safe (fun r => r.2 <:+ l ∧ (r.1 ≠ 0 → bytesOf r.2 + 2 ≤ bytesOf l))
      ((expect s l).bind fun l => .ok (v, l)) := by
    intro s v hs hb
    exact safe_bind (expect_safe s l h hb) fun a ha => ⟨ha.1, fun _ => by dsimp only; omega⟩
  have htail : l.tail <:+ l := List.tail_suffix l
  have hexpt : ∀ s v, 2 ≤ s.length → (∀ b ∈ s, b ≠ 0) → Safe (fun r => r.2 <:+ l ∧ (r.1 ≠ 0 → bytesOf r.2 + 2 ≤ bytesOf l))
      ((expect s l.tail).bind fun l => .ok (v, l)) := by
    intro s v hs hb
    have hbt := bytes_suffix htail
    exact safe_bind (expect_safe s l.tail (roomy_suffix h htail) hb) fun a ha => ⟨ha.1.trans htail, fun _ => by dsimp only; omega⟩
  split
  · exact hexp _ _ (by decide) (by decide)
  split
  · exact hexp _ _ (by decide) (by decide)
  split
  · exact hexp _ _ (by decide) (by decide)
  split
  · split
    · exact hexpt _ _ (by decide) (by decide)
    · exact hexpt _ _ (by decide) (by decide)
  split
  · rename_i h23
    have hl := cur_ne h23 (by decide)
    have hbt : bytesOf l.tail + 1 ≤ bytesOf l := by
      cases l with
      | nil => simp at hl
      | cons c l =>
        have := (h c (by simp)).2.2
        rw [List.tail_cons, bytes_cons]
        omega
    split
    · have htt : l.tail.tail <:+ l := (List.tail_suffix _).trans htail
      obtain ⟨h1, h2⟩ := readNum_safe 16 l.tail.tail (roomy_suffix h htt) 0
      refine ⟨h1.trans htt, fun h0 => ?_⟩
      have := h2 h0
      have := bytes_suffix (List.tail_suffix l.tail)
      omega
    · obtain ⟨h1, h2⟩ := readNum_safe 10 l.tail (roomy_suffix h htail) 0
      refine ⟨h1.trans htail, fun h0 => ?_⟩
      have := h2 h0
      omega
  · trivial

theorem textLoop_safe (delim : Nat) (n : Nat) : ∀ gap l, Roomy l → Safe (fun r => r.2 <:+ l ∧ r.1.length + bytesOf r.2 ≤ gap + bytesOf l) (textLoop delim n gap l) := by
  induction n with
  | zero => intro _ _ _; trivial
  | succ n ih =>
    intro gap l h
    unfold textLoop
    by_cases h0 : cur l = delim ∨ cur l = 0x3c ∨ cur l = 0
    · rw [if_pos h0]; exact ⟨List.suffix_refl _, by simp⟩
    rw [if_neg h0]
    cases l with
    | nil => simp at h0
    | cons c l =>
      obtain ⟨hc0, hc1, hc2⟩ := h c (by simp)
      have hr := roomy_tail h
      refine safe_bind (P := fun r => r.2.tail <:+ l ∧ (r.1 ≠ 0 → (utf8 r.1).length + bytesOf r.2.tail ≤ bytesOf (c :: l))) ?_
        fun q hq => ?_
      · split
        · rw [List.tail_cons]
          have hs := entity_safe l hr
          revert hs
          cases entity l with
          | ok r =>
            rintro ⟨h1, h2, h3⟩
            refine ⟨(List.tail_suffix _).trans h1, fun h => ?_⟩
            have h3 := h3 h
            have hu := utf8_len r.1
            have : bytesOf r.2.tail + 1 ≤ bytesOf r.2 := by
              obtain ⟨v, r⟩ := r
              cases r with
              | nil => simp at h2
              | cons x r =>
                have := (hr x (h1.subset (by simp))).2.2
                simp only [List.tail_cons, bytes_cons]
                omega
            rw [bytes_cons]
            omega
          | _ => exact fun h => h
        · refine ⟨List.suffix_refl _, fun _ => ?_⟩
          simp only [cur_cons, List.tail_cons, bytes_cons]
          omega
      · obtain ⟨hq1, hq2⟩ := hq
        by_cases hok : Utf8.utf8Ok q.1 = false
        · rw [if_pos hok]; trivial
        rw [if_neg hok]
        have hcp := (Utf8.ok_iff q.1).1 (by simpa using hok)
        have hfit := hq2 (by have := hcp.1; omega)
        rw [encode_utf8 q.1 _ hcp (by omega)]
        have hu := utf8_len q.1
        cases hb : utf8 q.1 with
        | nil => rw [hb] at hu; simp at hu
        | cons b bs =>
          dsimp only
          refine safe_bind (ih _ q.2.tail (roomy_suffix hr hq1)) fun a ha => ?_
          refine ⟨ha.1.trans (hq1.trans (List.suffix_cons c l)), ?_⟩
          have := ha.2
          rw [hb] at hfit
          simp only [List.length_append]
          omega

end Hob3l.Xml
