import Mathlib.Tactic.SplitIfs
import Verif.Xml.LemmasTree

/-!
Whole documents.
-/

namespace Hob3l.Xml

/-! ## Documents are ASCII -/

def Ascii (s : Str) : Prop := ∀ c ∈ s, 0 < c ∧ c < 0x80

theorem ascii_append {s t : Str} (hs : Ascii s) (ht : Ascii t) : Ascii (s ++ t) := by
  intro c hc
  rcases List.mem_append.1 hc with h | h
  · exact hs c h
  · exact ht c h

theorem ascii_cons {c : Nat} {s : Str} (hc : 0 < c ∧ c < 0x80) (hs : Ascii s) : Ascii (c :: s) := by
  intro x hx
  rcases List.mem_cons.1 hx with rfl | h
  · exact hc
  · exact hs x h

theorem ascii_nil : Ascii [] := by intro c hc; cases hc

theorem ascii_blanks {s : Str} (h : ∀ c ∈ s, IsBlank c) : Ascii s := by
  intro c hc
  have := h c hc
  unfold IsBlank at this
  omega

theorem ascii_name {s : Str} (h : IsName s) : Ascii s := by
  intro c hc
  have := nameChar_lt (h.2 c hc)
  omega

theorem ascii_full {p : Option Str} {n : Str} (h : NameOk p n) : Ascii (fullName p n) := by
  cases p with
  | none => exact ascii_name h.1
  | some p => exact ascii_append (ascii_name (h.2 p rfl)) (ascii_cons (by decide) (ascii_name h.1))

theorem ascii_piece {d : Nat} {p : Piece} (h : p.Fits d) : Ascii p.text := by
  cases p with
  | raw c => exact ascii_cons ⟨h.1, h.2.1⟩ ascii_nil
  | dec ds =>
    refine ascii_append (ascii_append (s := [0x26, 0x23]) (by intro c hc; simp at hc; omega) ?_) (by intro c hc; simp at hc; omega)
    intro c hc
    obtain ⟨x, hx, rfl⟩ := List.mem_map.1 hc
    have := h.2.1 x hx
    omega
  | hex ds =>
    refine ascii_append (ascii_append (s := [0x26, 0x23, 0x78]) (by intro c hc; simp at hc; omega) ?_) (by intro c hc; simp at hc; omega)
    intro c hc
    obtain ⟨x, hx, rfl⟩ := List.mem_map.1 hc
    have := h.2.1 x hx
    unfold hexDigit
    split_ifs <;> omega
  | _ => intro c hc; simp [Piece.text] at hc; omega

theorem ascii_flatMap {α : Type} {l : List α} {f : α → Str} (h : ∀ a ∈ l, Ascii (f a)) : Ascii (l.flatMap f) := by
  intro c hc
  obtain ⟨a, ha, hc⟩ := List.mem_flatMap.1 hc
  exact h a ha c hc

theorem ascii_attr {a : CAttr} (h : AttrOk a) : Ascii a.text := by
  obtain ⟨_, h2, h3, h4⟩ := h
  have hq : 0 < quoteOf a.double ∧ quoteOf a.double < 0x80 := by rcases quote_cases a.double with h | h <;> omega
  exact ascii_append (ascii_append (ascii_append (ascii_append (ascii_blanks h2) (ascii_full h3))
    (ascii_cons (by decide) (ascii_cons hq ascii_nil))) (ascii_flatMap fun p hp => ascii_piece (h4 p hp))) (ascii_cons hq ascii_nil)

mutual
theorem ascii_item : (c : CItem) → c.Ok → Ascii c.show
  | .empty p n as ws, h => by
    obtain ⟨h1, h2, h3⟩ := h
    exact ascii_cons (by decide) (ascii_append (ascii_append (ascii_append (ascii_full h1)
      (ascii_flatMap fun a ha => ascii_attr (h2 a ha))) (ascii_blanks h3)) (by intro c hc; simp at hc; omega))
  | .elem p n as ws b we, h => by
    obtain ⟨h1, h2, h3, h4, _, _, h7⟩ := h
    have hb := ascii_items b h7
    rw [CItem.show]
    exact ascii_append (ascii_append (ascii_append (ascii_append (ascii_append (ascii_cons (by decide)
      (ascii_append (ascii_append (ascii_append (ascii_full h1)
      (ascii_flatMap fun a ha => ascii_attr (h2 a ha))) (ascii_blanks h3)) (by intro c hc; simp at hc; omega)))
      hb) (by intro c hc; simp at hc; omega)) (ascii_full h1)) (ascii_blanks h4)) (by intro c hc; simp at hc; omega)
  | .text l, h => by
    rw [CItem.show]
    exact ascii_flatMap fun p hp => ascii_piece (h.2 p hp).1
  | .comment s, h => by
    rw [CItem.show]
    exact ascii_append (ascii_append (by intro c hc; simp at hc; omega) h.1) (by intro c hc; simp at hc; omega)
theorem ascii_items : (l : List CItem) → Oks l → Ascii (shows l)
  | [], _ => ascii_nil
  | c :: l, h => by
    rw [shows]
    exact ascii_append (ascii_item c h.1) (ascii_items l h.2)
end

theorem shows_append (a b : List CItem) : shows (a ++ b) = shows a ++ shows b := by
  induction a with
  | nil => rfl
  | cons c a ih => simp only [List.cons_append, shows, ih, List.append_assoc]

theorem oks_append {a b : List CItem} : Oks (a ++ b) ↔ Oks a ∧ Oks b := by
  induction a with
  | nil => simp [Oks]
  | cons c a ih => simp only [List.cons_append, Oks, ih, and_assoc]

/-- the items of a document -/
def CDoc.items (d : CDoc) : List CItem := d.before ++ d.root :: d.after

/-- up to the items -/
def CDoc.head (d : CDoc) : Str :=
  match d.decl with
  | none => []
  | some (as, ws) => [0x3c, 0x3f, 0x78, 0x6d, 0x6c] ++ as.flatMap CAttr.text ++ ws ++ [0x3f, 0x3e]

def CDoc.mid (d : CDoc) : Str :=
  match d.doctype with
  | none => []
  | some (s, ws) => [0x3c, 0x21, 0x44, 0x4f, 0x43, 0x54, 0x59, 0x50, 0x45] ++ s ++ [0x3e] ++ ws

theorem doc_show (d : CDoc) : d.show = d.head ++ (d.ws ++ (d.mid ++ shows d.items)) := by
  unfold CDoc.show CDoc.items CDoc.head CDoc.mid
  rw [shows_append, shows]
  cases d.decl <;> cases d.doctype <;> simp only [List.append_assoc]

theorem ascii_doc {d : CDoc} (h : d.Ok) : Ascii d.show := by
  rw [doc_show]
  refine ascii_append ?_ (ascii_append (ascii_blanks h.ws) (ascii_append ?_ (ascii_items _ h.items)))
  · unfold CDoc.head
    cases hd : d.decl with
    | none => exact ascii_nil
    | some x =>
      obtain ⟨as, ws⟩ := x
      obtain ⟨h1, h2⟩ := h.decl as ws hd
      exact ascii_append (ascii_append (ascii_append (by intro c hc; simp at hc; omega)
        (ascii_flatMap fun a ha => ascii_attr (h1 a ha).1)) (ascii_blanks h2)) (by intro c hc; simp at hc; omega)
  · unfold CDoc.mid
    cases hd : d.doctype with
    | none => exact ascii_nil
    | some x =>
      obtain ⟨s, ws⟩ := x
      obtain ⟨h1, h2⟩ := h.doctype s ws hd
      exact ascii_append (ascii_append (ascii_append (by intro c hc; simp at hc; omega)
        (fun c hc => ⟨(h1 c hc).1, (h1 c hc).2.1⟩)) (by intro c hc; simp at hc; omega)) (ascii_blanks h2)

/-! ## Items -/

theorem pre_append (opt : Bool) (s : Scope) (a b : List CItem) :
    pre opt s (a ++ b) = (pre opt s a >>= fun x => pre opt s b >>= fun y => some (x ++ y)) := by
  induction a with
  | nil =>
    simp only [List.nil_append, pre, Option.bind_eq_bind, Option.bind_some]
    cases pre opt s b <;> rfl
  | cons c a ih =>
    cases c <;> simp only [List.cons_append, pre, ih, Option.bind_eq_bind, Option.bind_assoc, Option.bind_some, List.append_assoc]

theorem aside_pre (opt : Bool) (s : Scope) (l : List CItem) (hok : Oks l) (h : ∀ c ∈ l, c.Aside) :
    ∃ q, pre opt s l = some q ∧ chomp q = .ok [] := by
  induction l with
  | nil => exact ⟨[], rfl, rfl⟩
  | cons c l ih =>
    obtain ⟨q, hq, hc⟩ := ih hok.2 fun x hx => h x (by simp [hx])
    have hcc := h c (by simp)
    cases c with
    | empty => exact absurd hcc (by simp [CItem.Aside])
    | elem => exact absurd hcc (by simp [CItem.Aside])
    | comment t => exact ⟨q, by simp [pre, CItem.mean, hq], hc⟩
    | text t =>
      refine ⟨.cdata ((codesOf t).flatMap utf8) :: q, by simp [pre, hq], ?_⟩
      have e : ∀ x : Nd, x :: q = [x] ++ q := fun _ => rfl
      rw [e, chomp_append, chomp_text t hok.1.2, hc]
      have hb : ∀ x ∈ codesOf t, trims x = true := by
        intro x hx
        obtain ⟨p, hp, rfl⟩ := List.mem_map.1 hx
        obtain ⟨c, rfl, hcb⟩ := hcc p hp
        rcases hcb with h | h | h | h <;> subst h <;> rfl
      have : trim (codesOf t) = [] := by
        have : (codesOf t).dropWhile trims = [] := by
          generalize codesOf t = u at hb
          induction u with
          | nil => rfl
          | cons x u iu => rw [List.dropWhile_cons, if_pos (hb x (by simp))]; exact iu fun y hy => hb y (by simp [hy])
        unfold trim
        rw [this]
        rfl
      simp [meanText, this]

theorem items_chomp (opt : Bool) (s : Scope) (d : CDoc) (h : d.Ok) :
    (lift (pre opt s d.items)).bind chomp = lift (d.root.mean opt s) := by
  have hok := h.items
  have hok' := oks_append.1 hok
  obtain ⟨q1, e1, c1⟩ := aside_pre opt s d.before hok'.1 fun c hc => h.aside c (List.mem_append_left _ hc)
  obtain ⟨q2, e2, c2⟩ := aside_pre opt s d.after hok'.2.2 fun c hc => h.aside c (List.mem_append_right _ hc)
  have hr : pre opt s (d.root :: d.after) = (d.root.mean opt s >>= fun a => some (a ++ q2)) := by
    have := h.root
    cases hd : d.root with
    | text => rw [hd] at this; simp [CItem.isElem] at this
    | comment => rw [hd] at this; simp [CItem.isElem] at this
    | empty => simp [pre, e2]
    | elem => simp [pre, e2]
  unfold CDoc.items
  rw [pre_append, e1, hr]
  cases hm : d.root.mean opt s with
  | none => rfl
  | some x =>
    obtain ⟨_, _, _, _, rfl⟩ := mean_single h.root hm
    simp only [Option.bind_eq_bind, Option.bind_some, lift_some, bind_ok, chomp_append, c1, c2]
    rfl

theorem items_head (d : CDoc) (h : d.Ok) : ∃ y t, shows d.items = 0x3c :: y :: t ∧ y ≠ 0x2f ∧ y ≠ 0x3f ∧ (y = 0x21 → ∃ u, t = 0x2d :: u) := by
  have key : ∀ c l, d.items = c :: l → c.isText = false → ∃ y t, shows d.items = 0x3c :: y :: t ∧ y ≠ 0x2f ∧ y ≠ 0x3f
      ∧ (y = 0x21 → ∃ u, t = 0x2d :: u) := by
    intro c l e ht
    have hc : c.Ok := by
      have := h.items
      rw [show d.before ++ d.root :: d.after = d.items from rfl, e] at this
      exact this.1
    obtain ⟨x, s, es, _, _, h2⟩ := show_head c hc
    obtain ⟨rfl, y, t, rfl, h3, h4, h5, h6⟩ := h2 ht
    refine ⟨y, t ++ shows l, by rw [e, shows, es]; rfl, h3, h4, ?_⟩
    intro hy
    rcases Bool.eq_false_or_eq_true c.isElem with he | he
    · exact absurd hy (h5 he)
    · obtain ⟨u, rfl⟩ := h6 he
      exact ⟨u ++ shows l, rfl⟩
  cases hb : d.before with
  | nil =>
    refine key d.root d.after (by simp [CDoc.items, hb]) ?_
    have := h.root
    cases hd : d.root <;> rw [hd] at this <;> simp_all [CItem.isElem, CItem.isText]
  | cons c l => exact key c (l ++ d.root :: d.after) (by simp [CDoc.items, hb]) (h.first c (by rw [hb]; rfl))

theorem extend_none (s : Scope) (as : List CAttr) (h : ∀ a ∈ as, a.isDecl = false) : s.extend as = s := by
  induction as with
  | nil => rfl
  | cons a as ih =>
    have ha := h a (by simp)
    simp only [CAttr.isDecl, Bool.or_eq_false_iff, beq_eq_false_iff_ne, Bool.and_eq_false_imp, beq_iff_eq] at ha
    rw [Scope.extend, if_neg ha.1, if_neg (fun e => ha.2 e.1 e.2)]
    exact ih fun x hx => h x (by simp [hx])

/-- attributes of the declaration -/
def CDoc.declAttrs (d : CDoc) : List CAttr :=
  match d.decl with
  | none => []
  | some (as, _) => as

theorem declaration_ok (d : CDoc) (h : d.Ok) (rest : Str) (hr : d.decl = none → ¬ (cur (asc rest) = 0x3c ∧ peek (asc rest) = 0x3f)) :
    declaration (asc (d.head ++ rest)) = .ok (⟨[], none⟩, d.declAttrs.map CAttr.read, asc rest) := by
  unfold CDoc.head CDoc.declAttrs
  cases hd : d.decl with
  | none =>
    unfold declaration
    rw [List.nil_append, if_neg (hr hd)]
    rfl
  | some x =>
    obtain ⟨as, ws⟩ := x
    obtain ⟨h1, h2⟩ := h.decl as ws hd
    have ha : ∀ a ∈ as, AttrOk a := fun a ha => (h1 a ha).1
    have e : [0x3c, 0x3f, 0x78, 0x6d, 0x6c] ++ as.flatMap CAttr.text ++ ws ++ [0x3f, 0x3e] ++ rest
        = 0x3c :: 0x3f :: (xmlTag ++ (as.flatMap CAttr.text ++ (ws ++ 0x3f :: (0x3e :: rest)))) := by simp [xmlTag]
    dsimp only
    rw [e]
    unfold declaration
    rw [if_pos (by simp)]
    simp only [asc_cons, List.tail_cons]
    have hx : IsName xmlTag := by
      refine ⟨⟨_, _, rfl, ?_⟩, ?_⟩
      · unfold IsNameStart; omega
      · intro c hc
        simp [xmlTag] at hc
        unfold IsNameChar IsNameStart; omega
    rw [parseTag_name _ _ hx (after_name as ha ws _ 0x3f h2 (by omega)).1, bind_ok]
    have hl := attrs_len as ha
    rw [if_neg (by simp)]
    have hs := attrList_ok as ha ws (0x3e :: rest) 0x3f h2 (by omega)
      ((asc (as.flatMap CAttr.text ++ (ws ++ 0x3f :: (0x3e :: rest)))).length + 1) ⟨[], none⟩
      (by simp only [asc_length, List.length_append]; omega)
    have e0 : Scope.env ⟨[], none⟩ = ⟨[], none⟩ := rfl
    rw [extend_none _ _ (fun a ha => (h1 a ha).2), e0] at hs
    rw [hs, bind_ok]
    have e3 : expect [0x3f, 0x3e] (asc (0x3f :: 0x3e :: rest)) = .ok (asc rest) := expect_ok [0x3f, 0x3e] rest
    rw [e3, bind_ok]
    have : (as.filter fun a => !a.isDecl) = as := by
      rw [List.filter_eq_self]
      intro a ha
      simp [(h1 a ha).2]
    rw [this]

theorem dropWhile_gt (s rest : Str) (h : ∀ c ∈ s, c ≠ 0x3e) :
    (asc (s ++ 0x3e :: rest)).dropWhile (fun c => c.cp != 0x3e) = asc (0x3e :: rest) := by
  induction s with
  | nil => simp
  | cons c s ih =>
    have := h c (by simp)
    simp only [List.cons_append, asc_cons, List.dropWhile_cons, bne_iff_ne.2 this, if_true]
    exact ih fun x hx => h x (by simp [hx])

theorem skipDoctype_ok (d : CDoc) (h : d.Ok) : skipDoctype (asc (d.mid ++ shows d.items)) = .ok (asc (shows d.items)) := by
  obtain ⟨y, t, e, _, _, hy⟩ := items_head d h
  unfold CDoc.mid skipDoctype
  cases hd : d.doctype with
  | none =>
    rw [if_neg]
    · rfl
    · rw [List.nil_append, e]
      rintro ⟨_, hp⟩
      simp only [asc_cons, List.tail_cons, List.flatMap_cons, asc_flat] at hp
      unfold doctype at hp
      simp only [List.cons_append, List.nil_append, List.cons_prefix_cons] at hp
      obtain ⟨u, rfl⟩ := hy hp.1.symm
      simp [List.cons_prefix_cons] at hp
  | some x =>
    obtain ⟨s, ws⟩ := x
    obtain ⟨h1, h2⟩ := h.doctype s ws hd
    dsimp only
    have e1 : [0x3c, 0x21, 0x44, 0x4f, 0x43, 0x54, 0x59, 0x50, 0x45] ++ s ++ [0x3e] ++ ws ++ shows d.items
        = (0x3c :: doctype) ++ (s ++ 0x3e :: (ws ++ shows d.items)) := by simp [doctype]
    rw [e1, if_pos, expect_ok, bind_ok]
    · rw [dropWhile_gt s _ fun c hc => (h1 c hc).2.2, if_neg (by simp)]
      simp only [asc_cons, List.tail_cons]
      rw [skipSpace_blanks ws _ h2]
      intro c hc
      rw [e] at hc
      cases hc
      rfl
    · refine ⟨rfl, ?_⟩
      rw [List.cons_append, asc_cons, List.tail_cons, asc_flat]
      exact ⟨_, rfl⟩

theorem mid_head (d : CDoc) (h : d.Ok) : ∃ y t, d.mid ++ shows d.items = 0x3c :: y :: t ∧ y ≠ 0x3f := by
  obtain ⟨y, t, e, _, h2, _⟩ := items_head d h
  unfold CDoc.mid
  cases d.doctype with
  | none => exact ⟨y, t, e, h2⟩
  | some x => exact ⟨0x21, _, rfl, by decide⟩

theorem ws_head (d : CDoc) (h : d.Ok) :
    ¬ (cur (asc (d.ws ++ (d.mid ++ shows d.items))) = 0x3c ∧ peek (asc (d.ws ++ (d.mid ++ shows d.items))) = 0x3f) := by
  obtain ⟨y, t, e, hy⟩ := mid_head d h
  rw [e]
  cases hw : d.ws with
  | nil =>
    simp only [List.nil_append, asc_cons, cur_cons, peek_cons, List.headD_cons]
    exact fun x => hy x.2
  | cons c s =>
    have := h.ws c (by simp [hw])
    simp only [List.cons_append, asc_cons, cur_cons]
    unfold IsBlank at this
    rintro ⟨hc, _⟩
    omega

theorem parseDoc_ok (opt : Bool) (d : CDoc) (h : d.Ok) : parseDoc opt (asc d.show) = lift (d.mean opt) := by
  have hcur : cur (asc d.show) ≠ 0xfeff := by
    have ha := ascii_doc h
    cases hs : d.show with
    | nil => simp
    | cons c s =>
      rw [hs] at ha
      have := ha c (by simp)
      simp only [asc_cons, cur_cons]
      omega
  unfold parseDoc
  rw [if_neg hcur]
  dsimp only
  obtain ⟨y, t, e, hy⟩ := mid_head d h
  rw [doc_show, declaration_ok d h _ (fun _ => ws_head d h), bind_ok]
  dsimp only
  rw [skipSpace_blanks _ _ h.ws (by intro c hc; rw [e] at hc; cases hc; rfl), skipDoctype_ok d h, bind_ok]
  have hc := contentList_ok (opt := opt) (s := ⟨[], none⟩) (l := d.items) h.items (list_ok opt d.items h.items h.apart) Ends.file
    (by simp) (m := 2 * (asc (shows d.items)).length + 2) (by simp)
  rw [List.append_nil] at hc
  have e0 : Scope.env ⟨[], none⟩ = ⟨[], none⟩ := rfl
  rw [e0] at hc
  rw [hc, bind_assoc]
  have hch := items_chomp opt ⟨[], none⟩ d h
  have : ∀ (f : List Nd → Res (List Nd)), ((lift (pre opt ⟨[], none⟩ d.items)).bind fun a =>
      (Res.ok (a, asc [])).bind fun q => (chomp q.1).bind f) = (lift (d.root.mean opt ⟨[], none⟩)).bind f := by
    intro f
    rw [← hch, bind_assoc]
    rfl
  rw [this]
  unfold CDoc.mean
  rw [lift_bind]
  refine lift_ite _ _ _ fun x hx => ?_
  obtain ⟨_, _, _, _, rfl⟩ := mean_single h.root hx
  simp only [lift_some, CDoc.declAttrs]
  cases d.decl with
  | none => rfl
  | some x => simp [CAttr.read, Function.comp_def]

/-- an element -/
def Nd.isElem : Nd → Bool
  | .elem .. => true
  | _ => false

/-- removing blanks keeps the number of elements -/
theorem pre_count (opt : Bool) (s : Scope) (l : List CItem) (h : Oks l) : ∀ x, pre opt s l = some x →
    ∃ b, chomp x = .ok b ∧ b.countP Nd.isElem = l.countP CItem.isElem := by
  induction l with
  | nil =>
    intro x hx
    cases hx
    exact ⟨[], rfl, rfl⟩
  | cons c l ih =>
    intro x hx
    obtain ⟨h1, h2⟩ := h
    cases c with
    | text t =>
      simp only [pre, Option.bind_eq_bind, Option.bind_eq_some_iff] at hx
      obtain ⟨y, hy, hx⟩ := hx
      cases hx
      obtain ⟨b, hb, hc⟩ := ih h2 y hy
      have ht := chomp_text t h1.2
      have e : Nd.cdata ((codesOf t).flatMap utf8) :: y = [Nd.cdata ((codesOf t).flatMap utf8)] ++ y := rfl
      rw [e, chomp_append, ht, hb]
      refine ⟨_, rfl, ?_⟩
      rw [List.countP_append, hc]
      have : (meanText true (codesOf t)).countP Nd.isElem = 0 := by
        unfold meanText
        split_ifs <;> rfl
      rw [this, List.countP_cons]
      simp [CItem.isElem]
    | comment t =>
      simp only [pre, CItem.mean, Option.bind_eq_bind, Option.bind_some, Option.bind_eq_some_iff] at hx
      obtain ⟨y, hy, hx⟩ := hx
      cases hx
      obtain ⟨b, hb, hc⟩ := ih h2 y hy
      exact ⟨b, hb, by rw [hc, List.countP_cons]; simp [CItem.isElem]⟩
    | empty p n as ws =>
      simp only [pre, Option.bind_eq_bind, Option.bind_eq_some_iff] at hx
      obtain ⟨a, ha, y, hy, hx⟩ := hx
      cases hx
      obtain ⟨b, hb, hc⟩ := ih h2 y hy
      obtain ⟨_, _, _, _, rfl⟩ := mean_single (c := .empty p n as ws) rfl ha
      exact ⟨_, by rw [chomp_append, hb]; rfl, by
        rw [List.countP_append, hc, List.countP_cons_of_pos (p := CItem.isElem) rfl]; simp [Nd.isElem, Nat.add_comm]⟩
    | elem p n as ws bd we =>
      simp only [pre, Option.bind_eq_bind, Option.bind_eq_some_iff] at hx
      obtain ⟨a, ha, y, hy, hx⟩ := hx
      cases hx
      obtain ⟨b, hb, hc⟩ := ih h2 y hy
      obtain ⟨_, _, _, _, rfl⟩ := mean_single (c := .elem p n as ws bd we) rfl ha
      exact ⟨_, by rw [chomp_append, hb]; rfl, by
        rw [List.countP_append, hc, List.countP_cons_of_pos (p := CItem.isElem) rfl]; simp [Nd.isElem, Nat.add_comm]⟩

/-- items that are not one element are rejected -/
theorem parseDoc_items (opt : Bool) (l : List CItem) (hl : l ≠ []) (h : Oks l) (ha : Apart l)
    (hf : ∀ c, l.head? = some c → c.isText = false) (hn : l.countP CItem.isElem ≠ 1) : parseDoc opt (asc (shows l)) = .fail := by
  obtain ⟨y, t, e, h2, h3⟩ : ∃ y t, shows l = 0x3c :: y :: t ∧ y ≠ 0x3f ∧ (y = 0x21 → ∃ u, t = 0x2d :: u) := by
    cases l with
    | nil => exact absurd rfl hl
    | cons c l =>
      obtain ⟨x, s, es, _, _, h2⟩ := show_head c h.1
      obtain ⟨rfl, y, t, rfl, h3, h4, h5, h6⟩ := h2 (hf c rfl)
      refine ⟨y, t ++ shows l, by rw [shows, es]; rfl, h4, fun hy => ?_⟩
      rcases Bool.eq_false_or_eq_true c.isElem with he | he
      · exact absurd hy (h5 he)
      · obtain ⟨u, rfl⟩ := h6 he
        exact ⟨u ++ shows l, rfl⟩
  unfold parseDoc
  rw [if_neg (by rw [e]; simp)]
  dsimp only
  have hd : declaration (asc (shows l)) = .ok (⟨[], none⟩, [], asc (shows l)) := by
    unfold declaration
    rw [if_neg (by rw [e]; simp [h2])]
  have hs : skipSpace (asc (shows l)) = asc (shows l) := by
    have := skipSpace_blanks [] (shows l) (by simp) (by intro c hc; rw [e] at hc; cases hc; rfl)
    simpa using this
  have hk : skipDoctype (asc (shows l)) = .ok (asc (shows l)) := by
    unfold skipDoctype
    rw [if_neg]
    rw [e]
    rintro ⟨_, hp⟩
    simp only [asc_cons, List.tail_cons, List.flatMap_cons, asc_flat] at hp
    unfold doctype at hp
    simp only [List.cons_append, List.nil_append, List.cons_prefix_cons] at hp
    obtain ⟨u, rfl⟩ := h3 hp.1.symm
    simp [List.cons_prefix_cons] at hp
  rw [hd, bind_ok]
  dsimp only
  rw [hs, hk, bind_ok]
  have hc := contentList_ok (opt := opt) (s := ⟨[], none⟩) (l := l) h (list_ok opt l h ha) Ends.file
    (by simp) (m := 2 * (asc (shows l)).length + 2) (by simp)
  rw [List.append_nil] at hc
  have e0 : Scope.env ⟨[], none⟩ = ⟨[], none⟩ := rfl
  rw [e0] at hc
  rw [hc]
  cases hp : pre opt ⟨[], none⟩ l with
  | none => rfl
  | some x =>
    obtain ⟨b, hb, hcnt⟩ := pre_count opt _ l h x hp
    simp only [lift_some, bind_ok, hb]
    rw [← hcnt] at hn
    split
    · exact absurd rfl hn
    · rfl

end Hob3l.Xml
