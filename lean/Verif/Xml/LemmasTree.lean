import Verif.Xml.Lemmas

/-!
Elements and their contents.
-/

namespace Hob3l.Xml

theorem lift_ite {α β : Type} (x : Option α) (f g : α → Res β) (h : ∀ a, x = some a → f a = g a) :
    (lift x).bind f = (lift x).bind g := by
  cases x with
  | none => rfl
  | some a => exact h a rfl

/-- the contents before blanks are removed -/
def pre (opt : Bool) (s : Scope) : List CItem → Option (List Nd)
  | [] => some []
  | .text l :: r => do
    let b ← pre opt s r
    some (.cdata ((codesOf l).flatMap utf8) :: b)
  | c :: r => do
    let a ← c.mean opt s
    let b ← pre opt s r
    some (a ++ b)

theorem chomp_append (a b : List Nd) : chomp (a ++ b) = (chomp a).bind fun x => (chomp b).bind fun y => .ok (x ++ y) := by
  induction a with
  | nil =>
    simp only [List.nil_append, chomp, bind_ok]
    cases chomp b <;> rfl
  | cons x a ih =>
    rw [List.cons_append]
    cases x with
    | cdata t =>
      simp only [chomp, ih, bind_assoc]
      cases chompStr t with
      | ok t' =>
        simp only [bind_ok]
        cases chomp a with
        | ok a' =>
          simp only [bind_ok]
          cases chomp b with
          | ok b' => simp only [bind_ok]; split_ifs <;> simp
          | _ => rfl
        | _ => rfl
      | _ => rfl
    | attr _ _ _ _ | elem _ _ _ _ =>
      simp only [chomp, ih, bind_assoc]
      cases chomp a with
      | ok a' =>
        simp only [bind_ok]
        cases chomp b with
        | ok b' => simp
        | _ => rfl
      | _ => rfl

theorem chomp_attrs (s : Scope) (as : List CAttr) (q : List Nd) (h : meanAttrs s as = some q) : chomp q = .ok q := by
  induction as generalizing q with
  | nil => cases h; rfl
  | cons a as ih =>
    simp only [meanAttrs, Option.bind_eq_bind, Option.bind_eq_some_iff] at h
    obtain ⟨ns, _, r, hr, hq⟩ := h
    cases hq
    simp [chomp, ih r hr]

theorem mean_single {opt : Bool} {s : Scope} {c : CItem} {x : List Nd} (hc : c.isElem = true) (h : c.mean opt s = some x) :
    ∃ p n ns l, x = [.elem p n ns l] := by
  cases c with
  | empty p n as ws =>
    simp only [CItem.mean, Option.bind_eq_bind, Option.bind_eq_some_iff] at h
    obtain ⟨ns, _, q, _, hq⟩ := h
    cases hq
    exact ⟨_, _, _, _, rfl⟩
  | elem p n as ws b we =>
    simp only [CItem.mean, Option.bind_eq_bind, Option.bind_eq_some_iff] at h
    obtain ⟨ns, _, q, _, c, _, hq⟩ := h
    cases hq
    exact ⟨_, _, _, _, rfl⟩
  | text _ => simp [CItem.isElem] at hc
  | comment _ => simp [CItem.isElem] at hc

theorem chomp_text (l : List Piece) (h : ∀ p ∈ l, p.Fits 0x3c ∧ p.code < 0x100000) :
    chomp [.cdata ((codesOf l).flatMap utf8)] = .ok (meanText true (codesOf l)) := by
  have hc : ∀ c ∈ codesOf l, Utf8.CodePoint c ∧ c < 0x100000 := by
    intro c hc
    obtain ⟨p, hp, rfl⟩ := List.mem_map.1 hc
    exact ⟨piece_code (h p hp).1, (h p hp).2⟩
  simp only [chomp, chompStr_ok _ hc, bind_ok, meanText, if_true, flat_nil]

/-- removing blanks gives the meaning -/
theorem pre_chomp (s : Scope) (l : List CItem) (h : Oks l) : (lift (pre true s l)).bind chomp = lift (means true s l) := by
  induction l with
  | nil => rfl
  | cons c l ih =>
    obtain ⟨h1, h2⟩ := h
    have hi := ih h2
    have key : ∀ a : Option (List Nd), (∀ x, a = some x → chomp x = .ok x) →
        (lift (do let x ← a; let b ← pre true s l; some (x ++ b))).bind chomp
          = lift (do let x ← a; let b ← means true s l; some (x ++ b)) := by
      intro a ha
      cases a with
      | none => rfl
      | some x =>
        have hx := ha x rfl
        simp only [Option.bind_eq_bind, Option.bind_some]
        cases hp : pre true s l with
        | none => rw [hp] at hi; cases hm : means true s l with
          | none => rfl
          | some m => rw [hm] at hi; cases hi
        | some b =>
          rw [hp] at hi
          simp only [lift_some, bind_ok] at hi
          simp only [Option.bind_some, lift_some, bind_ok, chomp_append, hx, hi]
          cases means true s l <;> rfl
    cases c with
    | text t =>
      simp only [pre, means, CItem.mean]
      have ht := chomp_text t h1.2
      simp only [Option.bind_eq_bind, Option.bind_some]
      cases hp : pre true s l with
      | none => rw [hp] at hi; cases hm : means true s l with
        | none => rfl
        | some m => rw [hm] at hi; cases hi
      | some b =>
        rw [hp] at hi
        simp only [lift_some, bind_ok] at hi
        simp only [Option.bind_some, lift_some, bind_ok]
        have e : ∀ x : Nd, x :: b = [x] ++ b := fun _ => rfl
        rw [e, chomp_append, ht, hi]
        cases means true s l <;> rfl
    | comment t => exact key (some []) (by intro x hx; cases hx; rfl)
    | empty p n as ws =>
      refine key _ fun x hx => ?_
      obtain ⟨_, _, _, _, rfl⟩ := mean_single (c := .empty p n as ws) rfl hx
      rfl
    | elem p n as ws b we =>
      refine key _ fun x hx => ?_
      obtain ⟨_, _, _, _, rfl⟩ := mean_single (c := .elem p n as ws b we) rfl hx
      rfl

theorem pre_false (s : Scope) (l : List CItem) : pre false s l = means false s l := by
  induction l with
  | nil => rfl
  | cons c l ih =>
    cases c with
    | text t => simp only [pre, means, CItem.mean, meanText, ih]; cases means false s l <;> rfl
    | comment t => simp only [pre, means, ih]
    | empty p n as ws => simp only [pre, means, ih]
    | elem p n as ws b we => simp only [pre, means, ih]

/-- what follows the contents -/
inductive Ends : Option (Option Str × Str) → Str → Str → Prop
  | tag (p : Option Str) (n we rest : Str) : NameOk p n → (∀ c ∈ we, IsBlank c) →
      Ends (some (p, n)) (0x3c :: 0x2f :: (fullName p n ++ (we ++ 0x3e :: rest))) rest
  | file : Ends none [] []

theorem ends_cur {tag : Option (Option Str × Str)} {t r : Str} (h : Ends tag t r) : cur (asc t) = 0x3c ∨ cur (asc t) = 0 := by
  cases h <;> simp

/-- the rest of the loop of `parse_content_list` -/
def cont (opt : Bool) (m : Nat) (env : Env) (tag : Option (Option Str × Str)) (r : Option Nd × List Ch) : Res (List Nd × List Ch) :=
  match r.1 with
  | none => if tag.isSome then .fail else .ok ([], r.2)
  | some x => (contentList opt m env tag r.2).bind fun q => .ok (x :: q.1, q.2)

/-- reading the items -/
def Reads (opt : Bool) (l : List CItem) : Prop :=
  ∀ n m s tag tail rest, Ends tag tail rest → (tag.isSome → l ≠ [] ∧ ∀ c, l.getLast? = some c → c.isComment = false) →
    2 * (shows l ++ tail).length + 1 ≤ n → 2 * (shows l ++ tail).length ≤ m →
    (content opt n (Scope.env s) (asc (shows l ++ tail))).bind (cont opt m s.env tag)
      = (lift (pre opt s l)).bind fun q => .ok (q, asc rest)

theorem endTag_ok (p : Option Str) (n we rest : Str) (hw : ∀ c ∈ we, IsBlank c) :
    endTag (p, n) (asc (fullName p n ++ (we ++ 0x3e :: rest))) = .ok (asc rest) := by
  have h2 : (expect n (asc (n ++ (we ++ 0x3e :: rest)))).bind (fun l => expect [0x3e] (skipSpace l)) = .ok (asc rest) := by
    rw [expect_ok, bind_ok, skipSpace_blanks _ _ hw (by intro c hc; cases hc; rfl)]
    exact expect_ok [0x3e] rest
  cases p with
  | none => exact h2
  | some p =>
    unfold endTag fullName
    dsimp only
    rw [show p ++ 0x3a :: n ++ (we ++ 0x3e :: rest) = p ++ (0x3a :: (n ++ (we ++ 0x3e :: rest))) by simp, expect_ok, bind_ok]
    have := expect_ok [0x3a] (n ++ (we ++ 0x3e :: rest))
    rw [List.singleton_append] at this
    rw [this, bind_ok]
    exact h2

/-- items do not begin like an end tag -/
theorem show_head (c : CItem) (h : c.Ok) : ∃ x s, c.show = x :: s ∧ x ≠ 0
    ∧ (c.isText = true → x ≠ 0x3c)
    ∧ (c.isText = false → x = 0x3c ∧ ∃ y t, s = y :: t ∧ y ≠ 0x2f ∧ y ≠ 0x3f ∧ (c.isElem = true → y ≠ 0x21)
        ∧ (c.isElem = false → ∃ u, t = 0x2d :: u)) := by
  cases c with
  | empty p n as ws =>
    obtain ⟨c, s, e, hc⟩ := fullName_start h.1
    have := nameStart_lt hc
    refine ⟨_, _, rfl, by decide, by simp [CItem.isText], fun _ => ⟨rfl, c, s ++ (as.flatMap CAttr.text ++ ws ++ [0x2f, 0x3e]), ?_, by omega, by omega, fun _ => by omega, by simp [CItem.isElem]⟩⟩
    rw [e]
    simp
  | elem p n as ws b we =>
    obtain ⟨c, s, e, hc⟩ := fullName_start h.1
    have := nameStart_lt hc
    refine ⟨0x3c, _, by rw [CItem.show]; simp only [List.cons_append]; rfl, by decide, by simp [CItem.isText], fun _ => ⟨rfl, c, s ++ (as.flatMap CAttr.text ++ ws ++ [0x3e] ++ shows b ++ [0x3c, 0x2f] ++ (fullName p n) ++ we ++ [0x3e]), ?_, by omega, by omega, fun _ => by omega, by simp [CItem.isElem]⟩⟩
    rw [e]
    simp
  | text l =>
    obtain ⟨hne, hl⟩ := h
    obtain ⟨p, l, rfl⟩ := List.exists_cons_of_ne_nil hne
    obtain ⟨q, c, s, hc, hc1, hc2, hc3, _⟩ := piece_read (hl p (by simp)).1 (Or.inl rfl) []
    refine ⟨c, s ++ textOf l, ?_, hc3, fun _ => hc2, by simp [CItem.isText]⟩
    simp only [CItem.show, textOf, List.flatMap_cons, hc, List.cons_append]
  | comment s =>
    exact ⟨0x3c, _, rfl, by decide, by simp [CItem.isText], fun _ => ⟨rfl, 0x21, _, rfl, by decide, by decide, by simp [CItem.isElem], fun _ => ⟨_, rfl⟩⟩⟩

theorem show_len (c : CItem) (h : c.Ok) : 1 ≤ c.show.length := by
  obtain ⟨x, s, e, _⟩ := show_head c h
  rw [e]
  simp

theorem contentList_go {opt : Bool} {m : Nat} {env : Env} {tag : Option (Option Str × Str)} {l : List Ch}
    (h : tag.isSome → ¬ (cur l = 0x3c ∧ peek l = 0x2f)) :
    contentList opt (m + 1) env tag l = (content opt m env l).bind (cont opt m env tag) := by
  unfold contentList
  cases tag with
  | none => simp only [ite_self]; rfl
  | some t => rw [if_neg (h rfl)]; rfl

theorem head_not_end (c : CItem) (h : c.Ok) (rest : Str) (hr : c.isText = true → True) :
    ¬ (cur (asc (c.show ++ rest)) = 0x3c ∧ peek (asc (c.show ++ rest)) = 0x2f) := by
  obtain ⟨x, s, e, h0, h1, h2⟩ := show_head c h
  rw [e]
  rcases Bool.eq_false_or_eq_true c.isText with ht | ht
  · simp only [List.cons_append, asc_cons, cur_cons]
    exact fun h => h1 ht h.1
  · obtain ⟨_, y, t, rfl, hy, _⟩ := h2 ht
    simp only [List.cons_append, asc_cons, cur_cons, peek_cons, List.headD_cons]
    exact fun h => hy h.2

/-- `parse_content_list` -/
theorem contentList_ok {opt : Bool} {l : List CItem} (hl : Oks l) (hA : Reads opt l) {m : Nat} {s : Scope}
    {tag : Option (Option Str × Str)} {tail rest : Str} (he : Ends tag tail rest)
    (hlast : tag.isSome → ∀ c, l.getLast? = some c → c.isComment = false)
    (hm : 2 * (shows l ++ tail).length + 2 ≤ m) :
    contentList opt m s.env tag (asc (shows l ++ tail)) = (lift (pre opt s l)).bind fun q => .ok (q, asc rest) := by
  obtain ⟨m, rfl⟩ : ∃ k, m = k + 1 := ⟨m - 1, by omega⟩
  cases l with
  | nil =>
    cases he with
    | file =>
      rw [contentList_go (by simp)]
      exact hA m m s none [] [] .file (by simp) (by omega) (by omega)
    | tag p n we rest hn hw =>
      unfold contentList
      simp only [shows, List.nil_append, asc_cons, cur_cons, peek_cons, List.headD_cons, and_self, if_true, List.tail_cons]
      rw [endTag_ok p n we rest hw]
      rfl
  | cons c l =>
    rw [contentList_go]
    · exact hA m m s tag tail rest he (fun h => ⟨by simp, hlast h⟩) (by omega) (by omega)
    · intro _
      have := head_not_end c hl.1 (shows l ++ tail) (fun _ => trivial)
      simpa only [shows, List.append_assoc] using this

theorem content_comment (opt : Bool) (n : Nat) (env : Env) (s rest : Str) (h : CommentOk s) :
    content opt (n + 1) env (asc ((CItem.comment s).show ++ rest)) = content opt n env (asc rest) := by
  have e : (CItem.comment s).show ++ rest = 0x3c :: ([0x21, 0x2d, 0x2d] ++ (s ++ ([0x2d, 0x2d, 0x3e] ++ rest))) := by
    simp [CItem.show]
  rw [e, content]
  rw [if_neg (by simp), if_pos (by simp), if_pos (by simp)]
  rw [asc_cons, List.tail_cons, expect_ok, bind_ok, skipComment_ok s rest h, bind_ok]

theorem content_text (opt : Bool) (n : Nat) (env : Env) (l : List Piece) (rest : Str) (h : (CItem.text l).Ok)
    (hr : cur (asc rest) = 0x3c ∨ cur (asc rest) = 0) :
    content opt (n + 1) env (asc ((CItem.text l).show ++ rest)) = .ok (some (.cdata ((codesOf l).flatMap utf8)), asc rest) := by
  obtain ⟨x, s, e, h0, h1, _⟩ := show_head _ h
  have hc : cur (asc ((CItem.text l).show ++ rest)) = x := by rw [e]; rfl
  unfold content
  rw [if_neg (by rw [hc]; exact h0), if_neg (by rw [hc]; exact h1 rfl)]
  have := parseText_ok 0x3c (Or.inl rfl) l rest (fun p hp => (h.2 p hp).1) (by omega)
  simp only [CItem.show]
  rw [this]
  rfl

theorem content_elem (opt : Bool) (n : Nat) (env : Env) (c : CItem) (t rest : Str) (h : c.Ok) (hc : c.isElem = true)
    (ht : c.show = 0x3c :: t) :
    content opt (n + 1) env (asc (c.show ++ rest)) = (elem opt n env (asc (t ++ rest))).bind fun r => .ok (some r.1, r.2) := by
  obtain ⟨x, s, e, h0, _, h2⟩ := show_head _ h
  have hx : c.isText = false := by cases c <;> simp_all [CItem.isElem, CItem.isText]
  obtain ⟨rfl, y, u, rfl, hy, _, hy2, _⟩ := h2 hx
  rw [ht] at e
  cases e
  rw [ht]
  unfold content
  rw [if_neg (by simp), if_pos (by simp), if_neg (by simpa using hy2 hc)]
  rfl

theorem blank_stop {c : Nat} (h : IsBlank c) : isTagChar c = false ∧ c ≠ 0x3a := by
  rcases h with h | h | h | h <;> subst h <;> decide

/-- a name is followed by blanks or the end of the tag -/
theorem after_name (as : List CAttr) (h : ∀ a ∈ as, AttrOk a) (ws rest : Str) (c : Nat) (hw : ∀ x ∈ ws, IsBlank x)
    (hc : c = 0x2f ∨ c = 0x3e ∨ c = 0x3f) :
    Stops (as.flatMap CAttr.text ++ (ws ++ c :: rest)) ∧ (as.flatMap CAttr.text ++ (ws ++ c :: rest)).head? ≠ some 0x3a := by
  cases as with
  | nil =>
    cases ws with
    | nil =>
      have : isTagChar c = false := by rcases hc with h | h | h <;> subst h <;> rfl
      exact ⟨stops_cons this, by simp; omega⟩
    | cons w ws =>
      have := blank_stop (hw w (by simp))
      exact ⟨stops_cons this.1, by simpa using this.2⟩
  | cons a as =>
    obtain ⟨h1, h2, _⟩ := h a (by simp)
    obtain ⟨w, ws', e⟩ := List.exists_cons_of_ne_nil h1
    have := blank_stop (h2 w (by simp [e]))
    have e2 : (a :: as).flatMap CAttr.text ++ (ws ++ c :: rest)
        = w :: (ws' ++ (fullName a.pfx a.name ++ ([0x3d, quoteOf a.double] ++ textOf a.val ++ [quoteOf a.double]))
            ++ (as.flatMap CAttr.text ++ (ws ++ c :: rest))) := by
      simp [CAttr.text, e]
    rw [e2]
    exact ⟨stops_cons this.1, by simpa using this.2⟩

theorem attrs_len (as : List CAttr) (h : ∀ a ∈ as, AttrOk a) : as.length ≤ (as.flatMap CAttr.text).length := by
  induction as with
  | nil => simp
  | cons a as ih =>
    have := attr_len a (h a (by simp))
    have := ih fun x hx => h x (by simp [hx])
    simp only [List.flatMap_cons, List.length_append, List.length_cons]
    omega

/-- the start tag -/
theorem elem_start (opt : Bool) (n : Nat) (s : Scope) (p : Option Str) (nm : Str) (as : List CAttr) (ws rest : Str) (c : Nat)
    (hn : NameOk p nm) (ha : ∀ a ∈ as, AttrOk a) (hw : ∀ x ∈ ws, IsBlank x) (hc : c = 0x2f ∨ c = 0x3e ∨ c = 0x3f) :
    elem opt (n + 1) s.env (asc (fullName p nm ++ (as.flatMap CAttr.text ++ (ws ++ c :: rest))))
      = (lift (elemNs (s.extend as) p)).bind fun ns =>
        (lift (meanAttrs (s.extend as) (as.filter fun a => !a.isDecl))).bind fun q =>
        if c = 0x2f then (expect [0x2f, 0x3e] (asc (c :: rest))).bind fun l => .ok (.elem p nm ns q, l)
        else (expect [0x3e] (asc (c :: rest))).bind fun l =>
          (contentList opt n (s.extend as).env (some (p, nm)) l).bind fun r =>
          (if opt then chomp (q ++ r.1) else .ok (q ++ r.1)).bind fun b => .ok (.elem p nm ns b, r.2) := by
  obtain ⟨hs, hcol⟩ := after_name as ha ws rest c hw hc
  unfold elem
  rw [scopedName_ok p nm _ hn hs hcol, bind_ok]
  have hl := attrs_len as ha
  dsimp only
  rw [attrList_ok as ha ws rest c hw hc _ s (by simp only [asc_length, List.length_append]; omega), bind_ok]
  dsimp only
  rw [findNs_elem, resolveAttrs_ok]
  rfl

theorem res_bind_comm {α β : Type} (a : Option α) (f : α → Res β) (g : α → Res β) (h : ∀ x, f x = g x) :
    (lift a).bind f = (lift a).bind g := by cases a <;> simp [h]

mutual
theorem item_ok (opt : Bool) : (c : CItem) → c.isElem = true → c.Ok → ∀ n s rest, 2 * (c.show ++ rest).length + 1 ≤ n →
    content opt n (Scope.env s) (asc (c.show ++ rest)) = (lift (c.mean opt s)).bind fun x => .ok (x.head?, asc rest)
  | .text _, hc, _ => by simp [CItem.isElem] at hc
  | .comment _, hc, _ => by simp [CItem.isElem] at hc
  | .empty p nm as ws, hc, hok => by
    intro n s rest hn
    obtain ⟨h1, h2, h3⟩ := id hok
    simp only [CItem.show, List.length_append, List.length_cons] at hn
    obtain ⟨n, rfl⟩ : ∃ k, n = k + 2 := ⟨n - 2, by omega⟩
    rw [content_elem opt (n + 1) _ _ _ rest hok hc rfl]
    have e : fullName p nm ++ as.flatMap CAttr.text ++ ws ++ [0x2f, 0x3e] ++ rest
        = fullName p nm ++ (as.flatMap CAttr.text ++ (ws ++ 0x2f :: ([0x3e] ++ rest))) := by simp
    rw [e, elem_start opt n s p nm as ws _ 0x2f h1 h2 h3 (Or.inl rfl)]
    have e2 : expect [0x2f, 0x3e] (asc (0x2f :: ([0x3e] ++ rest))) = .ok (asc rest) := expect_ok [0x2f, 0x3e] rest
    simp only [CItem.mean, lift_bind, bind_assoc, if_true, e2, bind_ok, lift_some, List.head?_cons]
  | .elem p nm as ws b we, hc, hok => by
    intro n s rest hn
    obtain ⟨h1, h2, h3, h4, h5, h6, h7⟩ := id hok
    have hlen : 2 * ((shows b ++ (0x3c :: 0x2f :: (fullName p nm ++ (we ++ 0x3e :: rest)))).length) + 4 ≤ n := by
      simp only [CItem.show, List.length_append, List.length_cons, List.length_nil] at hn ⊢
      omega
    obtain ⟨n, rfl⟩ : ∃ k, n = k + 2 := ⟨n - 2, by omega⟩
    rw [content_elem opt (n + 1) _ _ (fullName p nm ++ as.flatMap CAttr.text ++ ws ++ [0x3e] ++ shows b ++ [0x3c, 0x2f]
      ++ fullName p nm ++ we ++ [0x3e]) rest hok hc (by simp [CItem.show])]
    have e : fullName p nm ++ as.flatMap CAttr.text ++ ws ++ [0x3e] ++ shows b ++ [0x3c, 0x2f]
          ++ fullName p nm ++ we ++ [0x3e] ++ rest
        = fullName p nm ++ (as.flatMap CAttr.text ++ (ws ++ 0x3e :: (shows b ++ (0x3c :: 0x2f :: (fullName p nm
          ++ (we ++ 0x3e :: rest)))))) := by simp
    rw [e, elem_start opt n s p nm as ws _ 0x3e h1 h2 h3 (Or.inr (Or.inl rfl))]
    have e2 := expect_ok [0x3e] (shows b ++ (0x3c :: 0x2f :: (fullName p nm ++ (we ++ 0x3e :: rest))))
    rw [List.singleton_append] at e2
    rw [e2]
    have hcl := contentList_ok (opt := opt) (s := s.extend as) h7 (list_ok opt b h7 h5) (Ends.tag p nm we rest h1 h4)
      (fun _ => h6) (m := n) (by omega)
    simp only [CItem.mean, lift_bind, bind_assoc, bind_ok, lift_some, List.head?_cons]
    refine res_bind_comm _ _ _ fun ns => ?_
    refine lift_ite _ _ _ fun q hq => ?_
    rw [if_neg (by decide), hcl, bind_assoc]
    cases opt with
    | false =>
      simp only [Bool.false_eq_true, if_false, bind_ok, bind_assoc, pre_false]
    | true =>
      simp only [if_true]
      have hp := pre_chomp (s.extend as) b h7
      rw [← hp]
      cases pre true (s.extend as) b with
      | none => rfl
      | some x =>
        simp only [lift_some, bind_ok, chomp_append, chomp_attrs _ _ _ hq]
        cases chomp x <;> rfl
theorem list_ok (opt : Bool) : (l : List CItem) → Oks l → Apart l → Reads opt l
  | [], _, _ => by
    intro n m s tag tail rest he hne hn hm
    cases he with
    | tag p nm we rest => exact absurd rfl (hne rfl).1
    | file =>
      obtain ⟨n, rfl⟩ : ∃ k, n = k + 1 := ⟨n - 1, by omega⟩
      rfl
  | .comment t :: l, hok, ha => by
    intro n m s tag tail rest he hne hn hm
    have hl : Apart l := by
      cases l with
      | nil => exact trivial
      | cons d l => exact ha.2
    have hi := list_ok opt l hok.2 hl
    have hs := show_len _ hok.1
    simp only [shows, List.length_append] at hn hm
    obtain ⟨n, rfl⟩ : ∃ k, n = k + 1 := ⟨n - 1, by omega⟩
    have e : shows (.comment t :: l) ++ tail = (CItem.comment t).show ++ (shows l ++ tail) := by simp [shows]
    rw [e, content_comment opt n s.env t _ hok.1]
    rw [hi n m s tag tail rest he ?_ (by simp only [List.length_append]; omega) (by simp only [List.length_append]; omega)]
    · simp [pre, CItem.mean]
    · intro ht
      obtain ⟨_, h2⟩ := hne ht
      cases l with
      | nil => exact absurd (h2 _ rfl) (by simp [CItem.isComment])
      | cons d l => exact ⟨by simp, fun c hc => h2 c (by simpa using hc)⟩
  | .text t :: l, hok, ha => by
    intro n m s tag tail rest he hne hn hm
    have hl : Apart l := by
      cases l with
      | nil => exact trivial
      | cons d l => exact ha.2
    have hi := list_ok opt l hok.2 hl
    have hs := show_len _ hok.1
    simp only [shows, List.length_append] at hn hm
    obtain ⟨n, rfl⟩ : ∃ k, n = k + 1 := ⟨n - 1, by omega⟩
    have e : shows (.text t :: l) ++ tail = (CItem.text t).show ++ (shows l ++ tail) := by simp [shows]
    have hcur : cur (asc (shows l ++ tail)) = 0x3c ∨ cur (asc (shows l ++ tail)) = 0 := by
      cases l with
      | nil => simpa [shows] using ends_cur he
      | cons d l =>
        have hd : d.isText = false := by simpa [CItem.isText] using ha.1
        obtain ⟨x, u, e, _, _, h2⟩ := show_head d hok.2.1
        left
        simp only [shows, e, List.cons_append, asc_cons, cur_cons]
        exact (h2 hd).1
    rw [e, content_text opt n s.env t _ hok.1 hcur, bind_ok]
    unfold cont
    dsimp only
    rw [contentList_ok hok.2 hi he ?_ (by simp only [List.length_append]; omega)]
    · simp only [pre, lift_bind, bind_assoc, bind_ok, lift_some]
    · intro ht c hc
      refine (hne ht).2 c ?_
      cases l with
      | nil => cases hc
      | cons d l => simpa using hc
  | .empty p nm as ws :: l, hok, ha => by
    intro n m s tag tail rest he hne hn hm
    have hl : Apart l := by
      cases l with
      | nil => exact trivial
      | cons d l => exact ha.2
    have hi := list_ok opt l hok.2 hl
    have hs := show_len _ hok.1
    have e : shows (.empty p nm as ws :: l) ++ tail = (CItem.empty p nm as ws).show ++ (shows l ++ tail) := by simp [shows]
    rw [e] at hn hm ⊢
    rw [item_ok opt (.empty p nm as ws) rfl hok.1 n s (shows l ++ tail) hn]
    simp only [List.length_append] at hm
    simp only [pre, lift_bind, bind_assoc, bind_ok, lift_some]
    refine lift_ite _ _ _ fun x hx => ?_
    obtain ⟨_, _, _, _, rfl⟩ := mean_single (c := .empty p nm as ws) rfl hx
    unfold cont
    simp only [List.head?_cons]
    rw [contentList_ok hok.2 hi he ?_ (by simp only [List.length_append]; omega)]
    · simp only [bind_assoc, bind_ok, List.singleton_append]
    · intro ht c hc
      refine (hne ht).2 c ?_
      cases l with
      | nil => cases hc
      | cons d l => simpa using hc
  | .elem p nm as ws b we :: l, hok, ha => by
    intro n m s tag tail rest he hne hn hm
    have hl : Apart l := by
      cases l with
      | nil => exact trivial
      | cons d l => exact ha.2
    have hi := list_ok opt l hok.2 hl
    have hs := show_len _ hok.1
    have e : shows (.elem p nm as ws b we :: l) ++ tail = (CItem.elem p nm as ws b we).show ++ (shows l ++ tail) := by
      simp only [shows, List.append_assoc]
    rw [e] at hn hm ⊢
    rw [item_ok opt (.elem p nm as ws b we) rfl hok.1 n s (shows l ++ tail) hn]
    simp only [List.length_append] at hm
    simp only [pre, lift_bind, bind_assoc, bind_ok, lift_some]
    refine lift_ite _ _ _ fun x hx => ?_
    obtain ⟨_, _, _, _, rfl⟩ := mean_single (c := .elem p nm as ws b we) rfl hx
    unfold cont
    simp only [List.head?_cons]
    rw [contentList_ok hok.2 hi he ?_ (by simp only [List.length_append]; omega)]
    · simp only [bind_assoc, bind_ok, List.singleton_append]
    · intro ht c hc
      refine (hne ht).2 c ?_
      cases l with
      | nil => cases hc
      | cons d l => simpa using hc
end

end Hob3l.Xml
