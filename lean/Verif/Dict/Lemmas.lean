import Verif.Dict.Spec
import Mathlib.Tactic.Linarith
import Mathlib.Data.List.Nodup

namespace Hob3l.Dict

open Tree
open Hob3l.Matq (ass)

variable {α : Type}

theorem ass_true {p : Prop} [Decidable p] (h : p) : ass p = some () := by simp [ass, h]

/-! ### sequences -/

/-- elements before the hole -/
def pre : Path α → List α
  | [] => []
  | f :: p => if f.i then pre p ++ toList f.sib ++ [f.a] else pre p

/-- elements after the hole -/
def post : Path α → List α
  | [] => []
  | f :: p => if f.i then post p else f.a :: toList f.sib ++ post p

theorem toList_plug (t : Tree α) (p : Path α) : toList (plug t p) = pre p ++ toList t ++ post p := by
  induction p generalizing t with
  | nil => simp [plug, pre, post]
  | cons f p ih =>
    obtain ⟨i, a, s, sib⟩ := f
    cases i <;> simp [plug, ih, pre, post, plug1, mkNode, toList]

theorem plug_append (t : Tree α) (p q : Path α) : plug t (p ++ q) = plug (plug t p) q := by
  induction p generalizing t with
  | nil => rfl
  | cons f p ih => simp [plug, ih]

theorem toList_rotate {d : Bool} {t u : Tree α} (h : rotate d t = some u) : toList u = toList t := by
  cases t with
  | leaf => simp [rotate] at h
  | node l a s r =>
    cases d
    · cases r <;> simp [rotate] at h
      subst h; simp [toList]
    · cases l <;> simp [rotate] at h
      subst h; simp [toList]

theorem toList_mapStat {f : Nat → Option Nat} {t u : Tree α} (h : mapStat f t = some u) : toList u = toList t := by
  cases t with
  | leaf => simp [mapStat] at h
  | node l a s r =>
    simp only [mapStat, Option.bind_eq_bind, Option.bind_eq_some_iff, Option.some.injEq] at h
    obtain ⟨s', _, rfl⟩ := h
    simp [toList]

theorem rootId_mem {t : Tree α} {a : α} (h : rootId t = some a) : a ∈ toList t := by
  cases t <;> simp_all [rootId, toList]

theorem rootId_plug_cons (t : Tree α) (f : Frame α) (p : Path α) :
    ∃ b, rootId (plug t (f :: p)) = some b ∧ b ∈ pre (f :: p) ++ post (f :: p) := by
  induction p generalizing t f with
  | nil =>
    obtain ⟨i, a, s, sib⟩ := f
    cases i <;> simp [plug, plug1, mkNode, rootId, pre, post]
  | cons g p ih =>
    obtain ⟨b, h1, h2⟩ := ih (plug1 f t) g
    refine ⟨b, h1, ?_⟩
    obtain ⟨i, a, s, sib⟩ := f
    cases i <;> simp only [pre, post] at * <;> simp only [List.mem_append, List.mem_cons] at * <;> grind

theorem rootId_ne {x : Tree α} {f : Frame α} {p : Path α} (hn : (toList (plug x (f :: p))).Nodup)
    (hx : x ≠ leaf) : rootId x ≠ rootId (plug x (f :: p)) := by
  intro h
  obtain ⟨b, h1, h2⟩ := rootId_plug_cons x f p
  have hb : b ∈ toList x := rootId_mem (h.trans h1)
  rw [toList_plug] at hn
  simp only [List.nodup_append, List.mem_append] at *
  grind

theorem rootId_plug_congr {t u : Tree α} (h : rootId t = rootId u) (p : Path α) :
    rootId (plug t p) = rootId (plug u p) := by
  cases p with
  | nil => exact h
  | cons f p =>
    have : ∀ (p : Path α) (t u : Tree α), rootId t = rootId u → rootId (plug t p) = rootId (plug u p) := by
      intro p
      induction p with
      | nil => intro t u h; exact h
      | cons f p ih =>
        intro t u h
        refine ih _ _ ?_
        obtain ⟨i, a, s, sib⟩ := f
        cases i <;> rfl
    exact this _ _ _ h

theorem rootId_plug_cons_congr (t u : Tree α) (f : Frame α) (p : Path α) :
    rootId (plug t (f :: p)) = rootId (plug u (f :: p)) := by
  refine rootId_plug_congr (t := plug1 f t) (u := plug1 f u) ?_ p
  obtain ⟨i, a, s, sib⟩ := f
  cases i <;> rfl

theorem mem_iff [DecidableEq α] (a : α) (t : Tree α) : mem a t = true ↔ a ∈ toList t := by
  induction t with
  | leaf => simp [mem, toList]
  | node l b s r ih1 ih2 => simp [mem, toList, ih1, ih2]; grind

/-! ### validity -/

theorem height2_node (l : Tree α) (a : α) (s : Nat) (r : Tree α) : height2 (node l a s r) = s - s % 2 := rfl
theorem red_node (l : Tree α) (a : α) (s : Nat) (r : Tree α) : Dict.red (node l a s r) = (s % 2 == 1) := rfl

theorem RB.red_eq {t : Tree α} {c : Bool} {h : Nat} (H : RB t c h) : Dict.red t = c := by
  cases H <;> simp [Dict.red]

theorem RB.height2_eq {t : Tree α} {c : Bool} {h : Nat} (H : RB t c h) : height2 t = 2 * h := by
  cases H <;> simp [height2] <;> omega

theorem RB.goodTree {t : Tree α} {c : Bool} {h : Nat} (H : RB t c h) (b : Bool) : goodTree b t = true := by
  cases H with
  | leaf => rfl
  | red h1 h2 =>
    have : ∀ h, 2 * h + 1 - (2 * h + 1) % 2 = 2 * h := by intro h; omega
    simp [Dict.goodTree, red_node, h1.red_eq, h2.red_eq, h1.height2_eq, h2.height2_eq, height2_node, this]
  | black h1 h2 =>
    simp [Dict.goodTree, red_node, h1.height2_eq, h2.height2_eq, height2_node]

theorem RB.getBlackHeight {t : Tree α} {c : Bool} {h : Nat} (H : RB t c h) : getBlackHeight t = h := by
  induction H with
  | leaf => rfl
  | red h1 h2 ih1 ih2 =>
    rw [Dict.getBlackHeight, if_pos ((RB.red h1 h2).goodTree _), ih1]
    simp [Dict.red]
  | black h1 h2 ih1 ih2 =>
    rw [Dict.getBlackHeight, if_pos ((RB.black h1 h2).goodTree _), ih1]
    simp [Dict.red]

theorem RB.veryGood {t : Tree α} {c : Bool} {h : Nat} (H : RB t c h) : veryGood t = true := by
  simp [Dict.veryGood, H.getBlackHeight, H.height2_eq]

theorem rb_mk_red {i : Bool} {x y : Tree α} {a : α} {h s : Nat} (h1 : RB x false h) (h2 : RB y false h)
    (hs : s = 2 * h + 1) : RB (mkNode i x a s y) true h := by
  subst hs
  cases i
  · exact RB.red h1 h2
  · exact RB.red h2 h1

theorem rb_mk_black {i : Bool} {x y : Tree α} {a : α} {c d : Bool} {h s : Nat} (h1 : RB x c h) (h2 : RB y d h)
    (hs : s = 2 * h + 2) : RB (mkNode i x a s y) false (h + 1) := by
  subst hs
  cases i
  · exact RB.black h1 h2
  · exact RB.black h2 h1

theorem RB.isRed {t : Tree α} {h : Nat} (H : RB t true h) :
    ∃ l a r, t = node l a (2 * h + 1) r ∧ RB l false h ∧ RB r false h := by
  cases H with
  | red h1 h2 => exact ⟨_, _, _, rfl, h1, h2⟩

theorem RB.isBlack {t : Tree α} {h : Nat} (H : RB t false (h + 1)) :
    ∃ l a r c d, t = node l a (2 * h + 2) r ∧ RB l c h ∧ RB r d h := by
  cases H with
  | black h1 h2 => exact ⟨_, _, _, _, _, rfl, h1, h2⟩

theorem RB.zero {t : Tree α} (H : RB t false 0) : t = Tree.leaf := by
  cases H; rfl

/-- a valid surrounding of a subtree of colour `c` and black height `h` -/
def Ctx : Path α → Bool → Nat → Prop
  | [], _, _ => True
  | f :: p, c, h =>
    (f.s = 2 * h + 1 ∧ c = false ∧ RB f.sib false h ∧ Ctx p true h) ∨
    (f.s = 2 * h + 2 ∧ (∃ d, RB f.sib d h) ∧ Ctx p false (h + 1))

theorem Ctx.mono {p : Path α} {h : Nat} {c : Bool} (H : Ctx p c h) : Ctx p false h := by
  cases c with
  | false => exact H
  | true =>
    cases p with
    | nil => trivial
    | cons f p =>
      rcases H with ⟨_, h, _⟩ | H
      · cases h
      · exact Or.inr H

theorem rb_plug {t : Tree α} {p : Path α} {c : Bool} {h : Nat} (H : RB t c h) (C : Ctx p c h) :
    ∃ c' h', RB (plug t p) c' h' := by
  induction p generalizing t c h with
  | nil => exact ⟨_, _, H⟩
  | cons f p ih =>
    rcases C with ⟨hs, rfl, h1, h2⟩ | ⟨hs, ⟨d, h1⟩, h2⟩
    · exact ih (rb_mk_red H h1 hs) h2
    · exact ih (rb_mk_black H h1 hs) h2

theorem rb_unplug {t : Tree α} {p : Path α} {c' : Bool} {h' : Nat} (H : RB (plug t p) c' h') :
    ∃ c h, RB t c h ∧ Ctx p c h := by
  induction p generalizing t with
  | nil => exact ⟨_, _, H, trivial⟩
  | cons f p ih =>
    obtain ⟨c, h, h1, h2⟩ := ih H
    obtain ⟨i, a, s, sib⟩ := f
    cases i <;> simp only [plug1, mkNode] at h1
    · cases h1 with
      | red h3 h4 => exact ⟨_, _, h3, Or.inl ⟨rfl, rfl, h4, h2⟩⟩
      | black h3 h4 => exact ⟨_, _, h3, Or.inr ⟨rfl, ⟨_, h4⟩, h2⟩⟩
    · cases h1 with
      | red h3 h4 => exact ⟨_, _, h4, Or.inl ⟨rfl, rfl, h3, h2⟩⟩
      | black h3 h4 => exact ⟨_, _, h4, Or.inr ⟨rfl, ⟨_, h3⟩, h2⟩⟩

/-! ### locations -/

theorem startLoc_none {d : Bool} {t : Tree α} {p : Path α} : startLoc d t p = none ↔ t = leaf := by
  cases t with
  | leaf => simp [startLoc]
  | node l a s r =>
    simp only [startLoc, reduceCtorEq, iff_false]
    split <;> simp

theorem startLoc_false (t : Tree α) (p : Path α) {q : Tree α × Path α} (h : startLoc false t p = some q) :
    plug q.1 q.2 = plug t p ∧ ∃ a s r, q.1 = node leaf a s r ∧ pre q.2 = pre p := by
  induction t generalizing p with
  | leaf => simp [startLoc] at h
  | node l a s r ih1 _ =>
    simp only [startLoc] at h
    split at h
    · rename_i q' hq
      simp only [Option.some.injEq] at h
      subst h
      obtain ⟨h1, b, u, v, h2, h3⟩ := ih1 _ hq
      exact ⟨h1, b, u, v, h2, by simpa [pre] using h3⟩
    · rename_i hq
      rw [startLoc_none] at hq
      simp only [Option.some.injEq] at h
      subst h; subst hq
      exact ⟨rfl, _, _, _, rfl, rfl⟩

theorem startLoc_true (t : Tree α) (p : Path α) {q : Tree α × Path α} (h : startLoc true t p = some q) :
    plug q.1 q.2 = plug t p ∧ ∃ a s l, q.1 = node l a s leaf ∧ post q.2 = post p := by
  induction t generalizing p with
  | leaf => simp [startLoc] at h
  | node l a s r _ ih1 =>
    simp only [startLoc] at h
    split at h
    · rename_i q' hq
      simp only [Option.some.injEq] at h
      subst h
      obtain ⟨h1, b, u, v, h2, h3⟩ := ih1 _ hq
      exact ⟨h1, b, u, v, h2, by simpa [post] using h3⟩
    · rename_i hq
      rw [startLoc_none] at hq
      simp only [Option.some.injEq] at h
      subst h; subst hq
      exact ⟨rfl, _, _, _, rfl, rfl⟩

theorem climb_none {d : Bool} {t : Tree α} {p : Path α} (h : climb d t p = none) :
    (match d with | false => post p | true => pre p) = [] := by
  induction p generalizing t with
  | nil => cases d <;> rfl
  | cons f p ih =>
    obtain ⟨i, a, s, sib⟩ := f
    simp only [climb] at h
    cases d <;> cases i <;> simp at h <;> simpa [pre, post] using ih h

theorem climb_false {t : Tree α} {p : Path α} {q : Tree α × Path α} (h : climb false t p = some q) :
    plug q.1 q.2 = plug t p ∧ ∃ l a s r, q.1 = node l a s r ∧ pre q.2 ++ toList l = pre p ++ toList t := by
  induction p generalizing t with
  | nil => simp [climb] at h
  | cons f p ih =>
    obtain ⟨i, a, s, sib⟩ := f
    simp only [climb] at h
    cases i <;> simp at h
    · subst h
      exact ⟨rfl, _, _, _, _, rfl, by simp [pre]⟩
    · obtain ⟨h1, l, b, u, v, h2, h3⟩ := ih h
      exact ⟨h1, l, b, u, v, h2, by simp [h3, pre, plug1, mkNode, toList]⟩

theorem climb_true {t : Tree α} {p : Path α} {q : Tree α × Path α} (h : climb true t p = some q) :
    plug q.1 q.2 = plug t p ∧ ∃ l a s r, q.1 = node l a s r ∧ toList r ++ post q.2 = toList t ++ post p := by
  induction p generalizing t with
  | nil => simp [climb] at h
  | cons f p ih =>
    obtain ⟨i, a, s, sib⟩ := f
    simp only [climb] at h
    cases i <;> simp at h
    · obtain ⟨h1, l, b, u, v, h2, h3⟩ := ih h
      exact ⟨h1, l, b, u, v, h2, by simp [h3, post, plug1, mkNode, toList]⟩
    · subst h
      exact ⟨rfl, _, _, _, _, rfl, by simp [post]⟩

/-- `A` is the sequence before, `B` the sequence after the node `a` at the location -/
def At (t : Tree α) (p : Path α) (A : List α) (a : α) (B : List α) : Prop :=
  ∃ l s r, t = node l a s r ∧ A = pre p ++ toList l ∧ B = toList r ++ post p

theorem At.toList_eq {t : Tree α} {p : Path α} {A B : List α} {a : α} (h : At t p A a B) :
    toList (plug t p) = A ++ a :: B := by
  obtain ⟨l, s, r, rfl, rfl, rfl⟩ := h
  simp [toList_plug, toList]

theorem startLoc_at {t : Tree α} {d : Bool} {q : Tree α × Path α} (h : startLoc d t [] = some q) :
    plug q.1 q.2 = t ∧ ∃ A a B, At q.1 q.2 A a B ∧ (match d with | false => A | true => B) = [] := by
  cases d
  · obtain ⟨h1, a, s, r, h2, h3⟩ := startLoc_false _ _ h
    exact ⟨h1, _, _, _, ⟨_, _, _, h2, rfl, rfl⟩, by simp [h3, pre, toList]⟩
  · obtain ⟨h1, a, s, r, h2, h3⟩ := startLoc_true _ _ h
    exact ⟨h1, _, _, _, ⟨_, _, _, h2, rfl, rfl⟩, by simp [h3, post, toList]⟩

theorem isLeaf_iff {t : Tree α} : isLeaf t = true ↔ t = leaf := by cases t <;> simp [isLeaf]

/-- stepping forward -/
theorem stepLoc_false {t : Tree α} {p : Path α} {A B : List α} {a : α} (h : At t p A a B) :
    match stepLoc false t p with
    | none => B = []
    | some q => plug q.1 q.2 = plug t p ∧ ∃ b B', B = b :: B' ∧ At q.1 q.2 (A ++ [a]) b B' := by
  have htl := h.toList_eq
  obtain ⟨l, s, r, rfl, rfl, rfl⟩ := h
  simp only [stepLoc]
  split
  · rename_i hr
    by_cases hl : isLeaf r
    · rw [if_pos hl] at hr
      have := climb_none hr
      rw [isLeaf_iff] at hl
      subst hl
      simpa [toList] using this
    · rw [if_neg hl, startLoc_none] at hr
      exact absurd (isLeaf_iff.mpr hr) hl
  · rename_i q hr
    by_cases hl : isLeaf r
    · rw [if_pos hl] at hr
      rw [isLeaf_iff] at hl
      subst hl
      obtain ⟨h1, l', b, s', r', h2, h3⟩ := climb_false hr
      refine ⟨h1, b, toList r' ++ post q.2, ?_, ⟨l', s', r', h2, ?_, rfl⟩⟩
      · have := htl
        rw [← h1, h2, toList_plug] at this
        simp only [toList, List.append_assoc, List.cons_append] at this h3
        rw [← List.append_assoc, h3] at this
        simpa [toList] using this.symm
      · rw [h3]; simp [toList]
    · rw [if_neg hl] at hr
      obtain ⟨h1, b, s', r', h2, h3⟩ := startLoc_false _ _ hr
      have h1' : plug q.1 q.2 = plug (node l a s r) p := by rw [h1]; simp [plug, plug1, mkNode]
      refine ⟨h1', b, toList r' ++ post q.2, ?_, ⟨leaf, s', r', h2, ?_, rfl⟩⟩
      · have := htl
        rw [← h1', h2, toList_plug, h3] at this
        simpa [pre, toList] using this.symm
      · rw [h3]; simp [pre, toList]

/-- stepping backward -/
theorem stepLoc_true {t : Tree α} {p : Path α} {A B : List α} {a : α} (h : At t p A a B) :
    match stepLoc true t p with
    | none => A = []
    | some q => plug q.1 q.2 = plug t p ∧ ∃ b A', A = A' ++ [b] ∧ At q.1 q.2 A' b (a :: B) := by
  have htl := h.toList_eq
  obtain ⟨l, s, r, rfl, rfl, rfl⟩ := h
  simp only [stepLoc]
  split
  · rename_i hr
    by_cases hl : isLeaf l
    · rw [if_pos hl] at hr
      have := climb_none hr
      rw [isLeaf_iff] at hl
      subst hl
      simpa [toList] using this
    · rw [if_neg hl, startLoc_none] at hr
      exact absurd (isLeaf_iff.mpr hr) hl
  · rename_i q hr
    by_cases hl : isLeaf l
    · rw [if_pos hl] at hr
      rw [isLeaf_iff] at hl
      subst hl
      obtain ⟨h1, l', b, s', r', h2, h3⟩ := climb_true hr
      refine ⟨h1, b, pre q.2 ++ toList l', ?_, ⟨l', s', r', h2, rfl, ?_⟩⟩
      · have := htl
        rw [← h1, h2, toList_plug] at this
        simp only [toList, List.append_assoc, List.cons_append] at this h3
        rw [h3] at this
        have h4 : (pre q.2 ++ (toList l' ++ [b])) ++ (a :: (toList r ++ post p)) =
            (pre p) ++ (a :: (toList r ++ post p)) := by simpa [toList] using this
        have h5 := List.append_cancel_right h4
        simpa [toList] using h5.symm
      · rw [h3]; simp [toList]
    · rw [if_neg hl] at hr
      obtain ⟨h1, b, s', l', h2, h3⟩ := startLoc_true _ _ hr
      have h1' : plug q.1 q.2 = plug (node l a s r) p := by rw [h1]; simp [plug, plug1, mkNode]
      refine ⟨h1', b, pre q.2 ++ toList l', ?_, ⟨l', s', leaf, h2, rfl, ?_⟩⟩
      · have := htl
        rw [← h1', h2, toList_plug, h3] at this
        have h4 : (pre q.2 ++ (toList l' ++ [b])) ++ (a :: (toList r ++ post p)) =
            (pre p ++ toList l) ++ (a :: (toList r ++ post p)) := by simpa [post, toList] using this
        have h5 := List.append_cancel_right h4
        simpa using h5.symm
      · rw [h3]; simp [post, toList]

variable [DecidableEq α]

theorem locate_none {a : α} {t : Tree α} {p : Path α} : locate a t p = none ↔ a ∉ toList t := by
  induction t generalizing p with
  | leaf => simp [locate, toList]
  | node l b s r ih1 ih2 =>
    simp only [locate, toList, List.mem_append, List.mem_cons]
    split
    · rename_i h; simp [h]
    · rename_i h
      split
      · rename_i q hq
        have : ¬ (locate a l (⟨false, b, s, r⟩ :: p) = none) := by rw [hq]; simp
        rw [ih1] at this
        simp at this
        simp [this]
      · rename_i hq
        rw [ih1] at hq
        rw [ih2]
        simp [h, hq]

theorem locate_some {a : α} {t : Tree α} {p : Path α} {q : Tree α × Path α} (h : locate a t p = some q) :
    plug q.1 q.2 = plug t p ∧ ∃ l s r, q.1 = node l a s r := by
  induction t generalizing p with
  | leaf => simp [locate] at h
  | node l b s r ih1 ih2 =>
    simp only [locate] at h
    split at h
    · rename_i hab
      simp only [Option.some.injEq] at h
      subst h; subst hab
      exact ⟨rfl, _, _, _, rfl⟩
    · split at h
      · rename_i q' hq
        simp only [Option.some.injEq] at h
        subst h
        obtain ⟨h1, h2⟩ := ih1 hq
        exact ⟨by rw [h1]; rfl, h2⟩
      · obtain ⟨h1, h2⟩ := ih2 h
        exact ⟨by rw [h1]; rfl, h2⟩

theorem append_cons_inj_of_nodup {A B A' B' : List α} {a : α} (h : A ++ a :: B = A' ++ a :: B')
    (hn : (A ++ a :: B).Nodup) : A = A' ∧ B = B' := by
  induction A generalizing A' with
  | nil =>
    cases A' with
    | nil => simpa using h
    | cons x A' =>
      simp only [List.nil_append, List.cons_append, List.cons.injEq] at h
      obtain ⟨rfl, rfl⟩ := h
      simp at hn
  | cons x A ih =>
    cases A' with
    | nil =>
      simp only [List.nil_append, List.cons_append, List.cons.injEq] at h
      obtain ⟨rfl, rfl⟩ := h
      simp at hn
    | cons y A' =>
      simp only [List.cons_append, List.cons.injEq] at h
      obtain ⟨rfl, h⟩ := h
      have := ih h (by simpa using (List.nodup_cons.mp hn).2)
      simp [this]

theorem locate_at {a : α} {t : Tree α} {A B : List α} (h : toList t = A ++ a :: B) (hn : (toList t).Nodup) :
    ∃ q, locate a t [] = some q ∧ plug q.1 q.2 = t ∧ At q.1 q.2 A a B := by
  cases hq : locate a t [] with
  | none => rw [locate_none, h] at hq; simp at hq
  | some q =>
    obtain ⟨h1, l, s, r, h2⟩ := locate_some hq
    simp only [plug] at h1
    refine ⟨q, rfl, h1, l, s, r, h2, ?_⟩
    have h3 := toList_plug q.1 q.2
    rw [h1, h, h2] at h3
    simp only [toList] at h3
    have := append_cons_inj_of_nodup (A' := pre q.2 ++ toList l) (B' := toList r ++ post q.2)
      (by simpa using h3) (by rw [← h]; exact hn)
    exact this

end Hob3l.Dict
