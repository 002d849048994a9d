import Verif.Dict.LemmasRemove

namespace Hob3l.Dict

open Tree
open Hob3l.Matq (ass)

variable {α : Type} [DecidableEq α]

omit [DecidableEq α] in
theorem startLoc_false_frames (t : Tree α) (p : Path α) {q : Tree α × Path α} (h : startLoc false t p = some q) :
    ∃ fs : Path α, q.2 = fs ++ p ∧ ∀ f ∈ fs, f.i = false := by
  induction t generalizing p with
  | leaf => simp [startLoc] at h
  | node l a s r ih1 _ =>
    simp only [startLoc] at h
    split at h
    · rename_i q' hq
      simp only [Option.some.injEq] at h
      subst h
      obtain ⟨fs, h1, h2⟩ := ih1 _ hq
      refine ⟨fs ++ [⟨false, a, s, r⟩], by simp [h1], ?_⟩
      intro f hf
      simp only [List.mem_append, List.mem_singleton] at hf
      rcases hf with hf | rfl
      · exact h2 f hf
      · rfl
    · simp only [Option.some.injEq] at h
      subst h
      exact ⟨[], rfl, by simp⟩

omit [DecidableEq α] in
theorem ctx_rename {q p : Path α} {i : Bool} {a b : α} {s : Nat} {l : Tree α} {c : Bool} {h : Nat}
    (H : Ctx (q ++ ⟨i, a, s, l⟩ :: p) c h) : Ctx (q ++ ⟨i, b, s, l⟩ :: p) c h := by
  induction q generalizing c h with
  | nil => exact H
  | cons f q ih =>
    rcases H with ⟨h1, h2, h3, h4⟩ | ⟨h1, h2, h4⟩
    · exact Or.inl ⟨h1, h2, h3, ih h4⟩
    · exact Or.inr ⟨h1, h2, ih h4⟩

omit [DecidableEq α] in
theorem rb_zero_cases {t : Tree α} {c : Bool} (H : RB t c 0) : t = leaf ∨ ∃ a, t = node leaf a 1 leaf := by
  cases H with
  | leaf => exact Or.inl rfl
  | red h1 h2 => rw [h1.zero, h2.zero]; exact Or.inr ⟨_, rfl⟩

omit [DecidableEq α] in
theorem collapse_zero {t : Tree α} {c : Bool} (H : RB t c 0) (b : Bool) : collapse b t = t := by
  rcases rb_zero_cases H with rfl | ⟨a, rfl⟩
  · rfl
  · cases b <;> simp [collapse, setRed]

/-- what unlinking a node establishes -/
def UnlinkOk (t : Tree α) (path : Path α) (L : List α) : Removed α → Prop
  | .whole b => path = [] ∧ toList b = L ∧ ∃ c h, RB b c h
  | .edge isRed x p => p ≠ [] ∧ toList (plug x p) = L ∧
      (∃ c h, RB x c h ∧ (if isRed then Ctx p c h else Ctx p false (h + 1))) ∧
      (path ≠ [] → rootId (plug x p) = rootId t)

omit [DecidableEq α] in
theorem isLeaf_false {t : Tree α} : isLeaf t = false ↔ t ≠ leaf := by cases t <;> simp [isLeaf]

theorem removeU_ok {l r : Tree α} {s : Nat} {a : α} {path : Path α} {c : Bool} {h : Nat}
    (H : RB (node l a s r) c h) (C : Ctx path c h) :
    ∃ u, removeU l s r path = some u ∧
      UnlinkOk (plug (node l a s r) path) path (pre path ++ toList l ++ (toList r ++ post path)) u ∧
      (path = [] → (l ≠ leaf ∧ r ≠ leaf) ∨ ∃ b, u = .whole b) := by
  by_cases hlr : l ≠ leaf ∧ r ≠ leaf
  · have hb : (!isLeaf l && !isLeaf r) = true := by
      simp [isLeaf_false.mpr hlr.1, isLeaf_false.mpr hlr.2]
    simp only [removeU, hb, if_true, swapRemoveU]
    cases hd : startLoc false r [] with
    | none => rw [startLoc_none] at hd; exact absurd hd hlr.2
    | some d =>
      obtain ⟨d1, da, ds, dr, d2, d3⟩ := startLoc_false _ _ hd
      obtain ⟨fs, f1, f2⟩ := startLoc_false_frames _ _ hd
      obtain ⟨dt, q⟩ := d
      simp only [List.append_nil] at d1 d2 d3 f1
      subst f1; subst d2
      simp only [plug, pre] at d1 d3
      have hhead : ((q ++ [(⟨true, da, s, l⟩ : Frame α)]).head?).map (·.i) = some q.isEmpty := by
        cases q with
        | nil => rfl
        | cons f q => simp [f2 f (by simp)]
      have hLeaf : isLeaf (leaf : Tree α) = true := rfl
      simp only [Option.bind_eq_bind, Option.bind_some, hLeaf, ass_true, hhead]
      -- the location of the successor in the original tree
      have hfull : ∃ c h, RB (plug (node leaf da ds dr) (q ++ ⟨true, a, s, l⟩ :: path)) c h := by
        rw [plug_append, d1]
        have := rb_plug H C
        simpa [plug, plug1, mkNode] using this
      obtain ⟨c', h', hfull⟩ := hfull
      obtain ⟨c1, h1, hrb, hctx⟩ := rb_unplug hfull
      have hctx' : Ctx (q ++ [⟨true, da, s, l⟩] ++ path) c1 h1 := by
        have := ctx_rename (b := da) hctx
        simpa using this
      have hrest : ∃ c h, RB dr c h ∧ h = 0 ∧ (if ds % 2 == 1 then Ctx (q ++ [⟨true, da, s, l⟩] ++ path) c h
          else Ctx (q ++ [⟨true, da, s, l⟩] ++ path) false (h + 1)) := by
        cases hrb with
        | red e1 e2 =>
          cases e1
          exact ⟨_, _, e2, rfl, by simpa using hctx'.mono⟩
        | black e1 e2 =>
          cases e1
          exact ⟨_, _, e2, rfl, by simpa using hctx'⟩
      obtain ⟨c2, h2, g1, rfl, g2⟩ := hrest
      rw [collapse_zero g1]
      refine ⟨_, rfl, ⟨by simp, ?_, ⟨c2, 0, g1, g2⟩, ?_⟩, fun _ => Or.inl hlr⟩
      · have e1 := toList_plug (node leaf da ds dr) q
        rw [d1, d3] at e1
        simp only [toList, List.nil_append] at e1
        rw [plug_append, toList_plug, plug_append, toList_plug]
        have e2 := toList_plug dr q
        rw [d3] at e2
        simp [pre, post, d3, e1, e2, toList]
      · intro hp
        cases path with
        | nil => exact absurd rfl hp
        | cons f path =>
          rw [plug_append]
          exact rootId_plug_cons_congr _ _ _ _
  · have hb : (!isLeaf l && !isLeaf r) = false := by
      by_cases h1 : l = leaf
      · simp [h1, isLeaf]
      · have : r = leaf := by
          by_contra h2; exact hlr ⟨h1, h2⟩
        simp [this, isLeaf]
    simp only [removeU, hb, Bool.false_eq_true, if_false]
    -- the only child
    have hchild : ∃ c h, RB (if (!isLeaf l) = true then l else r) c h ∧ h = 0 ∧
        (if s % 2 == 1 then Ctx path c h else Ctx path false (h + 1)) ∧
        toList (if (!isLeaf l) = true then l else r) = toList l ++ toList r := by
      cases H with
      | red e1 e2 =>
        by_cases h1 : l = leaf
        · subst h1
          cases e1
          exact ⟨false, 0, by simpa [isLeaf] using e2, rfl, by simpa using C.mono, by simp [isLeaf, toList]⟩
        · have h2 : r = leaf := by
            by_contra h2; exact hlr ⟨h1, h2⟩
          subst h2
          cases e2
          exact absurd e1.zero h1
      | @black _ _ _ c1 d1 h0 e1 e2 =>
        by_cases h1 : l = leaf
        · subst h1
          cases e1
          exact ⟨d1, 0, by simpa [isLeaf] using e2, rfl, by simpa using C, by simp [isLeaf, toList]⟩
        · have h2 : r = leaf := by
            by_contra h2; exact hlr ⟨h1, h2⟩
          subst h2
          cases e2
          exact ⟨c1, 0, by simpa [isLeaf_false.mpr h1] using e1, rfl, by simpa using C,
            by simp [isLeaf_false.mpr h1, toList]⟩
    obtain ⟨c1, h1, g1, rfl, g2, g3⟩ := hchild
    cases path with
    | nil =>
      refine ⟨_, rfl, ⟨rfl, ?_, ⟨_, _, g1⟩⟩, fun _ => Or.inr ⟨_, rfl⟩⟩
      rw [g3]; simp [pre, post]
    | cons f path =>
      refine ⟨_, rfl, ⟨by simp, ?_, ⟨c1, 0, ?_, g2⟩, ?_⟩, by simp⟩
      · rw [collapse_zero g1, toList_plug, g3]; simp
      · rw [collapse_zero g1]; exact g1
      · intro _
        exact rootId_plug_cons_congr _ _ _ _

theorem remove_ok {t : Tree α} {c : α} {A B : List α} (hv : Valid t) (h : toList t = A ++ c :: B) :
    ∃ t', remove c t = some (t', rootId t') ∧ Valid t' ∧ toList t' = A ++ B := by
  obtain ⟨⟨ct, ht, hrb⟩, hn⟩ := hv
  obtain ⟨⟨x, path⟩, h1, h2, h3⟩ := locate_at h hn
  obtain ⟨l, s, r, hx, hA, hB⟩ := h3
  simp only at h1 h2 hx hA hB
  subst hx
  rw [← h2] at hrb
  obtain ⟨c1, hh1, H, C⟩ := rb_unplug hrb
  obtain ⟨u, u1, u2, u3⟩ := removeU_ok (a := c) H C
  rw [← hA, ← hB] at u2
  have hnd : (A ++ B).Nodup := by
    rw [h] at hn
    simp only [List.nodup_append, List.nodup_cons, List.mem_cons] at *
    grind
  simp only [remove, h1, u1, Option.bind_eq_bind, Option.bind_some]
  cases u with
  | whole b =>
    obtain ⟨_, e1, ⟨cb, hb, e2⟩⟩ := u2
    refine ⟨b, ?_, ⟨⟨_, _, e2⟩, by rw [e1]; exact hnd⟩, e1⟩
    simp [e2.veryGood, ass_true]
  | edge isRed x p =>
    obtain ⟨e0, e1, ⟨cx, hx, e2, e3⟩, e4⟩ := u2
    have hbal : RemOk none x p (removeBalance isRed x p) := by
      unfold removeBalance
      cases isRed with
      | true =>
        simp only [if_true] at e3 ⊢
        exact ⟨plug x p, none, rfl, rfl, rb_plug e2 e3, Or.inr ⟨rfl, rfl⟩⟩
      | false =>
        simp only [Bool.false_eq_true, if_false] at e3 ⊢
        exact balanceRemove_ok _ none p x cx hx e2 e3 (by omega)
    obtain ⟨t', rv, b1, b2, ⟨c', h', b3⟩, b4⟩ := hbal
    refine ⟨t', ?_, ⟨⟨_, _, b3⟩, by rw [b2, e1]; exact hnd⟩, by rw [b2, e1]⟩
    simp only [b1, Option.bind_some]
    have hfin : finalRoot t' rv (remainingChild l r path) (rootId t) = some (rootId t') := by
      have case1 : ∀ a, rootId t' = some a → finalRoot t' (some a) (remainingChild l r path) (rootId t) = some (rootId t') := by
        intro a ha
        simp [finalRoot, ha, ass, b3.veryGood]
      have ht'ne : t' ≠ leaf := by
        intro hl
        have : toList (plug x p) = [] := by rw [← b2, hl]; rfl
        cases p with
        | nil => exact e0 rfl
        | cons f p =>
          rw [toList_plug] at this
          obtain ⟨i, fa, fs, fsib⟩ := f
          cases i <;> simp [pre, post] at this
      have hroot : ∃ a, rootId t' = some a := by
        cases t' with
        | leaf => exact absurd rfl ht'ne
        | node l a s r => exact ⟨a, rfl⟩
      obtain ⟨a, ha⟩ := hroot
      rcases b4 with rfl | ⟨rfl, b5⟩
      · rw [ha]; rw [← ha]; rw [ha]; simpa [ha] using case1 a ha
      · cases path with
        | nil =>
          rcases u3 rfl with ⟨hl, hr⟩ | ⟨b, hb⟩
          · have hz : ∃ z, rootId l = some z := by
              cases l with
              | leaf => exact absurd rfl hl
              | node _ z _ _ => exact ⟨z, rfl⟩
            obtain ⟨z, hz⟩ := hz
            have hmem : mem z t' = true := by
              rw [mem_iff, b2, e1, hA]
              simp [rootId_mem hz]
            simp [remainingChild, isLeaf_false.mpr hl, hz, finalRoot, hmem, ass, b3.veryGood]
          · cases hb
        | cons f path =>
          have := e4 (by simp)
          rw [h2] at this
          simp [remainingChild, finalRoot, b5, this]
    rw [hfin]
    rfl

end Hob3l.Dict
