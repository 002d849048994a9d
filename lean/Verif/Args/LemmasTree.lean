import Verif.Args.LemmasCrash
import Mathlib.Tactic.SplitIfs

namespace Hob3l.Args

open Hob3l.Syn (Text txt Value Arg Item Stmt)

variable {F : Type} [Flt F]

theorem shapes_append (a b : List (Tree F)) : shapes (a ++ b) = shapes a ++ shapes b := by
  induction a with
  | nil => rfl
  | cons t l ih => simp [shapes, ih]

theorem allOf_append (a b : List (Tree F)) : allOf (a ++ b) = allOf a ++ allOf b := by
  induction a with
  | nil => rfl
  | cons t l ih => simp [allOf, ih]

theorem allOf_single (t : Tree F) : allOf [t] = t.all := by simp [allOf]

theorem modsOf_append (a b : List Shape) : modsOf (a ++ b) = modsOf a ++ modsOf b := by
  induction a with
  | nil => rfl
  | cons t l ih => simp [modsOf, ih]

/-- the object has the kind of the functor -/
theorem build_fn (colors : Colors) (f : Fn) (g : Got F) (o : Obj F) (h : build colors f g = .ok o) : o.fn = f := by
  cases f <;> simp only [build, Out.bind_ok, Out.orFail_ok, Out.orCrash_ok, Out.ok.injEq] at h
  case multmatrix => split at h <;> (simp only [Out.ok.injEq] at h; subst h; rfl)
  case polyhedron =>
    simp only [polyhedron, Out.bind_ok, Out.orFail_ok, Out.ok.injEq] at h
    obtain ⟨_, _, _, _, _, _, rfl⟩ := h; rfl
  case polygon =>
    simp only [polygon, Out.bind_ok, Out.orFail_ok, Out.ok.injEq] at h
    obtain ⟨_, _, _, _, rfl⟩ := h; rfl
  case color =>
    simp only [color, Out.bind_ok] at h
    obtain ⟨_, _, _, _, h⟩ := h
    split at h
    · simp only [Out.bind_ok, Out.ok.injEq] at h
      obtain ⟨_, _, rfl⟩ := h; rfl
    · simp only [Out.ok.injEq] at h; subst h; rfl
  case rotate =>
    simp only [rotate, Out.bind_ok, Out.orCrash_ok] at h
    obtain ⟨_, _, h⟩ := h
    split at h
    · simp only [Out.bind_ok] at h
      obtain ⟨_, _, h⟩ := h
      split at h
      · cases h
      · simp only [Out.bind_ok, Out.ok.injEq] at h
        obtain ⟨_, _, rfl⟩ := h; rfl
    · simp only [Out.bind_ok, Out.ok.injEq] at h
      obtain ⟨_, _, _, _, rfl⟩ := h; rfl
  case cylinder =>
    obtain ⟨_, _, _, _, _, _, _, _, rfl⟩ := h; rfl
  all_goals first
    | (subst h; rfl)
    | (obtain ⟨_, _, rfl⟩ := h; rfl)
    | (obtain ⟨_, _, _, _, rfl⟩ := h; rfl)
    | (obtain ⟨_, _, _, _, _, _, rfl⟩ := h; rfl)
    | (obtain ⟨_, _, _, _, _, _, _, _, rfl⟩ := h; rfl)
    | (obtain ⟨_, _, _, _, _, _, _, _, _, _, _, _, rfl⟩ := h; rfl)

theorem fromArgs_fn (strict : Bool) (colors : Colors) (f : Fn) (args : List Arg) (o : Obj F)
    (h : fromArgs strict colors f args = .ok o) : o.fn = f := by
  unfold fromArgs at h
  split at h
  · rw [Out.bind_ok] at h
    obtain ⟨g, _, h⟩ := h
    exact build_fn _ _ _ _ h
  · exact build_fn _ _ _ _ h

/-- what is known after a part of the program was converted -/
structure Conv (s : St) (l : List (Tree F)) (sh : List Shape) (s' : St) : Prop where
  shape : shapes l = sh
  le : s.cnt ≤ s'.cnt
  ids : (allOf l).map (·.1) = List.range' s.cnt (s'.cnt - s.cnt)
  root : s.root.toList ++ ((allOf l).filter fun p => isRoot p.2).map (·.1) = s'.root.toList

theorem Conv.nil (s : St) : Conv s ([] : List (Tree F)) [] s := by
  refine ⟨rfl, Nat.le_refl _, ?_, ?_⟩ <;> simp [allOf]

theorem Conv.append {s s1 s2 : St} {a b : List (Tree F)} {x y : List Shape} (h : Conv s a x s1) (h2 : Conv s1 b y s2) :
    Conv s (a ++ b) (x ++ y) s2 := by
  refine ⟨by rw [shapes_append, h.shape, h2.shape], Nat.le_trans h.le h2.le, ?_, ?_⟩
  · rw [allOf_append, List.map_append, h.ids, h2.ids]
    have e : s1.cnt = s.cnt + (s1.cnt - s.cnt) := by have := h.le; omega
    have e2 : s2.cnt - s.cnt = (s1.cnt - s.cnt) + (s2.cnt - s1.cnt) := by have := h.le; have := h2.le; omega
    rw [e2, ← List.range'_append_1, ← e]
  · rw [allOf_append, List.filter_append, List.map_append, ← List.append_assoc, h.root, h2.root]

theorem funcNew_ok (m : Nat) (s : St) (i : Nat) (s' : St) (h : funcNew m s = .ok (i, s')) :
    i = s.cnt ∧ s'.cnt = s.cnt + 1 ∧ s.root.toList ++ (if isRoot m then [i] else []) = s'.root.toList := by
  unfold funcNew at h
  split at h
  · rename_i hm
    split at h
    · cases h
    · rename_i hr
      simp only [Out.ok.injEq, Prod.mk.injEq] at h
      obtain ⟨rfl, rfl⟩ := h
      simp [hr, hm]
  · rename_i hm
    simp only [Out.ok.injEq, Prod.mk.injEq] at h
    obtain ⟨rfl, rfl⟩ := h
    simp [hm]

mutual
theorem fromItem_conv (o : Opts) : ∀ (i : Item) (s : St) (l : List (Tree F)) (s' : St),
    fromItem o i s = .ok (l, s') → Conv s l (shapeItem i) s'
  | .mk functor args body m, s, l, s', h => by
    rw [fromItem] at h
    rw [shapeItem]
    cases hc : cmdFind functor with
    | none =>
      rw [hc] at h
      simp only at h
      split at h
      · cases h
      · simp only [Out.ok.injEq, Prod.mk.injEq] at h
        obtain ⟨rfl, rfl⟩ := h
        exact Conv.nil s
    | some f =>
      rw [hc] at h
      simp only [Out.bind_ok] at h
      obtain ⟨⟨id, s1⟩, h1, obj, h2, ⟨ch, s2⟩, h3, h4⟩ := h
      simp only [Out.ok.injEq, Prod.mk.injEq] at h4
      obtain ⟨rfl, rfl⟩ := h4
      obtain ⟨e1, e2, e3⟩ := funcNew_ok _ _ _ _ h1
      have hch : Conv s1 ch (if hasChild f then shapeItems body else []) s2 := by
        split at h3
        · rename_i hf
          simp only [hf, if_true]
          exact fromItems_conv o body s1 ch s2 h3
        · rename_i hf
          simp only [Out.ok.injEq, Prod.mk.injEq] at h3
          obtain ⟨rfl, rfl⟩ := h3
          simp only [hf]
          exact Conv.nil s1
      refine ⟨?_, ?_, ?_, ?_⟩
      · simp only [shapes, Tree.shape, hch.shape, fromArgs_fn _ _ _ _ _ h2]
      · have := hch.le; omega
      · have := hch.le
        have e : s2.cnt - s.cnt = (s2.cnt - s1.cnt) + 1 := by omega
        rw [allOf_single, Tree.all, List.map_cons, hch.ids, e, List.range'_succ, e2, e1]
      · rw [allOf_single, Tree.all, ← hch.root, ← e3, List.filter_cons]
        by_cases hm : isRoot m <;> simp [hm]
theorem fromItems_conv (o : Opts) : ∀ (i : List Item) (s : St) (l : List (Tree F)) (s' : St),
    fromItems o i s = .ok (l, s') → Conv s l (shapeItems i) s'
  | [], s, l, s', h => by
    rw [fromItems] at h
    simp only [Out.ok.injEq, Prod.mk.injEq] at h
    obtain ⟨rfl, rfl⟩ := h
    rw [shapeItems]
    exact Conv.nil s
  | i :: r, s, l, s', h => by
    rw [fromItems] at h
    simp only [Out.bind_ok] at h
    obtain ⟨⟨a, s1⟩, h1, ⟨b, s2⟩, h2, h3⟩ := h
    simp only [Out.ok.injEq, Prod.mk.injEq] at h3
    obtain ⟨rfl, rfl⟩ := h3
    rw [shapeItems]
    exact (fromItem_conv o i s a s1 h1).append (fromItems_conv o r s1 b s2 h2)
end

theorem fromStmts_conv (o : Opts) : ∀ (i : List Stmt) (s : St) (l : List (Tree F)) (s' : St),
    fromStmts o i s = .ok (l, s') → Conv s l (shapeStmts i) s'
  | [], s, l, s', h => by
    rw [fromStmts] at h
    simp only [Out.ok.injEq, Prod.mk.injEq] at h
    obtain ⟨rfl, rfl⟩ := h
    rw [shapeStmts]
    exact Conv.nil s
  | .use _ :: r, s, l, s', h => by rw [fromStmts] at h; cases h
  | .item i :: r, s, l, s', h => by
    rw [fromStmts] at h
    simp only [Out.bind_ok] at h
    obtain ⟨⟨a, s1⟩, h1, ⟨b, s2⟩, h2, h3⟩ := h
    simp only [Out.ok.injEq, Prod.mk.injEq] at h3
    obtain ⟨rfl, rfl⟩ := h3
    rw [shapeStmts]
    exact (fromItem_conv o i s a s1 h1).append (fromStmts_conv o r s1 b s2 h2)

theorem fromTree_conv (o : Opts) (p : List Stmt) (l : List (Tree F)) (r : Option Nat) (h : fromTree o p = .ok (l, r)) :
    ∃ n, Conv ⟨0, none⟩ l (shapeStmts p) ⟨n, r⟩ := by
  unfold fromTree at h
  simp only [Out.bind_ok] at h
  obtain ⟨⟨t, s⟩, h1, h2⟩ := h
  simp only [Out.ok.injEq, Prod.mk.injEq] at h2
  obtain ⟨rfl, rfl⟩ := h2
  exact ⟨s.cnt, fromStmts_conv _ _ _ _ _ h1⟩

/-! the modifiers of the objects are those of the shape -/
mutual
theorem all_mods : ∀ t : Tree F, t.all.map (·.2) = t.shape.mods
  | .mk i o m l => by
    rw [Tree.all, Tree.shape, Shape.mods, List.map_cons, allOf_mods l]
theorem allOf_mods : ∀ l : List (Tree F), (allOf l).map (·.2) = modsOf (shapes l)
  | [] => by rw [allOf, shapes, modsOf, List.map_nil]
  | t :: l => by rw [allOf, shapes, modsOf, List.map_append, all_mods t, allOf_mods l]
end

/-! when a program is converted -/

theorem funcNew_exists (m : Nat) (s : St) (h : isRoot m = true → s.root = none) :
    ∃ s', funcNew m s = .ok (s.cnt, s') := by
  unfold funcNew
  split
  · rename_i hm; rw [h hm]; exact ⟨_, rfl⟩
  · exact ⟨_, rfl⟩

theorem toList_nil {α : Type} {o : Option α} (h : o.toList.length = 0) : o = none := by cases o <;> simp_all

theorem filter_ids (l : List (Nat × Nat)) :
    ((l.filter fun p => isRoot p.2).map (·.1)).length = ((l.map (·.2)).filter isRoot).length := by
  rw [List.length_map, List.filter_map, List.length_map]; rfl

/-- number of roots before and after -/
theorem Conv.count {s s' : St} {l : List (Tree F)} {sh : List Shape} (h : Conv s l sh s') :
    s.root.toList.length + ((modsOf sh).filter isRoot).length = s'.root.toList.length := by
  rw [← h.root, List.length_append, filter_ids, allOf_mods, h.shape]

mutual
theorem fromItem_exists (o : Opts) : ∀ (i : Item) (s : St), goodItem F o i →
    s.root.toList.length + ((modsOf (shapeItem i)).filter isRoot).length ≤ 1 →
    ∃ (l : List (Tree F)) (s' : St), fromItem o i s = .ok (l, s')
  | .mk functor args body m, s, hg, hr => by
    rw [goodItem] at hg
    rw [shapeItem] at hr
    rw [fromItem]
    cases hc : cmdFind functor with
    | none =>
      rw [hc] at hg
      simp only at hg
      simp only [hg]
      exact ⟨_, _, rfl⟩
    | some f =>
      rw [hc] at hg hr
      obtain ⟨⟨obj, hobj⟩, hb⟩ := hg
      simp only [modsOf, Shape.mods, List.append_nil, List.filter_cons] at hr
      have hroot : isRoot m = true → s.root = none := by
        intro hm
        rw [hm] at hr
        simp only [if_true, List.length_cons] at hr
        exact toList_nil (by omega)
      obtain ⟨s1, h1⟩ := funcNew_exists m s hroot
      obtain ⟨-, e2, e3⟩ := funcNew_ok _ _ _ _ h1
      have hlen : s1.root.toList.length + ((modsOf (if hasChild f then shapeItems body else [])).filter isRoot).length ≤ 1 := by
        rw [← e3]
        by_cases hm : isRoot m <;> simp [hm] at hr ⊢ <;> omega
      simp only [h1, hobj, Bind.bind, Out.bind]
      cases hf : hasChild f with
      | true =>
        simp only [hf, if_true] at hlen
        obtain ⟨l, s2, h2⟩ := fromItems_exists o body s1 (hb hf) hlen
        simp only [h2, if_true]
        exact ⟨_, _, rfl⟩
      | false => exact ⟨_, _, rfl⟩
theorem fromItems_exists (o : Opts) : ∀ (i : List Item) (s : St), goodItems F o i →
    s.root.toList.length + ((modsOf (shapeItems i)).filter isRoot).length ≤ 1 →
    ∃ (l : List (Tree F)) (s' : St), fromItems o i s = .ok (l, s')
  | [], s, _, _ => by rw [fromItems]; exact ⟨_, _, rfl⟩
  | i :: r, s, hg, hr => by
    rw [goodItems] at hg
    rw [shapeItems, modsOf_append, List.filter_append, List.length_append] at hr
    rw [fromItems]
    obtain ⟨a, s1, h1⟩ := fromItem_exists o i s hg.1 (by omega)
    have := (fromItem_conv o i s a s1 h1).count
    obtain ⟨b, s2, h2⟩ := fromItems_exists o r s1 hg.2 (by omega)
    simp only [h1, h2, Bind.bind, Out.bind]
    exact ⟨_, _, rfl⟩
end

/-- all statements are items -/
def itemsOf : List Stmt → List Item
  | [] => []
  | .use _ :: l => itemsOf l
  | .item i :: l => i :: itemsOf l

theorem fromStmts_items (o : Opts) : ∀ (p : List Stmt) (s : St), (∀ f, Stmt.use f ∉ p) →
    fromStmts (F := F) o p s = fromItems o (itemsOf p) s
  | [], s, _ => by rw [fromStmts, itemsOf, fromItems]
  | .use f :: r, s, h => absurd (by simp) (h f)
  | .item i :: r, s, h => by
    rw [fromStmts, itemsOf, fromItems]
    congr 1
    funext ⟨a, s1⟩
    simp only
    rw [fromStmts_items o r s1 (fun f hf => h f (by simp [hf]))]

theorem shapeStmts_items : ∀ (p : List Stmt), shapeStmts p = shapeItems (itemsOf p)
  | [] => by rw [shapeStmts, itemsOf, shapeItems]
  | .use _ :: r => by rw [shapeStmts, itemsOf, shapeStmts_items r]
  | .item i :: r => by rw [shapeStmts, itemsOf, shapeItems, shapeStmts_items r]

/-! no panic -/
theorem fnsOf_append (a b : List Shape) : fnsOf (a ++ b) = fnsOf a ++ fnsOf b := by
  induction a with
  | nil => rfl
  | cons t l ih => simp [fnsOf, ih]

theorem fromArgs_ne_crash (strict : Bool) (colors : Colors) (f : Fn) (args : List Arg) (hf : f ≠ .multmatrix)
    (h : strict = true ∨ ProperFor F f args) : fromArgs (F := F) strict colors f args ≠ .crash := by
  unfold fromArgs
  split
  · rename_i hr
    apply Out.bind_ne_crash (getArg_ne_crash strict f hf args)
    intro g hg
    have he : g.early = false := by
      rcases h with rfl | h
      · exact getLoop_strict _ _ _ _ _ _ _ (getArg_early _ _ _ _ _ hg)
      · exact getArg_fn_early _ _ _ _ h hg
    obtain ⟨s, e⟩ := g
    simp only at he
    subst he
    have := (getArg_fn strict f args s).mp hg
    exact build_ne_crash colors f this.2.1 this.2.2
  · cases f <;> simp [reads] at * <;> exact ok_ne_crash

mutual
theorem fromItem_ne_crash (o : Opts) (hs : o.param = true) : ∀ (i : Item) (s : St), Fn.multmatrix ∉ fnsOf (shapeItem i) →
    fromItem (F := F) o i s ≠ .crash
  | .mk functor args body m, s, hm => by
    rw [shapeItem] at hm
    rw [fromItem]
    cases hc : cmdFind functor with
    | none => exact ite_ne_crash fail_ne_crash ok_ne_crash
    | some f =>
      rw [hc] at hm
      simp only [fnsOf, Shape.fns, List.append_nil, List.mem_cons, not_or] at hm
      apply Out.bind_ne_crash
      · unfold funcNew
        split
        · split
          · exact fail_ne_crash
          · exact ok_ne_crash
        · exact ok_ne_crash
      · intro x _
        apply Out.bind_ne_crash (fromArgs_ne_crash _ _ _ _ (fun e => hm.1 e.symm) (.inl hs))
        intro _ _
        apply Out.bind_ne_crash
        · cases hf : hasChild f with
          | true =>
            simp only [hf, if_true] at hm ⊢
            exact fromItems_ne_crash o hs body _ hm.2
          | false => exact ok_ne_crash
        · exact fun _ _ => ok_ne_crash
theorem fromItems_ne_crash (o : Opts) (hs : o.param = true) : ∀ (i : List Item) (s : St), Fn.multmatrix ∉ fnsOf (shapeItems i) →
    fromItems (F := F) o i s ≠ .crash
  | [], s, _ => by rw [fromItems]; exact ok_ne_crash
  | i :: r, s, hm => by
    rw [shapeItems, fnsOf_append, List.mem_append, not_or] at hm
    rw [fromItems]
    apply Out.bind_ne_crash (fromItem_ne_crash o hs i s hm.1)
    intro x _
    apply Out.bind_ne_crash (fromItems_ne_crash o hs r _ hm.2)
    exact fun _ _ => ok_ne_crash
end

theorem fromTree_ne_crash (o : Opts) (hs : o.param = true) (p : List Stmt) (hu : ∀ f, Stmt.use f ∉ p)
    (hm : Fn.multmatrix ∉ fnsOf (shapeStmts p)) : fromTree (F := F) o p ≠ .crash := by
  unfold fromTree
  rw [fromStmts_items o p _ hu]
  rw [shapeStmts_items] at hm
  exact Out.bind_ne_crash (fromItems_ne_crash o hs _ _ hm) fun _ _ => ok_ne_crash

/-! texts -/

theorem unquote_quote (s : Text) : unquote (quote s) = some s := by
  induction s with
  | nil => rfl
  | cons c l ih =>
    simp only [quote, List.flatMap_cons] at ih ⊢
    split_ifs <;> simp_all [unquote]

end Hob3l.Args
