import Verif.Svg.LemmasGroup
import Verif.Svg.ElemSpec
import Mathlib.Tactic.Ring

/-!
Lemmas about the attribute `transform`.
-/

namespace Hob3l.Svg

theorem takeWhile_all {A : Type} (f : A → Bool) (l r : List A) (h : ∀ x ∈ l, f x = true) (hr : ∀ c t, r = c :: t → f c = false) :
    (l ++ r).takeWhile f = l ∧ (l ++ r).dropWhile f = r := by
  induction l with
  | nil =>
    cases r with
    | nil => exact ⟨rfl, rfl⟩
    | cons c r => simp [hr c r rfl]
  | cons a l ih =>
    have ha := h a (List.mem_cons_self ..)
    obtain ⟨h1, h2⟩ := ih fun x hx => h x (List.mem_cons_of_mem _ hx)
    rw [List.cons_append, List.takeWhile_cons_of_pos ha, List.dropWhile_cons_of_pos ha, h1, h2]
    exact ⟨rfl, rfl⟩

theorem name_alpha (k : FnKind) : ∀ x ∈ k.name.toList, isAlpha x = true := by cases k <;> decide

theorem space_alpha (s : Space) : isAlpha s.char = false := by cases s <;> decide

theorem gap_alpha (w : List Space) (r : List Char) : ∀ c t, showWs w ++ '(' :: r = c :: t → isAlpha c = false := by
  intro c t e
  cases w with
  | nil => cases e; decide
  | cons a w => injection e with e1 e2; rw [← e1]; exact space_alpha a

theorem sExpect_ok (x : Char) (w : List Space) (r : List Char) (hx : isSpace x = false) :
    sExpect x (showWs w ++ x :: r) = some r := by
  unfold sExpect
  rw [sSep_ws, sSep_noWs (r := x :: r) (by intro c t e; cases e; exact hx)]
  simp

theorem follow_paren (w : List Space) (r : List Char) : Follow (showWs w ++ ')' :: r) := by
  constructor
  · intro c t e
    cases w with
    | nil => cases e; decide
    | cons a w => injection e with e1 e2; rw [← e1]; cases a <;> decide
  · rw [sSep_ws, sSep_noWs (r := ')' :: r) (by intro c t e; cases e; decide)]
    rfl

/-- the tokens of arguments -/
def toks (l : List (Sep × Num)) : List (Sep × Tok) := l.map fun a => (a.1, Tok.num a.2)

theorem showRow_toks (l : List (Sep × Num)) : showRow (toks l) = showArgs l := by
  unfold showRow toks showArgs
  rw [List.flatMap_map]
  rfl

theorem toks_ok {l : List (Sep × Num)} (h : ∀ a ∈ l, a.2.Ok) : ∀ t ∈ toks l, t.2.Ok := by
  intro t ht
  obtain ⟨a, ha, rfl⟩ := List.mem_map.1 ht
  exact h a ha

theorem Spaced.tail {a : Sep × Tok} {l : List (Sep × Tok)} (h : Spaced (a :: l)) : Spaced l := by
  cases l with
  | nil => trivial
  | cons b l => exact h.2

theorem stop_args (s : Sep) (n : Num) (l : List (Sep × Num)) {r : List Char} (hsp : Spaced (toks ((s, n) :: l)))
    (hok : ∀ a ∈ l, a.2.Ok) (hr : Follow r) : Stop n (showArgs l ++ r) := by
  rw [← showRow_toks]
  exact stop_of s n (toks l) hsp (toks_ok hok) hr

theorem sDouble_paren (w : List Space) (r : List Char) : sDouble true (showWs w ++ ')' :: r) = (none, ')' :: r) := by
  unfold sDouble
  rw [sSep_ws, sSep_noSep (r := ')' :: r) (by intro c t e; cases e; decide)]
  rfl

theorem sVals_ok (n : Nat) (l : List (Sep × Num)) (hl : l.length < n) (hok : ∀ a ∈ l, a.2.Ok) (hsp : Spaced (toks l))
    (w : List Space) (r : List Char) :
    sVals n (showArgs l ++ (showWs w ++ ')' :: r)) = (l.map fun a => a.2.val, ')' :: r) := by
  induction l generalizing n with
  | nil =>
    cases n with
    | zero => cases hl
    | succ n =>
      show sVals (n + 1) (showWs w ++ ')' :: r) = _
      rw [sVals, sDouble_paren]; rfl
  | cons a l ih =>
    obtain ⟨s, x⟩ := a
    cases n with
    | zero => cases hl
    | succ n =>
      have hx : x.Ok := hok (s, x) (List.mem_cons_self ..)
      have hok' : ∀ a ∈ l, a.2.Ok := fun a ha => hok a (List.mem_cons_of_mem _ ha)
      have hst := stop_args s x l hsp hok' (follow_paren w r)
      have e : showArgs ((s, x) :: l) ++ (showWs w ++ ')' :: r) = s.show ++ (x.show ++ (showArgs l ++ (showWs w ++ ')' :: r))) := by
        unfold showArgs; rw [List.flatMap_cons]; simp only [List.append_assoc]
      have hs : sSep true (s.show ++ (x.show ++ (showArgs l ++ (showWs w ++ ')' :: r)))) = x.show ++ (showArgs l ++ (showWs w ++ ')' :: r)) :=
        sSep_sep s (num_noSep x hx _)
      rw [e, sVals, sDouble_ok true _ x hx hst hs]
      simp only [List.map_cons]
      rw [ih n (by simp only [List.length_cons] at hl; omega) hok' hsp.tail]

section

variable {K : Type} [Field K]

theorem mul_app (m n : Mat K) (p : P K) : (m.mul n).app p = m.app (n.app p) := by
  unfold Mat.mul Mat.app
  simp only [P.mk.injEq]
  constructor <;> ring

theorem foldl_app (l : List (Mat K)) (m : Mat K) (p : P K) : (l.foldl Mat.mul m).app p = m.app (l.foldr Mat.app p) := by
  induction l generalizing m with
  | nil => rfl
  | cons a l ih => rw [List.foldl_cons, ih, mul_app]; rfl

/-- the matrices of a function are its map -/
theorem xformMats_ok (t : Trig K) (f : Fn) (h : f.args.length ∈ f.kind.arity) :
    ∃ l, xformMats t f.kind.name.toList (f.args.map fun a => a.2.val) = some l ∧ ∀ p, l.foldr Mat.app p = f.map t p := by
  obtain ⟨kind, gap, args, tail, sep⟩ := f
  simp only at h ⊢
  cases kind <;> simp only [FnKind.arity, List.mem_cons, List.not_mem_nil, or_false] at h
  case translate =>
    rcases h with h | h
    · obtain ⟨a, rfl⟩ := List.length_eq_one_iff.1 h
      refine ⟨[.xlat _ _], rfl, fun p => ?_⟩
      simp [Fn.map, Mat.app, Mat.xlat, val]
    · obtain ⟨a, b, rfl⟩ := List.length_eq_two.1 h
      refine ⟨[.xlat _ _], rfl, fun p => ?_⟩
      simp [Fn.map, Mat.app, Mat.xlat, val]
  case scale =>
    rcases h with h | h
    · obtain ⟨a, rfl⟩ := List.length_eq_one_iff.1 h
      refine ⟨[.scale _ _], rfl, fun p => ?_⟩
      simp [Fn.map, Mat.app, Mat.scale, val]
    · obtain ⟨a, b, rfl⟩ := List.length_eq_two.1 h
      refine ⟨[.scale _ _], rfl, fun p => ?_⟩
      simp [Fn.map, Mat.app, Mat.scale, val]
  case rotate =>
    rcases h with h | h
    · obtain ⟨a, rfl⟩ := List.length_eq_one_iff.1 h
      refine ⟨[.rot _ _], rfl, fun p => ?_⟩
      simp only [Fn.map, Mat.app, Mat.rot, val, List.foldr, List.map, List.getD_cons_zero, P.mk.injEq]
      constructor <;> ring
    · obtain ⟨a, b, c, rfl⟩ := List.length_eq_three.1 h
      refine ⟨[.xlat _ _, .rot _ _, .xlat _ _], rfl, fun p => ?_⟩
      simp only [Fn.map, Mat.app, Mat.rot, Mat.xlat, val, List.foldr, List.map, List.getD_cons_zero, List.getD_cons_succ, P.mk.injEq]
      constructor <;> ring
  case skewX =>
    obtain ⟨a, rfl⟩ := List.length_eq_one_iff.1 h
    refine ⟨[⟨1, _, 0, 0, 1, 0⟩], rfl, fun p => ?_⟩
    simp [Fn.map, Mat.app, val]
  case skewY =>
    obtain ⟨a, rfl⟩ := List.length_eq_one_iff.1 h
    refine ⟨[⟨1, 0, 0, _, 1, 0⟩], rfl, fun p => ?_⟩
    simp only [Fn.map, Mat.app, val, List.foldr, List.map, List.getD_cons_zero, P.mk.injEq]
    constructor <;> ring
  case matrix =>
    match args, h with
    | [a, b, c, d, e, f], _ =>
      refine ⟨[⟨_, _, _, _, _, _⟩], rfl, fun p => ?_⟩
      simp [Fn.map, Mat.app, val]

theorem xformCmd_ok (t : Trig K) (m : Mat K) (f : Fn) (h : f.Ok) (r : List Char) :
    ∃ m', xformCmd t m (f.show ++ r) = (m', some (f.sep.show ++ r)) ∧ ∀ p, m'.app p = m.app (f.map t p) := by
  obtain ⟨ha, hok, hsp, hc⟩ := h
  obtain ⟨l, hl1, hl2⟩ := xformMats_ok t f ha
  have hlen : 1 ≤ f.args.length ∧ f.args.length ≤ 6 := by
    revert ha; cases f.kind <;> simp only [FnKind.arity, List.mem_cons, List.not_mem_nil, or_false] <;> omega
  cases hargs : f.args with
  | nil => rw [hargs] at hlen; simp at hlen
  | cons a args =>
    obtain ⟨s, n⟩ := a
    have e : f.show ++ r = f.kind.name.toList ++ (showWs f.gap ++ '(' ::
        (s.show ++ (n.show ++ (showArgs args ++ (showWs f.tail ++ ')' :: (f.sep.show ++ r)))))) := by
      unfold Fn.show
      rw [hargs, show showArgs ((s, n) :: args) = (s.show ++ n.show) ++ showArgs args from by
        unfold showArgs; rw [List.flatMap_cons]]
      simp only [List.append_assoc, List.singleton_append, List.cons_append, List.nil_append]
    have hn : n.Ok := hok (s, n) (by rw [hargs]; exact List.mem_cons_self ..)
    have hok' : ∀ a ∈ args, a.2.Ok := fun a ha => hok a (by rw [hargs]; exact List.mem_cons_of_mem _ ha)
    have hsp' : Spaced (toks ((s, n) :: args)) := by
      have := hsp; rw [hargs] at this; exact this
    have hst := stop_args s n args hsp' hok' (follow_paren f.tail (f.sep.show ++ r))
    have hcomma : s.comma = false := hc (s, n) (by rw [hargs]; rfl)
    have hs : sSep false (s.show ++ (n.show ++ (showArgs args ++ (showWs f.tail ++ ')' :: (f.sep.show ++ r)))))
        = n.show ++ (showArgs args ++ (showWs f.tail ++ ')' :: (f.sep.show ++ r))) :=
      sSep_sep_false s hcomma (num_noSep n hn _).noWs
    obtain ⟨h1, h2⟩ := takeWhile_all isAlpha f.kind.name.toList _ (name_alpha f.kind) (gap_alpha f.gap
        (s.show ++ (n.show ++ (showArgs args ++ (showWs f.tail ++ ')' :: (f.sep.show ++ r))))))
    refine ⟨l.foldl Mat.mul m, ?_, fun p => by rw [foldl_app, hl2]⟩
    have hv : xformMats t f.kind.name.toList (n.val :: args.map fun a => a.2.val) = some l := by
      rw [← hl1, hargs]; rfl
    unfold xformCmd
    rw [e]
    simp only [h1, h2]
    rw [sExpect_ok '(' f.gap _ (by decide)]
    simp only [sDouble_ok false _ n hn hst hs]
    rw [sVals_ok 7 args (by rw [hargs] at hlen; simp only [List.length_cons] at hlen; omega) hok' hsp'.tail]
    simp only
    rw [show sExpect ')' (')' :: (f.sep.show ++ r)) = some (f.sep.show ++ r) from sExpect_ok ')' [] _ (by decide)]
    simp only [hv]

theorem name_noSep (f : Fn) (r : List Char) : NoSep (f.show ++ r) ∧ f.show ++ r ≠ [] := by
  obtain ⟨kind, gap, args, tail, sep⟩ := f
  unfold Fn.show
  constructor
  · intro c t e
    cases kind <;> · simp only [FnKind.name] at e; injection e with e1 e2; rw [← e1]; decide
  · cases kind <;> simp [FnKind.name]

theorem xformLoop_ok (t : Trig K) (fs : List Fn) (h : ∀ f ∈ fs, f.Ok) (fuel : Nat) (hf : fs.length < fuel) (m : Mat K)
    (s : List Char) (hs : s = fs.flatMap Fn.show) :
    ∃ m', xformLoop t fuel m s = (m', true) ∧ ∀ p, m'.app p = m.app (mapFns t fs p) := by
  induction fs generalizing fuel m s with
  | nil =>
    cases fuel with
    | zero => cases hf
    | succ fuel => subst hs; exact ⟨m, rfl, fun p => rfl⟩
  | cons f fs ih =>
    cases fuel with
    | zero => cases hf
    | succ fuel =>
      rw [List.flatMap_cons] at hs
      obtain ⟨m1, h1, h2⟩ := xformCmd_ok t m f (h f (List.mem_cons_self ..)) (fs.flatMap Fn.show)
      have hns : NoSep (fs.flatMap Fn.show) := by
        cases fs with
        | nil => intro c t e; cases e
        | cons g fs => rw [List.flatMap_cons]; exact (name_noSep g _).1
      obtain ⟨m2, h3, h4⟩ := ih (fun g hg => h g (List.mem_cons_of_mem _ hg)) fuel
        (by simp only [List.length_cons] at hf; omega) m1 _ rfl
      refine ⟨m2, ?_, fun p => by rw [h4, h2]; rfl⟩
      have hne : s.isEmpty = false := by
        rw [hs, Bool.eq_false_iff]
        intro h0
        exact (name_noSep f (fs.flatMap Fn.show)).2 (List.isEmpty_iff.1 h0)
      rw [xformLoop, hne, hs, h1]
      simp only [Bool.false_eq_true, if_false]
      rw [sSep_sep f.sep hns, h3]

theorem xformAttr_ok (t : Trig K) (m : Mat K) (lead : List Space) (fs : List Fn) (h : ∀ f ∈ fs, f.Ok) :
    ∃ m', xformAttr t m (showFns lead fs) = (m', true) ∧ ∀ p, m'.app p = m.app (mapFns t fs p) := by
  unfold xformAttr showFns
  refine xformLoop_ok t fs h _ ?_ m _ ?_
  · have : fs.length ≤ (fs.flatMap Fn.show).length := by
      clear h
      induction fs with
      | nil => simp
      | cons g gs ih =>
        rw [List.flatMap_cons, List.length_append, List.length_cons]
        have : 1 ≤ g.show.length := by unfold Fn.show; simp only [List.length_append, List.length_cons]; omega
        omega
    rw [List.length_append]; omega
  · rw [sSep_ws]
    refine sSep_noWs (NoSep.noWs ?_)
    cases fs with
    | nil => intro c t e; cases e
    | cons g fs => rw [List.flatMap_cons]; exact (name_noSep g _).1

end

end Hob3l.Svg
