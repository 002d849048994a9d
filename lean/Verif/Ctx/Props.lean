import Verif.Ctx.LemmasBare
import Mathlib.Data.List.Induction

/-!
Properties C94, C95, C96: what objects get from the objects around them; the modifier `!`; objects in the wrong place.
-/

namespace Hob3l.Ctx

open Hob3l.Args (Out)

variable {T M X S : Type}

/-! ## An environment for the examples

Transformations are factors, 0 collapses space, 1 does nothing; the shapes are numbers, even ones are 3D, odd ones are 2D, and
100 is empty. -/

def exEnv (err : Bool) : Env Nat Nat Nat Nat where
  xf t := if t = 0 then .collapse else if t = 1 then .same else .mat t
  is2 s := s % 2 == 1
  file _ := false
  size s := if s = 100 then .hollow else .good
  extr _ l := if l.length = 0 then .empty else .push
  hull l := if l.length = 0 then .empty else .push
  errEmpty := err
  errCollapse := err
  err2 := err
  err3 := err

/-- `color("red") scale(2) { #cube(4); scale(3) linear_extrude(7) scale(5) square(1); *cube(6); }  cube(8);` -/
def exTop : List (Tree Nat Nat Nat) :=
  [.mk 0 (.color (some (255, 0, 0)) 128) 0
    [.mk 1 (.xform 2) 0
      [.mk 2 (.shape 4) 0x11 [],
       .mk 3 (.xform 3) 0 [.mk 4 (.ext 7) 0 [.mk 5 (.xform 5) 0 [.mk 6 (.shape 1) 0 []]]],
       .mk 7 (.shape 6) 0x82 []]],
   .mk 8 (.shape 8) 0 []]

/-! ## C94: context -/

/-- C94: every shape and every extrusion in the result stands for an object of the program, in order, each at most once; it
has the product of the transformations around it within the innermost extrusion, hull, or projection, the innermost colour,
and all modifiers given around it; nothing on the way is disabled, or collapsed, or of the wrong dimension. -/
theorem C94_context [Mul M] [One M] (e : Env T M X S) (keep : Bool) (top : List (Tree T X S)) (r : List (Csg M X S))
    (rx : Option M) (h : convTree e keep top none = .ok (r, rx)) :
    (thingss r).Sublist (((pathss top).filter (fits e)).filterMap (thingOf e)) ∧ rx = none := by
  simp only [convTree] at h
  obtain ⟨q, e1, e2⟩ := bind_ok h
  have hs := fromV_sound (convs_sound e [] top)
  rw [← wanted_pathss] at hs
  obtain ⟨L, a, b⟩ := hs _ _ (by simpa [matAt, inner, matsOf, prodOf, twoOf, gcOf, rgbOf, alphaOf, modsOf, gc0] using e1)
  have hk := fromV_keeps (convs_keeps e _ _ _ top) _ _ e1
  obtain ⟨rfl, rfl⟩ := Prod.mk.inj (ok_inj e2)
  refine ⟨?_, hk⟩
  simp only [thingss, List.nil_append] at a
  rw [a]
  simp only [wanted, List.nil_append] at b
  exact b

example : convTree (exEnv true) false exTop none =
    .ok ([.leaf 4 2 ⟨(255, 0, 0), 128, 0x11⟩, .ext 7 6 ⟨(255, 0, 0), 128, 0⟩ [.leaf 1 5 ⟨(255, 0, 0), 128, 0⟩],
      .leaf 8 1 ⟨(220, 220, 64), 255, 0⟩], none) := by rfl

/-- C94: if all errors are reported, then nothing is lost: the shapes of the result are all shapes that are not disabled. -/
theorem C94_complete [Mul M] [One M] (e : Env T M X S) (he : Strict e) (hf : Filled e) (keep : Bool) (top : List (Tree T X S))
    (r : List (Csg M X S)) (rx : Option M) (h : convTree e keep top none = .ok (r, rx)) :
    (thingss r).filter Thing.isShape = (((pathss top).filter visible).filterMap (thingOf e)).filter Thing.isShape := by
  simp only [convTree] at h
  obtain ⟨q, e1, e2⟩ := bind_ok h
  obtain ⟨rfl, _⟩ := Prod.mk.inj (ok_inj e2)
  obtain ⟨a, _, _⟩ := fromV_exact (convs_exact he hf [] top) _ _
    (by simpa [matAt, inner, matsOf, prodOf, twoOf, gcOf, rgbOf, alphaOf, modsOf, gc0] using e1)
  rw [allOf_children, shapes_nil, List.nil_append] at a
  simpa [shapes, sh, shown] using a

example : Strict (exEnv true) ∧ Filled (exEnv true) := by
  refine ⟨⟨rfl, rfl, rfl, rfl⟩, ?_, ?_⟩
  · intro x l h
    simp only [exEnv] at h
    split_ifs at h with h1
    exact List.eq_nil_of_length_eq_zero h1
  · intro l h1 h2
    simp only [exEnv] at h1
    split_ifs at h1 with h3
    · exact List.eq_nil_of_length_eq_zero h3
    · exact absurd rfl h1

theorem bind_self {α : Type} (x : Out α) : (x.bind fun y => .ok y) = x := by cases x <;> rfl

/-- The property one expects is false for transformations around hull() and projection(): they are ignored, whatever they are.
-/
theorem C94_hull_wrong [Mul M] [One M] (e : Env T M X S) (t : T) (x : M) (ht : e.xf t = .mat x) (i j : Nat)
    (l : List (Tree T X S)) (m : M) (g : Gc) (st : St M X S) :
    conv e none true m g (.mk i (.xform t) 0 [.mk j .hull 0 l]) st = conv e none true m g (.mk j .hull 0 l) st ∧
    conv e none true m g (.mk i (.xform t) 0 [.mk j (.proj true) 0 l]) st = conv e none true m g (.mk j (.proj true) 0 l) st := by
  constructor <;>
  · simp only [conv, convs, hit, ignored, fromXform, ht, fromV, Option.isSome_none, Bool.false_and, Bool.false_eq_true, if_false,
      Nat.zero_testBit, bne_self_eq_false, Nat.or_zero]
    exact bind_self _

/-- `linear_extrude(7) scale(5) hull() square(1);` is the same as without `scale(5)` -/
example : convTree (exEnv true) false [.mk 0 (.ext 7) 0 [.mk 1 (.xform 5) 0 [.mk 2 .hull 0 [.mk 3 (.shape 1) 0 []]]]] none =
    .ok ([.ext 7 1 gc0 [.hull [.leaf 1 1 gc0]]], none) := by rfl

/-! ## C95: `!` -/

/-- C95: without `keep_ctxt`, only the object with `!` is converted, as if it were the whole program. -/
theorem C95_alone [Mul M] [One M] (e : Env T M X S) (top : List (Tree T X S)) (t : Tree T X S) :
    convTree e false top (some t) = convTree (M := M) e false [t] none := by
  simp only [convTree, convs, fromV, Bool.false_eq_true, if_false]
  cases conv e none false 1 gc0 t ⟨false, [], none⟩ <;> rfl

theorem gcOf_keepGc (q : Path T X S) : gcOf (q.map keepGc) = gcOf q := by
  induction q using List.reverseRecOn with
  | nil => rfl
  | append_singleton q f ih =>
    obtain ⟨n, mods⟩ := f
    have h1 : rgbOf (q.map keepGc) = rgbOf q := congrArg Gc.rgb ih
    have h2 : alphaOf (q.map keepGc) = alphaOf q := congrArg Gc.a ih
    have h3 : modsOf (q.map keepGc) = modsOf q := congrArg Gc.mods ih
    rw [List.map_append, List.map_singleton]
    cases n <;> simp only [keepGc, gcOf_snoc, h1, h2, h3]

theorem matAt_keepGc [Mul M] [One M] (e : Env T M X S) (q : Path T X S) : matAt e (q.map keepGc) = 1 := by
  induction q using List.reverseRecOn with
  | nil => rfl
  | append_singleton q f ih =>
    obtain ⟨n, mods⟩ := f
    rw [List.map_append, List.map_singleton]
    cases n <;> simp only [keepGc, matAt_snoc, Node.fresh, ih] <;> rfl

theorem twoOf_keepGc (q : Path T X S) : twoOf (q.map keepGc) = false := by
  induction q using List.reverseRecOn with
  | nil => rfl
  | append_singleton q f ih =>
    obtain ⟨n, mods⟩ := f
    rw [List.map_append, List.map_singleton]
    cases n <;> simp only [keepGc, twoOf_snoc, ih]

/-- C95: with `keep_ctxt`, if the object with `!` is found, then only this object is converted, with the colours and
modifiers of the objects around it, and the product of all transformations around it is reported; the conversion does not use
these transformations.  It is not found only if something around it is disabled or collapses space; then there is no result.
-/
theorem C95_keep [Mul M] [One M] (e : Env T M X S) (top : List (Tree T X S)) (t : Tree T X S) (r : List (Csg M X S))
    (rx : Option M) (h : convTree e true top (some t) = .ok (r, rx)) :
    (∃ q t', (q, t') ∈ nodess top ∧ t'.id = t.id ∧ reached e q = true ∧ rx = some (prodOf (matsOf e q)) ∧
      (thingss r).Sublist (wanted e (q.map keepGc) (paths t'))) ∨
    (rx = none ∧ r = [] ∧ ∀ x ∈ nodess top, x.2.id = t.id → x.2.frame.2 ≠ 0 → reached e x.1 = false) := by
  simp only [convTree, if_true] at h
  obtain ⟨s, e1, e2⟩ := bind_ok h
  obtain ⟨rfl, rfl⟩ := Prod.mk.inj (ok_inj e2)
  have hfi := convs_finds e t.id false [] top ⟨false, [], none⟩ s rfl
    (by simpa [fullMat, matsOf, prodOf, gcOf, rgbOf, alphaOf, modsOf, gc0] using e1)
  cases hf : (nodess top).find? (isHit e t.id) with
  | none =>
    unfold FoundAs at hfi
    rw [hf] at hfi
    simp only at hfi
    subst hfi
    refine .inr ⟨rfl, rfl, ?_⟩
    intro x hx h1 h2
    have := List.find?_eq_none.mp hf x hx
    cases hr : reached e x.1 with
    | false => rfl
    | true => simp [isHit, hr, hit, h1, h2] at this
  | some p =>
    unfold FoundAs at hfi
    rw [hf] at hfi
    simp only [List.nil_append] at hfi
    have hp := List.find?_some hf
    have hm := List.mem_of_find?_eq_some hf
    simp only [isHit, hit, Bool.and_eq_true, beq_iff_eq, Option.some.injEq] at hp
    have hs := conv_sound e (p.1.map keepGc) p.2
    rw [gcOf_keepGc, matAt_keepGc, twoOf_keepGc] at hs
    obtain ⟨L, a, b⟩ := hs _ _ hfi
    have hk := conv_keeps _ _ _ _ _ _ _ hfi
    refine .inl ⟨p.1, p.2, hm, hp.2.2.symm, hp.1, hk, ?_⟩
    simp only [thingss, List.nil_append] at a
    rw [a]
    exact b

/-- `color("red") scale(2) { cube(4); scale(3) !{ scale(5) cube(6); } }  cube(8);` -/
def exRoot : Tree Nat Nat Nat := .mk 4 .union 0x44 [.mk 5 (.xform 5) 0 [.mk 6 (.shape 6) 0 []]]

def exKeep (mods : Nat) : List (Tree Nat Nat Nat) :=
  [.mk 0 (.color (some (255, 0, 0)) 128) mods
    [.mk 1 (.xform 2) 0 [.mk 2 (.shape 4) 0 [], .mk 3 (.xform 3) 0 [exRoot]]],
   .mk 8 (.shape 8) 0 []]

example : convTree (exEnv true) true (exKeep 0) (some exRoot) = .ok ([.leaf 6 5 ⟨(255, 0, 0), 128, 0x44⟩], some 6) ∧
    convTree (exEnv true) false (exKeep 0) (some exRoot) = .ok ([.leaf 6 5 ⟨(220, 220, 64), 255, 0x44⟩], none) := ⟨by rfl, by rfl⟩

/-- C95: apart from colours and modifiers, the result with `keep_ctxt` is the one without. -/
theorem C95_same [Mul M] [One M] (e : Env T M X S) (he : Blind e) (top : List (Tree T X S)) (t : Tree T X S)
    (hid : ∀ x ∈ nodess top, x.2.id = t.id → x.2 = t) (r : List (Csg M X S)) (m : M)
    (h : convTree e true top (some t) = .ok (r, some m)) :
    ∃ r', convTree (M := M) e false top (some t) = .ok (r', none) ∧ bares r = bares r' := by
  simp only [convTree, if_true] at h
  obtain ⟨s, e1, e2⟩ := bind_ok h
  obtain ⟨rfl, hrx⟩ := Prod.mk.inj (ok_inj e2)
  have hfi := convs_finds e t.id false [] top ⟨false, [], none⟩ s rfl
    (by simpa [fullMat, matsOf, prodOf, gcOf, rgbOf, alphaOf, modsOf, gc0] using e1)
  cases hf : (nodess top).find? (isHit e t.id) with
  | none =>
    unfold FoundAs at hfi
    rw [hf] at hfi
    simp only at hfi
    subst hfi
    cases hrx
  | some p =>
    unfold FoundAs at hfi
    rw [hf] at hfi
    simp only [List.nil_append] at hfi
    have hp := List.find?_some hf
    have hm := List.mem_of_find?_eq_some hf
    simp only [isHit, hit, Bool.and_eq_true, beq_iff_eq, Option.some.injEq] at hp
    have ht := hid p hm hp.2.2.symm
    rw [ht] at hfi
    have hsim := conv_sim he false 1 (gcOf p.1) gc0 t ⟨false, [], some (fullMat e p.1)⟩ ⟨false, [], none⟩ ⟨rfl, rfl⟩
    rw [hfi] at hsim
    simp only [convTree, Bool.false_eq_true, if_false]
    cases hc : conv e none false 1 gc0 t (⟨false, [], none⟩ : St M X S) with
    | ok s2 =>
      rw [hc] at hsim
      exact ⟨s2.r, by simp only [Out.bind, show s2.rx = none from conv_keeps _ _ _ _ _ _ _ hc], hsim.2⟩
    | fail => rw [hc] at hsim; exact hsim.elim
    | crash => rw [hc] at hsim; exact hsim.elim

example : Blind (exEnv true) := by
  constructor
  · intro x a b h
    simp only [exEnv, length_eq h]
  · intro a b h
    simp only [exEnv, length_eq h]

example : ∀ x ∈ nodess (exKeep 0), x.2.id = exRoot.id → x.2 = exRoot := by
  intro x hx h
  simp only [exKeep, exRoot, nodess, nodes, List.map_cons, List.map_nil, List.append_nil, List.cons_append, List.nil_append,
    List.mem_cons, List.not_mem_nil, or_false] at hx
  rcases hx with rfl | rfl | rfl | rfl | rfl | rfl | rfl | rfl <;> simp_all [Tree.id, exRoot]

/-- A disabled object is converted nevertheless if an object inside of it has `!`; with `keep_ctxt`, it is not. -/
theorem C95_disabled_wrong :
    convTree (exEnv true) false (exKeep 0x82) (some exRoot) = .ok ([.leaf 6 5 ⟨(220, 220, 64), 255, 0x44⟩], none) ∧
    convTree (exEnv true) true (exKeep 0x82) (some exRoot) = .ok ([], none) ∧
    (pathss (exKeep 0x82)).filter visible = [[(.shape 8, 0)]] := ⟨by rfl, by rfl, by decide⟩

/-! ## C96: objects in the wrong place -/

/-- C96: if all errors are reported and the program is accepted, then every object that is not disabled is of the right
dimension (2D inside extrusions, 3D inside projections and elsewhere), shapes are not empty, transformations do not collapse
space, projections are cuts. -/
theorem C96_place [Mul M] [One M] (e : Env T M X S) (he : Strict e) (hf : Filled e) (keep : Bool) (top : List (Tree T X S))
    (r : List (Csg M X S)) (rx : Option M) (h : convTree e keep top none = .ok (r, rx)) (q : Path T X S) (t : Tree T X S)
    (ht : (q, t) ∈ nodess top) (hv : visible (q ++ [t.frame]) = true) : okAt e q t.frame = true := by
  simp only [convTree] at h
  obtain ⟨s, e1, e2⟩ := bind_ok h
  obtain ⟨_, _, c⟩ := fromV_exact (convs_exact he hf [] top) _ _
    (by simpa [matAt, inner, matsOf, prodOf, twoOf, gcOf, rgbOf, alphaOf, modsOf, gc0] using e1)
  simpa using fine_children e [] top c (q, t) ht hv

/-- C96: conversely, a program in which every object that is not disabled is in the right place is not rejected, whatever the
options. -/
theorem C96_accepted [Mul M] [One M] (e : Env T M X S) (he : Good e) (keep : Bool) (top : List (Tree T X S))
    (h : ∀ x ∈ nodess top, visible (x.1 ++ [x.2.frame]) = true → okAt e x.1 x.2.frame = true) :
    convTree (M := M) e keep top none ≠ .fail := by
  simp only [convTree]
  refine bind_ne_fail ?_ (fun a => by simp)
  have := fromV_noFail (convs_noFail (M := M) he [] top 1 gc0 (by simpa [Fine] using h))
  exact this _

example : Good (exEnv true) := by
  constructor
  · intro x l
    simp only [exEnv]
    split_ifs <;> simp
  · intro l
    simp only [exEnv]
    split_ifs <;> simp

example : ∀ x ∈ nodess exTop, visible (x.1 ++ [x.2.frame]) = true → okAt (exEnv true) x.1 x.2.frame = true := by
  simp [exTop, nodess, nodes, visible, Tree.frame, ignored, okAt, exEnv, twoOf]

/-- a square outside of an extrusion is rejected, or left out -/
example : convTree (exEnv true) false [.mk 0 (.shape 1) 0 []] none = .fail ∧
    convTree (exEnv false) false [.mk 0 (.shape 1) 0 []] none = .ok ([], none) := ⟨by rfl, by rfl⟩

end Hob3l.Ctx
