import Verif.Ctx.Spec
import Mathlib.Data.List.Forall2
import Mathlib.Tactic.SplitIfs

/-!
Lemmas: each shape of the result has the context that its path gives.
-/

namespace Hob3l.Ctx

open Hob3l.Args (Out)

variable {T M X S : Type}

theorem bind_ok {α β : Type} {x : Out α} {f : α → Out β} {b : β} (h : x.bind f = .ok b) : ∃ a, x = .ok a ∧ f a = .ok b := by
  cases x with
  | ok a => exact ⟨a, rfl, h⟩
  | fail => exact absurd h (by simp [Out.bind])
  | crash => exact absurd h (by simp [Out.bind])

theorem msg_ok {lvl : Bool} {st st' : St M X S} (h : msg lvl st = .ok st') : lvl = false ∧ st' = st := by
  unfold msg at h
  cases lvl with
  | true => simp at h
  | false => simp at h; exact ⟨rfl, h.symm⟩

theorem ok_inj {α : Type} {a b : α} (h : (Out.ok a : Out α) = .ok b) : a = b := by
  injection h

/-! ## Paths -/

theorem modsOf_snoc (q : Path T X S) (f : Frame T X S) : modsOf (q ++ [f]) = modsOf q ||| f.2 := by
  simp [modsOf, List.foldl_append]

theorem gcOf_snoc (q : Path T X S) (n : Node T X S) (mods : Nat) :
    gcOf (q ++ [(n, mods)]) =
      (match n with
       | .color c a => Gc.color ⟨rgbOf q, alphaOf q, modsOf q ||| mods⟩ c a
       | _ => ⟨rgbOf q, alphaOf q, modsOf q ||| mods⟩) := by
  unfold gcOf
  rw [modsOf_snoc]
  cases n with
  | color c a => cases c <;> simp [rgbOf, alphaOf, Gc.color]
  | _ => simp [rgbOf, alphaOf]

theorem inner_snoc (q : Path T X S) (f : Frame T X S) :
    inner (q ++ [f]) = if f.1.fresh then [] else inner q ++ [f] := by
  unfold inner
  rw [List.reverse_append, List.reverse_singleton, List.singleton_append, List.takeWhile_cons]
  cases f.1.fresh <;> simp

/-- the matrix below `q` -/
def matAt [Mul M] [One M] (e : Env T M X S) (q : Path T X S) : M := prodOf (matsOf e (inner q))

theorem matAt_snoc [Mul M] [One M] (e : Env T M X S) (q : Path T X S) (n : Node T X S) (mods : Nat) :
    matAt e (q ++ [(n, mods)]) =
      (match n with
       | .xform t => (match e.xf t with | .mat t => matAt e q * t | _ => matAt e q)
       | n => if n.fresh then 1 else matAt e q) := by
  unfold matAt
  rw [inner_snoc]
  cases n with
  | xform t =>
    simp only [Node.fresh, Bool.false_eq_true, if_false, matsOf, List.filterMap_append, List.filterMap_cons,
      List.filterMap_nil]
    cases e.xf t <;> simp [prodOf, List.foldl_append]
  | _ => simp [Node.fresh, matsOf, prodOf, List.filterMap_append]

theorem twoOf_snoc (q : Path T X S) (n : Node T X S) (mods : Nat) :
    twoOf (q ++ [(n, mods)]) = (match n with | .ext _ => true | .proj _ => false | _ => twoOf q) := by
  unfold twoOf
  cases n <;> simp [List.filterMap_append]

theorem thingOf_snoc [Mul M] [One M] (e : Env T M X S) (q : Path T X S) (n : Node T X S) (mods : Nat) :
    thingOf e (q ++ [(n, mods)]) =
      (match n with
       | .shape s => some (.shape s (matAt e q) (gcOf (q ++ [(n, mods)])))
       | .ext x => some (.ext x (matAt e q) (gcOf (q ++ [(n, mods)])))
       | _ => none) := by
  unfold thingOf matAt
  cases n <;> simp

/-! ## What is wanted -/

theorem wanted_append [Mul M] [One M] (e : Env T M X S) (q : Path T X S) (a b : List (Path T X S)) :
    wanted e q (a ++ b) = wanted e q a ++ wanted e q b := by
  simp [wanted, List.filter_append, List.filterMap_append]

theorem wanted_map [Mul M] [One M] (e : Env T M X S) (q : Path T X S) (f : Frame T X S) (l : List (Path T X S)) :
    wanted e q (l.map (f :: ·)) = if okAt e q f then wanted e (q ++ [f]) l else [] := by
  unfold wanted
  induction l with
  | nil => simp
  | cons p l ih =>
    rw [List.map_cons, List.filter_cons]
    simp only [fitsFrom]
    rcases Bool.eq_false_or_eq_true (okAt e q f) with hf | hf
    rotate_left
    · simp only [hf, Bool.false_and, Bool.false_eq_true, if_false] at ih ⊢
      exact ih
    · simp only [hf, Bool.true_and, if_true] at ih ⊢
      rw [List.filter_cons]
      rcases Bool.eq_false_or_eq_true (fitsFrom e (q ++ [f]) p) with hp | hp
      rotate_left
      · simpa [hp] using ih
      · simp only [hp, if_true, List.filterMap_cons]
        rw [ih, show q ++ f :: p = q ++ [f] ++ p by simp]

theorem wanted_one [Mul M] [One M] (e : Env T M X S) (q : Path T X S) (f : Frame T X S) :
    wanted e q [[f]] = if okAt e q f then (thingOf e (q ++ [f])).toList else [] := by
  unfold wanted
  simp only [List.filter_cons, fitsFrom, Bool.and_true, List.filter_nil]
  cases okAt e q f with
  | false => simp
  | true => simp only [if_true, List.filterMap_cons, List.filterMap_nil]; cases thingOf e (q ++ [f]) <;> rfl

theorem thingss_append (a b : List (Csg M X S)) : thingss (a ++ b) = thingss a ++ thingss b := by
  induction a with
  | nil => simp [thingss]
  | cons c a ih => simp [thingss, ih]

theorem thingsss_append (a b : List (List (Csg M X S))) : thingsss (a ++ b) = thingsss a ++ thingsss b := by
  induction a with
  | nil => simp [thingsss]
  | cons c a ih => simp [thingsss, ih]

theorem thingss_one (c : Csg M X S) : thingss [c] = c.things := by simp [thingss]

theorem thingsss_cutPush (cut : List (List (Csg M X S))) (add : List (Csg M X S)) :
    thingsss (cutPush cut add) = thingsss cut ++ thingss add := by
  unfold cutPush
  cases add with
  | nil => simp [thingss]
  | cons a l => simp [thingsss_append, thingsss]

/-! ## Conversions that add only what is wanted -/

/-- the conversion adds some of `w`, in order -/
def Sound (c : Conv M X S) (w : List (Thing M X S)) : Prop :=
  ∀ st st', c st = .ok st' → ∃ L, thingss st'.r = thingss st.r ++ L ∧ L.Sublist w

theorem fromV_sound {cs : List (Conv M X S)} {ws : List (List (Thing M X S))} (h : List.Forall₂ Sound cs ws) :
    Sound (fromV cs) ws.flatten := by
  induction h with
  | nil =>
    intro st st' h
    have := ok_inj (by simpa only [fromV] using h)
    subst this
    exact ⟨[], by simp, List.nil_sublist _⟩
  | cons h1 _ ih =>
    intro st st' h
    simp only [fromV] at h
    obtain ⟨s1, e1, e2⟩ := bind_ok h
    obtain ⟨L1, a1, b1⟩ := h1 _ _ e1
    obtain ⟨L2, a2, b2⟩ := ih _ _ e2
    exact ⟨L1 ++ L2, by rw [a2, a1, List.append_assoc], by simpa using b1.append b2⟩

theorem diffHead_sound {cs : List (Conv M X S)} {ws : List (List (Thing M X S))} (h : List.Forall₂ Sound cs ws) :
    ∀ st q, diffHead cs st = .ok q → ∃ L ws1 ws2, ws = ws1 ++ ws2 ∧ thingss q.1.r = thingss st.r ++ L ∧
      L.Sublist ws1.flatten ∧ List.Forall₂ Sound q.2 ws2 := by
  induction h with
  | nil =>
    intro st q h
    have := ok_inj (by simpa only [diffHead] using h)
    subst this
    exact ⟨[], [], [], rfl, by simp, List.nil_sublist _, .nil⟩
  | @cons c w cs ws h1 ht ih =>
    intro st q h
    simp only [diffHead] at h
    split_ifs at h with hno
    · have := ok_inj h
      subst this
      exact ⟨[], [], w :: ws, rfl, by simp, List.nil_sublist _, .cons h1 ht⟩
    · obtain ⟨s1, e1, e2⟩ := bind_ok h
      obtain ⟨L1, a1, b1⟩ := h1 _ _ e1
      obtain ⟨L2, ws1, ws2, rfl, a2, b2, c2⟩ := ih _ _ e2
      exact ⟨L1 ++ L2, w :: ws1, ws2, rfl, by rw [a2, a1, List.append_assoc], by simpa using b1.append b2, c2⟩

theorem diffTail_sound {f : List (Csg M X S)} {cs : List (Conv M X S)} {w : List (Thing M X S)} (h : Sound (fromV cs) w)
    (st st' : St M X S) (hk : diffTail f cs st = .ok st') :
    ∃ L, thingss st'.r = thingss st.r ++ L ∧ L.Sublist (thingss f ++ w) := by
  unfold diffTail at hk
  split at hk
  · have := ok_inj hk
    subst this
    exact ⟨[], by simp, List.nil_sublist _⟩
  · obtain ⟨q, e1, e2⟩ := bind_ok hk
    have := ok_inj e2
    subst this
    obtain ⟨L, a1, b1⟩ := h _ _ e1
    rename_i a b
    refine ⟨thingss a ++ (thingss b ++ L), ?_, ?_⟩
    · rw [thingss_append, thingss_one, Csg.things, a1]
    · rw [thingss_one, Csg.things, ← List.append_assoc]
      exact (List.Sublist.refl _).append b1
  · obtain ⟨q, e1, e2⟩ := bind_ok hk
    obtain ⟨L, a1, b1⟩ := h _ _ e1
    simp only [thingss, List.nil_append] at a1
    split_ifs at e2 with hz
    · have := ok_inj e2
      subst this
      exact ⟨thingss f, by rw [thingss_append], List.sublist_append_left _ _⟩
    · have := ok_inj e2
      subst this
      refine ⟨thingss f ++ L, ?_, (List.Sublist.refl _).append b1⟩
      rw [thingss_append, thingss_one, Csg.things, a1]

theorem fromDiff_sound {cs : List (Conv M X S)} {ws : List (List (Thing M X S))} (h : List.Forall₂ Sound cs ws) :
    Sound (fromDiff cs) ws.flatten := by
  intro st st' hk
  unfold fromDiff at hk
  obtain ⟨q, e1, e2⟩ := bind_ok hk
  obtain ⟨L, ws1, ws2, rfl, a1, b1, c1⟩ := diffHead_sound h _ _ e1
  obtain ⟨L2, a2, b2⟩ := diffTail_sound (fromV_sound c1) _ _ e2
  simp only [thingss, List.nil_append] at a1
  refine ⟨L2, a2, b2.trans ?_⟩
  rw [List.flatten_append, a1]
  exact b1.append (List.Sublist.refl _)

theorem interLoop_sound {cs : List (Conv M X S)} {ws : List (List (Thing M X S))} (h : List.Forall₂ Sound cs ws) :
    ∀ cut st q, interLoop cs cut st = .ok q → ∃ L, thingsss q.1 ++ thingss q.2.r = thingsss cut ++ thingss st.r ++ L ∧
      L.Sublist ws.flatten := by
  induction h with
  | nil =>
    intro cut st q h
    have := ok_inj (by simpa only [interLoop] using h)
    subst this
    exact ⟨[], by simp, List.nil_sublist _⟩
  | cons h1 _ ih =>
    intro cut st q h
    simp only [interLoop] at h
    obtain ⟨s1, e1, e2⟩ := bind_ok h
    obtain ⟨L1, a1, b1⟩ := h1 _ _ e1
    obtain ⟨L2, a2, b2⟩ := ih _ _ _ e2
    have hz : (if st.r.length > 0 then [] else st.r) = [] := by
      split_ifs with hz
      · rfl
      · exact List.eq_nil_of_length_eq_zero (by omega)
    simp only [hz, thingss, List.nil_append] at a1
    refine ⟨L1 ++ L2, ?_, by simpa using b1.append b2⟩
    rw [a2, thingsss_cutPush, a1]
    simp

theorem fromInter_sound {cs : List (Conv M X S)} {ws : List (List (Thing M X S))} (h : List.Forall₂ Sound cs ws) :
    Sound (fromInter cs) ws.flatten := by
  intro st st' hk
  unfold fromInter at hk
  obtain ⟨q, e1, e2⟩ := bind_ok hk
  obtain ⟨L, a1, b1⟩ := interLoop_sound h _ _ _ e1
  simp only [thingss, thingsss, List.nil_append] at a1
  split_ifs at e2 with h1 h2
  · have := ok_inj e2
    subst this
    have hq : q.1 = [] := List.eq_nil_of_length_eq_zero h1
    rw [hq] at a1
    exact ⟨L, by rw [thingss_append, ← a1]; simp [thingsss], b1⟩
  · have := ok_inj e2
    subst this
    exact ⟨L, by rw [thingss_append, thingss_one, Csg.things, thingsss_cutPush, a1], b1⟩

theorem fromExt_sound {e : Env T M X S} {two : Bool} {m : M} {g : Gc} {x : X} {k : Conv M X S} {w : List (Thing M X S)}
    (h : Sound k w) : Sound (fromExt e two m g x k) (if two then [] else .ext x m g :: w) := by
  intro st st' hk
  unfold fromExt at hk
  cases two with
  | true =>
    obtain ⟨_, rfl⟩ := msg_ok hk
    exact ⟨[], by simp, List.nil_sublist _⟩
  | false =>
    simp only [Bool.false_eq_true, if_false] at hk ⊢
    obtain ⟨q, e1, e2⟩ := bind_ok hk
    obtain ⟨L, a1, b1⟩ := h _ _ e1
    simp only [thingss, List.nil_append] at a1
    split at e2
    · cases e2
    · obtain ⟨_, rfl⟩ := msg_ok e2
      exact ⟨[], by simp, List.nil_sublist _⟩
    · have := ok_inj e2
      subst this
      exact ⟨[], by simp, List.nil_sublist _⟩
    · have := ok_inj e2
      subst this
      exact ⟨.ext x m g :: L, by rw [thingss_append, thingss_one, Csg.things, a1], b1.cons_cons _⟩

theorem fromHull_sound {e : Env T M X S} {two : Bool} {k : Conv M X S} {w : List (Thing M X S)}
    (h : Sound k w) : Sound (fromHull e two k) (if two then w else []) := by
  intro st st' hk
  unfold fromHull at hk
  cases two with
  | false =>
    obtain ⟨_, rfl⟩ := msg_ok hk
    exact ⟨[], by simp, List.nil_sublist _⟩
  | true =>
    simp only [Bool.true_eq_false, if_false, if_true] at hk ⊢
    obtain ⟨q, e1, e2⟩ := bind_ok hk
    obtain ⟨L, a1, b1⟩ := h _ _ e1
    simp only [thingss, List.nil_append] at a1
    split at e2
    · cases e2
    · have := ok_inj e2
      subst this
      exact ⟨L, by rw [thingss_append, thingss_one, Csg.things, a1], b1⟩
    · have := ok_inj e2
      subst this
      exact ⟨[], by simp, List.nil_sublist _⟩

theorem fromProj_sound {e : Env T M X S} {two cut : Bool} {k : Conv M X S} {w : List (Thing M X S)}
    (h : Sound k w) : Sound (fromProj e two cut k) (if two && cut then w else []) := by
  intro st st' hk
  unfold fromProj at hk
  cases two with
  | false =>
    obtain ⟨_, rfl⟩ := msg_ok hk
    exact ⟨[], by simp, List.nil_sublist _⟩
  | true =>
    simp only [Bool.true_eq_false, if_false, Bool.true_and] at hk ⊢
    obtain ⟨q, e1, e2⟩ := bind_ok hk
    obtain ⟨L, a1, b1⟩ := h _ _ e1
    simp only [thingss, List.nil_append] at a1
    cases cut with
    | false => cases e2
    | true =>
      have := ok_inj e2
      subst this
      exact ⟨L, by rw [thingss_append, thingss_one, Csg.things, a1], b1⟩

theorem fromShape_sound {e : Env T M X S} {two : Bool} {m : M} {g : Gc} {s : S} :
    Sound (fromShape e two m g s) (if e.is2 s == two && e.size s == .good then [.shape s m g] else []) := by
  intro st st' hk
  unfold fromShape at hk
  by_cases h1 : e.file s = true ∧ e.size s = .unread
  · rw [if_pos h1] at hk
    cases hk
  rw [if_neg h1] at hk
  by_cases h2 : e.is2 s ≠ two
  · rw [if_pos h2] at hk
    obtain ⟨_, rfl⟩ := msg_ok hk
    refine ⟨[], ?_, List.nil_sublist _⟩
    split_ifs <;> simp
  · rw [if_neg h2] at hk
    have h3 : e.is2 s = two := by simpa using h2
    split at hk
    · rename_i h4
      have := ok_inj hk
      subst this
      refine ⟨[.shape s m g], ?_, ?_⟩
      · rw [thingss_append, thingss_one, Csg.things]
      · rw [h3, h4]; simp
    · obtain ⟨_, rfl⟩ := msg_ok hk
      exact ⟨[], by simp, List.nil_sublist _⟩
    · cases hk

/-- neither rejected nor collapsing -/
def Xf.keeps : Xf M → Bool
  | .bad | .collapse => false
  | _ => true

theorem fromXform_sound [Mul M] {e : Env T M X S} {x : Xf M} {m : M} {k : M → Conv M X S} {w : List (Thing M X S)}
    (h1 : x = .same → Sound (k m) w) (h2 : ∀ t, x = .mat t → Sound (k (m * t)) w) :
    Sound (fromXform e x m k) (if x.keeps then w else []) := by
  intro st st' hk
  unfold fromXform at hk
  split at hk
  · cases hk
  · obtain ⟨_, rfl⟩ := msg_ok hk
    exact ⟨[], by simp, List.nil_sublist _⟩
  · simpa [Xf.keeps] using h1 rfl _ _ hk
  · simpa [Xf.keeps] using h2 _ rfl _ _ hk

theorem Sound.mono {c : Conv M X S} {w w' : List (Thing M X S)} (h : Sound c w) (hs : w = w') : Sound c w' := hs ▸ h

mutual
theorem conv_sound [Mul M] [One M] (e : Env T M X S) (q : Path T X S) (t : Tree T X S) :
    Sound (conv e none (twoOf q) (matAt e q) (gcOf q) t) (wanted e q (paths t)) := by
  obtain ⟨id, n, mods, l⟩ := t
  intro st st' hk
  unfold conv at hk
  have hhit : hit none id mods = false := by simp [hit]
  simp only [hhit, Option.isSome_none, Bool.false_and, Bool.false_eq_true, if_false] at hk
  cases hi : ignored mods with
  | true =>
    simp only [hi, if_true] at hk
    have := ok_inj hk
    subst this
    exact ⟨[], by simp, List.nil_sublist _⟩
  | false =>
    simp only [hi, Bool.false_eq_true, if_false] at hk
    have ih := fun f => convs_sound e (q ++ [f]) l
    have hw : ∀ f : Frame T X S, wanted e (q ++ [f]) (pathss l) = (List.map (fun t => wanted e (q ++ [f]) (paths t)) l).flatten :=
      fun f => wanted_pathss e _ l
    have ihf := ih (n, mods)
    have hg := gcOf_snoc q n mods
    have hm := matAt_snoc e q n mods
    have h2 := twoOf_snoc q n mods
    rw [hg, hm, h2] at ihf
    cases n with
    | union =>
      simp only [Node.fresh, Bool.false_eq_true, if_false] at ihf
      refine (fromV_sound ihf).mono ?_ _ _ hk
      rw [← hw, paths, wanted_map]
      · simp [okAt, hi]
      all_goals simp
    | diff =>
      simp only [Node.fresh, Bool.false_eq_true, if_false] at ihf
      refine (fromDiff_sound ihf).mono ?_ _ _ hk
      rw [← hw, paths, wanted_map]
      · simp [okAt, hi]
      all_goals simp
    | inter =>
      simp only [Node.fresh, Bool.false_eq_true, if_false] at ihf
      refine (fromInter_sound ihf).mono ?_ _ _ hk
      rw [← hw, paths, wanted_map]
      · simp [okAt, hi]
      all_goals simp
    | color c a =>
      simp only [Node.fresh, Bool.false_eq_true, if_false] at ihf
      refine (fromV_sound ihf).mono ?_ _ _ hk
      rw [← hw, paths, wanted_map]
      · simp [okAt, hi]
      all_goals simp
    | xform t =>
      simp only at ihf
      refine (fromXform_sound (w := wanted e (q ++ [(.xform t, mods)]) (pathss l)) ?_ ?_).mono ?_ _ _ hk
      · intro hx
        rw [hx] at ihf
        rw [hw]
        exact fromV_sound ihf
      · intro x hx
        rw [hx] at ihf
        rw [hw]
        exact fromV_sound ihf
      · rw [paths, wanted_map]
        · simp only [okAt, hi]
          cases hx : e.xf t <;> simp [Xf.keeps]
        all_goals simp
    | ext x =>
      simp only [Node.fresh, if_true] at ihf
      refine (fromExt_sound (fromV_sound ihf)).mono ?_ _ _ hk
      rw [← hw, paths, show ∀ (a : Path T X S) b, a :: b = [a] ++ b from fun _ _ => rfl, wanted_append, wanted_one,
        wanted_map, thingOf_snoc, hg]
      simp only [okAt, hi]
      cases twoOf q <;> simp [gcOf]
    | hull =>
      simp only [Node.fresh, if_true] at ihf
      refine (fromHull_sound (fromV_sound ihf)).mono ?_ _ _ hk
      rw [← hw, paths, wanted_map]
      · simp [okAt, hi]
      all_goals simp
    | proj cut =>
      simp only [Node.fresh, if_true] at ihf
      refine (fromProj_sound (fromV_sound ihf)).mono ?_ _ _ hk
      rw [← hw, paths, wanted_map]
      · simp [okAt, hi]
      all_goals simp
    | shape s =>
      refine fromShape_sound.mono ?_ _ _ hk
      rw [paths, wanted_one, thingOf_snoc, hg]
      simp only [okAt, hi]
      cases hc : (e.is2 s == twoOf q && e.size s == .good) <;> simp [gcOf, hc]
termination_by sizeOf t

theorem convs_sound [Mul M] [One M] (e : Env T M X S) (q : Path T X S) (l : List (Tree T X S)) :
    List.Forall₂ Sound (convs e none (twoOf q) (matAt e q) (gcOf q) l) (l.map fun t => wanted e q (paths t)) := by
  match l with
  | [] => simp [convs]
  | t :: l =>
    rw [convs, List.map_cons]
    exact .cons (conv_sound e q t) (convs_sound e q l)
termination_by sizeOf l

theorem wanted_pathss [Mul M] [One M] (e : Env T M X S) (q : Path T X S) (l : List (Tree T X S)) :
    wanted e q (pathss l) = (l.map fun t => wanted e q (paths t)).flatten := by
  match l with
  | [] => simp [pathss, wanted]
  | t :: l =>
    rw [pathss, wanted_append, List.map_cons, List.flatten_cons, wanted_pathss e q l]
termination_by sizeOf l
end

end Hob3l.Ctx
