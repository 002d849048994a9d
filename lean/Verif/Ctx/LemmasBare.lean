import Verif.Ctx.LemmasRoot

/-!
Lemmas: colours and modifiers that are handed down do not change what is built.
-/

namespace Hob3l.Ctx

open Hob3l.Args (Out)

variable {T M X S : Type}

/-- equal up to colours and modifiers, and `root_xform` -/
def Eqv (a b : St M X S) : Prop := a.no = b.no ∧ bares a.r = bares b.r

/-- results equal up to colours and modifiers -/
def OutEq : Out (St M X S) → Out (St M X S) → Prop
  | .ok a, .ok b => Eqv a b
  | .fail, .fail => True
  | .crash, .crash => True
  | _, _ => False

/-- conversions equal up to colours and modifiers -/
def Sim (c d : Conv M X S) : Prop := ∀ a b, Eqv a b → OutEq (c a) (d b)

theorem bares_append (a b : List (Csg M X S)) : bares (a ++ b) = bares a ++ bares b := by
  induction a with
  | nil => simp [bares]
  | cons c a ih => simp [bares, ih]

theorem baress_append (a b : List (List (Csg M X S))) : baress (a ++ b) = baress a ++ baress b := by
  induction a with
  | nil => simp [baress]
  | cons c a ih => simp [baress, ih]

theorem bares_length (a : List (Csg M X S)) : (bares a).length = a.length := by
  induction a with
  | nil => simp [bares]
  | cons c a ih => simp [bares, ih]

theorem baress_length (a : List (List (Csg M X S))) : (baress a).length = a.length := by
  induction a with
  | nil => simp [baress]
  | cons c a ih => simp [baress, ih]

theorem length_eq {a b : List (Csg M X S)} (h : bares a = bares b) : a.length = b.length := by
  rw [← bares_length a, h, bares_length]

theorem length_eq' {a b : List (List (Csg M X S))} (h : baress a = baress b) : a.length = b.length := by
  rw [← baress_length a, h, baress_length]

/-- sequences of similar steps are similar -/
theorem outEq_bind {x y : Out (St M X S)} {f g : St M X S → Out (St M X S)} (h : OutEq x y)
    (hf : ∀ a b, Eqv a b → OutEq (f a) (g b)) : OutEq (x.bind f) (y.bind g) := by
  cases x <;> cases y <;> first | exact hf _ _ h | exact h.elim | trivial

theorem msg_sim (lvl : Bool) {a b : St M X S} (h : Eqv a b) : OutEq (msg lvl a) (msg lvl b) := by
  unfold msg
  cases lvl
  · exact h
  · trivial

theorem fromV_sim {cs ds : List (Conv M X S)} (h : List.Forall₂ Sim cs ds) : Sim (fromV cs) (fromV ds) := by
  induction h with
  | nil => intro a b h; exact h
  | cons h1 _ ih =>
    intro a b h
    rw [fromV, fromV]
    exact outEq_bind (h1 a b h) ih

/-- results of the loop of difference that are equal up to colours and modifiers -/
def HeadEq : Out (St M X S × List (Conv M X S)) → Out (St M X S × List (Conv M X S)) → Prop
  | .ok a, .ok b => Eqv a.1 b.1 ∧ List.Forall₂ Sim a.2 b.2
  | .fail, .fail => True
  | .crash, .crash => True
  | _, _ => False

theorem diffHead_sim {cs ds : List (Conv M X S)} (h : List.Forall₂ Sim cs ds) :
    ∀ a b, Eqv a b → HeadEq (diffHead cs a) (diffHead ds b) := by
  induction h with
  | nil => intro a b h; exact ⟨h, .nil⟩
  | @cons c d cs ds h1 ht ih =>
    intro a b h
    rw [diffHead, diffHead, ← h.1]
    cases a.no with
    | true => exact ⟨h, .cons h1 ht⟩
    | false =>
      simp only [Bool.false_eq_true, if_false]
      have := h1 a b h
      cases hx : c a <;> cases hy : d b <;> rw [hx, hy] at this
      all_goals first | exact this.elim | trivial | exact ih _ _ this

theorem tail_aux (rest rest' : List (Conv M X S)) (h : List.Forall₂ Sim rest rest') (a b : St M X S) (hab : Eqv a b)
    (f f' : List (Csg M X S)) (hf : bares f = bares f') :
    OutEq
      ((fromV rest ⟨a.no, [], a.rx⟩).bind fun q =>
        if q.r.length = 0 then .ok ⟨q.no, a.r ++ f, q.rx⟩ else .ok ⟨q.no, a.r ++ [.sub f q.r], q.rx⟩)
      ((fromV rest' ⟨b.no, [], b.rx⟩).bind fun q =>
        if q.r.length = 0 then .ok ⟨q.no, b.r ++ f', q.rx⟩ else .ok ⟨q.no, b.r ++ [.sub f' q.r], q.rx⟩) := by
  refine outEq_bind (fromV_sim h _ _ ⟨hab.1, rfl⟩) (fun x y hxy => ?_)
  rw [length_eq hxy.2]
  split_ifs
  · exact ⟨hxy.1, by rw [bares_append, bares_append, hab.2, hf]⟩
  · exact ⟨hxy.1, by simp only [bares_append, bares, Csg.bare, hab.2, hf, hxy.2]⟩

theorem diffTail_sim (f f' : List (Csg M X S)) (hf : bares f = bares f') (rest rest' : List (Conv M X S))
    (h : List.Forall₂ Sim rest rest') (a b : St M X S) (hab : Eqv a b) : OutEq (diffTail f rest a) (diffTail f' rest' b) := by
  have hl := length_eq hf
  match f, f' with
  | [], [] => exact hab
  | [], _ :: _ => simp at hl
  | _ :: _, [] => simp at hl
  | [c], [d] =>
    have hcd : c.bare = d.bare := by simpa [bares] using hf
    cases c <;> cases d <;> simp only [Csg.bare, reduceCtorEq, Csg.sub.injEq] at hcd
    case sub.sub p q p' q' =>
      unfold diffTail
      refine outEq_bind (fromV_sim h _ _ ⟨hab.1, hcd.2⟩) (fun x y hxy => ?_)
      exact ⟨hxy.1, by simp only [bares_append, bares, Csg.bare, hab.2, hcd.1, hxy.2]⟩
    all_goals exact tail_aux rest rest' h a b hab _ _ hf
  | [_], _ :: _ :: _ => simp at hl
  | _ :: _ :: _, [_] => simp at hl
  | x :: y :: _, x' :: y' :: _ =>
    cases x <;> cases x' <;> exact tail_aux rest rest' h a b hab _ _ hf

theorem fromDiff_sim {cs ds : List (Conv M X S)} (h : List.Forall₂ Sim cs ds) : Sim (fromDiff cs) (fromDiff ds) := by
  intro a b hab
  unfold fromDiff
  have := diffHead_sim h ⟨false, [], a.rx⟩ ⟨false, [], b.rx⟩ ⟨rfl, rfl⟩
  cases hx : diffHead cs ⟨false, [], a.rx⟩ <;> cases hy : diffHead ds ⟨false, [], b.rx⟩ <;> rw [hx, hy] at this
  all_goals first | exact this.elim | trivial | skip
  rename_i p q
  refine diffTail_sim _ _ this.1.2 _ _ this.2 _ _ ⟨?_, hab.2⟩
  simp only
  rw [this.1.1, hab.1]

theorem cutPush_bare {c d : List (List (Csg M X S))} {a b : List (Csg M X S)} (h : baress c = baress d) (h2 : bares a = bares b) :
    baress (cutPush c a) = baress (cutPush d b) := by
  unfold cutPush
  rw [length_eq h2]
  split_ifs
  · rw [baress_append, baress_append, h]
    simp [baress, h2]
  · exact h

/-- results of the loop of intersection that are equal up to colours and modifiers -/
def LoopEq : Out (List (List (Csg M X S)) × St M X S) → Out (List (List (Csg M X S)) × St M X S) → Prop
  | .ok a, .ok b => baress a.1 = baress b.1 ∧ Eqv a.2 b.2
  | .fail, .fail => True
  | .crash, .crash => True
  | _, _ => False

theorem interLoop_sim {cs ds : List (Conv M X S)} (h : List.Forall₂ Sim cs ds) :
    ∀ c d a b, baress c = baress d → Eqv a b → LoopEq (interLoop cs c a) (interLoop ds d b) := by
  induction h with
  | nil => intro c d a b h1 h2; exact ⟨h1, h2⟩
  | @cons u v cs ds h1 ht ih =>
    intro c d a b hcd h
    rw [interLoop, interLoop]
    have hz : Eqv (⟨a.no, if a.r.length > 0 then [] else a.r, a.rx⟩ : St M X S)
        ⟨b.no, if b.r.length > 0 then [] else b.r, b.rx⟩ := by
      refine ⟨h.1, ?_⟩
      simp only
      rw [length_eq h.2]
      split_ifs
      · rfl
      · exact h.2
    have := h1 _ _ hz
    cases hx : u ⟨a.no, if a.r.length > 0 then [] else a.r, a.rx⟩ <;>
      cases hy : v ⟨b.no, if b.r.length > 0 then [] else b.r, b.rx⟩ <;> rw [hx, hy] at this
    all_goals first | exact this.elim | trivial | exact ih _ _ _ _ (cutPush_bare hcd h.2) this

theorem fromInter_sim {cs ds : List (Conv M X S)} (h : List.Forall₂ Sim cs ds) : Sim (fromInter cs) (fromInter ds) := by
  intro a b hab
  unfold fromInter
  have := interLoop_sim h [] [] ⟨a.no, [], a.rx⟩ ⟨b.no, [], b.rx⟩ rfl ⟨hab.1, rfl⟩
  cases hx : interLoop cs [] ⟨a.no, [], a.rx⟩ <;> cases hy : interLoop ds [] ⟨b.no, [], b.rx⟩ <;> rw [hx, hy] at this
  all_goals first | exact this.elim | trivial | skip
  rename_i p q
  have hc := cutPush_bare this.1 this.2.2
  simp only [Out.bind]
  rw [length_eq' this.1, length_eq' hc]
  split_ifs
  · exact ⟨this.2.1, by simp only [bares_append, hab.2, this.2.2]⟩
  · exact ⟨this.2.1, by simp only [bares_append, bares, Csg.bare, hab.2, hc]⟩
  · trivial

mutual
theorem conv_sim [Mul M] [One M] {e : Env T M X S} (he : Blind e) (two : Bool) (m : M) (g g' : Gc) (t : Tree T X S) :
    Sim (conv e none two m g t) (conv e none two m g' t) := by
  obtain ⟨id, n, mods, l⟩ := t
  intro a b hab
  unfold conv
  have hhit : hit none id mods = false := by simp [hit]
  simp only [hhit, Option.isSome_none, Bool.false_and, Bool.false_eq_true, if_false]
  cases hi : ignored mods with
  | true => exact hab
  | false =>
    simp only [Bool.false_eq_true, if_false]
    have ih := fun two m g g' => convs_sim he two m g g' l
    cases n with
    | union => exact fromV_sim (ih _ _ _ _) _ _ hab
    | diff => exact fromDiff_sim (ih _ _ _ _) _ _ hab
    | inter => exact fromInter_sim (ih _ _ _ _) _ _ hab
    | color c al => exact fromV_sim (ih _ _ _ _) _ _ hab
    | xform t =>
      simp only [fromXform]
      cases e.xf t with
      | bad => trivial
      | collapse => exact msg_sim _ hab
      | same => exact fromV_sim (ih _ _ _ _) _ _ hab
      | mat t => exact fromV_sim (ih _ _ _ _) _ _ hab
    | ext x =>
      simp only [fromExt]
      cases two with
      | true => exact msg_sim _ hab
      | false =>
        simp only [Bool.false_eq_true, if_false]
        refine outEq_bind (fromV_sim (ih _ _ _ _) _ _ ⟨hab.1, rfl⟩) (fun p q hpq => ?_)
        rw [he.extr x p.r q.r hpq.2]
        cases e.extr x q.r with
        | bad => trivial
        | hollow => exact msg_sim _ ⟨hpq.1, hab.2⟩
        | empty => exact ⟨hpq.1, hab.2⟩
        | push => exact ⟨hpq.1, by simp only [bares_append, bares, Csg.bare, hab.2, hpq.2]⟩
    | hull =>
      simp only [fromHull]
      cases two with
      | false => exact msg_sim _ hab
      | true =>
        simp only [Bool.true_eq_false, if_false]
        refine outEq_bind (fromV_sim (ih _ _ _ _) _ _ ⟨hab.1, rfl⟩) (fun p q hpq => ?_)
        rw [he.hull p.r q.r hpq.2]
        cases e.hull q.r with
        | bad => trivial
        | push => exact ⟨hpq.1, by simp only [bares_append, bares, Csg.bare, hab.2, hpq.2]⟩
        | _ => exact ⟨hpq.1, hab.2⟩
    | proj cut =>
      simp only [fromProj]
      cases two with
      | false => exact msg_sim _ hab
      | true =>
        simp only [Bool.true_eq_false, if_false]
        refine outEq_bind (fromV_sim (ih _ _ _ _) _ _ ⟨hab.1, rfl⟩) (fun p q hpq => ?_)
        cases cut with
        | false => trivial
        | true => exact ⟨hpq.1, by simp only [bares_append, bares, Csg.bare, hab.2, hpq.2]⟩
    | shape s =>
      simp only [fromShape]
      split_ifs
      · trivial
      all_goals first
        | exact msg_sim _ hab
        | exact msg_sim _ ⟨rfl, hab.2⟩
        | skip
      cases e.size s with
      | good => exact ⟨rfl, by simp only [bares_append, bares, Csg.bare, hab.2]⟩
      | hollow => exact msg_sim _ ⟨rfl, hab.2⟩
      | _ => trivial
termination_by sizeOf t

theorem convs_sim [Mul M] [One M] {e : Env T M X S} (he : Blind e) (two : Bool) (m : M) (g g' : Gc) (l : List (Tree T X S)) :
    List.Forall₂ Sim (convs e none two m g l) (convs e none two m g' l) := by
  match l with
  | [] => simp [convs]
  | t :: l =>
    rw [convs, convs]
    exact .cons (conv_sim he two m g g' t) (convs_sim he two m g g' l)
termination_by sizeOf l
end

end Hob3l.Ctx
