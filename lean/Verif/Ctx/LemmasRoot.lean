import Verif.Ctx.LemmasExact

/-!
Lemmas: search for the object with `!`; trees that are not rejected; results without colours.
-/

namespace Hob3l.Ctx

open Hob3l.Args (Out)

variable {T M X S : Type}

/-! ## `root_xform` is set only by the search -/

/-- `root_xform` is kept -/
def Keeps (c : Conv M X S) : Prop := ∀ st st', c st = .ok st' → st'.rx = st.rx

theorem fromV_keeps {cs : List (Conv M X S)} (h : ∀ c ∈ cs, Keeps c) : Keeps (fromV cs) := by
  induction cs with
  | nil =>
    intro st st' hk
    have := ok_inj (by simpa only [fromV] using hk)
    subst this
    rfl
  | cons c cs ih =>
    intro st st' hk
    simp only [fromV] at hk
    obtain ⟨s1, e1, e2⟩ := bind_ok hk
    rw [ih (fun c hc => h c (.tail _ hc)) _ _ e2, h c (.head _) _ _ e1]

theorem diffHead_keeps {cs : List (Conv M X S)} (h : ∀ c ∈ cs, Keeps c) :
    ∀ st q, diffHead cs st = .ok q → q.1.rx = st.rx ∧ ∀ c ∈ q.2, Keeps c := by
  induction cs with
  | nil =>
    intro st q hk
    have := ok_inj (by simpa only [diffHead] using hk)
    subst this
    exact ⟨rfl, fun c hc => by cases hc⟩
  | cons c cs ih =>
    intro st q hk
    simp only [diffHead] at hk
    split_ifs at hk
    · have := ok_inj hk
      subst this
      exact ⟨rfl, h⟩
    · obtain ⟨s1, e1, e2⟩ := bind_ok hk
      obtain ⟨a, b⟩ := ih (fun c hc => h c (.tail _ hc)) _ _ e2
      exact ⟨by rw [a, h c (.head _) _ _ e1], b⟩

theorem fromDiff_keeps {cs : List (Conv M X S)} (h : ∀ c ∈ cs, Keeps c) : Keeps (fromDiff cs) := by
  intro st st' hk
  unfold fromDiff at hk
  obtain ⟨q, e1, e2⟩ := bind_ok hk
  obtain ⟨a, b⟩ := diffHead_keeps h _ _ e1
  have hv := fromV_keeps b
  simp only at a
  unfold diffTail at e2
  split at e2
  · rw [← ok_inj e2]; exact a
  · obtain ⟨p, e3, e4⟩ := bind_ok e2
    rw [← ok_inj e4]
    simp only
    rw [hv _ _ e3]
    exact a
  · obtain ⟨p, e3, e4⟩ := bind_ok e2
    split_ifs at e4 <;>
    · rw [← ok_inj e4]
      simp only
      rw [hv _ _ e3]
      exact a

theorem interLoop_keeps {cs : List (Conv M X S)} (h : ∀ c ∈ cs, Keeps c) :
    ∀ cut st q, interLoop cs cut st = .ok q → q.2.rx = st.rx := by
  induction cs with
  | nil =>
    intro cut st q hk
    have := ok_inj (by simpa only [interLoop] using hk)
    subst this
    rfl
  | cons c cs ih =>
    intro cut st q hk
    simp only [interLoop] at hk
    obtain ⟨s1, e1, e2⟩ := bind_ok hk
    rw [ih (fun c hc => h c (.tail _ hc)) _ _ _ e2, h c (.head _) _ _ e1]

theorem fromInter_keeps {cs : List (Conv M X S)} (h : ∀ c ∈ cs, Keeps c) : Keeps (fromInter cs) := by
  intro st st' hk
  unfold fromInter at hk
  obtain ⟨q, e1, e2⟩ := bind_ok hk
  have := interLoop_keeps h _ _ _ e1
  split_ifs at e2 <;>
  · rw [← ok_inj e2]; exact this

theorem fromXform_keeps [Mul M] {e : Env T M X S} {x : Xf M} {m : M} {k : M → Conv M X S} (h : ∀ m, Keeps (k m)) :
    Keeps (fromXform e x m k) := by
  intro st st' hk
  unfold fromXform at hk
  split at hk
  · cases hk
  · rw [(msg_ok hk).2]
  · exact h _ _ _ hk
  · exact h _ _ _ hk

theorem fromShape_keeps {e : Env T M X S} {two : Bool} {m : M} {g : Gc} {s : S} : Keeps (fromShape e two m g s) := by
  intro st st' hk
  unfold fromShape at hk
  by_cases h1 : e.file s = true ∧ e.size s = .unread
  · rw [if_pos h1] at hk
    cases hk
  rw [if_neg h1] at hk
  by_cases h2 : e.is2 s ≠ two
  · rw [if_pos h2] at hk
    rw [(msg_ok hk).2]
    split_ifs <;> rfl
  · rw [if_neg h2] at hk
    split at hk
    · rw [← ok_inj hk]
    · rw [(msg_ok hk).2]
    · cases hk

theorem fromExt_keeps {e : Env T M X S} {two : Bool} {m : M} {g : Gc} {x : X} {k : Conv M X S} (h : Keeps k) :
    Keeps (fromExt e two m g x k) := by
  intro st st' hk
  unfold fromExt at hk
  split_ifs at hk
  · rw [(msg_ok hk).2]
  · obtain ⟨q, e1, e2⟩ := bind_ok hk
    have := h _ _ e1
    split at e2
    · cases e2
    · rw [(msg_ok e2).2]; exact this
    · rw [← ok_inj e2]; exact this
    · rw [← ok_inj e2]; exact this

theorem fromHull_keeps {e : Env T M X S} {two : Bool} {k : Conv M X S} (h : Keeps k) : Keeps (fromHull e two k) := by
  intro st st' hk
  unfold fromHull at hk
  split_ifs at hk
  · rw [(msg_ok hk).2]
  · obtain ⟨q, e1, e2⟩ := bind_ok hk
    have := h _ _ e1
    split at e2
    · cases e2
    · rw [← ok_inj e2]; exact this
    · rw [← ok_inj e2]; exact this

theorem fromProj_keeps {e : Env T M X S} {two cut : Bool} {k : Conv M X S} (h : Keeps k) : Keeps (fromProj e two cut k) := by
  intro st st' hk
  unfold fromProj at hk
  by_cases h2 : two = false
  · rw [if_pos h2] at hk
    rw [(msg_ok hk).2]
  · rw [if_neg h2] at hk
    obtain ⟨q, e1, e2⟩ := bind_ok hk
    have := h _ _ e1
    cases cut with
    | false => cases e2
    | true => rw [← ok_inj e2]; exact this

mutual
theorem conv_keeps [Mul M] [One M] (e : Env T M X S) (two : Bool) (m : M) (g : Gc) (t : Tree T X S) :
    Keeps (conv e none two m g t) := by
  obtain ⟨id, n, mods, l⟩ := t
  intro st st' hk
  unfold conv at hk
  have hhit : hit none id mods = false := by simp [hit]
  simp only [hhit, Option.isSome_none, Bool.false_and, Bool.false_eq_true, if_false] at hk
  split_ifs at hk
  · rw [← ok_inj hk]
  · have ih := fun two m g => convs_keeps e two m g l
    cases n with
    | union => exact fromV_keeps (ih _ _ _) _ _ hk
    | diff => exact fromDiff_keeps (ih _ _ _) _ _ hk
    | inter => exact fromInter_keeps (ih _ _ _) _ _ hk
    | xform t => exact fromXform_keeps (fun m => fromV_keeps (ih _ _ _)) _ _ hk
    | color c a => exact fromV_keeps (ih _ _ _) _ _ hk
    | ext x => exact fromExt_keeps (fromV_keeps (ih _ _ _)) _ _ hk
    | hull => exact fromHull_keeps (fromV_keeps (ih _ _ _)) _ _ hk
    | proj cut => exact fromProj_keeps (fromV_keeps (ih _ _ _)) _ _ hk
    | shape s => exact fromShape_keeps _ _ hk
termination_by sizeOf t

theorem convs_keeps [Mul M] [One M] (e : Env T M X S) (two : Bool) (m : M) (g : Gc) (l : List (Tree T X S)) :
    ∀ c ∈ convs e none two m g l, Keeps c := by
  match l with
  | [] => intro c hc; simp [convs] at hc
  | t :: l =>
    intro c hc
    rw [convs] at hc
    rcases List.mem_cons.mp hc with rfl | hc
    · exact conv_keeps e two m g t
    · exact convs_keeps e two m g l c hc
termination_by sizeOf l
end

/-! ## The search -/

/-- the object searched for, if the search gets to it -/
def isHit (e : Env T M X S) (id : Nat) (p : Path T X S × Tree T X S) : Bool :=
  reached e p.1 && hit (some id) p.2.id p.2.frame.2

/-- the matrix of a whole path -/
def fullMat [Mul M] [One M] (e : Env T M X S) (q : Path T X S) : M := prodOf (matsOf e q)

theorem fullMat_snoc [Mul M] [One M] (e : Env T M X S) (q : Path T X S) (n : Node T X S) (mods : Nat) :
    fullMat e (q ++ [(n, mods)]) =
      (match n with
       | .xform t => (match e.xf t with | .mat t => fullMat e q * t | _ => fullMat e q)
       | _ => fullMat e q) := by
  unfold fullMat
  cases n with
  | xform t =>
    simp only [matsOf, List.filterMap_append, List.filterMap_cons, List.filterMap_nil]
    cases e.xf t <;> simp [prodOf, List.foldl_append]
  | _ => simp [matsOf, prodOf, List.filterMap_append]

/-- what a search below `q` in the objects `l` gives -/
def FoundAs [Mul M] [One M] (e : Env T M X S) (id : Nat) (two : Bool) (q : Path T X S)
    (l : List (Path T X S × Tree T X S)) (st st' : St M X S) : Prop :=
  match l.find? (isHit e id) with
  | none => st' = st
  | some p => conv e none two 1 (gcOf (q ++ p.1)) p.2 ⟨st.no, st.r, some (fullMat e (q ++ p.1))⟩ = .ok st'

/-- what a search below `q` does -/
def Finds [Mul M] [One M] (e : Env T M X S) (id : Nat) (two : Bool) (q : Path T X S) (c : Conv M X S)
    (l : List (Path T X S × Tree T X S)) : Prop :=
  ∀ st st', st.rx = none → c st = .ok st' → FoundAs e id two q l st st'

theorem conv_skip [Mul M] [One M] (e : Env T M X S) (id : Nat) (two : Bool) (m : M) (g : Gc) (t : Tree T X S) (st : St M X S)
    (h : st.rx.isSome = true) : conv e (some id) two m g t st = .ok st := by
  obtain ⟨i, n, mods, l⟩ := t
  unfold conv
  simp [h]

theorem fromV_skip [Mul M] [One M] (e : Env T M X S) (id : Nat) (two : Bool) (m : M) (g : Gc) (l : List (Tree T X S))
    (st : St M X S) (h : st.rx.isSome = true) : fromV (convs e (some id) two m g l) st = .ok st := by
  induction l with
  | nil => simp [convs, fromV]
  | cons t l ih => rw [convs, fromV, conv_skip e id two m g t st h]; exact ih

theorem find_map {e : Env T M X S} {id : Nat} {f : Frame T X S} (l : List (Path T X S × Tree T X S))
    (hf : reached e [f] = true) :
    (l.map fun p => (f :: p.1, p.2)).find? (isHit e id) = (l.find? (isHit e id)).map fun p => (f :: p.1, p.2) := by
  induction l with
  | nil => rfl
  | cons p l ih =>
    have h1 : isHit e id (f :: p.1, p.2) = isHit e id p := by
      simp only [reached, List.all_cons, List.all_nil, Bool.and_true] at hf
      simp [isHit, reached, hf]
    rw [List.map_cons, List.find?_cons, List.find?_cons, h1]
    cases isHit e id p with
    | true => rfl
    | false => exact ih

theorem find_none {e : Env T M X S} {id : Nat} {f : Frame T X S} (l : List (Path T X S × Tree T X S))
    (hf : reached e [f] = false) : (l.map fun p => (f :: p.1, p.2)).find? (isHit e id) = none := by
  rw [List.find?_eq_none]
  intro x hx
  obtain ⟨p, _, rfl⟩ := List.mem_map.mp hx
  simp only [reached, List.all_cons, List.all_nil, Bool.and_true] at hf
  simp [isHit, reached, hf]

/-- the part of a search that goes on with the children -/
theorem finds_children [Mul M] [One M] {e : Env T M X S} {id : Nat} {two : Bool} {q : Path T X S} {st st' : St M X S}
    {f : Frame T X S} {l : List (Path T X S × Tree T X S)} (hf : reached e [f] = true)
    (h : FoundAs e id two (q ++ [f]) l st st') : FoundAs e id two q (l.map fun p => (f :: p.1, p.2)) st st' := by
  unfold FoundAs at h ⊢
  rw [find_map l hf]
  cases hl : l.find? (isHit e id) with
  | none => rw [hl] at h; exact h
  | some p => rw [hl] at h; simpa using h

mutual
theorem conv_finds [Mul M] [One M] (e : Env T M X S) (id : Nat) (two : Bool) (q : Path T X S) (t : Tree T X S) :
    Finds e id two q (conv e (some id) two (fullMat e q) (gcOf q) t) (nodes t) := by
  obtain ⟨i, n, mods, l⟩ := t
  intro st st' h0 hk
  cases hh : hit (some id) i mods with
  | true =>
    have hfind : (nodes (.mk i n mods l)).find? (isHit e id) = some ([], .mk i n mods l) := by
      have : isHit e id ([], .mk i n mods l) = true := by simp [isHit, reached, Tree.id, Tree.frame, hh]
      cases n <;> simp [nodes, this]
    unfold FoundAs
    rw [hfind]
    simp only [List.append_nil]
    rw [← hk]
    unfold conv
    have hhit : hit none i mods = false := by simp [hit]
    simp only [hh, hhit, h0, Option.isSome_none, Option.isSome_some, Bool.false_and, Bool.and_false, Bool.false_eq_true, if_false,
      if_true]
  | false =>
    have hself : isHit e id ([], .mk i n mods l) = false := by simp [isHit, reached, Tree.id, Tree.frame, hh]
    unfold conv at hk
    simp only [hh, h0, Option.isSome_none, Option.isSome_some, Bool.and_false, Bool.false_eq_true, if_false, if_true] at hk
    cases hi : ignored mods with
    | true =>
      simp only [hi, if_true] at hk
      have hfind : (nodes (.mk i n mods l)).find? (isHit e id) = none := by
        have : ((nodess l).map fun p => ((n, mods) :: p.1, p.2)).find? (isHit e id) = none :=
          find_none _ (by simp [reached, hi])
        cases n <;> simp only [nodes, List.find?_cons, hself, this, List.find?_nil]
      unfold FoundAs
      rw [hfind]
      exact (ok_inj hk).symm
    | false =>
      simp only [hi, Bool.false_eq_true, if_false] at hk
      have ih := convs_finds e id two (q ++ [(n, mods)]) l
      rw [gcOf_snoc, fullMat_snoc] at ih
      by_cases hs : ∃ s, n = .shape s
      · obtain ⟨s, rfl⟩ := hs
        simp only at hk
        simp only [FoundAs, nodes, List.find?_cons, hself, List.find?_nil]
        exact (ok_inj hk).symm
      · rw [nodes_mk (fun s hn => hs ⟨s, hn⟩)]
        have hcons : FoundAs e id two q ((nodess l).map fun p => ((n, mods) :: p.1, p.2)) st st' →
            FoundAs e id two q (([], .mk i n mods l) :: (nodess l).map fun p => ((n, mods) :: p.1, p.2)) st st' := by
          intro h
          unfold FoundAs at h ⊢
          rw [List.find?_cons, hself]
          exact h
        apply hcons
        by_cases hr : reached e [(n, mods)] = true
        · refine finds_children hr ?_
          cases n with
          | shape s => exact absurd ⟨s, rfl⟩ hs
          | xform t =>
            simp only [fromXform] at hk
            simp only at ih
            cases hx : e.xf t with
            | bad => rw [hx] at hk; cases hk
            | collapse => simp [reached, hx] at hr
            | same => rw [hx] at hk ih; exact ih st st' h0 hk
            | mat t => rw [hx] at hk ih; exact ih st st' h0 hk
          | color c a => exact ih st st' h0 hk
          | union => exact ih st st' h0 hk
          | diff => exact ih st st' h0 hk
          | inter => exact ih st st' h0 hk
          | ext x => exact ih st st' h0 hk
          | hull => exact ih st st' h0 hk
          | proj cut => exact ih st st' h0 hk
        · have hr' : reached e [(n, mods)] = false := by simpa using hr
          unfold FoundAs
          rw [find_none _ hr']
          cases n with
          | xform t =>
            simp only [fromXform] at hk
            cases hx : e.xf t with
            | bad => rw [hx] at hk; cases hk
            | collapse => rw [hx] at hk; exact (msg_ok hk).2
            | same => simp [reached, hi, hx] at hr'
            | mat t => simp [reached, hi, hx] at hr'
          | _ => simp [reached, hi] at hr'
termination_by sizeOf t

theorem convs_finds [Mul M] [One M] (e : Env T M X S) (id : Nat) (two : Bool) (q : Path T X S) (l : List (Tree T X S)) :
    Finds e id two q (fromV (convs e (some id) two (fullMat e q) (gcOf q) l)) (nodess l) := by
  match l with
  | [] =>
    intro st st' _ hk
    rw [convs] at hk
    exact (ok_inj (by simpa only [fromV] using hk)).symm
  | t :: l =>
    intro st st' h0 hk
    rw [convs, fromV] at hk
    obtain ⟨s1, e1, e2⟩ := bind_ok hk
    have h1 := conv_finds e id two q t st s1 h0 e1
    unfold FoundAs at h1 ⊢
    rw [nodess, List.find?_append]
    cases hf : (nodes t).find? (isHit e id) with
    | none =>
      rw [hf] at h1
      simp only at h1
      subst h1
      exact convs_finds e id two q l s1 st' h0 e2
    | some p =>
      rw [hf] at h1
      simp only at h1
      have hrx := conv_keeps _ _ _ _ _ _ _ h1
      rw [fromV_skip _ _ _ _ _ _ _ (by rw [hrx]; rfl)] at e2
      rw [← ok_inj e2]
      exact h1
termination_by sizeOf l
end

/-! ## Trees that are not rejected -/

/-- no error message -/
def NoFail (c : Conv M X S) : Prop := ∀ st, c st ≠ .fail

theorem bind_ne_fail {α β : Type} {x : Out α} {f : α → Out β} (h1 : x ≠ .fail) (h2 : ∀ a, f a ≠ .fail) : x.bind f ≠ .fail := by
  cases x with
  | ok a => exact h2 a
  | fail => exact absurd rfl h1
  | crash => simp [Out.bind]

theorem fromV_noFail {cs : List (Conv M X S)} (h : ∀ c ∈ cs, NoFail c) : NoFail (fromV cs) := by
  induction cs with
  | nil => intro st; simp [fromV]
  | cons c cs ih =>
    intro st
    rw [fromV]
    exact bind_ne_fail (h c (.head _) st) (ih fun c hc => h c (.tail _ hc))

theorem diffHead_noFail {cs : List (Conv M X S)} (h : ∀ c ∈ cs, NoFail c) : ∀ st, diffHead cs st ≠ .fail := by
  induction cs with
  | nil => intro st; simp [diffHead]
  | cons c cs ih =>
    intro st
    rw [diffHead]
    split_ifs
    · simp
    · exact bind_ne_fail (h c (.head _) st) (ih fun c hc => h c (.tail _ hc))

theorem diffHead_sub {cs : List (Conv M X S)} : ∀ st q, diffHead cs st = .ok q → ∀ c ∈ q.2, c ∈ cs := by
  induction cs with
  | nil =>
    intro st q hk
    have := ok_inj (by simpa only [diffHead] using hk)
    subst this
    exact fun c hc => hc
  | cons c cs ih =>
    intro st q hk
    simp only [diffHead] at hk
    split_ifs at hk
    · have := ok_inj hk
      subst this
      exact fun c hc => hc
    · obtain ⟨s1, e1, e2⟩ := bind_ok hk
      exact fun c hc => .tail _ (ih _ _ e2 c hc)

theorem diffTail_noFail {f : List (Csg M X S)} {cs : List (Conv M X S)} (h : NoFail (fromV cs)) (st : St M X S) :
    diffTail f cs st ≠ .fail := by
  unfold diffTail
  split
  · simp
  · exact bind_ne_fail (h _) (fun a => by simp)
  · exact bind_ne_fail (h _) (fun a => by split_ifs <;> simp)

theorem fromDiff_noFail {cs : List (Conv M X S)} (h : ∀ c ∈ cs, NoFail c) : NoFail (fromDiff cs) := by
  intro st
  unfold fromDiff
  cases hd : diffHead cs ⟨false, [], st.rx⟩ with
  | ok q => exact diffTail_noFail (fromV_noFail fun c hc => h c (diffHead_sub _ _ hd c hc)) _
  | fail => exact absurd hd (diffHead_noFail h _)
  | crash => simp [Out.bind]

theorem interLoop_noFail {cs : List (Conv M X S)} (h : ∀ c ∈ cs, NoFail c) : ∀ cut st, interLoop cs cut st ≠ .fail := by
  induction cs with
  | nil => intro cut st; simp [interLoop]
  | cons c cs ih =>
    intro cut st
    rw [interLoop]
    exact bind_ne_fail (h c (.head _) _) (fun q => ih (fun c hc => h c (.tail _ hc)) _ _)

theorem fromInter_noFail {cs : List (Conv M X S)} (h : ∀ c ∈ cs, NoFail c) : NoFail (fromInter cs) := by
  intro st
  unfold fromInter
  refine bind_ne_fail (interLoop_noFail h _ _) (fun q => ?_)
  split_ifs <;> simp

mutual
theorem conv_noFail [Mul M] [One M] {e : Env T M X S} (he : Good e) (q : Path T X S) (t : Tree T X S)
    (m : M) (g : Gc) : Fine e q (nodes t) → NoFail (conv e none (twoOf q) m g t) := by
  obtain ⟨id, n, mods, l⟩ := t
  intro hf st
  unfold conv
  have hhit : hit none id mods = false := by simp [hit]
  simp only [hhit, Option.isSome_none, Bool.false_and, Bool.false_eq_true, if_false]
  cases hi : ignored mods with
  | true => simp
  | false =>
    simp only [Bool.false_eq_true, if_false]
    have hself : okAt e q (n, mods) = true := by
      have := hf ([], .mk id n mods l) (by cases n <;> simp [nodes]) (by simp [visible, Tree.frame, hi])
      simpa [Tree.frame] using this
    by_cases hs : ∃ s, n = .shape s
    · obtain ⟨s, rfl⟩ := hs
      simp only [okAt, hi, Bool.not_false, Bool.true_and, Bool.and_eq_true, beq_iff_eq] at hself
      simp only [fromShape, hself.1, hself.2, ne_eq, not_true, if_false]
      simp
    · have hch : Fine e (q ++ [(n, mods)]) (nodess l) := by
        intro x hx hv
        have := hf ((n, mods) :: x.1, x.2)
          (by rw [nodes_mk (fun s hn => hs ⟨s, hn⟩)]; exact .tail _ (List.mem_map.mpr ⟨x, hx, rfl⟩))
          (by simpa [visible, hi] using hv)
        simpa using this
      have ih := fun m g => convs_noFail he (q ++ [(n, mods)]) l m g hch
      rw [twoOf_snoc] at ih
      cases n with
      | shape s => exact absurd ⟨s, rfl⟩ hs
      | union => exact fromV_noFail (ih _ _) _
      | diff => exact fromDiff_noFail (ih _ _) _
      | inter => exact fromInter_noFail (ih _ _) _
      | color c a => exact fromV_noFail (ih _ _) _
      | xform t =>
        simp only [okAt, hi, Bool.not_false, Bool.true_and] at hself
        simp only [fromXform]
        cases hx : e.xf t with
        | bad => rw [hx] at hself; simp at hself
        | collapse => rw [hx] at hself; simp at hself
        | same => simp only; exact fromV_noFail (ih _ _) _
        | mat t => simp only; exact fromV_noFail (ih _ _) _
      | ext x =>
        simp only [okAt, hi, Bool.not_false, Bool.true_and, Bool.not_eq_true'] at hself
        simp only [fromExt, hself, Bool.false_eq_true, if_false]
        refine bind_ne_fail (fromV_noFail (ih _ _) _) (fun q => ?_)
        have := he.extr x q.r
        split
        · rename_i h; exact absurd h this.1
        · rename_i h; exact absurd h this.2
        · simp
        · simp
      | hull =>
        simp only [okAt, hi, Bool.not_false, Bool.true_and] at hself
        simp only [fromHull, hself, Bool.true_eq_false, if_false]
        simp only [hself] at ih
        refine bind_ne_fail (fromV_noFail (ih _ _) _) (fun q => ?_)
        have := he.hull q.r
        split
        · rename_i h; exact absurd h this
        · simp
        · simp
      | proj cut =>
        simp only [okAt, hi, Bool.not_false, Bool.true_and, Bool.and_eq_true] at hself
        simp only [fromProj, hself.1, hself.2, Bool.true_eq_false, if_false, if_true]
        exact bind_ne_fail (fromV_noFail (ih _ _) _) (fun q => by simp)
termination_by sizeOf t

theorem convs_noFail [Mul M] [One M] {e : Env T M X S} (he : Good e) (q : Path T X S) (l : List (Tree T X S))
    (m : M) (g : Gc) : Fine e q (nodess l) → ∀ c ∈ convs e none (twoOf q) m g l, NoFail c := by
  match l with
  | [] => intro _ c hc; simp [convs] at hc
  | t :: l =>
    intro hf c hc
    rw [convs] at hc
    rw [nodess] at hf
    rcases List.mem_cons.mp hc with rfl | hc
    · exact conv_noFail he q t m g (fun x hx => hf x (List.mem_append.mpr (.inl hx)))
    · exact convs_noFail he q l m g (fun x hx => hf x (List.mem_append.mpr (.inr hx))) c hc
termination_by sizeOf l
end

end Hob3l.Ctx
