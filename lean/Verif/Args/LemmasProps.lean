import Verif.Args.LemmasTree

namespace Hob3l.Args

open Hob3l.Syn (Text txt Value Arg Item Stmt)

variable {F : Type} [Flt F]

theorem getXY_accepts (a b c : F) (old : Option (Val F)) (h : old = some (.vec [a, b, c])) (v : Value) :
    (∃ x, getXY old v = .ok x) ↔ (∃ l : List F, getVec 2 v = some l) := by
  subst h
  simp only [getXY, zOf, Out.bind_ok, Out.orFail_ok, Out.orCrash_ok, Out.ok.injEq]
  constructor
  · rintro ⟨x, l, hl, _⟩; exact ⟨l, hl⟩
  · rintro ⟨l, hl⟩; exact ⟨_, l, hl, c, rfl, rfl⟩

theorem get_accepts (k : Kind) (old : Option (Val F)) (v : Value) (h : needs k old) :
    (∃ x, get k old v = .ok x) ↔ Accepts F k v := by
  unfold Accepts
  by_cases hk : k ≠ .vec23 ∧ k ≠ .vec23Float
  · rw [get_indep k hk old v, get_indep k hk (some _) v]
  · have hk' : k = .vec23 ∨ k = .vec23Float := by
      by_contra hc; exact hk (by rw [not_or] at hc; exact hc)
    obtain ⟨x, rfl, ho⟩ := h hk'
    have : ∃ a b c : F, x = .vec [a, b, c] := by
      rcases hk' with rfl | rfl <;>
      · cases x <;> simp [okVal] at ho
        rename_i l
        match l, ho with
        | [a, b, c], _ => exact ⟨a, b, c, rfl⟩
    obtain ⟨a, b, c, rfl⟩ := this
    rcases hk' with rfl | rfl
    · simp only [get, getVec23]
      split
      · rw [getXY_accepts a b c _ rfl, getXY_accepts _ _ _ _ rfl]
      · rfl
    · simp only [get, getVec23Float]
      split
      · rw [getXY_accepts a b c _ rfl, getXY_accepts _ _ _ _ rfl]
      · rfl

theorem convAll_accepts (k : Kind) (l : List Value) : ∀ (old : Option (Val F)), needs k old →
    ((∃ r, convAll k old l = .ok r) ↔ ∀ v ∈ l, Accepts F k v) := by
  induction l with
  | nil => intro old _; simp [convAll]
  | cons v l ih =>
    intro old h
    simp only [convAll, List.mem_cons, forall_eq_or_imp]
    rw [← get_accepts k old v h]
    cases hg : get k old v with
    | ok x => simpa [Out.bind] using ih (some x) (fun _ => ⟨x, rfl, get_okVal _ _ _ _ hg⟩)
    | fail => simp [Out.bind]
    | crash => simp [Out.bind]

theorem params_needs (f : Fn) : ∀ p ∈ (params f : List (Param F)), needs p.kind p.init := by
  by_cases hf : f = .multmatrix
  · subst hf
    simp [params, posParams, nameParams, man, needs]
  · exact fun p hp => (params_ready f hf p hp).2

theorem stored_iff (f : Fn) (args : List Arg) :
    (∃ s : List (Slot F), StoredArgs (namesOf (posParams f : List (Param F))) (params f) args s) ↔
      ∀ p ∈ (params f : List (Param F)), ∀ v ∈ valuesFor F f p.name args, Accepts F p.kind v := by
  constructor
  · rintro ⟨s, h⟩ p hp
    rw [← convAll_accepts (F := F) p.kind _ p.init (params_needs f p hp)]
    obtain ⟨k, hk⟩ := List.getElem?_of_mem hp
    obtain ⟨o, _, h2, _⟩ := h.2 k p hk
    exact ⟨_, h2⟩
  · intro h
    exact storedArgs_exists _ _ _ fun p hp => (convAll_accepts p.kind _ p.init (params_needs f p hp)).mpr (h p hp)

/-! order of the arguments -/

theorem values_append (pos : List Text) (n : Text) (a b : List Arg) : ∀ i, values pos n i (a ++ b) =
    values pos n i a ++ values pos n (i + a.length) b := by
  induction a with
  | nil => intro i; simp [values]
  | cons x l ih =>
    intro i
    simp only [List.cons_append, values, ih, List.append_assoc, List.length_cons]
    rw [show i + 1 + l.length = i + (l.length + 1) by omega]

theorem values_named (pos : List Text) (n : Text) (l : List Arg) : ∀ i, (∀ a ∈ l, a.key ≠ none) →
    values pos n i l = (l.filter fun a => a.key == some n).map (·.value) := by
  induction l with
  | nil => intro i _; simp [values]
  | cons a l ih =>
    intro i h
    rw [values, ih (i + 1) (fun b hb => h b (List.mem_cons_of_mem _ hb)), List.filter_cons]
    cases hk : a.key with
    | none => exact absurd hk (h a List.mem_cons_self)
    | some m =>
      simp only [isFor, hk]
      by_cases e : m = n <;> simp [e]

theorem filter_perm {l l' : List Arg} (hp : l.Perm l') (hd : (l.map (·.key)).Nodup) (n : Text) :
    (l.filter fun a => a.key == some n) = l'.filter fun a => a.key == some n := by
  have hf := hp.filter (fun a => a.key == some n)
  have hlen : ∀ m : List Arg, (m.map (·.key)).Nodup → (m.filter fun a => a.key == some n).length ≤ 1 := by
    intro m
    induction m with
    | nil => intro _; simp
    | cons a m ih =>
      intro h
      rw [List.map_cons, List.nodup_cons] at h
      rw [List.filter_cons]
      split
      · rename_i he
        have : (m.filter fun a => a.key == some n) = [] := by
          rw [List.filter_eq_nil_iff]
          intro b hb hbn
          apply h.1
          rw [List.mem_map]
          exact ⟨b, hb, by rw [eq_of_beq hbn, eq_of_beq he]⟩
        simp [this]
      · exact ih h.2
  have h1 := hlen l hd
  match h : l.filter (fun a => a.key == some n) with
  | [] => rw [h] at hf; rw [h]; exact (List.Perm.nil_eq hf)
  | [a] => rw [h] at hf; rw [h]; exact (List.perm_singleton.mp hf.symm).symm
  | a :: b :: r => rw [h] at h1; simp at h1

theorem values_perm (pos : List Text) (n : Text) (u l l' : List Arg) (hp : l.Perm l') (hn : ∀ a ∈ l, a.key ≠ none)
    (hd : (l.map (·.key)).Nodup) : values pos n 0 (u ++ l) = values pos n 0 (u ++ l') := by
  rw [values_append, values_append, values_named pos n l _ hn, values_named pos n l' _ (fun a ha => hn a (hp.mem_iff.mpr ha)),
    filter_perm hp hd n]

theorem proper_perm {pos all : List Text} {u l l' : List Arg} (hp : l.Perm l') (hn : ∀ a ∈ l, a.key ≠ none)
    (h : Proper pos all (u ++ l)) : Proper pos all (u ++ l') := by
  refine ⟨?_, ?_⟩
  · intro i a ha hk
    by_cases hi : i < u.length
    · rw [List.getElem?_append_left hi] at ha
      have := h.unnamed i a (by rw [List.getElem?_append_left hi]; exact ha) hk
      rw [List.take_append_of_le_length (by omega)] at this ⊢
      exact this
    · rw [List.getElem?_append_right (by omega)] at ha
      exact absurd hk (hn a (hp.mem_iff.mpr (List.mem_of_getElem? ha)))
  · intro a ha n hk
    apply h.known a _ n hk
    rw [List.mem_append] at ha ⊢
    rcases ha with ha | ha
    · exact .inl ha
    · exact .inr (hp.mem_iff.mpr ha)

/-! points and faces -/

theorem raw_eq {pos : List Text} {ps : List (Param F)} {args : List Arg} {s : List (Slot F)}
    (h : StoredArgs pos ps args s) {k : Nat} {p : Param F} (hp : ps[k]? = some p) (hk : p.kind = .raw)
    (hi : p.init = none) : (⟨s, false⟩ : Got F).raw k = (values pos p.name 0 args).getLast? := by
  obtain ⟨o, h1, h2, _⟩ := h.2 k p hp
  simp only [Got.raw, Got.val, h1, Option.bind_eq_bind, Option.bind_some]
  rw [hk, hi] at h2
  rcases List.eq_nil_or_concat (values pos p.name 0 args) with e | ⟨l, v, e⟩
  · rw [e] at h2 ⊢
    simp only [convAll, Out.ok.injEq] at h2
    rw [← h2]; rfl
  · rw [List.concat_eq_append] at e
    rw [e] at h2 ⊢
    obtain ⟨x, hx, e2⟩ := convAll_last .raw (by simp) l v _ _ h2
    simp only [get, Out.ok.injEq] at hx
    rw [e2, ← hx]
    simp

theorem mapM_forall2 {α β : Type} (f : α → Option β) (l : List α) : ∀ r : List β, l.mapM f = some r ↔
    List.Forall₂ (fun a b => f a = some b) l r := by
  induction l with
  | nil => intro r; simp only [List.mapM_nil, Option.pure_def, Option.some.injEq, List.forall₂_nil_left_iff]; exact eq_comm
  | cons a l ih =>
    intro r
    simp only [List.mapM_cons, Option.bind_eq_bind, Option.bind_eq_some_iff, Option.pure_def, Option.some.injEq,
      List.forall₂_cons_left_iff, ← ih]
    constructor
    · rintro ⟨x, hx, y, hy, rfl⟩; exact ⟨x, y, hx, hy, rfl⟩
    · rintro ⟨x, y, hx, hy, rfl⟩; exact ⟨x, hx, y, hy, rfl⟩

theorem getVec_iff (n : Nat) (v : Value) (p : List F) : getVec n v = some p ↔
    ∃ c, v = Value.arr c ∧ c.length = n ∧ List.Forall₂ (fun x y => tryFloat x = some y) c p := by
  unfold getVec
  cases v <;> simp only [reduceCtorEq, false_and, exists_false, Value.arr.injEq]
  rename_i l
  simp only [← mapM_forall2]
  split
  · rename_i h
    simp only [reduceCtorEq, false_iff, not_exists]
    rintro c ⟨rfl, hc, _⟩
    exact h hc
  · rename_i h
    simp only [ne_eq, not_not] at h
    constructor
    · intro e; exact ⟨l, rfl, h, e⟩
    · rintro ⟨c, rfl, _, e⟩; exact e

theorem points_iff (n : Nat) (v : Value) (pts : List (List F)) :
    getPoints n (some v) = .ok pts ↔ Points n v pts := by
  unfold getPoints Points
  simp only [Out.bind_ok, Out.orCrash_ok, Out.orFail_ok, Option.some.injEq, exists_eq_left', mapM_forall2, getVec_iff]
  constructor
  · rintro ⟨l, hl, h⟩
    refine ⟨l, ?_, h⟩
    cases v <;> simp [elems] at hl; rw [hl]
  · rintro ⟨l, rfl, h⟩
    exact ⟨l, rfl, h⟩

theorem index_iff (n : Nat) (v : Value) (i : Nat) : getIndex n v = some i ↔ tryInt v = some (i : Int) ∧ i < n := by
  unfold getIndex trySize
  cases h : tryInt v with
  | none => simp
  | some j =>
    simp only [Option.bind_eq_bind, Option.bind_some, Option.some.injEq]
    by_cases hj : j < 0
    · simp [hj]; intro e; omega
    · simp only [hj, if_false, Option.bind_some]
      split
      · simp only [Option.some.injEq]; constructor
        · rintro rfl; omega
        · intro h; omega
      · simp only [reduceCtorEq, false_iff, not_and]; intro e; omega

theorem forall2_and {α β : Type} (R : α → β → Prop) (P : β → Prop) (l : List α) : ∀ r : List β,
    List.Forall₂ (fun a b => R a b ∧ P b) l r ↔ List.Forall₂ R l r ∧ ∀ b ∈ r, P b := by
  induction l with
  | nil => intro r; simp only [List.forall₂_nil_left_iff]; constructor
           · rintro rfl; simp
           · exact fun h => h.1
  | cons a l ih =>
    intro r
    simp only [List.forall₂_cons_left_iff, ih]
    constructor
    · rintro ⟨b, r', ⟨h1, h2⟩, ⟨h3, h4⟩, rfl⟩
      exact ⟨⟨b, r', h1, h3, rfl⟩, by simpa using ⟨h2, h4⟩⟩
    · rintro ⟨⟨b, r', h1, h3, rfl⟩, h⟩
      exact ⟨b, r', ⟨h1, h b List.mem_cons_self⟩, ⟨h3, fun c hc => h c (List.mem_cons_of_mem _ hc)⟩, rfl⟩

theorem face_iff (n : Nat) (v : Value) (f : List Nat) : getFace n v = some f ↔
    (∃ c, v = Value.arr c ∧ List.Forall₂ (fun x (i : Nat) => tryInt x = some (i : Int)) c f) ∧ 3 ≤ f.length ∧ ∀ i ∈ f, i < n := by
  unfold getFace
  simp only [Option.bind_eq_bind, Option.bind_eq_some_iff]
  constructor
  · rintro ⟨l, hl, h⟩
    have e : v = .arr l := by cases v <;> simp [elems] at hl; rw [hl]
    split at h
    · simp at h
    · have hlen := mapM_length _ _ _ h
      rw [mapM_forall2] at h
      simp only [index_iff] at h
      rw [forall2_and] at h
      exact ⟨⟨l, e, h.1⟩, by omega, h.2⟩
  · rintro ⟨⟨l, rfl, h⟩, h3, h4⟩
    refine ⟨l, rfl, ?_⟩
    have := h.length_eq
    rw [if_neg (by omega), mapM_forall2]
    simp only [index_iff]
    rw [forall2_and]
    exact ⟨h, h4⟩

theorem faces_iff (n : Nat) (v : Value) (faces : List (List Nat)) : getFaces n v = some faces ↔
    Faces v faces ∧ FacesOk n faces := by
  unfold getFaces Faces FacesOk
  simp only [Option.bind_eq_bind, Option.bind_eq_some_iff, mapM_forall2, face_iff]
  simp only [forall2_and]
  constructor
  · rintro ⟨l, hl, h1, h2⟩
    have e : v = .arr l := by cases v <;> simp [elems] at hl; rw [hl]
    exact ⟨⟨l, e, h1⟩, h2⟩
  · rintro ⟨⟨l, rfl, h1⟩, h2⟩
    exact ⟨l, rfl, h1, h2⟩

/-! escape sequences -/

theorem unquote_sound (s : Text) : ∀ t, unquote s = some t → Esc s t := by
  induction s using unquote.induct with
  | case1 => intro t h; simp only [unquote, Option.some.injEq] at h; subst h; exact .nil
  | case2 l ih =>
    intro t h; simp only [unquote, Option.map_eq_some_iff] at h
    obtain ⟨r, hr, rfl⟩ := h; exact .backslash _ _ (ih r hr)
  | case3 l ih =>
    intro t h; simp only [unquote, Option.map_eq_some_iff] at h
    obtain ⟨r, hr, rfl⟩ := h; exact .quotes _ _ (ih r hr)
  | case4 l ih =>
    intro t h; simp only [unquote, Option.map_eq_some_iff] at h
    obtain ⟨r, hr, rfl⟩ := h; exact .tab _ _ (ih r hr)
  | case5 l ih =>
    intro t h; simp only [unquote, Option.map_eq_some_iff] at h
    obtain ⟨r, hr, rfl⟩ := h; exact .newline _ _ (ih r hr)
  | case6 l ih =>
    intro t h; simp only [unquote, Option.map_eq_some_iff] at h
    obtain ⟨r, hr, rfl⟩ := h; exact .ret _ _ (ih r hr)
  | case7 l h1 h2 h3 h4 h5 =>
    intro t h
    simp [unquote, h1, h2, h3, h4, h5] at h
  | case8 c l h1 h2 h3 h4 h5 h6 ih =>
    intro t h
    have hc : c ≠ 92 := fun e => h6 e
    rw [unquote] at h <;> try assumption
    rw [Option.map_eq_some_iff] at h
    obtain ⟨r, hr, rfl⟩ := h; exact .plain _ _ _ hc (ih r hr)

theorem unquote_plain (c : Nat) (s : Text) (h : c ≠ 92) : unquote (c :: s) = (unquote s).map (c :: ·) := by
  rw [unquote] <;> intro e <;> simp_all

theorem unquote_complete (s t : Text) (h : Esc s t) : unquote s = some t := by
  induction h with
  | nil => rfl
  | plain c s t hc _ ih => rw [unquote_plain c s hc, ih]; rfl
  | backslash s t _ ih | quotes s t _ ih | tab s t _ ih | newline s t _ ih | ret s t _ ih =>
    simp [txt, unquote, ih]

end Hob3l.Args
