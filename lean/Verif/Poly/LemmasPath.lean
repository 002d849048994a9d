import Verif.Poly.Spec
import Mathlib.Data.List.Nodup
import Mathlib.Tactic.SplitIfs

/-!
Splitting a walk into paths: `cq_sweep_poly_append`.
-/

namespace Hob3l.Poly

/-- the edges of an open path -/
def openE {α : Type} : List α → List (α × α)
  | a :: b :: l => (a, b) :: openE (b :: l)
  | _ => []

theorem openE_snoc {α : Type} (a b : α) : ∀ l : List α, openE (l ++ [a] ++ [b]) = openE (l ++ [a]) ++ [(a, b)]
  | [] => rfl
  | [x] => rfl
  | x :: y :: l => by
    have := openE_snoc a b (y :: l)
    simp only [List.cons_append, openE] at this ⊢
    rw [this]

theorem openE_split {α : Type} (p : α) (B : List α) : ∀ A : List α, openE (A ++ p :: B) = openE (A ++ [p]) ++ openE (p :: B)
  | [] => rfl
  | [x] => rfl
  | x :: y :: A => by
    have := openE_split p B (y :: A)
    simp only [List.cons_append, openE] at this ⊢
    rw [this]

theorem zip_openE {α : Type} (b : α) : ∀ (a : α) (l : List α), (a :: l).zip (l ++ [b]) = openE (a :: l ++ [b])
  | a, [] => rfl
  | a, c :: l => by
    have := zip_openE b c l
    simp only [List.cons_append, List.zip_cons_cons, openE] at this ⊢
    rw [this]

theorem cyc_cons {α : Type} (a : α) (l : List α) : cyc (a :: l) = openE (a :: l ++ [a]) := by
  simp only [cyc, List.tail_cons, List.head?_cons, Option.toList_some]
  exact zip_openE a a l

theorem openE_getLast {α : Type} {l : List α} {x : α} (h : l.getLast? = some x) (b : α) :
    openE (l ++ [b]) = openE l ++ [(x, b)] := by
  obtain ⟨l', rfl⟩ := List.getLast?_eq_some_iff.1 h
  exact openE_snoc x b l'

theorem cyc_eq {α : Type} {l : List α} {a x : α} (h : l.head? = some a) (hx : l.getLast? = some x) :
    cyc l = openE l ++ [(x, a)] := by
  cases l with
  | nil => simp at h
  | cons c l =>
    simp at h; subst h
    rw [cyc_cons, openE_getLast hx]

theorem mem_cyc {α : Type} {p : List α} {e : α × α} (h : e ∈ cyc p) : e.1 ∈ p ∧ e.2 ∈ p := by
  obtain ⟨a, b⟩ := e
  have := List.of_mem_zip h
  refine ⟨this.1, ?_⟩
  rcases List.mem_append.1 this.2 with h | h
  · exact List.mem_of_mem_tail h
  · simp at h; exact List.mem_of_head? h

/-- the state of the path number `base.length` after the points `wk` -/
structure PInv (base : List (List Nat)) (offs : Nat) (pts : List P) (r : Res) (wk : List Nat) (v : List Nat)
    (ws : List (List Nat)) : Prop where
  points : r.points = pts
  paths : r.paths = base ++ v :: ws
  len : r.aux.length = pts.length
  vnd : v.Nodup
  wnd : ∀ w ∈ ws, w.Nodup ∧ w ≠ []
  head : v.head? = wk.head?
  last : v.getLast? = wk.getLast?
  perm : (openE v ++ ws.flatMap cyc).Perm (openE wk)
  vlen : v.length ≤ wk.length
  auxIn : ∀ (j i : Nat), v[j]? = some i → r.aux[i]? = some (offs + j)
  auxOut : ∀ (i a : Nat), i ∉ v → r.aux[i]? = some a → a < offs

theorem PInv.mem {base : List (List Nat)} {offs : Nat} {pts : List P} {r : Res} {wk v : List Nat} {ws : List (List Nat)}
    (h : PInv base offs pts r wk v ws) {i : Nat} (hi : i ∈ v) : i < pts.length := by
  obtain ⟨j, hj⟩ := List.mem_iff_getElem?.1 hi
  have := h.auxIn j i hj
  have := (List.getElem?_eq_some_iff.1 this).1
  rw [h.len] at this; exact this

theorem clearAux_ok (val n : Nat) : ∀ (l aux : List Nat), aux.length = n → (∀ i ∈ l, i < n) →
    ∃ aux', clearAux aux val l = .ok aux' ∧ aux'.length = n ∧
      (∀ i ∈ l, aux'[i]? = some val) ∧ ∀ i, i ∉ l → aux'[i]? = aux[i]?
  | [], aux, h, _ => ⟨aux, rfl, h, by simp, fun _ _ => rfl⟩
  | i :: l, aux, h, hl => by
    have hi := hl i (by simp)
    obtain ⟨aux', e, h1, h2, h3⟩ := clearAux_ok val n l (aux.set i val) (by simpa using h)
      (fun j hj => hl j (List.mem_cons_of_mem _ hj))
    refine ⟨aux', ?_, h1, ?_, ?_⟩
    · unfold clearAux
      rw [ass, if_pos (by omega)]
      exact e
    · intro j hj
      by_cases hjl : j ∈ l
      · exact h2 j hjl
      · rcases List.mem_cons.1 hj with rfl | hj
        · rw [h3 j hjl, List.getElem?_set_self (by omega)]
        · exact absurd hj hjl
    · intro j hj
      simp at hj
      rw [h3 j hj.2, List.getElem?_set_ne (by omega)]

theorem append_eq (r : Res) (vi offs idx : Nat) : append r vi offs idx = (do
  let v ← look r.paths[vi]?
  let a ← look r.aux[idx]?
  let pathIdx := (a + M - offs) % M
  if v.length ≤ pathIdx then
    .ok { r with aux := r.aux.set idx ((v.length + offs) % M), paths := r.paths.set vi (v ++ [idx]) }
  else do
    ass (v[pathIdx]? = some idx) .other
    let w := v.drop pathIdx
    let v := v.take (pathIdx + 1)
    let aux ← clearAux r.aux ((offs + M - 1) % M) (w.drop 1)
    ass (w[0]? = some idx) .other
    ass (v[pathIdx]? = some idx) .other
    .ok { r with aux := aux, paths := r.paths.set vi v ++ [w] }) := rfl

theorem bind_ok {α β : Type} (a : α) (f : α → Except Err β) : (Except.ok a >>= f) = f a := rfl

theorem append_ok {base : List (List Nat)} {offs : Nat} {pts : List P} {r : Res} {wk v : List Nat} {ws : List (List Nat)}
    (h : PInv base offs pts r wk v ws) (h3 : 3 ≤ offs) (hM : offs + wk.length < M) {i : Nat} (hi : i < pts.length) :
    ∃ r' v' ws', append r base.length offs i = .ok r' ∧ PInv base offs pts r' (wk ++ [i]) v' ws' := by
  have hpath : r.paths[base.length]? = some v := by rw [h.paths]; simp
  obtain ⟨a, ha⟩ : ∃ a, r.aux[i]? = some a := ⟨_, List.getElem?_eq_getElem (by rw [h.len]; exact hi)⟩
  have hvl := h.vlen
  rw [append_eq]
  simp only [hpath, ha, look, bind_ok]
  by_cases hiv : i ∈ v
  · -- a loop
    obtain ⟨j, hj⟩ := List.mem_iff_getElem?.1 hiv
    have hjl := (List.getElem?_eq_some_iff.1 hj).1
    have hja := h.auxIn j i hj
    rw [ha] at hja
    have hja : a = offs + j := Option.some.inj hja
    have hidx : (a + M - offs) % M = j := by
      rw [hja, show offs + j + M - offs = j + M by omega, Nat.add_mod_right, Nat.mod_eq_of_lt (by omega)]
    rw [hidx, if_neg (by omega)]
    have hvsplit : v = v.take j ++ i :: v.drop (j + 1) := by
      conv_lhs => rw [← List.take_append_drop j v, List.drop_eq_getElem_cons hjl]
      have := (List.getElem?_eq_some_iff.1 hj).2
      rw [this]
    obtain ⟨A, B, hA, hB, hvs⟩ : ∃ A B, v.take j = A ∧ v.drop (j + 1) = B ∧ v = A ++ i :: B := ⟨_, _, rfl, rfl, hvsplit⟩
    have hAl : A.length = j := by rw [← hA]; simp; omega
    have hd : v.drop j = i :: B := by rw [hvs, ← hAl]; simp
    have ht : v.take (j + 1) = A ++ [i] := by rw [hvs, ← hAl]; simp [List.take_append]; exact List.take_of_length_le (by omega)
    rw [hd, ht]
    have hoff : (offs + M - 1) % M = offs - 1 := by
      rw [show offs + M - 1 = (offs - 1) + M by omega, Nat.add_mod_right, Nat.mod_eq_of_lt (by omega)]
    have hnd := h.vnd
    rw [hvs] at hnd
    obtain ⟨ndA, ndB, disj⟩ := List.nodup_append'.1 hnd
    obtain ⟨iB, ndB'⟩ := List.nodup_cons.1 ndB
    obtain ⟨aux', e1, e2, e3, e4⟩ := clearAux_ok (offs - 1) pts.length B r.aux h.len
      (fun k hk => h.mem (by rw [hvs]; simp [hk]))
    rw [hoff]
    simp only [hj, ass, List.drop_one, List.tail_cons, e1, bind_ok]
    refine ⟨⟨r.points, aux', r.paths.set base.length (A ++ [i]) ++ [i :: B]⟩, A ++ [i], ws ++ [i :: B], ?_, ?_⟩
    · simp [show (A ++ [i])[j]? = some i by rw [← hAl]; simp]
      rfl
    · have hset : r.paths.set base.length (A ++ [i]) ++ [i :: B] = base ++ (A ++ [i]) :: (ws ++ [i :: B]) := by
        rw [h.paths, List.set_append_right _ _ (Nat.le_refl _)]
        simp
      have hx : ∃ x, v.getLast? = some x := by
        cases hc : v.getLast? with
        | none => simp at hc; rw [hc] at hiv; simp at hiv
        | some x => exact ⟨x, rfl⟩
      obtain ⟨x, hx⟩ := hx
      have hxB : (i :: B).getLast? = some x := by
        rw [hvs, List.getLast?_append] at hx
        cases hB : (i :: B).getLast? with
        | none => simp at hB
        | some y => rw [hB] at hx; simpa using hx
      have hwx : wk.getLast? = some x := by rw [← h.last]; exact hx
      refine ⟨h.points, hset, e2, ?_, ?_, ?_, by simp, ?_, ?_, ?_, ?_⟩
      · refine List.nodup_append'.2 ⟨ndA, by simp, ?_⟩
        intro y hy hy'
        simp at hy'
        subst hy'
        exact disj hy (by simp)
      · intro w hw
        rcases List.mem_append.1 hw with hw | hw
        · exact h.wnd w hw
        · simp at hw; subst hw; exact ⟨ndB, by simp⟩
      · have h1 := h.head
        rw [hvs] at h1
        have hne : wk ≠ [] := by intro e; rw [e] at hwx; simp at hwx
        rw [List.head?_append_of_ne_nil _ hne, ← h1]
        cases A <;> simp
      · rw [openE_getLast hwx]
        have hp := h.perm
        rw [hvs, openE_split] at hp
        rw [List.flatMap_append]
        simp only [List.flatMap_cons, List.flatMap_nil, List.append_nil]
        rw [cyc_cons, openE_getLast hxB]
        refine List.Perm.trans ?_ (hp.append_right _)
        simp only [List.append_assoc]
        refine List.Perm.append_left _ ?_
        rw [← List.append_assoc, ← List.append_assoc]
        exact (List.perm_append_comm).append_right _
      · have : v.length = A.length + (B.length + 1) := by rw [hvs]; simp
        simp; omega
      · intro j' i' hj'
        have hj'l := (List.getElem?_eq_some_iff.1 hj').1
        simp at hj'l
        have hvj : v[j']? = some i' := by
          rw [← ht, List.getElem?_take] at hj'
          split_ifs at hj'
          exact hj'
        have hnB : i' ∉ B := by
          intro hc
          have hm : i' ∈ A ++ [i] := List.mem_of_getElem? hj'
          rcases List.mem_append.1 hm with hm | hm
          · exact disj hm (List.mem_cons_of_mem _ hc)
          · simp at hm; subst hm; exact iB hc
        change aux'[i']? = _
        rw [e4 i' hnB]
        exact h.auxIn j' i' hvj
      · intro i' a' hi' ha'
        change aux'[i']? = _ at ha'
        by_cases hc : i' ∈ B
        · rw [e3 i' hc] at ha'
          have := Option.some.inj ha'
          omega
        · rw [e4 i' hc] at ha'
          refine h.auxOut i' a' ?_ ha'
          rw [hvs]
          simp at hi' ⊢
          exact ⟨hi'.1, hi'.2, hc⟩
  · -- a new point
    have hao := h.auxOut i a hiv ha
    have hidx : (a + M - offs) % M = a + M - offs := Nat.mod_eq_of_lt (by omega)
    rw [hidx, if_pos (by omega)]
    refine ⟨_, v ++ [i], ws, rfl, ?_⟩
    refine ⟨h.points, ?_, by simpa using h.len, ?_, h.wnd, ?_, by simp, ?_, by simpa using hvl, ?_, ?_⟩
    · change r.paths.set _ _ = _
      rw [h.paths, List.set_append_right _ _ (Nat.le_refl _)]
      simp
    · refine List.nodup_append'.2 ⟨h.vnd, by simp, ?_⟩
      intro y hy hy'
      simp at hy'
      subst hy'
      exact hiv hy
    · have := h.head
      cases v <;> cases wk <;> simp_all
    · cases hv : v.getLast? with
      | none =>
        have hw : wk.getLast? = none := by rw [← h.last]; exact hv
        have hv' : v = [] := by simpa using hv
        have hw' : wk = [] := by simpa using hw
        have hp := h.perm
        rw [hv', hw'] at hp ⊢
        simpa [openE] using hp
      | some x =>
        have hw : wk.getLast? = some x := by rw [← h.last]; exact hv
        rw [openE_getLast hv, openE_getLast hw]
        have hp := h.perm
        refine List.Perm.trans ?_ (hp.append_right _)
        rw [List.append_assoc, List.append_assoc]
        exact List.Perm.append_left _ List.perm_append_comm
    · have hmod : (v.length + offs) % M = offs + v.length := by rw [Nat.mod_eq_of_lt (by omega)]; omega
      intro j i' hj
      change (r.aux.set i _)[i']? = _
      rw [hmod]
      by_cases hjl : j < v.length
      · rw [List.getElem?_append_left hjl] at hj
        have hne : i ≠ i' := by rintro rfl; exact hiv (List.mem_of_getElem? hj)
        rw [List.getElem?_set_ne hne]
        exact h.auxIn j i' hj
      · rw [List.getElem?_append_right (by omega)] at hj
        have hj0 := (List.getElem?_eq_some_iff.1 hj).1
        simp at hj0
        have : j = v.length := by omega
        subst this
        simp at hj
        subst hj
        rw [List.getElem?_set_self (by rw [h.len]; exact hi)]
    · intro i' a' hi' ha'
      simp at hi'
      change (r.aux.set i _)[i']? = _ at ha'
      rw [List.getElem?_set_ne (fun e => hi'.2 e.symm)] at ha'
      exact h.auxOut i' a' hi'.1 ha'

/-- all points of the paths are points of the walk -/
theorem PInv.closed {base : List (List Nat)} {offs : Nat} {pts : List P} {r : Res} {wk v : List Nat} {ws : List (List Nat)}
    (h : PInv base offs pts r wk v ws) (hne : wk ≠ []) :
    v ≠ [] ∧ ((v :: ws).flatMap cyc).Perm (cyc wk) := by
  obtain ⟨x, hx⟩ : ∃ x, wk.getLast? = some x := by
    cases hc : wk.getLast? with
    | none => simp at hc; exact absurd hc hne
    | some x => exact ⟨x, rfl⟩
  obtain ⟨a, ha⟩ : ∃ a, wk.head? = some a := by
    cases wk with
    | nil => exact absurd rfl hne
    | cons a l => exact ⟨a, rfl⟩
  have hvh : v.head? = some a := by rw [h.head]; exact ha
  have hvl : v.getLast? = some x := by rw [h.last]; exact hx
  refine ⟨by rintro rfl; simp at hvh, ?_⟩
  rw [List.flatMap_cons, cyc_eq hvh hvl, cyc_eq ha hx]
  refine List.Perm.trans ?_ (h.perm.append_right _)
  rw [List.append_assoc, List.append_assoc]
  exact List.Perm.append_left _ List.perm_append_comm

end Hob3l.Poly
