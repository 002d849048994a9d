import Verif.Tri.LemmasStep

/-!
Removal of a point from a path.
-/

namespace Hob3l.Tri

open Hob3l.Poly (P Vtx Err ass Ins cross3 vec2Cmp treeNext treePrev)

/-- the states differ only in the triangles, and in the links and `v_dis` of edges in `S` -/
structure Fr (s s' : St) (S : List Nat) : Prop where
  back : s'.back = s.back
  inner : s'.inner = s.inner
  idx : s'.idx = s.idx
  pos : s'.pos = s.pos
  rm : s'.rm = s.rm
  new : s'.new = s.new
  tree : s'.tree = s.tree
  last : s'.last = s.last
  points : s'.points = s.points
  nxt : ∀ e, e ∉ S → s'.ring.nxt e = s.ring.nxt e
  prv : ∀ e, e ∉ S → s'.ring.prv e = s.ring.prv e
  dis : ∀ e, e ∉ S → s'.dis e = s.dis e

theorem Fr.refl (s : St) (S : List Nat) : Fr s s S :=
  ⟨rfl, rfl, rfl, rfl, rfl, rfl, rfl, rfl, rfl, fun _ _ => rfl, fun _ _ => rfl, fun _ _ => rfl⟩

theorem Fr.trans {s s' s'' : St} {S S' : List Nat} (h : Fr s s' S) (h' : Fr s' s'' S') (hs : S' ⊆ S) : Fr s s'' S :=
  ⟨h'.back.trans h.back, h'.inner.trans h.inner, h'.idx.trans h.idx, h'.pos.trans h.pos, h'.rm.trans h.rm, h'.new.trans h.new,
   h'.tree.trans h.tree, h'.last.trans h.last, h'.points.trans h.points,
   fun e he => (h'.nxt e fun hc => he (hs hc)).trans (h.nxt e he),
   fun e he => (h'.prv e fun hc => he (hs hc)).trans (h.prv e he),
   fun e he => (h'.dis e fun hc => he (hs hc)).trans (h.dis e he)⟩

theorem Fr.mono {s s' : St} {S S' : List Nat} (h : Fr s s' S) (hs : S ⊆ S') : Fr s s' S' :=
  (Fr.refl s S').trans h hs

/-- the fields of `remove` except the links and `v_dis` -/
theorem remove_fields (s : St) (v : V) :
    (remove s v).back = s.back ∧ (remove s v).inner = s.inner ∧ (remove s v).idx = s.idx ∧ (remove s v).pos = s.pos ∧
    (remove s v).rm = s.rm ∧ (remove s v).new = s.new ∧ (remove s v).tree = s.tree ∧ (remove s v).last = s.last ∧
    (remove s v).points = s.points ∧ (remove s v).tris = s.tris ∧ (remove s v).dis = upd s.dis v true := by
  unfold remove
  simp only
  split_ifs <;> simp

theorem remove_ring (s : St) (v : V) :
    (remove s v).ring = if s.dis v.1 (!v.2) then Ring.remove s.ring v.1 else s.ring := by
  unfold remove upd
  cases hv : v.2 <;> cases hd : s.dis v.1 (!v.2) <;> simp [hv] at hd ⊢ <;> simp [hd]

theorem ring_remove_nxt (r : Ring.St) (x e : Nat) :
    (Ring.remove r x).nxt e = if e = r.prv x then r.nxt x else if e = x then x else r.nxt e := by
  unfold Ring.remove Ring.chain Ring.setNxt Ring.setPrv
  simp

theorem ring_remove_prv (r : Ring.St) (x e : Nat) :
    (Ring.remove r x).prv e = if e = r.nxt x then r.prv x else if e = x then x else r.prv e := by
  unfold Ring.remove Ring.chain Ring.setNxt Ring.setPrv
  simp

theorem upd_apply {α : Type} (f : Nat → Bool → α) (v : V) (x : α) (e : Nat) (b : Bool) :
    upd f v x e b = if e = v.1 ∧ b = v.2 then x else f e b := rfl

theorem remove2_ok {s : St} {u u' : Nat × Nat} (hu : Un s u) (hj : Jn s u.2 u'.1) (hu' : Un s u') (nd : (ue u ++ ue u').Nodup) :
    Un (remove2 s (dst s u.2)) (u.1, u'.2) ∧ Fr s (remove2 s (dst s u.2)) (ue u ++ ue u') ∧
    (remove2 s (dst s u.2)).ring.prv u.1 = s.ring.prv u.1 ∧ (remove2 s (dst s u.2)).ring.nxt u'.2 = s.ring.nxt u'.2 ∧
    (remove2 s (dst s u.2)).tris = s.tris := by
  obtain ⟨y, x⟩ := u
  obtain ⟨y', x'⟩ := u'
  unfold remove2
  simp only at *
  rw [eqBuddy_dst hj]
  simp only
  obtain ⟨s1, hs1⟩ : ∃ s1, s1 = remove s (dst s x) := ⟨_, rfl⟩
  obtain ⟨s2, hs2⟩ : ∃ s2, s2 = remove s1 (src s y') := ⟨_, rfl⟩
  rw [← hs1, ← hs2]
  have f1 := remove_fields s (dst s x)
  have r1 := remove_ring s (dst s x)
  have f2 := remove_fields s1 (src s y')
  have r2 := remove_ring s1 (src s y')
  rw [← hs1] at f1 r1
  rw [← hs2] at f2 r2
  obtain ⟨a1, a2, a3, a4, a5, a6, a7, a8, a9, a10, a11⟩ := f1
  obtain ⟨b1, b2, b3, b4, b5, b6, b7, b8, b9, b10, b11⟩ := f2
  have hd2 : s2.dis = upd (upd s.dis (dst s x) true) (src s y') true := by rw [b11, a11]
  have hbk : s2.back = s.back := b1.trans a1
  have hix : s2.idx = s.idx := b3.trans a3
  have en1 : s.dis y (s.back y) = false := hu.enS
  have en2 : s.dis x (!s.back x) = false := hu.enD
  have en1' : s.dis y' (s.back y') = false := hu'.enS
  have en2' : s.dis x' (!s.back x') = false := hu'.enD
  have hl := hu.link
  have hl' := hu'.link
  have hvd := hj.vd.ne
  have hvd' : idxOf s (src s y') ≠ none := by rw [← hj.idx]; exact hj.vd.ne
  simp only [disOf, idxOf, src, dst] at hl hl' hvd hvd'
  -- distinct edges
  have n1 : y ≠ y' := fun hc => by
    have := List.nodup_append.1 nd
    exact this.2.2 y (mem_ue1 (y, x)) y' (mem_ue1 (y', x')) hc
  have n2 : y ≠ x' := fun hc => by
    have := List.nodup_append.1 nd
    exact this.2.2 y (mem_ue1 (y, x)) x' (mem_ue2 (y', x')) hc
  have n3 : x ≠ y' := fun hc => by
    have := List.nodup_append.1 nd
    exact this.2.2 x (mem_ue2 (y, x)) y' (mem_ue1 (y', x')) hc
  have n4 : x ≠ x' := fun hc => by
    have := List.nodup_append.1 nd
    exact this.2.2 x (mem_ue2 (y, x)) x' (mem_ue2 (y', x')) hc
  have jn := hj.nxt
  have jp := hj.prv
  -- the links after the first removal
  have R1 : s1.ring.nxt y = y' ∧ s1.ring.prv y' = y ∧ (∀ e, e ≠ y → e ≠ x → s1.ring.nxt e = s.ring.nxt e) ∧
      (∀ e, e ≠ y' → e ≠ x → s1.ring.prv e = s.ring.prv e) ∧ s1.ring.prv y = s.ring.prv y := by
    by_cases hyx : y = x
    · subst hyx
      have : s1.ring = s.ring := by rw [r1]; simp [dst, en1]
      rw [this]
      exact ⟨jn, jp, fun _ _ _ => rfl, fun _ _ _ => rfl, rfl⟩
    · obtain ⟨l1, l2, l3, l4, -⟩ := hl hyx
      have : s1.ring = Ring.remove s.ring x := by rw [r1]; simp [dst, l4]
      rw [this]
      simp only [ring_remove_nxt, ring_remove_prv, l2, jn]
      grind
  obtain ⟨p1, p2, p3, p4, p5⟩ := R1
  have R2 : s2.ring.nxt y = x' ∧ s2.ring.prv x' = y ∧ (∀ e, e ≠ y → e ≠ y' → s2.ring.nxt e = s1.ring.nxt e) ∧
      (∀ e, e ≠ y' → e ≠ x' → s2.ring.prv e = s1.ring.prv e) ∨
      y' = x' ∧ s2.ring = s1.ring := by
    by_cases hyx : y' = x'
    · right
      subst hyx
      refine ⟨rfl, ?_⟩
      rw [r2, a11]
      simp [src, dst, upd_apply, Ne.symm n3, en2']
    · left
      obtain ⟨l1, l2, l3, l4, -⟩ := hl' hyx
      have : s2.ring = Ring.remove s1.ring y' := by
        rw [r2, a11]
        simp [src, dst, upd_apply, Ne.symm n3, l3]
      have k1 : s1.ring.nxt y' = x' := by rw [p3 y' (Ne.symm n1) (Ne.symm n3)]; exact l1
      rw [this]
      simp only [ring_remove_nxt, ring_remove_prv, p2, k1]
      grind
  have Q1 : s2.ring.nxt y = x' ∧ s2.ring.prv x' = y := by
    rcases R2 with h | ⟨rfl, h⟩
    · exact ⟨h.1, h.2.1⟩
    · rw [h]; exact ⟨p1, p2⟩
  have Q2 : ∀ e, e ≠ y → e ≠ x → e ≠ y' → s2.ring.nxt e = s.ring.nxt e := by
    intro e h1 h2 h3
    rcases R2 with h | ⟨rfl, h⟩
    · rw [h.2.2.1 e h1 h3, p3 e h1 h2]
    · rw [h, p3 e h1 h2]
  have Q3 : ∀ e, e ≠ y' → e ≠ x → e ≠ x' → s2.ring.prv e = s.ring.prv e := by
    intro e h1 h2 h3
    rcases R2 with h | ⟨rfl, h⟩
    · rw [h.2.2.2 e h1 h3, p4 e h1 h2]
    · rw [h, p4 e h1 h2]
  have Q4 : s2.ring.prv y = s.ring.prv y := by
    rcases R2 with h | ⟨rfl, h⟩
    · rw [h.2.2.2 y n1 n2, p5]
    · rw [h, p5]
  have Q5 : s2.ring.nxt x' = s.ring.nxt x' := by
    rcases R2 with h | ⟨rfl, h⟩
    · by_cases hyx : y' = x'
      · subst hyx
        have : s2.ring = s1.ring := by
          rw [r2, a11]
          simp [src, dst, upd_apply, Ne.symm n3, en2']
        rw [this, p3 y' (Ne.symm n1) (Ne.symm n3)]
      · rw [h.2.2.1 x' (Ne.symm n2) (Ne.symm hyx), p3 x' (Ne.symm n2) (Ne.symm n4)]
    · rw [h, p3 _ (Ne.symm n1) (Ne.symm n3)]
  have D : ∀ e b, s2.dis e b = if e = y' ∧ b = s.back y' then true else if e = x ∧ b = !s.back x then true else s.dis e b := by
    intro e b; rw [hd2]; rfl
  refine ⟨⟨?_, ?_, ?_⟩, ⟨hbk, b2.trans a2, hix, b4.trans a4, b5.trans a5, b6.trans a6, b7.trans a7, b8.trans a8, b9.trans a9,
    ?_, ?_, ?_⟩, Q4, Q5, b10.trans a10⟩
  · show s2.dis y (s2.back y) = false
    rw [hbk, D]
    have : ¬ (y = x ∧ s.back y = !s.back x) := by
      rintro ⟨rfl, h⟩; cases h2 : s.back y <;> simp [h2] at h
    rw [if_neg (fun h => n1 h.1), if_neg this, en1]
  · show s2.dis x' (!s2.back x') = false
    rw [hbk, D]
    have : ¬ (x' = y' ∧ (!s.back x') = s.back y') := by
      rintro ⟨rfl, h⟩; cases h2 : s.back x' <;> simp [h2] at h
    rw [if_neg this, if_neg (fun h => n4 h.1.symm), en2']
  · intro _
    refine ⟨Q1.1, Q1.2, ?_, ?_, ?_, ?_⟩
    · show s2.dis y (!s2.back y) = true
      rw [hbk, D]
      by_cases hyx : y = x
      · subst hyx; simp
      · simp [hyx, n1, (hl hyx).2.2.1]
    · show s2.dis x' (s2.back x') = true
      rw [hbk, D]
      by_cases hyx : y' = x'
      · subst hyx; simp
      · simp [Ne.symm hyx, Ne.symm n4, (hl' hyx).2.2.2.1]
    · show s2.idx y (!s2.back y) ≠ none
      rw [hbk, hix]
      by_cases hyx : y = x
      · subst hyx; exact hvd
      · exact (hl hyx).2.2.2.2.1
    · show s2.idx x' (s2.back x') ≠ none
      rw [hbk, hix]
      by_cases hyx : y' = x'
      · subst hyx; exact hvd'
      · exact (hl' hyx).2.2.2.2.2
  · intro e he
    have := fun h => he (List.mem_append_left _ h)
    have := fun h => he (List.mem_append_right _ h)
    refine Q2 e ?_ ?_ ?_ <;> rintro rfl <;> apply he
    · exact List.mem_append_left _ (mem_ue1 (e, x))
    · exact List.mem_append_left _ (mem_ue2 (y, e))
    · exact List.mem_append_right _ (mem_ue1 (e, x'))
  · intro e he
    refine Q3 e ?_ ?_ ?_ <;> rintro rfl <;> apply he
    · exact List.mem_append_right _ (mem_ue1 (e, x'))
    · exact List.mem_append_left _ (mem_ue2 (y, e))
    · exact List.mem_append_right _ (mem_ue2 (y', e))
  · intro e he
    funext b
    rw [D]
    have h1 : e ≠ y' := by rintro rfl; exact he (List.mem_append_right _ (mem_ue1 (e, x')))
    have h2 : e ≠ x := by rintro rfl; exact he (List.mem_append_left _ (mem_ue2 (y, e)))
    simp [h1, h2]

end Hob3l.Tri
