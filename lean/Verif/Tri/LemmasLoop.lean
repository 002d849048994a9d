import Verif.Tri.LemmasEvent2
import Verif.Poly.LemmasLoop

/-!
The loop.
-/

namespace Hob3l.Tri

open Hob3l.Poly (P Vtx Err ass Ins Small Lt Le Started Ended Below sg Proper Arranged IsSearch)

theorem getPt_points (s : St) (v : Vtx) : ∃ X, (getPt s v).points = s.points ++ X ∧ ∀ p ∈ X, p = v.pos := by
  unfold getPt
  simp only
  split
  · exact ⟨[v.pos], rfl, by simp⟩
  · exact ⟨[], by simp, by simp⟩

theorem getPt_tris (s : St) (v : Vtx) : (getPt s v).tris = s.tris ∧ (getPt s v).back = s.back := by
  unfold getPt
  simp only
  split <;> exact ⟨rfl, rfl⟩

theorem getPt_last {s : St} {v : Vtx} (h : s.points ≠ [] → s.last ∈ s.points) : v.pos ∈ (getPt s v).points := by
  unfold getPt
  simp only
  split
  · simp
  · rename_i hc
    rw [not_or, not_not] at hc
    have : s.points ≠ [] := fun h => hc.1 (by rw [h]; rfl)
    rw [← hc.2]; exact h this

/-- an initial part of the vertices -/
theorem loop_append {ins : Ins} {fuel : Nat} {B : List Vtx} : ∀ {A : List Vtx} {st st1 : St}, A.length % 2 = 0 →
    loop ins fuel A st = .ok (true, st1) → loop ins fuel (A ++ B) st = loop ins fuel B st1
  | [], st, st1, _, h => by cases h; rfl
  | [s], st, st1, hl, _ => by simp at hl
  | s :: t :: A, st, st1, hl, h => by
    rw [List.cons_append, List.cons_append]
    rw [loop] at h ⊢
    by_cases hp : s.pos ≠ t.pos
    · rw [if_pos hp] at h; cases h
    · rw [if_neg hp] at h ⊢
      cases he : event ins fuel (getPt (getPt st s) t) s t with
      | error e => rw [he] at h; cases h
      | ok st2 =>
        rw [he] at h
        rw [bind_okE] at h ⊢
        exact loop_append (by simp at hl; omega) h

section
variable {ed : Nat → Bool → P} {l : List Vtx}

theorem loop_inv (hl : Proper l) (ha : Arranged ed l) {ins : Ins} (hins : IsSearch ed ins) {n0 : Nat} (hn : ∀ w ∈ l, w.edge < n0)
    {fuel : Nat} (hfuel : n0 + l.length ≤ fuel) {suf : List Vtx} : ∀ {rest pre : List Vtx} {st : St} {arms : List Arm},
    l = pre ++ rest ++ suf → rest.length % 2 = 0 → Inv ed n0 st pre arms →
    ∃ ok st', loop ins fuel rest st = .ok (ok, st') ∧ (∀ t ∈ st'.tris, TriOk st'.points t) ∧
      (ok = true → (∃ arms', Inv ed n0 st' (pre ++ rest) arms') ∧ (∀ e, Started pre e → st'.back e = st.back e) ∧
        (∀ p, (rest.countP fun v => v.pos = p) % 2 = 0) ∧
        (∀ p, p ∈ st'.points ↔ p ∈ st.points ∨ ∃ v ∈ rest, v.pos = p)) ∧
      (ok = false → ∃ p, (rest.countP fun v => v.pos = p) % 2 = 1)
  | [], pre, st, arms, hpre, _, h => ⟨true, st, rfl, h.tris, fun _ => ⟨⟨arms, by simpa using h⟩, fun _ _ => rfl, fun _ => rfl, by simp⟩,
      by simp⟩
  | [s], _, _, _, _, hev, _ => by simp at hev
  | s :: t :: rest, pre, st, arms, hpre, hev, h => by
    have hpre' : l = pre ++ s :: t :: (rest ++ suf) := by rw [hpre]; simp
    have hle := Poly.arranged_le hl ha
    rw [hpre', List.pairwise_append] at hle
    have hle := hle.2.1
    unfold loop
    by_cases hp : s.pos ≠ t.pos
    · simp only [if_pos hp]
      refine ⟨false, _, rfl, ?_, by simp, fun _ => ⟨s.pos, ?_⟩⟩
      · obtain ⟨X1, e1, -⟩ := getPt_points st s
        obtain ⟨X2, e2, -⟩ := getPt_points (getPt st s) t
        intro u hu
        rw [(getPt_tris _ t).1, (getPt_tris st s).1] at hu
        rw [e2, e1]
        exact (h.tris u hu).append.append
      · have hz : (rest.countP fun v => v.pos = s.pos) = 0 := by
          rw [List.countP_eq_zero]
          intro v hv
          simp only [decide_eq_true_eq]
          intro hc
          have hst := (List.pairwise_cons.1 hle).1 t (by simp)
          have htv := (List.pairwise_cons.1 (List.pairwise_cons.1 hle).2).1 v (by simp [hv])
          rw [hc] at htv
          exact hp (Poly.Le.antisymm hst htv)
        rw [List.countP_cons, List.countP_cons, hz]
        have hts : ¬ t.pos = s.pos := fun hc => hp hc.symm
        simp [hts]
    · simp only [if_neg hp]
      rw [not_not] at hp
      obtain ⟨s1, arms1, e1, h1, k1, k2⟩ := event_inv hl ha hins hn h hpre' hp hfuel
      rw [e1, bind_okE]
      obtain ⟨ok, st', q1, q2, q3, q4⟩ := loop_inv hl ha hins hn hfuel (suf := suf) (rest := rest) (pre := pre ++ [s, t]) (by rw [hpre']; simp)
        (by simp at hev; omega) h1
      refine ⟨ok, st', q1, q2, fun hok => ?_, fun hok => ?_⟩
      · obtain ⟨⟨a', i1⟩, i2, i3, i4⟩ := q3 hok
        refine ⟨⟨a', by simpa using i1⟩, fun e he => ?_, fun p => ?_, fun p => ?_⟩
        · have hS : Started (pre ++ [s, t]) e := by
            obtain ⟨w, hw, q⟩ := he
            exact ⟨w, by simp [hw], q⟩
          rw [i2 e hS, k1 e he, (getPt_tris _ t).2, (getPt_tris st s).2]
        · have := i3 p
          rw [List.countP_cons, List.countP_cons, hp]
          by_cases hc : t.pos = p
          · simp [hc]; omega
          · simp [hc]; exact this
        · rw [i4, k2]
          obtain ⟨X1, x1, y1⟩ := getPt_points st s
          obtain ⟨X2, x2, y2⟩ := getPt_points (getPt st s) t
          have hs : s.pos ∈ (getPt st s).points := by
            apply getPt_last
            intro hne
            have := h.lastv _ (List.getLast?_eq_getLast_of_ne_nil hne)
            rw [this]; exact List.getLast_mem hne
          rw [x2]
          constructor
          · rintro (hm | ⟨v, hv, rfl⟩)
            · rw [x1] at hm
              simp only [List.mem_append] at hm
              rcases hm with (hm | hm) | hm
              · exact .inl hm
              · exact .inr ⟨s, by simp, (y1 p hm).symm⟩
              · exact .inr ⟨t, by simp, (y2 p hm).symm⟩
            · exact .inr ⟨v, by simp [hv], rfl⟩
          · rintro (hm | ⟨v, hv, rfl⟩)
            · left; rw [x1]; simp [hm]
            · simp only [List.mem_cons] at hv
              rcases hv with rfl | rfl | hv
              · left; simp [hs]
              · left; rw [← hp]; simp [hs]
              · exact .inr ⟨v, hv, rfl⟩
      · obtain ⟨p, hc⟩ := q4 hok
        refine ⟨p, ?_⟩
        rw [List.countP_cons, List.countP_cons, hp]
        by_cases hd : t.pos = p
        · simp [hd]; omega
        · simp [hd]; exact hc

theorem init_inv (ring : Ring.St) (back : Nat → Bool) (idx : Nat → Bool → Option Nat) (rm : Nat → V) (n0 : Nat) :
    Inv ed n0 (init ring back idx rm ed n0) [] [] where
  ai := by simp
  dj := by simp [us]
  tree := rfl
  mem := by simp [init, Started]
  below := by simp [init]
  own := by simp [us]
  new := by simp [init]
  pos := fun _ _ => rfl
  fresh := fun _ _ _ => rfl
  pts := by simp [init]
  small := by simp [init]
  tris := by simp [init]
  inn := fun _ _ => rfl
  innN := by simp [us]
  ptp := by simp [init]
  apt := by simp
  snd := by simp [FlagS, init]
  cmp := by simp [Started]
  sum := by simp [init]
  open' := by simp [init]
  lastp := by simp [init]
  lastv := by simp [init]

/-- at the end there are no paths left -/
theorem inv_end (hl : Proper l) {n0 : Nat} {st : St} {arms : List Arm} (h : Inv ed n0 st l arms) : arms = [] := by
  cases arms with
  | nil => rfl
  | cons a arms =>
    have : a.b ∈ st.tree := by rw [h.tree]; simp [bt]
    obtain ⟨h1, h2⟩ := (h.mem _).1 this
    exact absurd (Poly.proper_end hl h1) h2

end

end Hob3l.Tri
