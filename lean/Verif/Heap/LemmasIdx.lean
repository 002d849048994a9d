import Verif.Heap.Lemmas

namespace Hob3l.Heap

open Hob3l.Matq

variable {α : Type} {cmp : α → α → Int} [DecidableEq α]

/-- the result of an operation of heap.c that permutes the vector: the result of the operation without indices, with right
indices, and other memory unchanged -/
def Sim (h : Heap α) (L' : List α) (r : Option (Heap α)) : Prop :=
  ∃ ix', r = some ⟨L', ix'⟩ ∧ L'.Perm h.arr ∧ Indexed L' ix' ∧ ∀ x, x ∉ h.arr → ix' x = h.ix x

theorem swap_sim {h : Heap α} (hn : h.arr.Nodup) (hi : Indexed h.arr h.ix) {p q : Nat} {L' : List α}
    (hv : vswap h.arr p q = some L') : Sim h L' (swap h p q) := by
  simp only [vswap, Option.bind_eq_bind, Option.bind_eq_some_iff, Option.some.injEq] at hv
  obtain ⟨x, hx, y, hy, rfl⟩ := hv
  obtain ⟨hp, rfl⟩ := List.getElem?_eq_some_iff.mp hx
  obtain ⟨hq, rfl⟩ := List.getElem?_eq_some_iff.mp hy
  have hs := swap_list hp hq
  refine ⟨setIx (setIx h.ix h.arr[p] q) h.arr[q] p, by simp [swap, hp, hq], hs.2, ?_, ?_⟩
  · intro i z hz
    rw [hs.1] at hz
    have hzi := hi _ _ hz
    have hpi := hi _ _ hx
    have hqi := hi _ _ hy
    unfold setIx
    unfold sw at hzi hz
    by_cases h1 : z = h.arr[q]
    · rw [if_pos h1]
      rw [h1, hqi] at hzi
      split_ifs at hzi <;> omega
    · rw [if_neg h1]
      by_cases h2 : z = h.arr[p]
      · rw [if_pos h2]
        rw [h2, hpi] at hzi
        split_ifs at hzi with a b
        · subst a; rw [if_pos rfl, hy] at hz; exact absurd (Option.some.inj hz).symm h1
        · omega
        · omega
      · rw [if_neg h2]
        split_ifs at hzi hz with a b
        · exact absurd (by rw [hy] at hz; exact (Option.some.inj hz).symm) h1
        · exact absurd (by rw [hx] at hz; exact (Option.some.inj hz).symm) h2
        · exact hzi
  · intro z hz
    unfold setIx
    rw [if_neg (fun e => hz (by rw [e]; exact List.getElem_mem hq)),
      if_neg (fun e => hz (by rw [e]; exact List.getElem_mem hp))]

theorem Sim.trans {h : Heap α} {L1 L2 : List α} {ix1 : α → Nat} {r : Option (Heap α)}
    (hp : L1.Perm h.arr) (hf : ∀ x, x ∉ h.arr → ix1 x = h.ix x) (h2 : Sim ⟨L1, ix1⟩ L2 r) : Sim h L2 r := by
  obtain ⟨ix', a, b, c, d⟩ := h2
  exact ⟨ix', a, b.trans hp, c, fun x hx => by rw [d x (by simpa using fun hh => hx (hp.mem_iff.mp hh))]; exact hf x hx⟩

theorem Sim.rfl' {h : Heap α} (hi : Indexed h.arr h.ix) : Sim h h.arr (some h) :=
  ⟨h.ix, rfl, List.Perm.refl _, hi, fun _ _ => rfl⟩

theorem upLoop_sim : ∀ (n : Nat) (h : Heap α) (pos : Nat) (L' : List α), h.arr.Nodup → Indexed h.arr h.ix →
    vupLoop cmp n h.arr pos = some L' → Sim h L' (upLoop cmp n h pos) := by
  intro n
  induction n with
  | zero =>
    intro h pos L' hn hi hv
    simp only [vupLoop] at hv
    split_ifs at hv with h0
    obtain rfl := Option.some.inj hv
    simp only [upLoop, if_neg h0]
    exact Sim.rfl' hi
  | succ n ih =>
    intro h pos L' hn hi hv
    unfold vupLoop at hv
    unfold upLoop
    split_ifs at hv with h0
    · rw [if_pos h0]
      simp only [Option.bind_eq_bind, Option.bind_eq_some_iff] at hv
      obtain ⟨p, hp, q, hq, hv⟩ := hv
      simp only [hp, hq, Option.bind_eq_bind, Option.bind_some]
      split_ifs at hv with hc
      · rw [if_pos hc]
        obtain rfl := Option.some.inj hv
        exact Sim.rfl' hi
      · rw [if_neg hc]
        obtain ⟨L1, h1, h2⟩ := Option.bind_eq_some_iff.mp hv
        obtain ⟨ix1, s1, s2, s3, s4⟩ := swap_sim hn hi h1
        rw [s1, Option.bind_some]
        exact Sim.trans s2 s4 (ih ⟨L1, ix1⟩ _ L' (s2.nodup_iff.mpr hn) s3 h2)
    · rw [if_neg h0]
      obtain rfl := Option.some.inj hv
      exact Sim.rfl' hi

theorem up_sim {h : Heap α} {pos : Nat} {L' : List α} (hn : h.arr.Nodup) (hi : Indexed h.arr h.ix)
    (hv : vup cmp h.arr pos = some L') : Sim h L' (up cmp h pos) := by
  simp only [vup, Option.bind_eq_bind, Option.bind_eq_some_iff] at hv
  obtain ⟨_, h1, h2⟩ := hv
  simp only [up, h1, Option.bind_eq_bind, Option.bind_some]
  exact upLoop_sim _ h pos L' hn hi h2

theorem downLoop_sim : ∀ (n : Nat) (h : Heap α) (pos : Nat) (L' : List α), h.arr.Nodup → Indexed h.arr h.ix →
    vdownLoop cmp n h.arr pos = some L' → Sim h L' (downLoop cmp n h pos) := by
  intro n
  induction n with
  | zero => intro h pos L' hn hi hv; simp [vdownLoop] at hv
  | succ n ih =>
    intro h pos L' hn hi hv
    unfold vdownLoop at hv
    unfold downLoop
    split_ifs at hv with h0
    · rw [if_pos h0]
      obtain rfl := Option.some.inj hv
      exact Sim.rfl' hi
    · rw [if_neg h0]
      simp only [Option.bind_eq_bind, Option.bind_eq_some_iff] at hv
      obtain ⟨c, hc, d, hd, q, hq, hv⟩ := hv
      simp only [hc, hd, hq, Option.bind_eq_bind, Option.bind_some]
      split_ifs at hv with hc
      · rw [if_pos hc]
        obtain rfl := Option.some.inj hv
        exact Sim.rfl' hi
      · rw [if_neg hc]
        obtain ⟨L1, h1, h2⟩ := Option.bind_eq_some_iff.mp hv
        obtain ⟨ix1, s1, s2, s3, s4⟩ := swap_sim hn hi h1
        rw [s1, Option.bind_some]
        exact Sim.trans s2 s4 (ih ⟨L1, ix1⟩ _ L' (s2.nodup_iff.mpr hn) s3 h2)

theorem down_sim {h : Heap α} {pos : Nat} {L' : List α} (hn : h.arr.Nodup) (hi : Indexed h.arr h.ix)
    (hv : vdown cmp h.arr pos = some L') : Sim h L' (down cmp h pos) := by
  simp only [vdown, Option.bind_eq_bind, Option.bind_eq_some_iff] at hv
  obtain ⟨_, h1, h2⟩ := hv
  simp only [down, h1, Option.bind_eq_bind, Option.bind_some]
  exact downLoop_sim _ h pos L' hn hi h2

theorem update_sim {h : Heap α} {pos : Nat} {L' : List α} (hn : h.arr.Nodup) (hi : Indexed h.arr h.ix)
    (hv : vupdate cmp h.arr pos = some L') : Sim h L' (update cmp h pos) := by
  simp only [vupdate, Option.bind_eq_bind, Option.bind_eq_some_iff] at hv
  obtain ⟨L1, h1, h2⟩ := hv
  obtain ⟨ix1, s1, s2, s3, s4⟩ := up_sim hn hi h1
  simp only [update, s1, Option.bind_eq_bind, Option.bind_some]
  exact Sim.trans s2 s4 (down_sim (h := ⟨L1, ix1⟩) (s2.nodup_iff.mpr hn) s3 h2)

theorem update_ok (ho : IsOrder cmp) {h : Heap α} {pos : Nat} (hp : pos < h.arr.length) (hn : h.arr.Nodup)
    (hi : Indexed h.arr h.ix) (I : Except cmp h.arr pos) :
    ∃ h', update cmp h pos = some h' ∧ h'.arr.Perm h.arr ∧ Good cmp h' ∧ ∀ x, x ∉ h.arr → h'.ix x = h.ix x := by
  obtain ⟨L', e1, e2, e3⟩ := vupdate_ok' ho h.arr pos hp I
  obtain ⟨ix', s1, s2, s3, s4⟩ := update_sim hn hi e1
  exact ⟨_, s1, s2, ⟨e3, s2.nodup_iff.mpr hn, s3⟩, s4⟩

theorem initIx_other : ∀ (L : List α) (i : Nat) (ix : α → Nat) (x : α), x ∉ L → initIx L i ix x = ix x := by
  intro L
  induction L with
  | nil => intro i ix x _; rfl
  | cons y L ih =>
    intro i ix x hx
    simp only [List.mem_cons, not_or] at hx
    rw [initIx, ih _ _ _ hx.2, setIx, if_neg hx.1]

theorem initIx_at : ∀ (L : List α) (i : Nat) (ix : α → Nat), L.Nodup → ∀ k x, L[k]? = some x → initIx L i ix x = i + k := by
  intro L
  induction L with
  | nil => intro i ix _ k x h; simp at h
  | cons y L ih =>
    intro i ix hn k x h
    rw [List.nodup_cons] at hn
    cases k with
    | zero =>
      simp at h; subst h
      rw [initIx, initIx_other _ _ _ _ hn.1, setIx, if_pos rfl]; rfl
    | succ k =>
      simp at h
      rw [initIx, ih _ _ hn.2 k x h]; omega

end Hob3l.Heap
