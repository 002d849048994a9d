import Verif.Ring.Spec
import Mathlib.Data.List.Nodup
import Mathlib.Tactic.SplitIfs

namespace Hob3l.Ring

theorem chain_nxt (s : St) (p n x : Nat) :
    (chain s p n).nxt x = if x = s.prv n then s.nxt p else if x = p then n else s.nxt x := by
  simp only [chain, setNxt, setPrv]

theorem chain_prv (s : St) (p n x : Nat) :
    (chain s p n).prv x = if x = s.nxt p then s.prv n else if x = n then p else s.prv x := by
  simp only [chain, setNxt, setPrv]

/-- a link that is not touched -/
theorem link_keep {s : St} {p n x y : Nat} (h : Link s x y) (h1 : x ≠ s.prv n) (h2 : x ≠ p) (h3 : y ≠ s.nxt p)
    (h4 : y ≠ n) : Link (chain s p n) x y := by
  refine ⟨?_, ?_⟩
  · rw [chain_nxt, if_neg h1, if_neg h2]; exact h.1
  · rw [chain_prv, if_neg h3, if_neg h4]; exact h.2

/-- the link created between the two arguments -/
theorem link_new {s : St} {p n : Nat} (h1 : p ≠ s.prv n) (h2 : n ≠ s.nxt p) : Link (chain s p n) p n := by
  refine ⟨?_, ?_⟩
  · rw [chain_nxt, if_neg h1, if_pos rfl]
  · rw [chain_prv, if_neg h2, if_pos rfl]

/-- the link created between the old neighbours -/
theorem link_rest {s : St} {p n : Nat} : Link (chain s p n) (s.prv n) (s.nxt p) := by
  refine ⟨?_, ?_⟩
  · rw [chain_nxt, if_pos rfl]
  · rw [chain_prv, if_pos rfl]

theorem isChain_mono {R S : Nat → Nat → Prop} {L : List Nat} (h : L.IsChain R) (hd : L.Nodup)
    (hm : ∀ x ∈ L, ∀ y ∈ L, L.getLast? ≠ some x → L.head? ≠ some y → R x y → S x y) : L.IsChain S := by
  rw [List.isChain_iff_getElem] at *
  intro i hi
  refine hm _ (List.getElem_mem _) _ (List.getElem_mem _) ?_ ?_ (h i hi)
  · intro hc
    rw [List.getLast?_eq_getElem?, List.getElem?_eq_getElem (by omega)] at hc
    injection hc with hc
    have := (List.Nodup.getElem_inj_iff hd).1 hc
    omega
  · intro hc
    rw [List.head?_eq_getElem?, List.getElem?_eq_getElem (by omega)] at hc
    injection hc with hc
    have := (List.Nodup.getElem_inj_iff hd).1 hc
    omega

theorem ring_nxt_head {s : St} {p d : Nat} {P : List Nat} (h : IsRing s (p :: d :: P)) : Link s p d := by
  have := h.2.2.1
  rw [List.isChain_cons_cons] at this
  exact this.1

theorem ring_last {s : St} {p a : Nat} {L : List Nat} (h : IsRing s (p :: L)) (ha : (p :: L).getLast? = some a) :
    Link s a p := h.2.2.2 a ha p rfl

theorem ring_single {s : St} {p : Nat} (h : IsRing s [p]) : Link s p p := h.2.2.2 p (by simp) p (by simp)

/-- rotation -/
theorem ring_rot {s : St} {A B : List Nat} (h : IsRing s (A ++ B)) : IsRing s (B ++ A) := by
  obtain ⟨h1, h2, h3, h4⟩ := h
  cases A with
  | nil => simpa using ⟨h1, h2, h3, h4⟩
  | cons a A =>
    cases B with
    | nil => simp only [List.append_nil, List.nil_append] at *; exact ⟨h1, h2, h3, h4⟩
    | cons b B =>
      refine ⟨by simp, ?_, ?_, ?_⟩
      · exact (List.perm_append_comm.nodup_iff).1 h2
      · rw [List.isChain_append] at h3 ⊢
        refine ⟨h3.2.1, h3.1, ?_⟩
        intro x hx y hy
        apply h4 x ?_ y ?_
        · rw [List.getLast?_append_of_ne_nil _ (by simp)]; exact hx
        · simpa using hy
      · intro x hx y hy
        rw [List.getLast?_append_of_ne_nil _ (by simp)] at hx
        rw [List.isChain_append] at h3
        exact h3.2.2 x hx y (by simpa using hy)

end Hob3l.Ring
