import Verif.Sieve.Lemmas
import Mathlib.Data.List.Nodup

/-!
C59: generated keyword lookup functions find exactly the keywords.
-/

namespace Hob3l.Sieve

open Hob3l.Matq

/-- For every set of different keys and every string: the generated lookup function neither reads outside of the string
nor of a key, and it returns an entry iff the string is its key; it returns the default iff the string is not a key. -/
theorem C59_find (keys : List (List Nat)) (hd : keys.Nodup) (s : List Nat) :
    ∃ r, find keys s = some r ∧ (∀ i, r = some i ↔ keys[i]? = some s) ∧ (r = none ↔ s ∉ keys) := by
  suffices h : ∃ r, find keys s = some r ∧ (∀ i, r = some i ↔ keys[i]? = some s) by
    obtain ⟨r, h1, h2⟩ := h
    refine ⟨r, h1, h2, ?_⟩
    rw [List.mem_iff_getElem?]
    cases r with
    | none =>
      refine ⟨fun _ h => ?_, fun _ => rfl⟩
      obtain ⟨i, hi⟩ := h
      cases (h2 i).2 hi
    | some i =>
      refine ⟨fun h => (by cases h), fun h => ?_⟩
      exact absurd ⟨i, (h2 i).1 rfl⟩ h
  have hmem : ∀ (k : List Nat) (i : Nat),
      (k, i) ∈ keys.zipIdx.filter (fun e => e.1.length = s.length) ↔ keys[i]? = some k ∧ k.length = s.length := by
    intro k i
    rw [List.mem_filter, List.mem_zipIdx_iff_getElem?]
    simp
  obtain ⟨st, p, q, h1, h2, h3⟩ := good_choose s.length (keys.zipIdx.filter (fun e => e.1.length = s.length)) (by
      intro e he
      exact ((hmem e.1 e.2).1 he).2) (by
      refine List.Nodup.sublist (l₂ := keys.zipIdx.map Prod.fst) (List.filter_sublist.map _) ?_
      rw [List.zipIdx_map_fst]
      exact hd) s [0] rfl
  unfold find
  rw [mkLen_eq]
  simp only [h2, Option.bind_eq_bind, Option.bind_some]
  unfold check
  rcases h3 with ⟨h3, h4⟩ | ⟨k, i, h3, h4, h5⟩
  · subst h3
    refine ⟨none, rfl, fun i => ⟨fun h => (by cases h), fun h => ?_⟩⟩
    exact absurd ((hmem s i).2 ⟨h, rfl⟩) (h4 i)
  · subst h3
    obtain ⟨h6, h7⟩ := (hmem _ _).1 h4
    have ho : s.length + 1 - (q ++ [0]).length = p.length := by
      rw [h1]; simp
    simp only [h6, Option.bind_eq_bind, Option.bind_some, ho]
    have hq : s.length - p.length = q.length := by rw [h1]; simp
    have hk : k.length = q.length := by
      rw [h1] at h7; simpa using h7
    unfold ass
    rw [if_pos (by simp), Option.bind_some, if_pos (by rw [hq]; simp; omega), Option.bind_some, hq]
    have e1 : ((p ++ k ++ [0]).drop p.length).take q.length = k := by
      rw [List.append_assoc, List.drop_left, ← hk, List.take_left]
    have e2 : (q ++ [0]).take q.length = q := List.take_left
    rw [e1, e2]
    by_cases hkq : k = q
    · rw [if_pos hkq]
      refine ⟨some i, rfl, fun j => ?_⟩
      subst hkq
      rw [← h1] at h6
      constructor
      · intro h; injection h with h; rw [← h]; exact h6
      · intro h
        have hi : i < keys.length := by
          by_contra hn
          rw [List.getElem?_eq_none (by omega)] at h6
          cases h6
        rw [(List.getElem?_inj hi hd).1 (by rw [h6, h] : keys[i]? = keys[j]?)]
    · rw [if_neg hkq]
      refine ⟨none, rfl, fun j => ⟨fun h => (by cases h), fun h => ?_⟩⟩
      exact absurd (h5 j ((hmem s j).2 ⟨h, rfl⟩)).symm hkq

/-- keys that share prefixes and ones that do not: `ab`, `ac`, `b`, `bcd` -/
example : [[97, 98], [97, 99], [98], [98, 99, 100]].Nodup ∧
    find [[97, 98], [97, 99], [98], [98, 99, 100]] [97, 99] = some (some 1) ∧
    find [[97, 98], [97, 99], [98], [98, 99, 100]] [98, 99, 101] = some none := by decide

end Hob3l.Sieve
