import Verif.Swap.Lemmas
import Verif.Dict.Props

/-
Property C126: exchanging two nodes in memory.
-/

namespace Hob3l.Swap

open Hob3l.Matq (ass)
open Hob3l.Dict
open Hob3l.Dict.Tree

variable {α M : Type} [DecidableEq α]

/-- **C126**: let any number of trees without common nodes be in memory, and let `a` and `b` be nodes of these: of the same tree, of
two different trees, one the parent of the other, siblings, roots, or not in a tree yet (a tree of one node).  Then exchanging them
does not abort, and afterwards memory holds the same trees with the two names exchanged; the rest of the memory is unchanged. -/
theorem C126_swap (ts : List (Dict.Tree α)) (hn : (nodes ts).Nodup) (h : Heap α M) (ht : ∀ t ∈ ts, Holds h none t) (a b : α)
    (ha : a ∈ nodes ts) (hb : b ∈ nodes ts) :
    ∃ h', swap a b h = some h' ∧ (∀ t ∈ ts, Holds h' none (rename (exch a b) t)) ∧
      (∀ x, x ∉ nodes ts → h'.par x = h.par x ∧ h'.ed x = h.ed x ∧ h'.st x = h.st x) ∧ h'.sm = h.sm := by
  have hc := cons_of_holds hn ht
  obtain ⟨h', h1, h2, h3⟩ := swap_conj hc ha hb
  exact ⟨h', h1, fun t k => holds_conj h2 ha hb (ht t k) fun x hx => List.mem_flatMap.mpr ⟨t, k, hx⟩, h3.1, h3.2⟩

/-- **C126**: exchanging the names keeps the shape and the colours, so a valid tree remains valid, and exchanges the two nodes in the
sequence of the nodes. -/
theorem C126_sequence (a b : α) (t : Dict.Tree α) :
    toList (rename (exch a b) t) = (toList t).map (exch a b) ∧ (Valid t → Valid (rename (exch a b) t)) := by
  refine ⟨toList_rename _ t, fun ⟨⟨c, n, h1⟩, h2⟩ => ⟨⟨c, n, rb_rename _ h1⟩, ?_⟩⟩
  rw [toList_rename]
  exact (List.nodup_map_iff fun x y e => exch_inj e).mpr h2

/-- **C126**: the version that updates a root variable: if it was the root of one of the trees, it still is. -/
theorem C126_root (ts : List (Dict.Tree α)) (hn : (nodes ts).Nodup) (h : Heap α M) (ht : ∀ t ∈ ts, Holds h none t) (a b : α)
    (ha : a ∈ nodes ts) (hb : b ∈ nodes ts) (t : Dict.Tree α) :
    ∃ h', swapRoot a b (rootId t) h = some (h', rootId (rename (exch a b) t)) ∧ ∀ t ∈ ts, Holds h' none (rename (exch a b) t) := by
  obtain ⟨h', h1, h2, -⟩ := C126_swap ts hn h ht a b ha hb
  refine ⟨h', ?_, h2⟩
  simp only [swapRoot, h1, Option.bind_eq_bind, Option.bind_some, newRoot_eq, rootId_rename]

/-- **C126**: the version for two root variables. -/
theorem C126_root2 (t u : Dict.Tree α) (hn : (toList t ++ toList u).Nodup) (h : Heap α M) (ht : Holds h none t) (hu : Holds h none u) (a b : α)
    (ha : a ∈ toList t ++ toList u) (hb : b ∈ toList t ++ toList u) :
    ∃ h', swapRoot2 a b (rootId t) (rootId u) h = some (h', rootId (rename (exch a b) t), rootId (rename (exch a b) u)) ∧
      Holds h' none (rename (exch a b) t) ∧ Holds h' none (rename (exch a b) u) := by
  have e : nodes [t, u] = toList t ++ toList u := by simp [nodes]
  obtain ⟨h', h1, h2, -⟩ := C126_swap [t, u] (by rw [e]; exact hn) h (by simp [ht, hu]) a b (by rw [e]; exact ha) (by rw [e]; exact hb)
  refine ⟨h', ?_, h2 t (by simp), h2 u (by simp)⟩
  simp only [swapRoot2, h1, Option.bind_eq_bind, Option.bind_some, newRoot_eq, rootId_rename]

/-- **C126**, replacing a node by a new one: the new node takes the place, and the old one is alone afterwards. -/
theorem C126_replace (t : Dict.Tree α) (hn : (toList t).Nodup) (h : Heap α M) (ht : Holds h none t) (a b : α) (s : Nat)
    (ha : a ∈ toList t) (hb : b ∉ toList t) (hs : Holds h none (node leaf b s leaf)) :
    ∃ h', swapRoot a b (rootId t) h = some (h', rootId (rename (exch a b) t)) ∧ Holds h' none (rename (exch a b) t) ∧
      toList (rename (exch a b) t) = (toList t).map (fun x => if x = a then b else x) ∧ Holds h' none (node leaf a s leaf) := by
  have e : nodes [t, node leaf b s leaf] = toList t ++ [b] := by simp [nodes, toList]
  have hn' : (toList t ++ [b]).Nodup := by
    rw [List.nodup_append]
    refine ⟨hn, by simp, ?_⟩
    intro x hx y hy
    rw [List.mem_singleton] at hy
    subst hy
    exact fun k => hb (k ▸ hx)
  obtain ⟨h', h1, h2⟩ := C126_root [t, node leaf b s leaf] (by rw [e]; exact hn') h (by simp [ht, hs]) a b (by rw [e]; simp [ha])
    (by rw [e]; simp) t
  refine ⟨h', h1, h2 t (by simp), ?_, ?_⟩
  · rw [toList_rename]
    refine List.map_congr_left fun x hx => ?_
    have : x ≠ b := fun k => hb (k ▸ hx)
    simp [exch, this]
  · have := h2 (node leaf b s leaf) (by simp)
    simpa only [rename, exch_right] using this

/-- **C126**, exchanging two edges of a bundle: whatever is summed, if the sums were right before, they are so afterwards, and the
loops end: as many rounds as there are nodes suffice. -/
theorem C126_bundle (g : α → M → M → M) (z : M) (t : Dict.Tree α) (hn : (toList t).Nodup) (h : Heap α M) (ht : Holds h none t)
    (hs : Sums g z h t) (a b : α) (hab : a ≠ b) (ha : a ∈ toList t) (hb : b ∈ toList t) (n : Nat) (hlen : (toList t).length ≤ n) :
    ∃ h', bundleSwap g z n a b (rootId t) h = some (h', rootId (rename (exch a b) t)) ∧ Holds h' none (rename (exch a b) t) ∧
      Sums g z h' (rename (exch a b) t) ∧ ∀ x, x ∉ toList t → h'.sm x = h.sm x := by
  have e : nodes [t] = toList t := by simp [nodes]
  have hcons := cons_of_holds (ts := [t]) (h := h) (by rw [e]; exact hn) (by simp [ht])
  rw [e] at hcons
  obtain ⟨h1, e1, hj, -, hsm⟩ := swap_conj hcons ha hb
  have ht1 : Holds h1 none (rename (exch a b) t) := holds_conj hj ha hb ht fun x hx => hx
  -- the same nodes
  have hmem : ∀ x, x ∈ toList (rename (exch a b) t) ↔ x ∈ toList t := by
    intro x
    rw [toList_rename, List.mem_map]
    constructor
    · rintro ⟨y, hy, rfl⟩
      exact exch_mem (D := (· ∈ toList t)) ha hb hy
    · intro hx
      exact ⟨exch a b x, exch_mem (D := (· ∈ toList t)) ha hb hx, exch_exch x⟩
  have hnd : (toList (rename (exch a b) t)).Nodup := by
    rw [toList_rename]
    exact (List.nodup_map_iff fun x y e => exch_inj e).mpr hn
  have hlen' : (toList (rename (exch a b) t)).length = (toList t).length := by rw [toList_rename, List.length_map]
  have hc1 := cons_of_holds (ts := [rename (exch a b) t]) (h := h1) (by simpa [nodes] using hnd) (by simp [ht1])
  have e' : nodes [rename (exch a b) t] = toList (rename (exch a b) t) := by simp [nodes]
  rw [e'] at hc1
  have ch : ∀ (k : Heap α M), k.par = h1.par → ∀ x, x ∈ toList t → ∃ m, m ≤ n ∧ Chain k (some x) m := by
    intro k hk x hx
    obtain ⟨m, h2, h3⟩ := holds_chain ht1 Chain.nil x ((hmem x).mpr hx)
    exact ⟨m, by omega, chain_sm hk h3⟩
  obtain ⟨h2, r1, r2, r3, r4, r5, r6⟩ := updSumRec_ok (g := g) (z := z) n (some a) h1 hc1
    (fun x e => by cases e; exact (hmem a).mpr ha) (ch h1 rfl a ha)
  have hc2 : Cons h2 (· ∈ toList (rename (exch a b) t)) := ⟨by rw [r3, r2]; exact hc1.child, by rw [r3, r2]; exact hc1.parent,
    by rw [r3]; exact hc1.uniq, by rw [r2]; exact hc1.irr⟩
  obtain ⟨h3, s1, s2, s3, s4, s5, s6⟩ := updSumRec_ok (g := g) (z := z) n (some b) h2 hc2
    (fun x e => by cases e; exact (hmem b).mpr hb) (ch h2 r2 b hb)
  have hh : ∀ (k k' : Heap α M), k'.par = k.par → k'.ed = k.ed → k'.st = k.st → ∀ (t : Dict.Tree α) p, Holds k p t → Holds k' p t := by
    intro k k' q1 q2 q3 t
    induction t with
    | leaf => intro p _; trivial
    | node l x s r i1 i2 =>
      rintro p ⟨w1, w2, w3, w4, w5, w6⟩
      exact ⟨by rw [q1]; exact w1, by rw [q2]; exact w2, by rw [q2]; exact w3, by rw [q3]; exact w4, i1 _ w5, i2 _ w6⟩
  have ht3 : Holds h3 none (rename (exch a b) t) := hh h2 h3 s2 s3 s4 _ _ (hh h1 h2 r2 r3 r4 _ _ ht1)
  refine ⟨h3, ?_, ht3, ?_, ?_⟩
  · simp only [bundleSwap, swapRoot, ass, hab, ne_eq, not_false_eq_true, if_true, e1, r1, s1, Option.bind_eq_bind, Option.bind_some,
      newRoot_eq, rootId_rename]
  · refine (sums_iff ht3).mpr fun x hx => s6 x hx fun nb => r6 x hx fun na => ?_
    have nb' : ¬ Above h1 (some b) x := fun q => nb (above_sm (h := h2) (h' := h1) r2.symm q)
    -- neither `a`, nor `b`, nor a parent of them
    have xa : x ≠ a := fun e => na (by rw [e]; exact Above.self a)
    have xb : x ≠ b := fun e => nb' (by rw [e]; exact Above.self b)
    have lx : Loc g z h x := (sums_iff ht).mp hs x ((hmem x).mp hx)
    obtain ⟨-, j2, -⟩ := hj x ((hmem x).mp hx)
    rw [exch_other xa xb] at j2
    have get : ∀ i, getSum z h1 (h1.ed x i) = getSum z h (h.ed x i) := by
      intro i
      have := j2 i
      cases k : h.ed x i with
      | none =>
        rw [k] at this
        rw [this]; rfl
      | some c =>
        rw [k, Option.map_some] at this
        have par := (hc1.child x i _ hx this).2
        have ca : exch a b c ≠ a := fun q => na (Above.up (by rw [q] at par; rw [par]; exact Above.self x))
        have cb : exch a b c ≠ b := fun q => nb' (Above.up (by rw [q] at par; rw [par]; exact Above.self x))
        have : exch a b c = c := by
          refine exch_other (fun q => cb (by rw [q, exch_left])) (fun q => ca (by rw [q, exch_right]))
        rw [‹h1.ed x i = _›, this]
        simp [getSum, hsm]
    rw [Loc, get, get, hsm]
    exact lx
  · intro x hx
    have : x ∉ toList (rename (exch a b) t) := fun k => hx ((hmem x).mp k)
    rw [s5 x this, r5 x this, hsm]

/-! ### examples -/

/-- memory that holds a given tree; addresses are numbers -/
def store : Dict.Tree Nat → Option Nat → Heap Nat Nat → Heap Nat Nat
  | leaf, _, h => h
  | node l a s r, p, h =>
    let h1 := store r (some a) (store l (some a) h)
    { par := fun x => if x = a then p else h1.par x
      ed := fun x i => if x = a then (if i then rootId r else rootId l) else h1.ed x i
      st := fun x => if x = a then s else h1.st x
      sm := fun x => if x = a then Aug.total (fun a x y => a ^^^ x ^^^ y) 0 (node l a s r) else h1.sm x }

/-- memory with the example tree and a further node 9 -/
def exHeap : Heap Nat Nat := store exTree none { par := fun _ => none, ed := fun _ _ => none, st := fun _ => 0, sm := fun x => x }

theorem exHeap_holds : Holds exHeap none exTree := by
  simp only [Holds, exTree, and_true, true_and]
  decide

example : Holds exHeap none (node leaf 9 0 leaf) ∧ (nodes [exTree, node leaf 9 0 leaf]).Nodup := ⟨by
  simp only [Holds, and_true]
  decide, by decide⟩

example : Sums (fun a x y => a ^^^ x ^^^ y) 0 exHeap exTree := by
  simp only [Sums, exTree, true_and]
  decide

/-- what is in memory: parent and children of each node -/
def look (h : Heap Nat Nat) (l : List Nat) : List (List (Option Nat)) :=
  l.map fun x => [h.par x, h.ed x false, h.ed x true, some (h.sm x)]

-- parent and child
example : (bundleSwap (fun a x y => a ^^^ x ^^^ y) 0 7 3 5 (some 3) exHeap).map (fun r => (look r.1 [2, 3, 4, 5, 6], r.2)) =
    some ([[some 5, some 1, none, some 3], [some 5, some 4, some 6, some 6], [some 3, none, none, some 4], [none, some 2, some 3, some 0],
      [some 3, none, some 7, some 1]], some 5) := by decide
-- siblings
example : (bundleSwap (fun a x y => a ^^^ x ^^^ y) 0 7 4 6 (some 3) exHeap).map (fun r => (look r.1 [4, 5, 6, 7], r.2)) =
    some ([[some 5, none, some 7, some 3], [some 3, some 6, some 4, some 0], [some 5, none, none, some 6], [some 4, none, none, some 7]], some 3) := by
  decide
-- replacement of the root by a new node
example : (swapRoot 3 9 (some 3) exHeap).map (fun r => (look r.1 [2, 3, 5, 9], r.2)) =
    some ([[some 9, some 1, none, some 3], [none, none, none, some 0], [some 9, some 4, some 6, some 0], [none, some 2, some 5, some 9]], some 9) := by
  decide

end Hob3l.Swap
