import Verif.Ring.Lemmas

/-
C38: circular lists.
-/

namespace Hob3l.Ring

/-- a state for the examples: the rings 1 2 3, 4 5, and single nodes -/
def ex : St where
  nxt := fun x => if x = 1 then 2 else if x = 2 then 3 else if x = 3 then 1 else if x = 4 then 5 else if x = 5 then 4 else x
  prv := fun x => if x = 1 then 3 else if x = 2 then 1 else if x = 3 then 2 else if x = 4 then 5 else if x = 5 then 4 else x

example : IsRing ex [1, 2, 3] ∧ IsRing ex [4, 5] ∧ IsRing ex [7] := by
  simp [IsRing, Link, ex]

/-- A ring is independent of where one starts. -/
theorem C38_rotate {s : St} {A B : List Nat} : IsRing s (A ++ B) ↔ IsRing s (B ++ A) := ⟨ring_rot, ring_rot⟩

/-- An initialised node is a ring of its own. -/
theorem C38_init (s : St) (x : Nat) :
    IsRing (init s x) [x] ∧ (∀ L, IsRing s L → x ∉ L → IsRing (init s x) L) := by
  refine ⟨by simp [IsRing, Link, init, setNxt, setPrv], ?_⟩
  intro L h hx
  have hl : ∀ a ∈ L, ∀ b ∈ L, Link s a b → Link (init s x) a b := by
    intro a ha b hb hl
    have h1 : a ≠ x := fun h => hx (h ▸ ha)
    have h2 : b ≠ x := fun h => hx (h ▸ hb)
    simp only [Link, init, setNxt, setPrv, if_neg h1, if_neg h2]
    exact hl
  refine ⟨h.1, h.2.1, isChain_mono h.2.2.1 h.2.1 (fun a ha b hb _ _ => hl a ha b hb), ?_⟩
  intro a ha b hb
  exact hl a (List.mem_of_getLast? ha) b (List.mem_of_head? hb) (h.2.2.2 a ha b hb)

/-- the node before a node of a ring is in the ring, and so is the one after it -/
theorem ring_closed {s : St} {L : List Nat} (h : IsRing s L) {x : Nat} (hx : x ∈ L) : s.nxt x ∈ L ∧ s.prv x ∈ L := by
  obtain ⟨A, B, rfl⟩ := List.append_of_mem hx
  have h' := ring_rot h
  have hm : ∀ y, y ∈ x :: B ++ A → y ∈ A ++ x :: B := by
    intro y hy
    simp only [List.mem_append, List.mem_cons] at *
    tauto
  rw [List.cons_append] at h' hm
  generalize B ++ A = C at *
  constructor
  · apply hm
    cases C with
    | nil => rw [(ring_single h').1]; simp
    | cons d C => rw [(ring_nxt_head h').1]; simp
  · apply hm
    obtain ⟨a, ha⟩ := Option.isSome_iff_exists.1 (show ((x :: C).getLast?).isSome by simp)
    rw [(ring_last h' ha).2]
    exact List.mem_of_getLast? ha

/-- Rings that contain neither node are not affected. -/
theorem C38_frame {s : St} {p n : Nat} {L : List Nat} (h : IsRing s L) (hp : p ∉ L) (hn : n ∉ L)
    (hinv : s.prv (s.nxt p) = p ∧ s.nxt (s.prv n) = n) : IsRing (chain s p n) L := by
  have h1 : s.nxt p ∉ L := fun hc => hp (by have := (ring_closed h hc).2; rwa [hinv.1] at this)
  have h2 : s.prv n ∉ L := fun hc => hn (by have := (ring_closed h hc).1; rwa [hinv.2] at this)
  have hl : ∀ a ∈ L, ∀ b ∈ L, Link s a b → Link (chain s p n) a b := by
    intro a ha b hb hl
    exact link_keep hl (fun hc => h2 (hc ▸ ha)) (fun hc => hp (hc ▸ ha)) (fun hc => h1 (hc ▸ hb)) (fun hc => hn (hc ▸ hb))
  refine ⟨h.1, h.2.1, isChain_mono h.2.2.1 h.2.1 (fun a ha b hb _ _ => hl a ha b hb), ?_⟩
  intro a ha b hb
  exact hl a (List.mem_of_getLast? ha) b (List.mem_of_head? hb) (h.2.2.2 a ha b hb)

example : IsRing (chain ex 1 3) [4, 5] :=
  C38_frame (s := ex) (p := 1) (n := 3) (by simp [IsRing, Link, ex]) (by simp) (by simp) (by simp [ex])

/-- The links of all nodes stay inverse to each other. -/
theorem C38_inverse {s : St} (h : Inverse s) (p n : Nat) : Inverse (chain s p n) := by
  intro x
  have hp := h p
  have hn := h n
  have hx := h x
  have inj1 : ∀ a b, s.nxt a = s.nxt b → a = b := fun a b e => by rw [← (h a).1, e, (h b).1]
  have inj2 : ∀ a b, s.prv a = s.prv b → a = b := fun a b e => by rw [← (h a).2, e, (h b).2]
  constructor
  · rw [chain_nxt]
    by_cases h1 : x = s.prv n
    · rw [if_pos h1, chain_prv, if_pos rfl, h1]
    · rw [if_neg h1]
      by_cases h2 : x = p
      · rw [if_pos h2, chain_prv]
        by_cases h3 : n = s.nxt p
        · exact absurd (by rw [h3, hp.1]; exact h2) h1
        · rw [if_neg h3, if_pos rfl, h2]
      · rw [if_neg h2, chain_prv, if_neg (fun e => h2 (inj1 _ _ e)), if_neg (fun e => h1 (by rw [← e, hx.1])), hx.1]
  · rw [chain_prv]
    by_cases h1 : x = s.nxt p
    · rw [if_pos h1, chain_nxt, if_pos rfl, h1]
    · rw [if_neg h1]
      by_cases h2 : x = n
      · rw [if_pos h2, chain_nxt]
        by_cases h3 : p = s.prv n
        · exact absurd (by rw [h3, hn.2]; exact h2) h1
        · rw [if_neg h3, if_pos rfl, h2]
      · rw [if_neg h2, chain_nxt, if_neg (fun e => h2 (inj2 _ _ e)), if_neg (fun e => h1 (by rw [← e, hx.2])), hx.2]

example : Inverse ex := by
  intro x
  simp only [ex]
  constructor <;> split_ifs <;> omega

/-- Nodes of different rings: the rings are joined, the ring of `n`, starting with `n`, is inserted behind `p`. -/
theorem C38_join {s : St} {p n : Nat} {P N : List Nat} (h1 : IsRing s (p :: P)) (h2 : IsRing s (n :: N))
    (hd : (p :: P).Disjoint (n :: N)) : IsRing (chain s p n) (p :: n :: (N ++ P)) := by
  obtain ⟨np, hnp⟩ := Option.isSome_iff_exists.1 (show ((n :: N).getLast?).isSome by simp)
  have enp : s.prv n = np := (ring_last h2 hnp).2
  have mnp : np ∈ n :: N := List.mem_of_getLast? hnp
  have hpn : s.nxt p ∈ p :: P := (ring_closed h1 (by simp)).1
  have hnd : (p :: n :: (N ++ P)).Nodup := by
    have : ((n :: N) ++ (p :: P)).Nodup :=
      List.nodup_append'.2 ⟨h2.2.1, h1.2.1, fun a ha hb => hd hb ha⟩
    refine (List.Perm.nodup_iff ?_).1 this
    exact List.perm_middle
  have hpN : p ∉ n :: N := fun h => hd (by simp) h
  -- the segment of the second ring
  have c2 : (n :: N).IsChain (Link (chain s p n)) := by
    refine isChain_mono h2.2.2.1 h2.2.1 ?_
    intro x hx y hy hl hh hlk
    refine link_keep hlk ?_ ?_ ?_ ?_
    · rw [enp]; intro e; exact hl (e ▸ hnp)
    · intro e; exact hpN (e ▸ hx)
    · intro e; exact hd hpn (e ▸ hy)
    · intro e; exact hh (by rw [e]; rfl)
  -- the rest of the first ring
  have c1 : P.IsChain (Link (chain s p n)) := by
    have hP : P.IsChain (Link s) := h1.2.2.1.tail
    refine isChain_mono hP (List.nodup_cons.1 h1.2.1).2 ?_
    intro x hx y hy hl hh hlk
    refine link_keep hlk ?_ ?_ ?_ ?_
    · rw [enp]; intro e; exact hd (List.mem_cons_of_mem _ hx) (e ▸ mnp)
    · intro e; exact (List.nodup_cons.1 h1.2.1).1 (e ▸ hx)
    · intro e
      cases P with
      | nil => simp at hx
      | cons d P => exact hh (by rw [e, (ring_nxt_head h1).1]; rfl)
    · intro e; exact hd (List.mem_cons_of_mem _ hy) (by rw [e]; simp)
  have lpn : Link (chain s p n) p n :=
    link_new (fun e => hpN (by rw [e, enp]; exact mnp)) (fun e => hd hpn (by rw [← e]; simp))
  refine ⟨by simp, hnd, ?_, ?_⟩
  · rw [List.isChain_cons_cons]
    refine ⟨lpn, ?_⟩
    rw [← List.cons_append, List.isChain_append]
    refine ⟨c2, c1, ?_⟩
    intro x hx y hy
    rw [hnp] at hx
    cases P with
    | nil => simp at hy
    | cons d P =>
      simp only [List.head?_cons, Option.mem_def, Option.some.injEq] at hx hy
      subst hx hy
      have := link_rest (s := s) (p := p) (n := n)
      rwa [enp, (ring_nxt_head h1).1] at this
  · intro x hx y hy
    simp only [List.head?_cons, Option.mem_def, Option.some.injEq] at hy
    subst hy
    cases P with
    | nil =>
      rw [List.append_nil] at hx
      rw [show (p :: n :: N).getLast? = (n :: N).getLast? from List.getLast?_cons_cons, hnp] at hx
      simp only [Option.mem_def, Option.some.injEq] at hx
      subst hx
      have := link_rest (s := s) (p := p) (n := n)
      rwa [enp, (ring_single h1).1] at this
    | cons d P =>
      have e : (p :: n :: (N ++ d :: P)).getLast? = (p :: d :: P).getLast? := by
        rw [show p :: n :: (N ++ d :: P) = (p :: n :: N) ++ d :: P by simp,
          List.getLast?_append_of_ne_nil _ (by simp), List.getLast?_cons_cons]
      rw [e] at hx
      have hlk := ring_last h1 hx
      have hxm : x ∈ p :: d :: P := List.mem_of_getLast? hx
      refine link_keep hlk ?_ ?_ ?_ ?_
      · rw [enp]; intro e; exact hd hxm (e ▸ mnp)
      · intro e
        rw [List.getLast?_cons_cons] at hx
        exact (List.nodup_cons.1 h1.2.1).1 (e ▸ List.mem_of_getLast? hx)
      · rw [(ring_nxt_head h1).1]
        intro e
        exact (List.nodup_cons.1 h1.2.1).1 (by rw [e]; simp)
      · intro e; exact hd (show p ∈ p :: d :: P by simp) (by rw [e]; simp)

example : IsRing (chain ex 1 4) [1, 4, 5, 2, 3] := by
  simp [IsRing, Link, ex, chain, setNxt, setPrv]

/-- Different nodes of the same ring: the nodes between them are cut out and form a ring of their own (if there are none,
nothing changes). -/
theorem C38_split {s : St} {p n : Nat} {A B : List Nat} (h : IsRing s (p :: A ++ n :: B)) :
    IsRing (chain s p n) (p :: n :: B) ∧ (A ≠ [] → IsRing (chain s p n) A) := by
  have hnd := h.2.1
  have hd : (p :: A).Disjoint (n :: B) := (List.nodup_append'.1 hnd).2.2
  have hch := h.2.2.1
  rw [List.isChain_append] at hch
  have hndB : (n :: B).Nodup := (List.nodup_append'.1 hnd).2.1
  have hndA : (p :: A).Nodup := (List.nodup_append'.1 hnd).1
  obtain ⟨z, hz⟩ := Option.isSome_iff_exists.1 (show ((n :: B).getLast?).isSome by simp)
  have lz : Link s z p := h.2.2.2 z (by rw [List.getLast?_append_of_ne_nil _ (by simp)]; exact hz) p rfl
  have mz : z ∈ n :: B := List.mem_of_getLast? hz
  have hpB : p ∉ n :: B := fun hc => hd (by simp) hc
  cases A with
  | nil =>
    have lpn : Link s p n := ring_nxt_head (by simpa using h)
    have keep : ∀ x y, Link s x y → Link (chain s p n) x y := by
      intro x y hl
      refine ⟨?_, ?_⟩
      · rw [chain_nxt, lpn.2, lpn.1]
        by_cases hx : x = p
        · rw [if_pos hx, ← lpn.1, ← hx]; exact hl.1
        · rw [if_neg hx, if_neg hx]; exact hl.1
      · rw [chain_prv, lpn.2, lpn.1]
        by_cases hy : y = n
        · rw [if_pos hy, ← lpn.2, ← hy]; exact hl.2
        · rw [if_neg hy, if_neg hy]; exact hl.2
    refine ⟨?_, fun hc => absurd rfl hc⟩
    have h' : IsRing s (p :: n :: B) := by simpa using h
    refine ⟨h'.1, h'.2.1, ?_, ?_⟩
    · exact isChain_mono h'.2.2.1 h'.2.1 (fun x _ y _ _ _ => keep x y)
    · intro x hx y hy; exact keep _ _ (h'.2.2.2 x hx y hy)
  | cons d A =>
    obtain ⟨a, ha⟩ := Option.isSome_iff_exists.1 (show ((d :: A).getLast?).isSome by simp)
    have ma : a ∈ d :: A := List.mem_of_getLast? ha
    have lpd : Link s p d := by
      have := hch.1
      rw [List.isChain_cons_cons] at this
      exact this.1
    have lan : Link s a n := hch.2.2 a (by rw [List.getLast?_cons_cons]; exact ha) n rfl
    have hpA : p ∉ d :: A := (List.nodup_cons.1 hndA).1
    have hnA : n ∉ d :: A := fun hc => hd (List.mem_cons_of_mem _ hc) (by simp)
    have lpn : Link (chain s p n) p n := by
      refine link_new ?_ ?_
      · rw [lan.2]; intro e; exact hpA (e ▸ ma)
      · rw [lpd.1]; intro e; exact hnA (by rw [e]; simp)
    have hBA : ∀ x, x ∈ n :: B → x ∉ d :: A := fun x hx hc => hd (List.mem_cons_of_mem _ hc) hx
    constructor
    · refine ⟨by simp, List.nodup_cons.2 ⟨hpB, hndB⟩, ?_, ?_⟩
      · rw [List.isChain_cons_cons]
        refine ⟨lpn, isChain_mono hch.2.1 hndB ?_⟩
        intro x hx y hy hl hh hlk
        refine link_keep hlk ?_ ?_ ?_ ?_
        · rw [lan.2]; intro e; exact hBA x hx (e ▸ ma)
        · intro e; exact hpB (e ▸ hx)
        · rw [lpd.1]; intro e; exact hBA y hy (by rw [e]; simp)
        · intro e; exact hh (by rw [e]; rfl)
      · intro x hx y hy
        simp only [List.head?_cons, Option.mem_def, Option.some.injEq] at hy
        subst hy
        rw [List.getLast?_cons_cons, hz] at hx
        simp only [Option.mem_def, Option.some.injEq] at hx
        subst hx
        refine link_keep lz ?_ ?_ ?_ ?_
        · rw [lan.2]; intro e; exact hBA z mz (e ▸ ma)
        · intro e; exact hpB (e ▸ mz)
        · rw [lpd.1]; intro e; exact hpA (by rw [e]; simp)
        · intro e; exact hpB (by rw [e]; simp)
    · intro _
      have hndA' := (List.nodup_cons.1 hndA).2
      refine ⟨by simp, hndA', isChain_mono hch.1.tail hndA' ?_, ?_⟩
      · intro x hx y hy hl hh hlk
        refine link_keep hlk ?_ ?_ ?_ ?_
        · rw [lan.2]; intro e; exact hl (e ▸ ha)
        · intro e; exact hpA (e ▸ hx)
        · rw [lpd.1]; intro e; exact hh (by rw [e]; rfl)
        · intro e; exact hnA (e ▸ hy)
      · intro x hx y hy
        rw [ha] at hx
        simp only [List.head?_cons, Option.mem_def, Option.some.injEq] at hx hy
        subst hx hy
        have := link_rest (s := s) (p := p) (n := n)
        rwa [lan.2, lpd.1] at this

example : IsRing (chain ex 1 3) [1, 3] ∧ IsRing (chain ex 1 3) [2] := by
  simp [IsRing, Link, ex, chain, setNxt, setPrv]

/-- Removing a node isolates it; the other nodes stay a ring, in the same order. -/
theorem C38_remove {s : St} {q : Nat} {Q : List Nat} (h : IsRing s (q :: Q)) :
    IsRing (remove s q) [q] ∧ (Q ≠ [] → IsRing (remove s q) Q) := by
  unfold remove
  cases Q with
  | nil =>
    refine ⟨?_, fun hc => absurd rfl hc⟩
    have l := ring_single h
    refine ⟨by simp, by simp, by simp, ?_⟩
    intro x hx y hy
    simp only [List.getLast?_singleton, List.head?_cons, Option.mem_def, Option.some.injEq] at hx hy
    subst hx hy
    have := link_rest (s := s) (p := q) (n := q)
    rwa [l.1, l.2] at this
  | cons d Q =>
    have hnd := List.nodup_cons.1 h.2.1
    obtain ⟨a, ha⟩ := Option.isSome_iff_exists.1 (show ((d :: Q).getLast?).isSome by simp)
    have ma : a ∈ d :: Q := List.mem_of_getLast? ha
    have lqd : Link s q d := ring_nxt_head h
    have laq : Link s a q := ring_last h (by rw [List.getLast?_cons_cons]; exact ha)
    constructor
    · refine ⟨by simp, by simp, by simp, ?_⟩
      intro x hx y hy
      simp only [List.getLast?_singleton, List.head?_cons, Option.mem_def, Option.some.injEq] at hx hy
      subst hx hy
      refine link_new ?_ ?_
      · rw [laq.2]; intro e; exact hnd.1 (e ▸ ma)
      · rw [lqd.1]; intro e; exact hnd.1 (by rw [e]; simp)
    · intro _
      refine ⟨by simp, hnd.2, isChain_mono h.2.2.1.tail hnd.2 ?_, ?_⟩
      · intro x hx y hy hl hh hlk
        refine link_keep hlk ?_ ?_ ?_ ?_
        · rw [laq.2]; intro e; exact hl (e ▸ ha)
        · intro e; exact hnd.1 (e ▸ hx)
        · rw [lqd.1]; intro e; exact hh (by rw [e]; rfl)
        · intro e; exact hnd.1 (e ▸ hy)
      · intro x hx y hy
        rw [ha] at hx
        simp only [List.head?_cons, Option.mem_def, Option.some.injEq] at hx hy
        subst hx hy
        have := link_rest (s := s) (p := q) (n := q)
        rwa [laq.2, lqd.1] at this

example : IsRing (remove ex 1) [1] ∧ IsRing (remove ex 1) [2, 3] := by
  simp [IsRing, Link, ex, remove, chain, setNxt, setPrv]

/-- A node is a member iff its ring has other nodes. -/
theorem C38_is_member {s : St} {q : Nat} {Q : List Nat} (h : IsRing s (q :: Q)) : isMember s q = true ↔ Q ≠ [] := by
  cases Q with
  | nil => simp [isMember, (ring_single h).1]
  | cons d Q =>
    have hnd := List.nodup_cons.1 h.2.1
    simp only [isMember, (ring_nxt_head h).1, bne_iff_ne, ne_eq, reduceCtorEq, not_false_eq_true, iff_true]
    intro e
    exact hnd.1 (by rw [e]; simp)

theorem eachLoop_ok {s : St} {n : Nat} :
    ∀ (P : List Nat) (k : Nat) (i : Nat), P.length < k → n ∉ P → P.IsChain (Link s) →
      (∀ x ∈ P.getLast?, s.nxt x = n) → (∀ x ∈ P.head?, i = x) → (P = [] → i = n) → eachLoop s n k i = some P := by
  intro P
  induction P with
  | nil =>
    intro k i hk _ _ _ _ hi
    cases k with
    | zero => simp at hk
    | succ k => simp [eachLoop, hi rfl]
  | cons x P ih =>
    intro k i hk hn hc hl hh _
    cases k with
    | zero => simp at hk
    | succ k =>
      have hi := hh x rfl
      subst hi
      have hin : i ≠ n := fun e => hn (by rw [e]; simp)
      rw [eachLoop, if_neg hin, ih k (s.nxt i) (by simpa using hk) (fun hc => hn (by simp [hc])) hc.tail]
      · rfl
      · intro x hx
        cases P with
        | nil => simp at hx
        | cons d P => exact hl x (by rw [List.getLast?_cons_cons]; exact hx)
      · intro x hx
        cases P with
        | nil => simp at hx
        | cons d P =>
          simp only [List.head?_cons, Option.mem_def, Option.some.injEq] at hx
          subst hx
          rw [List.isChain_cons_cons] at hc
          exact hc.1.1
      · intro hP
        subst hP
        exact hl i rfl

/-- Iteration visits the other nodes of the ring, each once, in order. -/
theorem C38_each {s : St} {n : Nat} {P : List Nat} (h : IsRing s (n :: P)) {k : Nat} (hk : P.length < k) :
    each s n k = some P := by
  refine eachLoop_ok P k _ hk (List.nodup_cons.1 h.2.1).1 h.2.2.1.tail ?_ ?_ ?_
  · intro x hx
    cases P with
    | nil => simp at hx
    | cons d P => exact (ring_last h (by rw [List.getLast?_cons_cons]; exact hx)).1
  · intro x hx
    cases P with
    | nil => simp at hx
    | cons d P =>
      simp only [List.head?_cons, Option.mem_def, Option.some.injEq] at hx
      subst hx
      exact (ring_nxt_head h).1
  · intro hP
    subst hP
    exact (ring_single h).1

example : each ex 2 3 = some [3, 1] := by decide

/-- exchanging the directions -/
def flip (s : St) : St := ⟨s.prv, s.nxt⟩

theorem ring_flip {s : St} {n : Nat} {P : List Nat} (h : IsRing s (n :: P)) : IsRing (flip s) (n :: P.reverse) := by
  have hL : ∀ x y, Link s x y ↔ Link (flip s) y x := fun x y => ⟨fun h => ⟨h.2, h.1⟩, fun h => ⟨h.2, h.1⟩⟩
  have hr : IsRing (flip s) ((n :: P).reverse) := by
    refine ⟨by simp, List.nodup_reverse.2 h.2.1, ?_, ?_⟩
    · rw [List.isChain_reverse]
      exact isChain_mono h.2.2.1 h.2.1 (fun x _ y _ _ _ hl => (hL x y).1 hl)
    · intro x hx y hy
      rw [List.getLast?_reverse] at hx
      rw [List.head?_reverse] at hy
      exact (hL y x).1 (h.2.2.2 y hy x hx)
  rw [List.reverse_cons] at hr
  exact ring_rot hr

theorem eachRev_flip (s : St) (n k i : Nat) : eachRevLoop s n k i = eachLoop (flip s) n k i := by
  induction k generalizing i with
  | zero => rfl
  | succ k ih => simp only [eachRevLoop, eachLoop, ih]; rfl

/-- Reverse iteration visits the other nodes in reverse order. -/
theorem C38_each_rev {s : St} {n : Nat} {P : List Nat} (h : IsRing s (n :: P)) {k : Nat} (hk : P.length < k) :
    eachRev s n k = some P.reverse := by
  rw [eachRev, eachRev_flip]
  exact C38_each (ring_flip h) (by simpa using hk)

example : eachRev ex 2 3 = some [1, 3] := by decide

end Hob3l.Ring
